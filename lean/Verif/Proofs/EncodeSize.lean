import Verif.Proofs.EncodeCycle

/-! Helper lemmas: the number of bytes the encoder writes. -/

namespace V8
open Spec

/-! ## An object and what is in it -/

theorem sum_map_le {α : Type} {f g : α → Nat} : ∀ {l : List α}, (∀ a ∈ l, f a ≤ g a) → (l.map f).sum ≤ (l.map g).sum
  | [], _ => le_refl _
  | a :: t, h => by
    simp only [List.map_cons, List.sum_cons]
    have := h a (by simp)
    have := sum_map_le (l := t) fun b hb => h b (by simp [hb])
    omega

/-- The elements of a dense array: the values it holds and a byte for each hole. -/
theorem sum_elems (f : Val → Nat) (hf : f .hole = 1) : ∀ (l : List (Option Val)),
    ((l.map elemVal).map f).sum + usedCount l = ((l.filterMap id).map f).sum + l.length
  | [] => rfl
  | none :: t => by
    have := sum_elems f hf t
    simp only [List.map_cons, List.sum_cons, elemVal, usedCount, List.filterMap_cons, id, List.length_cons, hf] at *
    simp only [List.countP_cons] at *
    simp at *
    omega
  | some v :: t => by
    have := sum_elems f hf t
    simp only [List.map_cons, List.sum_cons, elemVal, usedCount, List.filterMap_cons, id, List.length_cons] at *
    simp only [List.countP_cons] at *
    simp at *
    omega

theorem itemsOf_values (l : List (Option Val)) : (itemsOf l).map (·.2) = l.filterMap id := by
  unfold itemsOf
  rw [List.map_filterMap]
  have : ∀ k, Option.map (fun x : Nat × Val => x.2) (Option.map (fun v => (k, v)) (l[k]?).join) = (l[k]?).join := by
    intro k; cases (l[k]?).join <;> rfl
  simp only [this]
  have h : ∀ (l : List (Option Val)) (s : Nat) (m : List (Option Val)), (∀ k, m[s + k]? = l[k]?) →
      (List.range' s l.length).filterMap (fun k => (m[k]?).join) = l.filterMap id := by
    intro l
    induction l with
    | nil => intro s m _; rfl
    | cons a t ih =>
      intro s m hm
      simp only [List.length_cons, List.range'_succ, List.filterMap_cons]
      have h0 : m[s]? = some a := by have := hm 0; simpa using this
      rw [h0]
      have := ih (s + 1) m (fun k => by have := hm (k + 1); rw [show s + 1 + k = s + (k + 1) by omega, this]; rfl)
      rw [this]
      cases a <;> rfl
  have := h l 0 l (fun k => by simp)
  rw [List.range_eq_range']
  exact this

theorem itemsOf_length (l : List (Option Val)) : (itemsOf l).length = usedCount l := by
  have h := congrArg List.length (itemsOf_values l)
  rw [List.length_map] at h
  rw [h]
  clear h
  induction l with
  | nil => rfl
  | cons a t ih => cases a <;> simp [usedCount, List.countP_cons] at * <;> omega

theorem pairCalls_sum (f : Val → Nat) : ∀ l : List (Val × Val),
    ((pairCalls l).map f).sum = (l.map (fun e => f e.1)).sum + (l.map (fun e => f e.2)).sum
  | [] => rfl
  | (k, v) :: t => by
    have := pairCalls_sum f t
    simp only [pairCalls, List.flatMap_cons, List.map_append, List.sum_append, List.map_cons, List.sum_cons, List.map_nil,
      List.sum_nil] at *
    omega

theorem mention_key (h : Heap) (r : Nat) (k : PKey) : mentionSize h r k.toVal = scalarSize k.toVal := by cases k <;> rfl

/-- What is written for an object and the values in it is covered by its size. -/
theorem calls_size {env : EEnv} (ht : WellTyped env) {i : Id} {n : Node} (hi : env.heap[i]? = some n) (r : Nat) :
    frameBytes n + ((calls n).map (mentionSize env.heap r)).sum ≤ objectSize env.heap r (.obj i) := by
  have props : ∀ o : JSObj Val, ((pairCalls (itemVals o.items)).map (mentionSize env.heap r)).sum =
      keysSize o.items + ((o.items.map (·.2)).map (mentionSize env.heap r)).sum := by
    intro o
    rw [pairCalls_sum]
    simp only [itemVals, List.map_map, keysSize]
    congr 2
    refine List.map_congr_left fun e _ => ?_
    exact mention_key _ _ _
  have hs : objectSize env.heap r (.obj i) = frameSize n + ((members n).map (mentionSize env.heap r)).sum := by
    simp only [objectSize, hi]
  rw [hs]
  cases n with
  | jsobj o =>
    have := props o
    simp only [calls, frameBytes, frameSize, members]
    omega
  | jsarr o =>
    have hinv := ht.objects i o (Or.inr hi)
    simp only [calls, frameBytes, frameSize, members]
    split
    · have := props o
      omega
    · rename_i hsp
      have hsp' : ¬ ((o.array.used : Int) * (if o.array.len < 2 ^ 14 then 3 else 4) < o.array.len - o.array.used) := by
        intro h; exact hsp (by simpa [sparseIsSmaller] using h)
      have hu := Arr.used_eq hinv.arr
      have hl : o.array.len = o.array.abs.length := Arr.len_eq hinv.arr
      have ht' := Arr.toList_eq hinv.arr
      have hbound : o.array.abs.length ≤ 5 * usedCount o.array.abs := by
        rw [hu, hl] at hsp'
        split at hsp' <;> omega
      have hitems := JSObj.items_eq hinv
      have hlen : o.items.length = usedCount o.array.abs + o.props.length := by
        rw [hitems]; simp [itemsOf_length]
      have hel := sum_elems (mentionSize env.heap r) rfl o.array.abs
      have hkeys : ((propVals o.props).map (fun e => mentionSize env.heap r e.1)).sum ≤ keysSize o.items := by
        rw [hitems]
        simp only [keysSize, List.map_append, List.sum_append, List.map_map, propVals]
        refine le_trans (le_of_eq ?_) (Nat.le_add_left _ _)
        rfl
      have hvals : ((o.items.map (·.2)).map (mentionSize env.heap r)).sum =
          ((o.array.abs.filterMap id).map (mentionSize env.heap r)).sum +
          ((propVals o.props).map (fun e => mentionSize env.heap r e.2)).sum := by
        rw [hitems, ← itemsOf_values]
        simp only [List.map_append, List.sum_append, List.map_map, propVals]
        rfl
      rw [ht', List.map_append, List.sum_append, pairCalls_sum, hvals]
      omega
  | _ => exact le_refl _

/-! ## The run -/

/-- The sizes of what is recorded. -/
def loggedSize (h : Heap) (r : Nat) (log : ObjLog) : Nat := ((Dict.keys log.ids).map (objectSize h r)).sum

/-- References to what is recorded take at most `r` bytes. -/
def RefCost (r : Nat) (ws : WS) : Prop := ∀ n, n < ws.log.slots.length → 1 + (writeVarint n).length ≤ r

/-- RegExp and Error without cause stand only for equal ones. -/
def Faithful (env : EEnv) : Prop :=
  ∀ i j, Interchangeable env i j → IsUnlogged env (.obj i) → env.heap[j]? = env.heap[i]?

/-- What holds of the states of the encoder. -/
structure SizeInv (env : EEnv) (ws : WS) : Prop where
  rep : RepInv env ws
  ids : IdsOK ws
  objs : ∀ u, ws.log.contains u = true → IsObj u ∧ ¬ IsUnlogged env u
  nodup : (Dict.keys ws.log.ids).Nodup

theorem loggedSize_set {h : Heap} {r : Nat} {a b : ObjLog} {x : Val} {n : Nat} (hx : a.contains x = false)
    (hb : b.ids = Dict.set a.ids x n) : loggedSize h r b = loggedSize h r a + objectSize h r x := by
  have hk : x ∉ Dict.keys a.ids := by
    rw [← Dict.get_eq_none_iff]; exact get_none_of_not_contains hx
  unfold loggedSize
  rw [hb, Dict.keys_set_of_not_mem _ _ _ hk]
  simp

theorem contains_set_iff {a b : ObjLog} {x u : Val} {n : Nat} (hb : b.ids = Dict.set a.ids x n) (hu : b.contains u = true) :
    u = x ∨ a.contains u = true := by
  unfold ObjLog.contains at *
  rw [hb, Dict.get_set] at hu
  split at hu
  · left; symm; assumption
  · exact Or.inr hu

def SizeRec (env : EEnv) (r : Nat) (rec : Val → Wr) : Prop :=
  ∀ v ws ws', SizeInv env ws → RefCost r ws' → rec v ws = .ok ws' →
    ws'.data.length + loggedSize env.heap r ws.log ≤ ws.data.length + loggedSize env.heap r ws'.log + mentionSize env.heap r v ∧
    (Dict.keys ws'.log.ids).Nodup ∧
    ∀ u, ws'.log.contains u = true → ws.log.contains u = true ∨ (IsObj v ∧ IsObj u ∧ Reaches env v u)

theorem contains_get {l : ObjLog} {u : Val} (h : l.contains u = true) : ∃ n, Dict.get l.ids u = some n := by
  unfold ObjLog.contains at h
  exact Option.isSome_iff_exists.mp h

theorem SizeInv.step {env : EEnv} {a b : WS} (h : SizeInv env a) (hr : RepInv env b) (hv : Visits env a b)
    (hd : (Dict.keys b.log.ids).Nodup) (hu : ∀ u, b.log.contains u = true → a.log.contains u = true ∨ IsObj u) : SizeInv env b := by
  refine ⟨hr, hv.idsOK h.ids, fun u hc => ?_, hd⟩
  obtain ⟨n, hn⟩ := contains_get hc
  rcases hv.fresh u n hn with h1 | h1
  · exact h.objs u (by unfold ObjLog.contains; rw [h1]; rfl)
  · refine ⟨?_, h1.2.2⟩
    rcases hu u hc with h2 | h2
    · exact (h.objs u h2).1
    · exact h2

theorem Quiet.sizeInv {env : EEnv} {n : Nat} {a b : WS} (hq : Quiet n a b) (h : SizeInv env a) : SizeInv env b :=
  h.step (hq.repInv h.rep) (hq.visits h.ids) (by rw [hq.1]; exact h.nodup) fun u hu => Or.inl (by rw [hq.1] at hu; exact hu)

theorem RefCost.mono {env : EEnv} {r : Nat} {a b : WS} (h : RefCost r b) (hv : Visits env a b) : RefCost r a :=
  fun n hn => h n (lt_of_lt_of_le hn hv.len)

theorem Walks.size {env : EEnv} {r : Nat} {rec : Val → Wr} (hvis : VisitsRec env rec) (hrec : SizeRec env r rec) {cs : List Val}
    {n : Nat} {a b : WS} (h : Walks rec cs n a b) : SizeInv env a → RefCost r b →
    b.data.length + loggedSize env.heap r a.log ≤
      a.data.length + loggedSize env.heap r b.log + n + (cs.map (mentionSize env.heap r)).sum ∧
    (Dict.keys b.log.ids).Nodup ∧
    ∀ u, b.log.contains u = true → a.log.contains u = true ∨ ∃ c ∈ cs, IsObj c ∧ IsObj u ∧ Reaches env c u := by
  induction h with
  | @done n a b h =>
    intro hi hr
    refine ⟨?_, by rw [h.1]; exact hi.nodup, fun u hu => Or.inl (by rw [h.1] at hu; exact hu)⟩
    rw [h.1]
    have := h.2.2.1
    simp only [List.map_nil, List.sum_nil]
    omega
  | @call c cs n m a b d e h hc ht ih =>
    intro hi hr
    have hib : SizeInv env b := h.sizeInv hi
    obtain ⟨g1, g2, _⟩ := hvis c b d hib.rep hib.ids hc
    obtain ⟨_, g4, _⟩ := ht.visits hvis g1 (g2.idsOK hib.ids)
    obtain ⟨s1, s0, s2⟩ := hrec c b d hib (hr.mono g4) hc
    have hid : SizeInv env d := hib.step g1 g2 s0 fun u hu => (s2 u hu).imp id fun h => h.2.1
    obtain ⟨s3, s5, s4⟩ := ih hid hr
    refine ⟨?_, s5, fun u hu => ?_⟩
    · have e := h.1
      have := h.2.2.1
      rw [e] at s1
      simp only [List.map_cons, List.sum_cons]
      omega
    · rcases s4 u hu with h1 | ⟨c', h1, h2⟩
      · rcases s2 u h1 with h3 | h3
        · rw [h.1] at h3; exact Or.inl h3
        · exact Or.inr ⟨c, by simp, h3⟩
      · exact Or.inr ⟨c', by simp [h1], h2⟩

/-- The bytes for an object that is recorded. -/
theorem NodeRun.size {env : EEnv} {r : Nat} {rec : Val → Wr} (hvis : VisitsRec env rec) (hrec : SizeRec env r rec) {ac : Mode}
    {x : Val} {cs : List Val} {N : Nat} {a b : WS} (h : NodeRun rec ac x cs N a b) (hi : SizeInv env a) (hx : IsRep env x a)
    (ho : IsObj x) (hun : ¬ IsUnlogged env x) (hc : a.log.contains x = false) (hr : RefCost r b)
    (hN : N + (cs.map (mentionSize env.heap r)).sum ≤ objectSize env.heap r x)
    (hlast : ∀ n w, ac = .last → Walks rec cs n a w → w.log.contains x = false ∨ b.log ≠ (w.log.record x).1) :
    b.data.length + loggedSize env.heap r a.log ≤ a.data.length + loggedSize env.heap r b.log ∧
    (Dict.keys b.log.ids).Nodup ∧
    ∀ u, b.log.contains u = true → a.log.contains u = true ∨ u = x ∨ ∃ c ∈ cs, IsObj c ∧ IsObj u ∧ Reaches env c u := by
  have recInv : ∀ {w : WS}, w.log.ids = Dict.set a.log.ids x a.log.slots.length → w.memo = a.memo →
      w.log.slots.length = a.log.slots.length + 1 → SizeInv env w := by
    intro w hids hm hlen
    refine ⟨hi.rep.record hx hids hm, ?_, ?_, by rw [hids]; exact Dict.nodup_set _ _ _ hi.nodup⟩
    · intro v n hv
      rw [hids, Dict.get_set] at hv
      split at hv
      · have := Option.some.inj hv; omega
      · have := hi.ids v n hv; omega
    · intro u hu
      rcases contains_set_iff hids hu with rfl | h
      · exact ⟨ho, hun⟩
      · exact hi.objs u h
  cases h with
  | @plain n w1 hac hn hl hm hd m hm' h _ =>
    have hids : w1.log.ids = Dict.set a.log.ids x a.log.slots.length := by rw [hl]; rfl
    have hlen : w1.log.slots.length = a.log.slots.length + 1 := by rw [hl]; simp [ObjLog.record]
    obtain ⟨g1, g3, g2⟩ := h.size hvis hrec (recInv hids hm hlen) hr
    rw [loggedSize_set hc hids] at g1
    refine ⟨by omega, g3, fun u hu => ?_⟩
    rcases g2 u hu with h1 | h1
    · rcases contains_set_iff hids h1 with h2 | h2
      · exact Or.inr (Or.inl h2)
      · exact Or.inl h2
    · exact Or.inr (Or.inr h1)
  | @last n m w1 hac hn h hl hm hd _ =>
    have hids : b.log.ids = Dict.set w1.log.ids x w1.log.slots.length := by rw [hl]; rfl
    have hlen : b.log.slots.length = w1.log.slots.length + 1 := by rw [hl]; simp [ObjLog.record]
    have hc1 : w1.log.contains x = false := (hlast n w1 hac h).resolve_right fun h => h hl
    obtain ⟨g1, g3, g2⟩ := h.size hvis hrec hi (fun k hk => hr k (by omega))
    rw [loggedSize_set hc1 hids]
    refine ⟨by omega, by rw [hids]; exact Dict.nodup_set _ _ _ g3, fun u hu => ?_⟩
    rcases contains_set_iff hids hu with h1 | h1
    · exact Or.inr (Or.inl h1)
    · exact (g2 u h1).imp id Or.inr
  | @acyclic n m c w1 w2 hac hcc hn hl hm hd h hl' hm' hd' _ _ =>
    have hids : w1.log.ids = Dict.set a.log.ids x a.log.slots.length := by rw [hl]; rfl
    have hlen : w1.log.slots.length = a.log.slots.length + 1 := by rw [hl]; simp [ObjLog.record, ObjLog.beginAcyclic]
    have hbids : b.log.ids = w2.log.ids := by rw [hl']; rfl
    have hblen : b.log.slots.length = w2.log.slots.length := by rw [hl']; simp [ObjLog.endAcyclic]
    obtain ⟨g1, g3, g2⟩ := hrec c w1 w2 (recInv hids hm hlen) (fun k hk => hr k (by omega)) h
    rw [loggedSize_set hc hids] at g1
    have e : loggedSize env.heap r b.log = loggedSize env.heap r w2.log := by unfold loggedSize; rw [hbids]
    subst hcc
    simp only [List.map_cons, List.map_nil, List.sum_cons, List.sum_nil] at hN
    refine ⟨by omega, by rw [hbids]; exact g3, fun u hu => ?_⟩
    have hu' : w2.log.contains u = true := by unfold ObjLog.contains at *; rw [← hbids]; exact hu
    rcases g2 u hu' with h1 | h1
    · rcases contains_set_iff hids h1 with h2 | h2
      · exact Or.inr (Or.inl h2)
      · exact Or.inl h2
    · exact Or.inr (Or.inr ⟨c, by simp, h1⟩)

theorem unlogged_mention {env : EEnv} {i : Id} {node : Node} (hi : env.heap[i]? = some node) (hu : IsUnlogged env (.obj i)) (r : Nat) :
    mentionSize env.heap r (.obj i) = frameSize node := by
  simp only [IsUnlogged, hi] at hu
  split at hu
  · rename_i heq; cases heq; simp only [mentionSize, hi]
  · rename_i heq; cases heq; simp only [mentionSize, hi]
  · exact hu.elim

theorem logged_mention {env : EEnv} {v : Val} (ho : IsObj v) (hu : ¬ IsUnlogged env v) (r : Nat) :
    mentionSize env.heap r v = r := by
  cases v with
  | obj i =>
    cases hi : env.heap[i]? with
    | none => simp only [mentionSize, hi]
    | some n =>
      simp only [IsUnlogged, hi] at hu
      cases n with
      | regexp x => exact absurd trivial hu
      | error a b c d =>
        cases d with
        | null => exact absurd trivial hu
        | _ => simp only [mentionSize, hi]
      | _ => simp only [mentionSize, hi]
  | bytes b => rfl
  | _ => exact ho.elim

theorem interchangeable_symm {env : EEnv} {i j : Id} (h : Interchangeable env i j) : Interchangeable env j i := by
  rcases h with rfl | ⟨c, h1, h2⟩
  · exact Or.inl rfl
  · exact Or.inr ⟨c, h2, h1⟩

theorem unlogged_of_one {env : EEnv} (hf : Faithful env) {v d : Val} (h : OneObject env v d) (hu : IsUnlogged env v) :
    IsUnlogged env d ∧ ∀ r, mentionSize env.heap r d = mentionSize env.heap r v := by
  rcases h with rfl | ⟨i, j, rfl, rfl, h⟩
  · exact ⟨hu, fun _ => rfl⟩
  · have e := hf i j h hu
    refine ⟨?_, fun r => ?_⟩
    · simp only [IsUnlogged, e]
      exact hu
    · simp only [mentionSize, e]

theorem oneObject_symm {env : EEnv} {a b : Val} (h : OneObject env a b) : OneObject env b a := by
  rcases h with rfl | ⟨i, j, rfl, rfl, h⟩
  · exact Or.inl rfl
  · exact Or.inr ⟨j, i, rfl, rfl, interchangeable_symm h⟩

theorem encode_size {env : EEnv} (ht : WellTyped env) (hf : Faithful env) (r f : Nat) : SizeRec env r (encodeObject env f) := by
  induction f with
  | zero => intro v ws ws' _ _ h; simp [encodeObject, encodeWith] at h
  | succ f ih =>
    intro v ws ws' hi hr h
    have hvis := encode_visits ht f
    rw [encodeObject_succ] at h
    obtain ⟨_, hr1, hx⟩ := (rep_closed env).dedup ws v hi.rep
    have hl : (deduplicate env v ws).2.log = ws.log := by rw [deduplicate_state]
    have hdat : (deduplicate env v ws).2.data = ws.data := by rw [deduplicate_state]
    have hone := oneObject_of_dedup (v := v) hi.rep.1
    have hkey := deduplicate_key v hi.rep.1
    unfold V8.refsStep at h
    generalize deduplicate env v ws = p at *
    obtain ⟨d, w1⟩ := p
    simp only at *
    have hi1 : SizeInv env w1 :=
      ⟨hr1, fun u n hu => by rw [hl] at hu ⊢; exact hi.ids u n hu, fun u hu => hi.objs u (by rw [hl] at hu; exact hu),
        by rw [hl]; exact hi.nodup⟩
    have hback : IsObj d → IsObj v := by
      intro hd
      rcases hkey with h | ⟨k, h1, h2⟩
      · rw [← h]; exact hd
      · exact dkey_isObj h1 h2 hd
    have hone' : IsObj d → OneObject env v d := fun hd => hone.resolve_right fun hn => hn (hback hd)
    rw [← hl, ← hdat]
    -- the value and its representative cost the same
    have hm : mentionSize env.heap r d = mentionSize env.heap r v := by
      by_cases hd : IsObj d
      · have ho := hone' hd
        by_cases hu : IsUnlogged env v
        · exact (unlogged_of_one hf ho hu).2 r
        · rw [logged_mention (hback hd) hu, logged_mention hd fun h => hu (unlogged_of_one hf (oneObject_symm ho) h).1]
      · rcases hkey with h | ⟨k, h1, h2⟩
        · rw [h]
        · cases d with
          | float y =>
            cases v with
            | float x => rfl
            | obj i =>
              simp only [dkey, Option.map_eq_some_iff] at h1 h2
              obtain ⟨c, _, rfl⟩ := h2
              split at h1 <;> cases h1
            | _ => simp [dkey] at h2
          | obj i => exact absurd trivial hd
          | bytes b => exact absurd trivial hd
          | _ => simp [dkey] at h1
    split at h
    · rename_i hc
      obtain ⟨hdo, hdu⟩ := hi1.objs d hc
      unfold writeReference at h
      split at h
      · cases h
      · rename_i n hg
        have hq := reference_bare h
        have hn : n < w1.log.slots.length := by
          unfold ObjLog.getId at hg
          cases hid : Dict.get w1.log.ids d with
          | none => rw [hid] at hg; cases hg
          | some k =>
            rw [hid] at hg
            simp only at hg
            split at hg
            · cases hg
            · cases hg; exact hi1.ids _ _ hid
        have hcost := hr n (by rw [hq.1]; exact hn)
        rw [← hm, logged_mention hdo hdu, hq.1]
        have := hq.2.2
        exact ⟨by omega, hi1.nodup, fun u hu => Or.inl hu⟩
    · rename_i hc
      have hc : w1.log.contains d = false := by simpa using hc
      cases tagWriter_run h with
      | @scalar h1 h2 n hn hq =>
        have : scalarSize d = mentionSize env.heap r d := by
          cases d with
          | obj i => exact absurd rfl (h1 i)
          | bytes b => exact absurd rfl (h2 b)
          | _ => rfl
        have := hq.2.2
        rw [hq.1]
        exact ⟨by omega, hi1.nodup, fun u hu => Or.inl hu⟩
      | @unlogged i node h1 hnode hu n hn hq =>
        subst h1
        have e := unlogged_mention hnode hu r
        have := hq.2.2
        rw [hq.1]
        exact ⟨by omega, hi1.nodup, fun u hu => Or.inl hu⟩
      | @bytes b h1 hrun =>
        have hdo : IsObj d := by rw [h1]; trivial
        obtain ⟨g1, g3, g2⟩ := hrun.size hvis ih hi1 hx hdo (by rw [h1]; exact id) hc hr (by rw [h1]; simp [objectSize])
          (fun _ _ h => by cases h)
        refine ⟨by omega, g3, fun u hu => ?_⟩
        rcases g2 u hu with h3 | h3 | ⟨c, h3, _⟩
        · exact Or.inl h3
        · subst h3; exact Or.inr ⟨hback hdo, hdo, .here (hone' hdo)⟩
        · simp at h3
      | @logged i node h1 hnode hu hrun =>
        subst h1
        obtain ⟨g1, g3, g2⟩ := hrun.size hvis ih hi1 hx trivial hu hc hr (calls_size ht hnode r)
          (by
            intro n w hlast hw
            left
            cases node with
            | view b vw =>
              exact walks_buffer ht hw (ht.views i b vw hnode) (by simp [IsBuffer, hnode]) hr1.1 hc
            | error => simp only [modeOf] at hlast; split at hlast <;> cases hlast
            | _ => cases hlast)
        refine ⟨by omega, g3, fun u hu => ?_⟩
        rcases g2 u hu with h3 | h3 | ⟨c, h3, h4, h5, h6⟩
        · exact Or.inl h3
        · subst h3; exact Or.inr ⟨hback trivial, trivial, .here (hone' trivial)⟩
        · exact Or.inr ⟨hback trivial, h5, .inside (hone' trivial) hnode
            ((calls_members ht hnode h3).resolve_right fun h => h h4) h6⟩

end V8
