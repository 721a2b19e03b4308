import Verif.Proofs.EncodeDepth
import Verif.Proofs.EncodeShape
import Verif.Proofs.RoundTripRoot

/-! Helper lemmas: which float zero stands for the others.  The cached zero occurs in the data, and there is one if any
zero occurs. -/

namespace V8
open Spec

/-- The value is recorded. -/
def Logged (ws : WS) (v : Val) : Prop := (Dict.get ws.log.ids v).isSome

/-- What encoding the values `C` does to the cached zero. -/
structure Zeros (env : EEnv) (C : Val → Prop) (a b : WS) : Prop where
  memo : ∀ u, Dict.get a.memo .zero = some u → Dict.get b.memo .zero = some u
  ids : ∀ v, Logged a v → Logged b v
  source : ∀ u, Dict.get b.memo .zero = some (.float u) → Dict.get a.memo .zero = some (.float u) ∨ C (.float u) ∨
    ∃ (i : Id) (n : Node), Logged b (.obj i) ∧ env.heap[i]? = some n ∧ .float u ∈ members n
  kids : ∀ (i : Id) (n : Node), Logged b (.obj i) → env.heap[i]? = some n → ∀ x, .float x ∈ members n → fval x = .fin 0 →
    Logged a (.obj i) ∨ ∃ u, Dict.get b.memo .zero = some u
  done : ∀ x, C (.float x) → fval x = .fin 0 → ∃ u, Dict.get b.memo .zero = some u

theorem Zeros.trans {env : EEnv} {C D : Val → Prop} {a b c : WS} (h1 : Zeros env C a b) (h2 : Zeros env D b c) :
    Zeros env (fun v => C v ∨ D v) a c where
  memo := fun u h => h2.memo u (h1.memo u h)
  ids := fun v h => h2.ids v (h1.ids v h)
  source := fun u h => by
    rcases h2.source u h with h | h | h
    · rcases h1.source u h with h | h | ⟨i, n, h3, h4, h5⟩
      · exact Or.inl h
      · exact Or.inr (Or.inl (Or.inl h))
      · exact Or.inr (Or.inr ⟨i, n, h2.ids _ h3, h4, h5⟩)
    · exact Or.inr (Or.inl (Or.inr h))
    · exact Or.inr (Or.inr h)
  kids := fun i n hl hi x hx hz => by
    rcases h2.kids i n hl hi x hx hz with h | h
    · rcases h1.kids i n h hi x hx hz with h | ⟨u, h⟩
      · exact Or.inl h
      · exact Or.inr ⟨u, h2.memo u h⟩
    · exact Or.inr h
  done := fun x hx hz => by
    rcases hx with hx | hx
    · obtain ⟨u, h⟩ := h1.done x hx hz
      exact ⟨u, h2.memo u h⟩
    · exact h2.done x hx hz

theorem Zeros.of {env : EEnv} {C D : Val → Prop} {a b : WS} (h : Zeros env C a b) (hcd : ∀ v, C v ↔ D v) :
    Zeros env D a b := by
  have : C = D := funext fun v => propext (hcd v)
  rw [← this]; exact h

/-- Nothing but bytes. -/
theorem zeros_bare {env : EEnv} {n : Nat} {a b : WS} (h : Bare n a b) : Zeros env (fun _ => False) a b := by
  obtain ⟨h1, h2, _⟩ := h
  refine ⟨fun u h => by rw [h2]; exact h, fun v h => by unfold Logged at *; rw [h1]; exact h, fun u h => ?_, ?_, fun x h => h.elim⟩
  · rw [h2] at h; exact Or.inl h
  · intro i n hl _ _ _ _
    unfold Logged at *
    rw [h1] at hl
    exact Or.inl hl

theorem zeros_quiet {env : EEnv} {n : Nat} {a b : WS} (h : Quiet n a b) : Zeros env (fun _ => False) a b := zeros_bare h.bare

theorem Walks.zeros {env : EEnv} {rec : Val → Wr} (hrec : ∀ c a b, rec c a = .ok b → Zeros env (· = c) a b)
    {cs : List Val} {n : Nat} {a b : WS} (h : Walks rec cs n a b) : Zeros env (· ∈ cs) a b := by
  induction h with
  | done h => exact (zeros_quiet h).of fun v => by simp
  | call h hc _ ih => exact (((zeros_quiet h).trans (hrec _ _ _ hc)).trans ih).of fun v => by simp

/-- The values `cs` include the same doubles as the contents of the object `x`. -/
def Mentions (env : EEnv) (x : Val) (cs : List Val) : Prop :=
  (∀ i : Id, x ≠ .obj i) ∧ cs = [] ∨
  ∃ (i : Id) (n : Node), x = .obj i ∧ env.heap[i]? = some n ∧ ∀ y, .float y ∈ cs ↔ .float y ∈ members n

/-- An object recorded before or after its insides. -/
theorem Zeros.node {env : EEnv} {x : Val} {cs : List Val} {a w1 w2 b : WS} (h : Zeros env (· ∈ cs) w1 w2)
    (hm1 : w1.memo = a.memo) (hm2 : b.memo = w2.memo) (h1 : ∀ v, Logged a v → Logged w1 v)
    (h1' : ∀ v, Logged w1 v → Logged a v ∨ v = x) (h2 : ∀ v, Logged w2 v → Logged b v)
    (h2' : ∀ v, Logged b v → Logged w2 v ∨ v = x) (hb : Logged b x)
    (hcs : Mentions env x cs) :
    Zeros env (fun _ => False) a b := by
  refine ⟨fun u hu => ?_, fun v hv => h2 v (h.ids v (h1 v hv)), fun u hu => ?_, ?_, fun x h => h.elim⟩
  · rw [hm2]; exact h.memo u (by rw [hm1]; exact hu)
  · rw [hm2] at hu
    rcases h.source u hu with h | h | ⟨i, n, g1, g2, g3⟩
    · rw [hm1] at h; exact Or.inl h
    · rcases hcs with ⟨_, rfl⟩ | ⟨i, n, rfl, hi, hcs⟩
      · cases h
      · exact Or.inr (Or.inr ⟨i, n, hb, hi, (hcs _).1 h⟩)
    · exact Or.inr (Or.inr ⟨i, n, h2 _ g1, g2, g3⟩)
  · intro i n hl hi y hy hz
    by_cases hx : (Val.obj i) = x
    · rcases hcs with ⟨h3, _⟩ | ⟨j, n', hj, hn', hcs⟩
      · exact absurd hx.symm (h3 i)
      · rw [← hx] at hj
        cases hj
        rw [hi] at hn'
        cases hn'
        obtain ⟨u, hu⟩ := h.done y ((hcs y).2 hy) hz
        exact Or.inr ⟨u, by rw [hm2]; exact hu⟩
    · rcases h.kids i n ((h2' _ hl).resolve_right hx) hi y hy hz with h | ⟨u, h⟩
      · exact Or.inl ((h1' _ h).resolve_right hx)
      · exact Or.inr ⟨u, by rw [hm2]; exact h⟩

theorem logged_set {a b : WS} {x : Val} {n : Nat} (h : b.log.ids = Dict.set a.log.ids x n) :
    (∀ v, Logged a v → Logged b v) ∧ (∀ v, Logged b v → Logged a v ∨ v = x) ∧ Logged b x := by
  unfold Logged
  rw [h]
  refine ⟨fun v hv => ?_, fun v hv => ?_, by rw [Dict.get_set, if_pos rfl]; rfl⟩
  · rw [Dict.get_set]
    split
    · rfl
    · exact hv
  · rw [Dict.get_set] at hv
    split at hv
    · rename_i h; exact Or.inr h.symm
    · exact Or.inl hv

theorem NodeRun.zeros {env : EEnv} {rec : Val → Wr} (hrec : ∀ c a b, rec c a = .ok b → Zeros env (· = c) a b)
    {ac : Mode} {x : Val} {cs : List Val} {N : Nat} {a b : WS} (h : NodeRun rec ac x cs N a b)
    (hcs : Mentions env x cs) :
    Zeros env (fun _ => False) a b := by
  cases h with
  | @plain n w1 hac hn hl hm hd m hm' h _ =>
    obtain ⟨g1, g2, g3⟩ := logged_set (a := a) (b := w1) (x := x) (by rw [hl]; rfl)
    have hz := h.zeros hrec
    exact hz.node hm rfl g1 g2 (fun _ h => h) (fun _ h => Or.inl h) (hz.ids _ g3) hcs
  | @last n m w1 hac hn h hl hm hd _ =>
    obtain ⟨g1, g2, g3⟩ := logged_set (a := w1) (b := b) (x := x) (by rw [hl]; rfl)
    have hz := h.zeros hrec
    exact hz.node rfl hm (fun _ h => h) (fun _ h => Or.inl h) g1 g2 g3 hcs
  | @acyclic n m c w1 w2 hac hcc hn hl hm hd h hl' hm' hd' _ _ =>
    obtain ⟨g1, g2, g3⟩ := logged_set (a := a) (b := w1) (x := x) (by rw [hl]; rfl)
    have hz := (hrec c w1 w2 h).of (D := (· ∈ cs)) fun v => by simp [hcc]
    have hb : ∀ v, Logged b v ↔ Logged w2 v := by
      intro v
      unfold Logged
      rw [hl']
      rfl
    exact hz.node hm hm' g1 g2 (fun v h => (hb v).2 h) (fun v h => Or.inl ((hb v).1 h)) ((hb _).2 (hz.ids _ g3)) hcs

theorem zeros_dedup (env : EEnv) (v : Val) (ws : WS) : Zeros env (· = v) ws (deduplicate env v ws).2 := by
  have hl : (deduplicate env v ws).2.log = ws.log := dedup_log env v ws
  refine ⟨fun u hu => deduplicate_grows v ws _ u hu, fun u hu => by unfold Logged at *; rw [hl]; exact hu, fun u hu => ?_, ?_, ?_⟩
  · unfold deduplicate at hu
    split at hu
    · exact Or.inl hu
    · rename_i k hk
      split at hu
      · exact Or.inl hu
      · simp only at hu
        rw [Dict.get_set] at hu
        split at hu
        · exact Or.inr (Or.inl (Option.some.inj hu).symm)
        · exact Or.inl hu
  · intro i n h _ _ _ _
    unfold Logged at *
    rw [hl] at h
    exact Or.inl h
  · rintro x rfl hz
    unfold deduplicate
    simp only [dkey, if_pos hz]
    cases hg : Dict.get ws.memo .zero with
    | some w => exact ⟨w, hg⟩
    | none => exact ⟨.float x, by rw [Dict.get_set, if_pos rfl]⟩

theorem floats_items (l : List (PKey × Val)) (y : F64) :
    .float y ∈ pairCalls (itemVals l) ↔ .float y ∈ l.map (·.2) := by
  constructor
  · intro h
    obtain ⟨e', he', hc⟩ := List.mem_flatMap.mp h
    obtain ⟨e, he, rfl⟩ := List.mem_map.mp he'
    simp only [List.mem_cons, List.not_mem_nil, or_false] at hc
    rcases hc with hc | hc
    · cases hk : e.1 <;> rw [hk] at hc <;> cases hc
    · exact List.mem_map.mpr ⟨e, he, hc.symm⟩
  · intro h
    obtain ⟨e, he, h⟩ := List.mem_map.mp h
    exact List.mem_flatMap.mpr ⟨(e.1.toVal, e.2), List.mem_map.mpr ⟨e, he, rfl⟩, by simp [h]⟩

theorem floats_dense {o : JSObj Val} (ho : o.Inv) (y : F64) :
    .float y ∈ o.array.toList.map elemVal ++ pairCalls (propVals o.props) ↔ .float y ∈ o.items.map (·.2) := by
  rw [JSObj.items_eq ho, List.map_append, List.map_map, List.mem_append, List.mem_append, Arr.toList_eq ho.arr]
  constructor
  · rintro (h | h)
    · left
      obtain ⟨a, ha, h⟩ := List.mem_map.mp h
      cases a with
      | none => cases h
      | some v =>
        obtain ⟨k, hk⟩ := List.mem_iff_getElem?.mp ha
        exact List.mem_map.mpr ⟨(k, v), (by rw [mem_itemsOf, hk]; rfl), h⟩
    · right
      obtain ⟨e', he', hc⟩ := List.mem_flatMap.mp h
      obtain ⟨e, he, rfl⟩ := List.mem_map.mp he'
      simp only [List.mem_cons, List.not_mem_nil, or_false] at hc
      rcases hc with hc | hc
      · cases hc
      · exact List.mem_map.mpr ⟨(.name e.1, e.2), List.mem_map.mpr ⟨e, he, rfl⟩, hc.symm⟩
  · rintro (h | h)
    · left
      obtain ⟨⟨k, v⟩, he, h⟩ := List.mem_map.mp h
      rw [mem_itemsOf] at he
      cases hk : o.array.abs[k]? with
      | none => rw [hk] at he; cases he
      | some a =>
        rw [hk] at he
        simp only [Option.join_some] at he
        subst he
        exact List.mem_map.mpr ⟨some v, List.mem_of_getElem? hk, h⟩
    · right
      obtain ⟨e', he', h⟩ := List.mem_map.mp h
      obtain ⟨e, he, rfl⟩ := List.mem_map.mp he'
      exact List.mem_flatMap.mpr ⟨(.str e.1, e.2), List.mem_map.mpr ⟨e, he, rfl⟩, by simp [← h]⟩

theorem floats_calls {env : EEnv} (ht : WellTyped env) {i : Id} {n : Node} (hi : env.heap[i]? = some n) (y : F64) :
    .float y ∈ calls n ↔ .float y ∈ members n := by
  cases n with
  | jsobj o => exact floats_items _ y
  | jsarr o =>
    simp only [calls]
    split
    · exact floats_items _ y
    · exact floats_dense (ht.objects i o (Or.inr hi)) y
  | _ => exact Iff.rfl

theorem encode_zeros {env : EEnv} (ht : WellTyped env) (f : Nat) : ∀ c a b, encodeObject env f c a = .ok b → Zeros env (· = c) a b := by
  induction f with
  | zero => intro c a b h; simp [encodeObject, encodeWith] at h
  | succ f ih =>
    intro c a b h
    rw [encodeObject_succ] at h
    have h1 := zeros_dedup env c a
    have h2 : Zeros env (fun _ => False) (deduplicate env c a).2 b := by
      unfold refsStep at h
      simp only at h
      split at h
      · have hq : ∃ n, Bare n (deduplicate env c a).2 b := by
          unfold writeReference at h
          split at h
          · cases h
          · rename_i n hn
            exact ⟨_, reference_bare h⟩
        obtain ⟨n, hq⟩ := hq
        exact zeros_bare hq
      · have hrun := tagWriter_run h
        cases hrun with
        | scalar _ _ _ h => exact zeros_quiet h
        | bytes hx h => exact h.zeros ih (Or.inl ⟨by rw [hx]; simp, rfl⟩)
        | unlogged _ _ _ _ h => exact zeros_quiet h
        | logged hx hi _ h => exact h.zeros ih (Or.inr ⟨_, _, hx, hi, fun y => floats_calls ht hi y⟩)
    exact (h1.trans h2).of fun v => by simp

/-- The float zero in the cache, or 0.0. -/
def WS.zero (ws : WS) : F64 :=
  match Dict.get ws.memo .zero with
  | some (.float z) => z
  | _ => 0

theorem WS.zero_get {env : EEnv} {ws : WS} (hm : MemoOK env ws.memo) {u : Val} (h : Dict.get ws.memo .zero = some u) :
    u = .float ws.zero ∧ fval ws.zero = .fin 0 := by
  have hk := hm _ _ h
  cases u with
  | float x =>
    simp only [dkey] at hk
    split at hk
    · rename_i hx
      have e : ws.zero = x := by unfold WS.zero; rw [h]
      rw [e]
      exact ⟨rfl, hx⟩
    · cases hk
  | obj i =>
    simp only [dkey, Option.map_eq_some_iff] at hk
    obtain ⟨_, _, hk⟩ := hk
    cases hk
  | _ => simp [dkey] at hk

theorem WS.zero_fine {env : EEnv} {ws : WS} (hm : MemoOK env ws.memo) (hb : ws.badRef = false) : Fine ws.zero ws :=
  ⟨hb, fun _ hu => (WS.zero_get hm hu).1⟩

theorem dumps_zeros {env : EEnv} (ht : WellTyped env) {v : Val} {ws : WS} (h : dumpsState env v = .ok ws) :
    Zeros env (· = v) WS.headed ws := by
  unfold dumpsState dumpsWith at h
  obtain ⟨w0, h0, h⟩ := Except.bind_eq_ok h
  have e0 : w0 = WS.headed := emit_ok h0
  rw [e0] at h
  exact encode_zeros ht _ _ _ _ h

/-- The correspondence of a whole message is that of the same graph. -/
theorem sameGraph_of_rep {env : EEnv} {z : F64} {P : Val → Val → Prop} {v w : Val} {ws : WS} {ds : DS}
    (h : RepInv env ws) (hz : Zeros env (· = v) WS.headed ws) (hf : Fine z ws) (h1 : SameVal env z P v w) (h2 : ∀ a b, P a b → SameObject env z P ds.heap a b)
    (hs : SimW env z P ws ds) : SameGraph env z P v w ds.heap := by
  refine ⟨h1, h2, ?_, hs.pairs.inj, ?_⟩
  on_goal 2 =>
    intro x hx hx0
    have hone : ∃ u, Dict.get ws.memo .zero = some u := by
      rcases hx with hx | ⟨i, b, n, hP, hi, hm⟩
      · exact hz.done x hx.symm hx0
      · rcases hs.seen _ _ hP with hu | hl
        · simp only [IsUnlogged, hi] at hu
          cases n with
          | regexp _ => simp [members] at hm
          | error _ _ _ cause => cases cause <;> first | exact hu.elim | simp [members] at hm
          | _ => exact hu.elim
        · exact (hz.kids i n hl hi x hm hx0).resolve_left (by simp [Logged, WS.headed, WS.new, ObjLog.empty, Dict.get])
    obtain ⟨u, hu⟩ := hone
    have hk := h.1 _ _ hu
    have := hf.2 _ hu
    subst this
    refine ⟨?_, ?_⟩
    · simp only [dkey] at hk
      split at hk
      · assumption
      · cases hk
    · rcases hz.source z hu with h3 | h3 | ⟨i, n, g1, g2, g3⟩
      · simp [WS.headed, WS.new, Dict.get] at h3
      · exact Or.inl h3.symm
      · obtain ⟨m, hm⟩ := Option.isSome_iff_exists.mp g1
        obtain ⟨_, b, hP, _⟩ := hs.logged _ _ hm
        exact Or.inr ⟨i, b, n, hP, g2, g3⟩
  intro a a' b b' hab hab' hone
  by_cases hu : IsUnlogged env a
  · exact Or.inl hu
  by_cases hu' : IsUnlogged env a'
  · exact Or.inr (Or.inl hu')
  right; right
  have heq : a = a' := by
    rcases hone with h3 | ⟨i, j, rfl, rfl, h3⟩
    · exact h3
    · rcases h3 with rfl | ⟨c, hi, hj⟩
      · rfl
      · refine rep_unique h ((hs.seen _ _ hab).resolve_left hu) ((hs.seen _ _ hab').resolve_left hu')
          (k := .cls c) (by simp [dkey, hi]) (by simp [dkey, hj])
  subst heq
  exact (hs.pairs.func a b b' hab hab').resolve_left hu

/-- The whole message, given that no reference goes astray. -/
theorem dumps_sameGraph {env : EEnv} (he : Encodable env) {denv : DEnv} (hpy : denv.py = env.py) {v : Val} {ws : WS}
    (h : dumpsState env v = .ok ws) (hbad : ws.badRef = false) {suf : Bytes} (hsuf : NV suf) :
    ∃ z P w ds, loads denv (ws.data ++ suf) = .ok (w, ds) ∧ ds.pos = ws.data.length ∧ SameGraph env z P v w ds.heap ∧
      Pairs env z P ds.heap ∧ SimW env z P ws ds := by
  have hr := dumps_rep h
  have hf := WS.zero_fine hr.1 hbad
  obtain ⟨P, w, ds, h1, h2, h3, h4, h5, h6⟩ := dumps_loads he hpy h hf hsuf
  exact ⟨_, P, w, ds, h1, h2, sameGraph_of_rep hr (dumps_zeros (Encodable.wellTyped he) h) hf h3 h4 h6, h5, h6⟩

end V8
