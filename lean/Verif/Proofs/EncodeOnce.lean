import Mathlib.Algebra.BigOperators.Group.Finset.Basic
import Verif.Proofs.EncodeAccept
import Verif.Proofs.RoundTripRoot
import Verif.Spec.Once

/-! Helper lemmas: where no object occurs twice, no reference is written. -/

namespace V8
open Spec

/-- The contents of object `i`. -/
def kids (env : EEnv) (i : Nat) : List Val := (env.heap[i]?.map members).getD []

/-- How often `x` occurs in the objects that are not in `S`. -/
def unopened (env : EEnv) (S : List Val) (x : Val) : Nat :=
  ∑ i ∈ Finset.range env.heap.length, if Val.obj i ∈ S then 0 else (kids env i).count x

/-- The values `M` are to be encoded, the objects `S` have been begun: each object occurs once. -/
def Budget (env : EEnv) (M S : List Val) : Prop :=
  ∀ x, Numbered env x → M.count x + S.count x + unopened env S x ≤ 1

theorem count_flatMap_range (l : List Node) (x : Val) :
    ∑ i ∈ Finset.range l.length, ((l[i]?.map members).getD []).count x = (l.flatMap members).count x := by
  induction l with
  | nil => rfl
  | cons n t ih =>
    rw [List.length_cons, Finset.sum_range_succ', List.flatMap_cons, List.count_append, ← ih]
    simp [Nat.add_comm]

theorem unopened_nil (env : EEnv) (x : Val) : unopened env [] x = (env.heap.flatMap members).count x := by
  rw [← count_flatMap_range]
  unfold unopened kids
  simp only [List.not_mem_nil, if_false]

theorem unopened_open {env : EEnv} {S : List Val} {i : Id} {n : Node} (hi : env.heap[i]? = some n) (hS : Val.obj i ∉ S) (x : Val) :
    unopened env S x = (members n).count x + unopened env (.obj i :: S) x := by
  have hlt : i < env.heap.length := (List.getElem?_eq_some_iff.mp hi).1
  unfold unopened
  rw [← Finset.add_sum_erase _ _ (Finset.mem_range.mpr hlt), ← Finset.add_sum_erase (a := i) _ (fun j => if Val.obj j ∈ Val.obj i :: S then 0 else _) (Finset.mem_range.mpr hlt)]
  rw [if_neg hS, if_pos (by simp), Nat.zero_add]
  congr 1
  · unfold kids; rw [hi]; rfl
  · refine Finset.sum_congr rfl fun j hj => ?_
    have hne : j ≠ i := Finset.ne_of_mem_erase hj
    have : (Val.obj j ∈ Val.obj i :: S) ↔ Val.obj j ∈ S := by simp [hne]
    simp only [this]

theorem unopened_bytes (env : EEnv) (S : List Val) (b : Bytes) (x : Val) :
    unopened env (.bytes b :: S) x = unopened env S x := by
  unfold unopened
  refine Finset.sum_congr rfl fun j _ => ?_
  have : (Val.obj j ∈ Val.bytes b :: S) ↔ Val.obj j ∈ S := by simp
  simp only [this]

theorem Numbered.isObj {env : EEnv} {x : Val} (h : Numbered env x) : IsObj x := by
  cases x <;> trivial

/-! ## Contents and calls -/

theorem itemsOf_snd {α : Type} (l : List (Option α)) : (itemsOf l).map (·.2) = l.filterMap id := by
  unfold itemsOf
  rw [List.map_filterMap]
  induction l with
  | nil => rfl
  | cons a t ih =>
    rw [List.length_cons, List.range_succ_eq_map, List.filterMap_cons, List.filterMap_map]
    have e : (fun k => Option.map (fun e : Nat × α => e.2) (Option.map (fun v => (k, v)) (((a :: t)[k]?).join))) ∘ Nat.succ =
        fun k => Option.map (fun e : Nat × α => e.2) (Option.map (fun v => (k, v)) ((t[k]?).join)) := by
      funext k
      simp [Function.comp_def]
    rw [e, ih]
    cases a <;> simp

theorem count_elems {l : List (Option Val)} {x : Val} (hx : IsObj x) : (l.map elemVal).count x = (l.filterMap id).count x := by
  induction l with
  | nil => rfl
  | cons a t ih =>
    cases a with
    | none =>
      have : (Val.hole == x) = false := by cases x <;> first | rfl | exact hx.elim
      simp [elemVal, List.count_cons, ih, this]
    | some v => simp [elemVal, List.count_cons, ih]

theorem count_pairs {l : List (Val × Val)} (hl : ∀ e ∈ l, ¬ IsObj e.1) {x : Val} (hx : IsObj x) :
    (pairCalls l).count x = (l.map (·.2)).count x := by
  induction l with
  | nil => rfl
  | cons e t ih =>
    have h1 : (e.1 == x) = false := by
      rw [beq_eq_false_iff_ne]
      rintro rfl
      exact hl e (by simp) hx
    have := ih fun e he => hl e (List.mem_cons_of_mem _ he)
    unfold pairCalls at *
    simp [List.count_cons, this, h1]

theorem count_items {l : List (PKey × Val)} {x : Val} (hx : IsObj x) :
    (pairCalls (itemVals l)).count x = (l.map (·.2)).count x := by
  rw [count_pairs _ hx]
  · simp [itemVals, Function.comp_def]
  · intro e he
    obtain ⟨e', _, rfl⟩ := List.mem_map.mp he
    cases e'.1 <;> simp [PKey.toVal, IsObj]

theorem count_dense {o : JSObj Val} (ho : o.Inv) {x : Val} (hx : IsObj x) :
    (o.array.toList.map elemVal ++ pairCalls (propVals o.props)).count x = (o.items.map (·.2)).count x := by
  rw [JSObj.items_eq ho, List.map_append, List.map_map, List.count_append, List.count_append, Arr.toList_eq ho.arr,
    count_elems hx, count_pairs _ hx]
  · rw [show ((fun e : PKey × Val => e.2) ∘ fun e : Nat × Val => (PKey.idx e.1, e.2)) = fun e => e.2 from rfl, itemsOf_snd]
    simp [propVals, Function.comp_def]
  · intro e he
    obtain ⟨e', _, rfl⟩ := List.mem_map.mp he
    exact id

theorem count_calls {env : EEnv} (ht : WellTyped env) {i : Id} {n : Node} (hi : env.heap[i]? = some n) {x : Val} (hx : IsObj x) :
    (calls n).count x = (members n).count x := by
  cases n with
  | jsobj o => exact count_items hx
  | jsarr o =>
    simp only [calls]
    split
    · exact count_items hx
    · exact count_dense (ht.objects i o (Or.inr hi)) hx
  | _ => rfl

/-! ## The encoder -/

/-- What is known of the state: the recorded objects have been begun. -/
def Begun (env : EEnv) (S : List Val) (ws : WS) : Prop := ∀ x, InLog ws x → x ∈ S ∧ Numbered env x

/-- The values `cs` can be encoded without writing a reference. -/
def OnceRec (env : EEnv) (rec : Val → Wr) (c : Val) : Prop :=
  ∀ M S a b, Budget env (c :: M) S → Begun env S a → MemoOK env a.memo → rec c a = .ok b →
    ∃ S', S ⊆ S' ∧ Budget env M S' ∧ Begun env S' b ∧ MemoOK env b.memo ∧ b.badRef = a.badRef

theorem Budget.drop {env : EEnv} {c : Val} {M S : List Val} (h : Budget env (c :: M) S) : Budget env M S := fun x hx => by
  have := h x hx
  rw [List.count_cons] at this
  omega

theorem Walks.once {env : EEnv} {rec : Val → Wr} (hrec : ∀ c, OnceRec env rec c) {cs : List Val} {n : Nat} {a b : WS}
    (h : Walks rec cs n a b) : ∀ M S, Budget env (cs ++ M) S → Begun env S a → MemoOK env a.memo →
    ∃ S', S ⊆ S' ∧ Budget env M S' ∧ Begun env S' b ∧ MemoOK env b.memo ∧ b.badRef = a.badRef := by
  induction h with
  | done hq =>
    intro M S h1 h2 h3
    exact ⟨S, fun _ h => h, h1, fun x hx => h2 x (by unfold InLog at *; rw [hq.1] at hx; exact hx), by rw [hq.2.1]; exact h3, hq.2.2.2⟩
  | @call c cs n m a w1 w2 b hq hcall _ ih =>
    intro M S h1 h2 h3
    obtain ⟨S1, g0, g1, g2, g3, g4⟩ := hrec c (cs ++ M) S w1 w2 h1 (fun x hx => h2 x (by unfold InLog at *; rw [hq.1] at hx; exact hx))
      (by rw [hq.2.1]; exact h3) hcall
    obtain ⟨S2, k0, k1, k2, k3, k4⟩ := ih M S1 g1 g2 g3
    exact ⟨S2, fun _ h => k0 (g0 h), k1, k2, k3, by rw [k4, g4, hq.2.2.2]⟩

/-- An object is begun. -/
theorem NodeRun.once {env : EEnv} {rec : Val → Wr} (hrec : ∀ c, OnceRec env rec c) {ac : Mode} {x : Val} {cs : List Val}
    {N : Nat} {a b : WS} (h : NodeRun rec ac x cs N a b) {M S : List Val} (h1 : Budget env (cs ++ M) (x :: S))
    (hx : Numbered env x) (h2 : Begun env S a) (h3 : MemoOK env a.memo) :
    ∃ S', S ⊆ S' ∧ Budget env M S' ∧ Begun env S' b ∧ MemoOK env b.memo ∧ b.badRef = a.badRef := by
  cases h with
  | @plain n w1 hac hn hl hm hd m hm' h hb =>
    obtain ⟨_, _, s3⟩ := inLog_set (a := a) (b := w1) (x := x) (k := a.log.slots.length) (by rw [hl]; rfl)
    obtain ⟨S', g0, g1, g2, g3, g4⟩ := h.once hrec M (x :: S) h1
      (fun y hy => (s3 y hy).elim (fun e => by subst e; exact ⟨by simp, hx⟩) fun h => ⟨List.mem_cons_of_mem _ (h2 y h).1, (h2 y h).2⟩) (by rw [hm]; exact h3)
    exact ⟨S', fun y hy => g0 (List.mem_cons_of_mem _ hy), g1, g2, g3, g4.trans hb⟩
  | @last n m w1 hac hn h hl hm hd hb =>
    obtain ⟨S', g0, g1, g2, g3, g4⟩ := h.once hrec M (x :: S) h1 (fun y hy => ⟨List.mem_cons_of_mem _ (h2 y hy).1, (h2 y hy).2⟩) h3
    obtain ⟨_, _, s3⟩ := inLog_set (a := w1) (b := b) (x := x) (k := w1.log.slots.length) (by rw [hl]; rfl)
    refine ⟨S', fun y hy => g0 (List.mem_cons_of_mem _ hy), g1, fun y hy => ?_, by rw [hm]; exact g3, hb.trans g4⟩
    rcases s3 y hy with rfl | h
    · exact ⟨g0 (by simp), hx⟩
    · exact g2 y h
  | @acyclic n m c w1 w2 hac hcc hn hl hm hd h hl' hm' hd' hb hb' =>
    obtain ⟨_, _, s3⟩ := inLog_set (a := a) (b := w1) (x := x) (k := a.log.slots.length) (by rw [hl]; rfl)
    subst hcc
    obtain ⟨S', g0, g1, g2, g3, g4⟩ := hrec c M (x :: S) w1 w2 h1
      (fun y hy => (s3 y hy).elim (fun e => by subst e; exact ⟨by simp, hx⟩) fun h => ⟨List.mem_cons_of_mem _ (h2 y h).1, (h2 y h).2⟩) (by rw [hm]; exact h3) h
    refine ⟨S', fun y hy => g0 (List.mem_cons_of_mem _ hy), g1, fun y hy => g2 y ?_, by rw [hm']; exact g3, hb'.trans (g4.trans hb)⟩
    unfold InLog at *
    rw [hl'] at hy
    exact hy

theorem encode_once {env : EEnv} (ht : WellTyped env) (hn : NoTwins env) (f : Nat) : ∀ c, OnceRec env (encodeObject env f) c := by
  induction f with
  | zero => intro v M S a b _ _ _ h; simp [encodeObject, encodeWith] at h
  | succ f ih =>
    intro v M S a b hB hS hm h
    rw [encodeObject_succ] at h
    have hm1 := deduplicate_memo v hm
    have hl : (deduplicate env v a).2.log = a.log := by rw [deduplicate_state]
    have hbr : (deduplicate env v a).2.badRef = a.badRef := by rw [deduplicate_state]
    have hone := oneObject_of_dedup (v := v) hm
    have hkey := deduplicate_key v hm
    unfold V8.refsStep at h
    generalize deduplicate env v a = r at *
    obtain ⟨d, w1⟩ := r
    simp only at *
    have hd : d = v ∨ ¬ IsObj d := by
      rcases hkey with h | ⟨k, h1, h2⟩
      · exact Or.inl h
      · cases v with
        | obj i =>
          left
          rcases hone with h | h
          · rcases h with h | ⟨i', j, h, h', hij⟩
            · exact h.symm
            · cases h; rw [h', hn _ _ hij]
          · exact absurd trivial h
        | float y =>
          right
          intro hd
          exact absurd (dkey_isObj h1 h2 hd) id
        | _ => simp [dkey] at h2
    have hS1 : Begun env S w1 := fun x hx => hS x (by unfold InLog at *; rw [hl] at hx; exact hx)
    have fresh : Numbered env v → v ∉ S := by
      intro hv hvS
      have h1 := hB v hv
      have h2 := List.count_pos_iff.mpr hvS
      rw [List.count_cons] at h1
      simp at h1
      omega
    have skip : ∀ {n : Nat}, Quiet n w1 b → ∃ S', S ⊆ S' ∧ Budget env M S' ∧ Begun env S' b ∧ MemoOK env b.memo ∧ b.badRef = a.badRef :=
      fun hq => ⟨S, fun _ h => h, hB.drop, fun x hx => hS1 x (by unfold InLog at *; rw [hq.1] at hx; exact hx),
        by rw [hq.2.1]; exact hm1, by rw [hq.2.2.2, hbr]⟩
    split at h
    · rename_i hc
      unfold ObjLog.contains at hc
      obtain ⟨h1, h2⟩ := hS1 d (Option.isSome_iff_exists.mp hc)
      rcases hd with rfl | hd
      · exact absurd h1 (fresh h2)
      · exact absurd (Numbered.isObj h2) hd
    · cases tagWriter_run h with
      | scalar h1 h2 _ hq => exact skip hq
      | unlogged h1 _ _ _ hq => exact skip hq
      | @bytes bs h1 hrun =>
        rcases hd with rfl | hd
        · subst h1
          rw [← hbr]
          refine hrun.once ih (M := M) (S := S) ?_ trivial hS1 hm1
          intro x hx
          have := hB x hx
          rw [unopened_bytes]
          rw [List.count_cons] at this ⊢
          simp only [List.nil_append]
          omega
        · exact absurd (by rw [h1]; trivial) hd
      | @logged i node h1 hnode hu hrun =>
        rcases hd with rfl | hd
        · subst h1
          rw [← hbr]
          refine hrun.once ih (M := M) (S := S) ?_ hu hS1 hm1
          intro x hx
          have := hB x hx
          rw [unopened_open hnode (fresh hu)] at this
          rw [List.count_cons] at this ⊢
          rw [List.count_append, count_calls ht hnode (Numbered.isObj hx)]
          omega
        · exact absurd (by rw [h1]; trivial) hd

theorem dumps_once {env : EEnv} (ht : WellTyped env) (hn : NoTwins env) {v : Val} (ho : MentionedOnce env v) {ws : WS}
    (h : dumpsState env v = .ok ws) : ws.badRef = false := by
  refine (encode_once ht hn _ v [] [] WS.headed ws ?_ ?_ (by simp [MemoOK, WS.headed, WS.new, Dict.get])
    (show encodeObject env (encodeFuel env) v WS.headed = .ok ws from h)).elim fun _ hb => hb.2.2.2.2
  · intro x hx
    have := ho x hx
    rw [List.count_cons] at this
    rw [unopened_nil]
    simp only [List.count_nil, List.count_cons]
    omega
  · rintro x ⟨n, h⟩
    simp [WS.headed, WS.new, ObjLog.empty, Dict.get] at h

/-- The condition on the data under which no written number is wrong. -/
theorem NumbersAgree.refs {env : EEnv} (ht : WellTyped env) {v : Val} (hn : NumbersAgree env v) {ws : WS}
    (h : dumpsState env v = .ok ws) : ws.badRef = false := by
  rcases hn with hn | ⟨hn, ho⟩
  · exact (dumps_no_skew (NumberedAlike.skews hn) h).2
  · exact dumps_once ht hn ho h

end V8
