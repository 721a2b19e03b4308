import Verif.Spec.StructEq
import Mathlib.Data.List.Nodup
import Mathlib.Data.List.Perm.Subperm

/-! Lemmas on `==` of graphs (`Model/RecursiveEq.lean`). -/

namespace V8
open Spec

/-! ## The set of running comparisons -/

theorem addKeys_eq {i j : Id} {run : List Id} (hij : i ≠ j) (hi : i ∉ run) (hj : j ∉ run) :
    addKey j (addKey i run) = j :: i :: run := by
  unfold addKey
  rw [if_neg hi, if_neg (by simp [hj, Ne.symm hij])]

theorem finally_run {α : Type} {i j : Id} {run : List Id} (hij : i ≠ j) (r : Except EqErr α) :
    finallyRemove i j (r, j :: i :: run) = (r, run) := by
  have h1 : (j :: i :: run).erase i = j :: run := by
    rw [List.erase_cons_tail (by simpa using (Ne.symm hij)), List.erase_cons_head]
  simp only [finallyRemove, removeKey]
  rw [if_pos (by simp)]
  simp only [h1]
  rw [if_pos (by simp)]
  simp

theorem runCmps_run {eq : Val → Val → EqM Bool} (heq : ∀ v w run, (eq v w run).2 = run) :
    ∀ (cmps : List Cmp) (run : List Id), (runCmps eq cmps run).2 = run := by
  intro cmps
  induction cmps with
  | nil => intro run; rfl
  | cons c t ih =>
    intro run
    cases c with
    | differ => rfl
    | raise e => rfl
    | pair s v w =>
      simp only [runCmps]
      by_cases hs : (s && isSame v w) = true
      · rw [if_pos hs]; exact ih run
      · rw [if_neg hs]
        have h := heq v w run
        rcases hr : eq v w run with ⟨r, run'⟩
        rw [hr] at h
        simp only at h
        subst h
        cases r with
        | error e => rfl
        | ok b => cases b with
          | true => exact ih _
          | false => rfl

/-- The answer of the decorated method apart from the set. -/
def wrappedAnswer (eq : Val → Val → EqM Bool) (n m : Node) (run : List Id) : Except EqErr (Option Bool) :=
  match nodeCmps n m with
  | none => .ok none
  | some cmps => (runCmps eq cmps run).1.map some

theorem recursiveEq_same (eq : Val → Val → EqM Bool) (i : Id) (n m : Node) (run : List Id) :
    recursiveEq eq i i n m run = (.ok (some true), run) := by
  simp [recursiveEq]

theorem recursiveEq_running (eq : Val → Val → EqM Bool) {i j : Id} (hij : i ≠ j) (n m : Node) {run : List Id}
    (h : i ∈ run ∨ j ∈ run) :
    recursiveEq eq i j n m run = (.ok (some (decide (i ∈ run) && decide (j ∈ run))), run) := by
  simp only [recursiveEq]
  rw [if_neg hij, if_pos (by simpa using h)]

theorem recursiveEq_fresh {eq : Val → Val → EqM Bool} (heq : ∀ v w run, (eq v w run).2 = run) {i j : Id} (hij : i ≠ j)
    (n m : Node) {run : List Id} (hi : i ∉ run) (hj : j ∉ run) :
    recursiveEq eq i j n m run = (wrappedAnswer eq n m (j :: i :: run), run) := by
  simp only [recursiveEq]
  rw [if_neg hij, if_neg (by simp [hi, hj]), addKeys_eq hij hi hj]
  unfold wrappedAnswer
  cases hc : nodeCmps n m with
  | none => exact finally_run hij _
  | some cmps =>
    simp only
    have h := runCmps_run heq cmps (j :: i :: run)
    rcases hr : runCmps eq cmps (j :: i :: run) with ⟨r, run'⟩
    rw [hr] at h
    simp only at h
    subst h
    cases r with
    | error e => exact finally_run hij _
    | ok b => exact finally_run hij _

theorem recursiveEq_run {eq : Val → Val → EqM Bool} (heq : ∀ v w run, (eq v w run).2 = run) (i j : Id)
    (n m : Node) (run : List Id) : (recursiveEq eq i j n m run).2 = run := by
  by_cases hij : i = j
  · subst hij; rw [recursiveEq_same]
  by_cases h : i ∈ run ∨ j ∈ run
  · rw [recursiveEq_running eq hij n m h]
  · push Not at h
    rw [recursiveEq_fresh heq hij n m h.1 h.2]

theorem pyEq_run (env : EqEnv) : ∀ (fuel : Nat) (v w : Val) (run : List Id), (pyEq env fuel v w run).2 = run := by
  intro fuel
  induction fuel with
  | zero => intro v w run; rfl
  | succ f ih =>
    intro v w run
    simp only [pyEq]
    cases hv : trackedNode env.heap v with
    | none =>
      cases hw : trackedNode env.heap w with
      | some q => rfl
      | none =>
        simp only
        split
        · split <;> rfl
        · split <;> rfl
        · rfl
    | some p =>
      cases hw : trackedNode env.heap w with
      | none => rfl
      | some q =>
        obtain ⟨i, n⟩ := p
        obtain ⟨j, m⟩ := q
        simp only
        have h1 := recursiveEq_run ih i j n m run
        rcases hr : recursiveEq (pyEq env f) i j n m run with ⟨r, run'⟩
        rw [hr] at h1
        simp only at h1
        subst h1
        cases r with
        | error e => rfl
        | ok o =>
          cases o with
          | some b => rfl
          | none =>
            simp only
            have h2 := recursiveEq_run ih j i m n run'
            rcases hr2 : recursiveEq (pyEq env f) j i m n run' with ⟨r2, run2⟩
            rw [hr2] at h2
            simp only at h2
            subst h2
            cases r2 with
            | error e => rfl
            | ok o => cases o <;> rfl

/-! ## One call of `==` -/

theorem trackedNode_some {h : Heap} {v : Val} {i : Id} {n : Node} (hv : trackedNode h v = some (i, n)) :
    v = .obj i ∧ h[i]? = some n ∧ IsJS n := by
  cases v with
  | obj k =>
    simp only [trackedNode] at hv
    cases hk : h[k]? with
    | none => rw [hk] at hv; cases hv
    | some x =>
      rw [hk] at hv
      simp only at hv
      by_cases hx : x.tracked = true
      · rw [if_pos hx] at hv
        simp only [Option.some.injEq, Prod.mk.injEq] at hv
        obtain ⟨rfl, rfl⟩ := hv
        refine ⟨rfl, hk, ?_⟩
        cases x <;> simp_all [Node.tracked, IsJS]
      · rw [if_neg hx] at hv; cases hv
  | _ => cases hv

theorem trackedNode_of {h : Heap} {i : Id} {n : Node} (hi : h[i]? = some n) (hn : IsJS n) :
    trackedNode h (.obj i) = some (i, n) := by
  have : n.tracked = true := by cases n <;> simp_all [Node.tracked, IsJS]
  simp only [trackedNode, hi, this, if_true]

theorem trackedNode_none {h : Heap} {v : Val} : trackedNode h v = none ↔ ¬ IsJSVal h v := by
  constructor
  · rintro hv ⟨i, n, rfl, hi, hn⟩
    rw [trackedNode_of hi hn] at hv
    cases hv
  · intro hv
    cases ht : trackedNode h v with
    | none => rfl
    | some p =>
      obtain ⟨h1, h2, h3⟩ := trackedNode_some (i := p.1) (n := p.2) ht
      exact absurd ⟨_, _, h1, h2, h3⟩ hv

theorem nodeCmps_flip {n m : Node} (h : nodeCmps n m = none) :
    nodeCmps m n = none ∨ nodeCmps m n = some [.differ] := by
  cases n <;> cases m <;> simp_all [nodeCmps] <;> (split at h <;> cases h)

/-- The answer of `==` on two objects of the decorated classes. -/
theorem pyEq_tracked (env : EqEnv) (f : Nat) {i j : Id} {n m : Node} (hi : env.heap[i]? = some n)
    (hn : IsJS n) (hj : env.heap[j]? = some m) (hm : IsJS m) (run : List Id) :
    (pyEq env (f + 1) (.obj i) (.obj j) run).1 =
      if i = j then .ok true
      else if i ∈ run ∨ j ∈ run then .ok (decide (i ∈ run) && decide (j ∈ run))
      else match nodeCmps n m with
        | none => .ok false
        | some cmps => (runCmps (pyEq env f) cmps (j :: i :: run)).1 := by
  simp only [pyEq, trackedNode_of hi hn, trackedNode_of hj hm]
  have hrun := pyEq_run env f
  by_cases hij : i = j
  · subst hij
    rw [recursiveEq_same, if_pos rfl]
  rw [if_neg hij]
  by_cases h : i ∈ run ∨ j ∈ run
  · rw [recursiveEq_running _ hij n m h, if_pos h]
  · rw [if_neg h]
    push Not at h
    rw [recursiveEq_fresh hrun hij n m h.1 h.2]
    unfold wrappedAnswer
    cases hc : nodeCmps n m with
    | some cmps =>
      simp only
      rcases hr : runCmps (pyEq env f) cmps (j :: i :: run) with ⟨r, run'⟩
      cases r <;> rfl
    | none =>
      simp only
      rw [recursiveEq_fresh hrun (Ne.symm hij) m n h.2 h.1]
      unfold wrappedAnswer
      rcases nodeCmps_flip hc with h2 | h2
      · rw [h2]
        simp [hij]
      · rw [h2]
        rfl

theorem pyEq_mixed (env : EqEnv) (f : Nat) {v w : Val} (h : ¬ (IsJSVal env.heap v ↔ IsJSVal env.heap w))
    (run : List Id) : (pyEq env (f + 1) v w run).1 = .ok false := by
  simp only [pyEq]
  cases hv : trackedNode env.heap v with
  | none =>
    cases hw : trackedNode env.heap w with
    | none =>
      rw [trackedNode_none] at hv hw
      exact absurd (iff_of_false hv hw) h
    | some q => rfl
  | some p =>
    cases hw : trackedNode env.heap w with
    | none => rfl
    | some q =>
      obtain ⟨a, b, c⟩ := trackedNode_some (i := p.1) (n := p.2) hv
      obtain ⟨a', b', c'⟩ := trackedNode_some (i := q.1) (n := q.2) hw
      exact absurd (iff_of_true ⟨_, _, a, b, c⟩ ⟨_, _, a', b', c'⟩) h

theorem pyEq_scalars (env : EqEnv) (f : Nat) {v w : Val} (hv : IsScalar v) (hw : IsScalar w) (run : List Id) :
    (pyEq env (f + 1) v w run).1 = .ok (scalarEq v w) := by
  cases v <;> cases w <;> first | rfl | (exact absurd hv id) | (exact absurd hw id)

theorem pyEq_others (env : EqEnv) (f : Nat) {v w : Val} (hv : ¬ IsJSVal env.heap v) (hw : ¬ IsJSVal env.heap w)
    (h : ¬ (IsScalar v ∧ IsScalar w)) (run : List Id) :
    (pyEq env (f + 1) v w run).1 = (match env.leaf v w with | .ok b => .ok b | .error e => .error (.exc e)) := by
  simp only [pyEq, trackedNode_none.2 hv, trackedNode_none.2 hw]
  split
  · cases env.leaf _ _ <;> rfl
  · cases env.leaf _ _ <;> rfl
  · rename_i h1 h2
    refine absurd ⟨?_, ?_⟩ h
    · cases v <;> first | trivial | exact absurd rfl (h1 _)
    · cases w <;> first | trivial | exact absurd rfl (h2 _)

theorem scalarEq_iff {v w : Val} : scalarEq v w = true ↔ EqualScalars v w := by
  unfold scalarEq EqualScalars
  cases hv : numOf v with
  | none =>
    simp only [reduceCtorEq, false_and, exists_false, true_and, false_or]
    cases numOf w <;> simp
  | some a =>
    cases hw : numOf w with
    | none =>
      simp only [reduceCtorEq, false_and, and_false, exists_false, or_self, iff_false]
      intro h
      simp only [decide_eq_true_eq] at h
      rw [h, hw] at hv
      cases hv
    | some b =>
      simp only [decide_eq_true_eq, Option.some.injEq, reduceCtorEq, false_and, or_false]
      constructor
      · rintro ⟨h1, rfl⟩; exact ⟨_, rfl, rfl, h1⟩
      · rintro ⟨_, rfl, rfl, h1⟩; exact ⟨h1, rfl⟩

end V8
