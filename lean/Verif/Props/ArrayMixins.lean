import Verif.Proofs.ArrayMixins
import Verif.Props.Arrays

/-!
# C69: the methods array properties inherit from `MutableSequence`
-/

namespace V8.Props
open V8 V8.Spec
variable {α : Type}

/-- Every operation of a history is in the domain of the list it is applied to. -/
def SeqHistIn (same : Option α → Option α → Bool) (dense : Bool) : List (Option α) → List (SeqOp α) → Prop
  | _, [] => True
  | l, op :: ops => seqDom dense l op ∧ SeqHistIn same dense (listSeqStep same l op).1 ops

/-- Of a dense array only `insert` before the front is left out. -/
theorem seqDom_dense_iff (l : List (Option α)) (op : SeqOp α) :
    seqDom true l op ↔ ∀ i v, op = .base (.insert i v) → -(l.length : Int) ≤ i := by
  cases op with
  | base op => cases op <;> simp [seqDom, baseDom, denseDom]
  | _ => simp [seqDom]

/-- Of a sparse array, what C28 leaves out; reversing one or two values; extending with holes, or past the greatest
length. -/
theorem seqDom_sparse_iff (l : List (Option α)) (op : SeqOp α) :
    seqDom false l op ↔
      (∀ b, op = .base b → sparseDom l b) ∧
      (op = .reverse → usedCount l ≠ 1 ∧ usedCount l ≠ 2) ∧
      (∀ vs, op = .extend vs ∨ op = .extendSelf ∧ vs = l →
        (∀ v ∈ vs, v.isSome) ∧ l.length + vs.length ≤ 2 ^ 32 - 1) := by
  cases op <;> simp [seqDom, baseDom]

/-- Outputs agree, except that an assignment may raise AssertionError. -/
def AgreeButAssertS : List (SeqOp α) → List (Except PyExc (SeqOut α)) → List (Except PyExc (SeqOut α)) → Prop
  | [], [], [] => True
  | op :: ops, x :: xs, y :: ys =>
    (x = y ∨ (x = .error .assertionError ∧ ∃ i v, op = .base (.set i v))) ∧ AgreeButAssertS ops xs ys
  | _, _, _ => False

/-- C69, dense arrays.  For every list of initial values, every comparison and every history of operations (those of C27
and `index`, `in`, `count`, `reversed()`, `reverse`, `remove`, `clear`, `extend`, `extend(self)`), a DenseArrayProperties
returns or raises at each step exactly what a Python list does, and ends with the same elements.  Missing from the full
statement: `insert` before the front (`C27_insert_before_front`). -/
theorem C69_dense_partial (same : Option α → Option α → Bool) (values : List (Option α)) (ops : List (SeqOp α))
    (hin : SeqHistIn same true values ops) :
    (runHist (seqStep same) (.dense (Dense.ofValues values)) ops).2 = (runHist (listSeqStep same) values ops).2 ∧
    (runHist (seqStep same) (.dense (Dense.ofValues values)) ops).1.toList = (runHist (listSeqStep same) values ops).1 := by
  suffices H : ∀ (ops : List (SeqOp α)) (a : Arr α), a.Inv → a.isDense = true → SeqHistIn same true a.abs ops →
      (runHist (seqStep same) a ops).2 = (runHist (listSeqStep same) a.abs ops).2 ∧
      (runHist (seqStep same) a ops).1.toList = (runHist (listSeqStep same) a.abs ops).1 from
    H ops (.dense (Dense.ofValues values)) rfl rfl hin
  intro ops
  induction ops with
  | nil => intro a ha _ _; exact ⟨rfl, Arr.toList_eq ha⟩
  | cons op ops ih =>
    intro a ha hd hin
    obtain ⟨h1, h2, h3, h4⟩ := seq_step same ha op (by rw [hd]; exact hin.1)
    have := ih _ h1 (h3.trans hd) (by rw [h2]; exact hin.2)
    simp only [runHist]
    rw [← h2]
    refine ⟨?_, this.2⟩
    rcases h4 with h4 | ⟨h4, _⟩
    · rw [h4, this.1]
    · rw [hd] at h4; simp at h4

/-- A history meeting the hypothesis. -/
example : SeqHistIn (α := Nat) (· == ·) true [some 1, none, some 3]
    [.reverse, .extendSelf, .remove (some 1), .index none (-3) (some 5), .count none, .base (.insert 9 (some 4)), .clear,
      .extend [none, some 2], .reversed, .remove (some 8)] := by
  simp [SeqHistIn, seqDom, baseDom, denseDom, listSeqStep, firstIndex, List.find?, List.range, List.range.loop, bound]

/-- What such a history returns: `[1, hole, 3].reverse()`, `index(hole, -2)`, then `remove(3)`. -/
example : (runHist (listSeqStep (α := Nat) (· == ·)) [some 1, none, some 3]
      [.reverse, .index none (-2) none, .remove (some 3), .index (some 3) 0 none]) =
    ([none, some 1], [.ok (.base .unit), .ok (.base (.num 1)), .ok (.base .unit), .error .valueError]) := by
  decide +kernel

/-- C69, sparse arrays.  The same for a SparseArrayProperties, however it was created, except that an assignment may
raise a spurious AssertionError.  Missing from the full statement: what C28 leaves out, reversing an array with one or two
values (`C69_reverse_loses`), and extending with holes. -/
theorem C69_sparse_partial (same : Option α → Option α → Bool) (s : Sparse α) (l : List (Option α)) (hs : SparseStart s l)
    (ops : List (SeqOp α)) (hin : SeqHistIn same false l ops) :
    AgreeButAssertS ops (runHist (seqStep same) (.sparse s) ops).2 (runHist (listSeqStep same) l ops).2 ∧
    (runHist (seqStep same) (.sparse s) ops).1.toList = (runHist (listSeqStep same) l ops).1 := by
  obtain ⟨hinv, rfl⟩ := sparse_start_inv hs
  clear hs
  suffices H : ∀ (ops : List (SeqOp α)) (a : Arr α), a.Inv → a.isDense = false → SeqHistIn same false a.abs ops →
      AgreeButAssertS ops (runHist (seqStep same) a ops).2 (runHist (listSeqStep same) a.abs ops).2 ∧
      (runHist (seqStep same) a ops).1.toList = (runHist (listSeqStep same) a.abs ops).1 from
    H ops (.sparse s) hinv rfl hin
  clear hin ops
  intro ops
  induction ops with
  | nil => intro a ha _ _; exact ⟨trivial, Arr.toList_eq ha⟩
  | cons op ops ih =>
    intro a ha hd hin
    obtain ⟨h1, h2, h3, h4⟩ := seq_step same ha op (by rw [hd]; exact hin.1)
    have := ih _ h1 (h3.trans hd) (by rw [h2]; exact hin.2)
    simp only [runHist]
    rw [← h2]
    refine ⟨⟨?_, this.1⟩, this.2⟩
    rcases h4 with h4 | ⟨_, h4, h5⟩
    · exact Or.inl h4
    · exact Or.inr ⟨h5, h4⟩

/-- A history meeting the hypotheses. -/
example : ∃ s, SparseStart s [some 1, none, some 3, none, some 5] ∧
    SeqHistIn (α := Nat) (· == ·) false [some 1, none, some 3, none, some 5]
      [.reverse, .remove (some 3), .index none (-3) (some 5), .count none, .extend [some 2, some 4], .clear,
        .extend [some 7], .extendSelf, .reversed] :=
  ⟨_, .values _ _ rfl, by
    simp [SeqHistIn, seqDom, listSeqStep, firstIndex, List.find?, List.range, List.range.loop, bound, usedCount]⟩

/-- The full C69 is false: reversing a sparse array with two values raises AssertionError at the first swap and loses a value.
Python: `a = SparseArrayProperties([1, 2, JSHole, JSHole]); a.reverse()`. -/
theorem C69_reverse_loses :
    ∃ s : Sparse Nat, SparseStart s [some 1, some 2, none, none] ∧
      (seqStep (· == ·) (.sparse s) .reverse).2 = .error .assertionError ∧
      (seqStep (· == ·) (.sparse s) .reverse).1.toList = [none, some 2, none, none] :=
  ⟨_, .values _ _ rfl, by decide +kernel⟩

/-- Extending a sparse array with holes drops them, so `a.extend(a)` does not double the length. -/
theorem C69_extend_self_holes :
    ∃ s : Sparse Nat, SparseStart s [some 1, none] ∧
      (seqStep (· == ·) (.sparse s) .extendSelf).2 = .ok (.base .unit) ∧
      (seqStep (· == ·) (.sparse s) .extendSelf).1.toList = [some 1, none, some 1] :=
  ⟨_, .values _ _ rfl, by decide +kernel⟩

/-- `clear` always empties either kind of array, without an error, whatever was done to it before. -/
theorem C69_clear (same : Option α → Option α → Bool) (dense : Bool) (s : Sparse α) (l : List (Option α))
    (hs : SparseStart s l) (ops : List (SeqOp α)) (hin : SeqHistIn same dense l ops) :
    let a := if dense then Arr.dense (Dense.ofValues l) else .sparse s
    (seqStep same (runHist (seqStep same) a ops).1 .clear).2 = .ok (.base .unit) ∧
    (seqStep same (runHist (seqStep same) a ops).1 .clear).1.toList = [] ∧
    (seqStep same (runHist (seqStep same) a ops).1 .clear).1.len = 0 ∧
    (seqStep same (runHist (seqStep same) a ops).1 .clear).1.used = 0 := by
  obtain ⟨hinv, rfl⟩ := sparse_start_inv hs
  intro a
  have H : ∀ (ops : List (SeqOp α)) (a : Arr α), a.Inv → SeqHistIn same a.isDense a.abs ops →
      (runHist (seqStep same) a ops).1.Inv := by
    intro ops
    induction ops with
    | nil => intro a ha _; exact ha
    | cons op ops ih =>
      intro a ha hin
      obtain ⟨h1, h2, h3, _⟩ := seq_step same ha op hin.1
      exact ih _ h1 (by rw [h2, h3]; exact hin.2)
  have h1 : (runHist (seqStep same) a ops).1.Inv := by
    cases dense with
    | true => exact H ops (.dense (Dense.ofValues s.abs)) rfl hin
    | false => exact H ops (.sparse s) hinv hin
  obtain ⟨a', h2, h3, _, h4⟩ := Arr.clear_spec h1
  simp only [seqStep, seqStep.done, h2]
  rw [Arr.toList_eq h3, Arr.len_eq h3, Arr.used_eq h3, h4]
  exact ⟨trivial, rfl, rfl, rfl⟩

end V8.Props
