import Verif.Proofs.Regions
import Verif.Proofs.RegionsText
import Verif.Proofs.ReprWritten

/-!
# C96: the text of array properties

`str()` of DenseArrayProperties and SparseArrayProperties (jsarrayproperties.py:107-171).  `a.abs` is the array as a list with
holes (C27, C28).
-/

namespace V8.Props

open V8 V8.Regions V8.Spec.Regions V8.Spec.ReprWritten

/-- `[1, <hole>, <hole>, 2]`, dense … -/
def exampleDenseRuns : Arr Nat := .dense ⟨[some 1, none, none, some 2], 2⟩

/-- … and sparse, with keys that are not sorted. -/
def exampleSparseRuns : Arr Nat := .sparse ⟨[(3, 2), (0, 1)], none, 3⟩

theorem exampleRuns_inv : exampleDenseRuns.Inv ∧ exampleSparseRuns.Inv := by
  refine ⟨rfl, ⟨by decide +kernel, by decide +kernel, by decide +kernel, fun l hl => by cases hl⟩⟩

/-- **C96, regions**: `alternating_regions` divides an array into its longest runs of elements and of holes. -/
theorem C96_regions {α : Type} (a : Arr α) (h : a.Inv) : Divide 0 (alternatingRegions a) a.abs := by
  have hd := regionsFrom_divide a.abs 0
  rw [Nat.zero_add] at hd
  rw [alternating_eq h]
  exact hd

example : alternatingRegions exampleSparseRuns = [.occupied 0 [1], .empty 1 2, .occupied 3 [2]] := by decide +kernel

/-- Regions that are not the longest runs, or are not where they say, do not divide the array. -/
example : ¬ Divide 0 [.empty 0 1, .empty 1 1] [none, (none : Option Nat)] ∧ ¬ Divide 0 [.occupied 1 [5]] [some 5] ∧
    ¬ Divide 0 [.occupied 0 [5]] [some 5, none] := by
  simp [Divide, isEmpty, startOf, content]

/-- **C96, iteration**: iterating over the regions, as SparseArrayProperties does, gives each element and hole once, in
order. -/
theorem C96_iter {α : Type} (a : Arr α) (h : a.Inv) : iterRegions (alternatingRegions a) = a.abs :=
  iter_divide (C96_regions a h)

example : iterRegions (alternatingRegions exampleSparseRuns) = [some 1, none, none, some 2] :=
  C96_iter exampleSparseRuns exampleRuns_inv.2

/-- The other reading of `__iter__`, in `Model/ArrayProps`, gives the same. -/
theorem C96_iter_same {α : Type} (s : Sparse α) (h : s.Inv) : iterRegions (alternatingRegions (.sparse s)) = s.toList :=
  (C96_iter (.sparse s) h).trans (Arr.toList_eq (a := .sparse s) h).symm

example : iterRegions (alternatingRegions exampleSparseRuns) = (⟨[(3, 2), (0, 1)], none, 3⟩ : Sparse Nat).toList :=
  C96_iter_same _ exampleRuns_inv.2

/-- There is one way to divide an array, so this says what `alternating_regions` yields. -/
theorem C96_unique {α : Type} {k : Nat} {rs rs' : List (Region α)} {l : List (Option α)} (h : Divide k rs l)
    (h' : Divide k rs' l) : rs = rs' := divide_unique h h'

example : Divide 0 [.occupied 0 [1], .empty 1 2, .occupied 3 [2]] [some 1, none, none, some 2] := by
  simp [Divide, isEmpty, startOf, content]

/-- **C96, text**: `str()` shows the elements in order, and each longest run of holes by its length. -/
theorem C96_text {α : Type} (repr : α → List Char) (a : Arr α) (h : a.Inv) {rs : List (Region α)} (hrs : Divide 0 rs a.abs) :
    arrayStr repr a = ['[', ' '] ++ commas (rs.flatMap (shown repr)) ++ [' ', ']'] := by
  rw [divide_unique hrs (C96_regions a h)]
  have ht : regionTexts repr = shown repr := by
    funext r
    cases r with
    | empty s n =>
      unfold regionTexts shown
      dsimp only
      rw [String.toList_append, String.toList_append]
      rfl
    | occupied s vs => rfl
  unfold arrayStr
  rw [ReprText.joinWith_commas, ht]
  rfl

example : arrayStr (fun n : Nat => (toString n).toList) exampleSparseRuns = "[ 1, <2 empty items>, 2 ]".toList := by decide +kernel

/-- An array without elements has two spaces. -/
example : arrayStr (fun n : Nat => (toString n).toList) (.dense ⟨[], 0⟩) = "[  ]".toList ∧
    arrayStr (fun n : Nat => (toString n).toList) (.dense ⟨[none], 0⟩) = "[ <1 empty items> ]".toList := by decide +kernel

/-- **C96, storage**: dense and sparse arrays with the same elements and length have the same regions and text. -/
theorem C96_same {α : Type} (repr : α → List Char) (a b : Arr α) (ha : a.Inv) (hb : b.Inv) (h : a.abs = b.abs) :
    alternatingRegions a = alternatingRegions b ∧ arrayStr repr a = arrayStr repr b := by
  have hr : alternatingRegions a = alternatingRegions b := by
    have h2 := C96_regions b hb
    rw [← h] at h2
    exact divide_unique (C96_regions a ha) h2
  refine ⟨hr, ?_⟩
  unfold arrayStr
  rw [hr]

example : alternatingRegions exampleDenseRuns = alternatingRegions exampleSparseRuns ∧
    arrayStr (fun n : Nat => (toString n).toList) exampleDenseRuns = arrayStr (fun n : Nat => (toString n).toList) exampleSparseRuns :=
  C96_same _ _ _ exampleRuns_inv.1 exampleRuns_inv.2 (by decide +kernel)

example : Divide 0 (alternatingRegions exampleSparseRuns) [some 1, none, none, some 2] :=
  C96_regions exampleSparseRuns exampleRuns_inv.2

/-- **C96, distinct**: arrays with the same text have the same elements, holes and length, if the texts of elements tell
elements apart, are not empty, have no comma and do not begin with `<`. -/
theorem C96_distinct {α : Type} (repr : α → List Char) (hi : ∀ v w, repr v = repr w → v = w)
    (hr : ∀ v, repr v ≠ [] ∧ ',' ∉ repr v ∧ (repr v).head? ≠ some '<') (a b : Arr α) (ha : a.Inv) (hb : b.Inv)
    (h : arrayStr repr a = arrayStr repr b) : a.abs = b.abs := by
  rw [C96_text repr a ha (C96_regions a ha), C96_text repr b hb (C96_regions b hb)] at h
  have h := List.append_cancel_left (List.append_cancel_right h)
  have hp := shown_pieces repr (fun v => ⟨(hr v).1, (hr v).2.1⟩)
  exact shown_same repr hi (fun v => (hr v).2.2) (C96_regions a ha) (C96_regions b hb) (commas_same _ _ h (hp _) (hp _))

/-- The numbers meet this: their texts are digits. -/
example (a b : Arr Nat) (ha : a.Inv) (hb : b.Inv)
    (h : arrayStr (fun n : Nat => (Nat.repr n).toList) a = arrayStr (fun n : Nat => (Nat.repr n).toList) b) : a.abs = b.abs := by
  refine C96_distinct _ (fun v w hvw => Nat.repr_injective (String.toList_inj.1 hvw)) (fun v => ?_) a b ha hb h
  have hd : ∀ c ∈ (Nat.repr v).toList, c.isDigit = true := by
    intro c hc
    rw [Nat.toList_repr] at hc
    exact Nat.isDigit_of_mem_toDigits (by decide) (by decide) hc
  refine ⟨?_, fun hc => absurd (hd _ hc) (by decide), fun hc => absurd (hd _ (List.mem_of_mem_head? hc)) (by decide)⟩
  rw [Nat.toList_repr]
  exact Nat.toDigits_ne_nil

/-- Without them it fails: an element may be shown as the holes are. -/
example : arrayStr (fun _ : Nat => "<1 empty items>".toList) (.dense ⟨[some 1], 1⟩) =
    arrayStr (fun _ : Nat => "<1 empty items>".toList) (.dense ⟨[none], 0⟩) := by decide +kernel

end V8.Props
