import Verif.Model.Regions

/-!
# Runs of elements and of holes
-/

namespace V8.Spec.Regions

open V8 V8.Regions

/-- The part of the array that a region stands for. -/
def content {α : Type} : Region α → List (Option α)
  | .empty _ length => List.replicate length.toNat none
  | .occupied _ items => items.map some

/-- The index at which a region says it starts. -/
def startOf {α : Type} : Region α → Int
  | .empty start _ => start
  | .occupied start _ => start

/-- Whether a region is one of holes. -/
def isEmpty {α : Type} : Region α → Bool
  | .empty _ _ => true
  | .occupied _ _ => false

/-- The regions divide the array `l`, which begins at index `k`, into its longest runs: each region is where it says, has
a length of its own of at least 1, and is of the other kind than the one before. -/
def Divide {α : Type} (k : Nat) : List (Region α) → List (Option α) → Prop
  | [], l => l = []
  | r :: rest, l =>
    startOf r = k ∧ content r ≠ [] ∧ (∀ r' ∈ rest.head?, isEmpty r' ≠ isEmpty r) ∧
      ∃ l', l = content r ++ l' ∧ Divide (k + (content r).length) rest l'

/-- What is shown of a region: the number of holes, or the elements. -/
def shown {α : Type} (repr : α → List Char) : Region α → List (List Char)
  | .empty _ length => [['<'] ++ (toString length).toList ++ " empty items>".toList]
  | .occupied _ items => items.map repr

end V8.Spec.Regions
