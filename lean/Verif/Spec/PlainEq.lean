import Verif.Model.PlainEq
import Mathlib.Data.List.Basic

/-!
# When containers of Python count as equal

A dict or set is a list of entries whose keys are hashable and pairwise unequal.  Two of them are equal when
their entries can be matched one to one.
-/

namespace V8.Spec

/-- The elements of the two lists agree one to one, in order. -/
def AgreeInOrder {α : Type} (R : α → α → Prop) (a b : List α) : Prop := List.Forall₂ R a b

/-- The elements of the two lists agree one to one, in any order. -/
def AgreeInAnyOrder {α : Type} (R : α → α → Prop) (a b : List α) : Prop :=
  ∃ b', b'.Perm b ∧ List.Forall₂ R a b'

/-- `v is w or v == w` -/
def Equal (py : PyCompare) (v w : Val) : Prop := py.same v w = true ∨ py.eq v w = .ok true

/-- Two (key, value) pairs with equal keys and equal values. -/
def EqualPair (py : PyCompare) (x y : Val × Val) : Prop := Equal py x.1 y.1 ∧ Equal py x.2 y.2

/-- `hash(v)` works. -/
def CanHash (py : PyCompare) (v : Val) : Prop := (py.hash v).isSome

/-- The keys of a dict, or the members of a set. -/
def DistinctKeys (py : PyCompare) (ks : List Val) : Prop :=
  (∀ k ∈ ks, CanHash py k) ∧ ks.Pairwise (fun a b => ¬ Equal py a b)

/-- What Python asks of hashable values: `is` is reflexive, and among hashable values `==` does not raise, is symmetric
and transitive together with `is`, and equal values have the same hash. -/
structure HashesWell (py : PyCompare) : Prop where
  refl : ∀ v, py.same v v = true
  total : ∀ v w, CanHash py v → CanHash py w → ∃ b, py.eq v w = .ok b
  symm : ∀ v w, CanHash py v → CanHash py w → Equal py v w → Equal py w v
  trans : ∀ u v w, CanHash py u → CanHash py v → CanHash py w →
    Equal py u v → Equal py v w → Equal py u w
  hash : ∀ v w, CanHash py v → CanHash py w → Equal py v w → py.hash v = py.hash w

end V8.Spec
