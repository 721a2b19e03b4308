import Verif.Spec.PlainEq
import Verif.Spec.JSCollections

/-!
# What a Python set keeps of the values put into it
-/

namespace V8.Spec

/-- `r` is what a Python set keeps of the values `l`: some of them, pairwise unequal, and up to any place of `l`
every value has an equal one that is kept (so of equal values the first one is kept). -/
def Keeps (py : PyCompare) (l r : List Val) : Prop :=
  r.Sublist l ∧ DistinctKeys py r ∧ ∀ n, ∀ v ∈ l.take n, ∃ w ∈ r, w ∈ l.take n ∧ Equal py w v

/-- The two entries of a JSMap have the same key (as SameValueZero) and equal values. -/
def SameEntry (py : PyCompare) (e e' : Val × Val) : Prop := SameValueZero e'.1 e.1 ∧ Equal py e'.2 e.2

end V8.Spec
