import Verif.Model.MapLoop

/-!
# Loops over dicts that change (C92)
-/

namespace V8.Spec.MapLoop
open V8 V8.MapLoop
variable {κ β : Type} [DecidableEq κ]

/-- A change that leaves the keys as they are: storing under a key that is there, or deleting one that is not. -/
def KeepsKeys (keys : List κ) : Change κ β → Prop
  | .put k _ _ => k ∈ keys
  | .erase k => k ∉ keys
  | .clear => False

/-- A change that leaves the other entries in their places. -/
def InPlace : Change κ β → Prop
  | .put _ _ rebuild => rebuild = false
  | .erase _ => True
  | .clear => False

/-- A change that takes the key away, if it is there. -/
def Removes (k : κ) : Change κ β → Prop
  | .put _ _ _ => False
  | .erase k' => k' = k
  | .clear => True

/-- The keys that come. -/
def keys (r : Result κ β) : List κ := r.came.map (·.1.1)

end V8.Spec.MapLoop
