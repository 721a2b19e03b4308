import Verif.Model.Iteration

/-!
# What a loop over an object may rely on

The words in which C88 is stated.
-/

namespace V8.Spec.Iter
open V8.Iter
variable {α : Type}

/-- The object has a property of that name. -/
def Has (o : JSObj α) (k : PKey) : Prop := ∃ v, o.getitem k = .ok v

/-- A change that takes the property `k` away, if there is one. -/
def Removes (k : PKey) (c : Change α) : Prop := c = .del k ∨ c = .set k none

/-- The keys of a change are array indexes below 2^32 - 1 or names. -/
def Proper : Change α → Prop
  | .set (.idx n) _ | .del (.idx n) => n < 2 ^ 32 - 1
  | _ => True

/-- All the changes of a loop. -/
def Within (script : List (List (Change α))) (c : Change α) : Prop := ∃ cs ∈ script, c ∈ cs

/-- The keys that come. -/
def came (r : List (PKey × JSObj α) × Option Ending) : List PKey := r.1.map (·.1)

end V8.Spec.Iter
