import Verif.Spec.Errors

/-!
# What the texts of exceptions show (C90)
-/

namespace V8.Spec.ErrorTexts
open V8 V8.Errors

/-- The names of the parameters of a class. -/
def params (c : Cls) : List String := (c.sig.positional ++ c.sig.keyword).map (·.1)

/-- `a=1, b=2` -/
def listing (repr : Val → Str) : List (String × Val) → Str
  | [] => []
  | [(n, v)] => str n ++ str "=" ++ repr v
  | (n, v) :: p :: t => str n ++ str "=" ++ repr v ++ str ", " ++ listing repr (p :: t)

/-- The list has each of these names once, with the value that the exception has for it now. -/
def Values (e : Err) (names : List String) (l : List (String × Val)) : Prop :=
  (l.map (·.1)).Perm names ∧ ∀ p ∈ l, e.get p.1 = .ok p.2

end V8.Spec.ErrorTexts
