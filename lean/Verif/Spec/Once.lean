import Verif.Spec.Reach

/-!
# Specification: objects that occur once

A tree: no object is met twice on the way through the data.
-/

namespace V8.Spec

/-- The values that get a number: objects and `bytes`, except RegExp and Error without cause. -/
def Numbered (env : EEnv) : Val → Prop
  | .obj i => ¬ IsUnlogged env (.obj i)
  | .bytes _ => True
  | _ => False

/-- Each of them occurs at most once, as the value `v` itself or inside an object. -/
def MentionedOnce (env : EEnv) (v : Val) : Prop :=
  ∀ x, Numbered env x → (v :: env.heap.flatMap members).count x ≤ 1

/-- Either the data has none of the objects that encoder and decoder number differently, or it has no object
twice. -/
def NumbersAgree (env : EEnv) (v : Val) : Prop :=
  NumberedAlike env ∨ NoTwins env ∧ MentionedOnce env v

end V8.Spec
