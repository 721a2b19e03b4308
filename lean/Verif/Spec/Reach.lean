import Verif.Spec.Size

/-!
# Specification: what can be reached from a value

By going from an object to the values it contains (`members`).  An object may be exchanged for one that
stands for it (`OneObject`); where no two objects compare equal, this is being the same object.
-/

namespace V8.Spec

/-- `z` is `a`, or inside `a` at some depth. -/
inductive Reaches (env : EEnv) : Val → Val → Prop
  | here {a z : Val} : OneObject env a z → Reaches env a z
  | inside {a c z : Val} {i : Id} {n : Node} : OneObject env a (.obj i) → env.heap[i]? = some n → c ∈ members n →
      Reaches env c z → Reaches env a z

/-- `z` is `a`, or inside `a` by way of objects with numbers above `n`. -/
inductive ReachesLater (env : EEnv) (num : Val → Option Nat) (n : Nat) : Val → Val → Prop
  | here {a z : Val} : OneObject env a z → ReachesLater env num n a z
  | inside {a c z : Val} {i : Id} {k : Nat} {node : Node} : OneObject env a (.obj i) → num (.obj i) = some k → n < k →
      env.heap[i]? = some node → c ∈ members node → ReachesLater env num n c z → ReachesLater env num n a z

/-- Object `i` is an Error whose cause leads back to it. -/
def InOwnCause (env : EEnv) (i : Id) : Prop :=
  ∃ name msg stack cause, env.heap[i]? = some (.error name msg stack cause) ∧ cause ≠ .null ∧ Reaches env cause (.obj i)

/-- No two objects compare equal. -/
def NoTwins (env : EEnv) : Prop := ∀ i j, Interchangeable env i j → i = j

end V8.Spec
