import Verif.Spec.SameForm
import Verif.Spec.Reach

/-!
# Specification: graphs that come back in a form that is written alike

The Python values that have more than one form in memory for one form in a message.
-/

namespace V8.Spec

/-- What is asked of each object:
* the keys of a Map and the members of a Set are different values (which the classes guarantee),
* a list contains no JSHole (it comes back as a JSArray, which may be written in another way),
* an Error has a message (one without comes back with an empty one),
* only an ArrayBuffer that is written as resizable makes a view follow its length. -/
def NodeRestorable (env : EEnv) : Node → Prop
  | .jsmap es => es.Pairwise (fun a b => ¬ SameValueZero a.1 b.1)
  | .jsset ms => ms.Pairwise (fun a b => ¬ SameValueZero a b)
  | .pylist l => ∀ v ∈ l, v ≠ .hole
  | .error _ msg _ _ => msg ≠ none
  | .view b _ => backingResizable env.heap b = true →
      ∃ i c, b = .obj i ∧ env.heap[i]? = some (.abuf c) ∧ env.feats.resizableArrayBuffers = true
  | _ => True

/-- All float zeros have one sign. -/
def OneZero (env : EEnv) (v : Val) : Prop :=
  ∀ x y, (.float x = v ∨ ∃ (i : Id) (n : Node), env.heap[i]? = some n ∧ .float x ∈ members n) →
    (.float y = v ∨ ∃ (i : Id) (n : Node), env.heap[i]? = some n ∧ .float y ∈ members n) →
    fval x = .fin 0 → fval y = .fin 0 → x = y

/-- Not the wrapper object of a primitive (which comes back as the primitive). -/
def Unwrapped (env : EEnv) : Val → Prop
  | .obj i => ∀ p, env.heap[i]? ≠ some (.primObj p)
  | _ => True

/-- A graph whose objects come back in a form that is written alike. -/
structure Restorable (env : EEnv) (v : Val) : Prop where
  nodes : ∀ (i : Id) (n : Node), env.heap[i]? = some n → NodeRestorable env n
  root : Unwrapped env v
  inside : ∀ (i : Id) (n : Node), env.heap[i]? = some n → ∀ c ∈ members n, Unwrapped env c
  zeros : OneZero env v
  twins : NoTwins env

end V8.Spec
