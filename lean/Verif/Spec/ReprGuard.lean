import Verif.Model.ReprGuard

/-!
# What the recursion guard of `repr()` has to do (C89)
-/

namespace V8.Spec.ReprGuard
open V8.ReprGuard

/-- The classes of the package whose `repr()` shows other objects, and those of Python that hold other objects or bytes.
-/
def known : List String :=
  ["JSObject", "JSArray", "JSMap", "JSSet", "JSError", "JSArrayBuffer"] ++
  ["tuple", "list", "set", "frozenset", "dict", "deque", "array", "bytes", "bytearray", "memoryview"]

/-- What the text of an object should be: the name of its class, then the texts of its parts, each one level deeper, or
`...` for an object whose text is being made and for everything below the last level.  `path` are the objects around. -/
inductive Shows (h : Heap) : (path : List Id) → (level : Nat) → Id → Text → Prop
  /-- nothing is shown below the last level -/
  | deep (path : List Id) (x : Id) : Shows h path 0 x .fill
  /-- an object inside itself is `...` -/
  | again {path : List Id} {level : Nat} {x : Id} : x ∈ path → Shows h path level x .fill
  /-- numbers, strings, ... -/
  | scalar {path : List Id} {level : Nat} {x : Id} : 0 < level → x ∉ path → h[x]? = none → Shows h path level x (.scalar x)
  /-- an object: its class and its parts -/
  | parts {path : List Id} {level : Nat} {x : Id} {nd : Node} {ts : List Text} :
      0 < level → x ∉ path → h[x]? = some nd → ts.length = nd.parts.length →
      (∀ (i : Nat) y t, nd.parts[i]? = some y → ts[i]? = some t → Shows h (x :: path) (level - 1) y t) →
      Shows h path level x (.shown nd.typename ts)

/-- The objects that are in the shared set because of thread `t`. -/
def Running {β : Type} (s : Process β) (t : Thread) (x : Id) : Prop := (x, t) ∈ s.guard

/-- Thread `t` is finished and has the result `r`. -/
def Finished {β : Type} (s : Process β) (t : Thread) (r : β) : Prop := s.todo t = .done r

end V8.Spec.ReprGuard
