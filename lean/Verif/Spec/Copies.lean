import Verif.Model.Copies

/-! # What a copy of a container should be -/

namespace V8.Spec

open V8.Copies


/-- A JSMap that some program has made. -/
inductive MadeMap : JSMap Val → Prop where
  | empty : MadeMap []
  | set {m k v} : MadeMap m → MadeMap (m.setitem k v).1
  | del {m k} : MadeMap m → MadeMap (m.delitem k).1

/-- A JSSet that some program has made. -/
inductive MadeSet : JSSet → Prop where
  | empty : MadeSet []
  | add {s v} : MadeSet s → MadeSet (s.add v).1
  | discard {s v} : MadeSet s → MadeSet (s.discard v).1

/-- `v'` is the deep copy of `v`: another object for an object, otherwise the value itself. -/
inductive CopyOf (φ : Id → Except PyExc Id) : Val → Val → Prop where
  | object {i j} : φ i = .ok j → CopyOf φ (.obj i) (.obj j)
  | value {v} : (∀ i, v ≠ .obj i) → CopyOf φ v v

/-- One answer of a lookup is the copy of the other; exceptions are the same. -/
inductive CopiedAnswer (φ : Id → Except PyExc Id) : Except PyExc Val → Except PyExc Val → Prop where
  | ok {v v'} : CopyOf φ v v' → CopiedAnswer φ (.ok v) (.ok v')
  | error {e} : CopiedAnswer φ (.error e) (.error e)

end V8.Spec
