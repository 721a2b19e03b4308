import Verif.Spec.PlainEq
import Verif.Spec.ObjEntries
import Verif.Model.ObjViews

/-!
# Property keys as members of Python sets
-/

namespace V8.Spec

/-- What Python does with the keys of a JSObject, which are ints and strs: all are hashable, and different ones are
not equal. -/
structure PlainKeys (py : PyCompare) : Prop where
  hash : ∀ k : PKey, CanHash py k.toVal
  equal : ∀ k k' : PKey, Equal py k.toVal k'.toVal ↔ k = k'

/-- A property key in the form in which JSObject stores it: an int from 0 to 2**32 - 2, or a str that does not spell
one of these. -/
def StoredKey (floatStr : F64 → Str) (k : PKey) : Prop := normaliseVal floatStr k.toVal = .ok k

/-- A JSObject or JSArray as the API makes them: by some history of operations on a new one, with keys that come out of
`normalise_property_key`. -/
def BuiltObject {β : Type} (floatStr : F64 → Str) (o : JSObj β) : Prop :=
  ∃ ops : List (ObjOpX β), (∀ op ∈ ops, ∀ k, op.key = some k → ∃ v, normaliseVal floatStr v = .ok k) ∧
    o = (runHist objStepX JSObj.empty ops).1

/-- The list has these keys, each once: a set of keys. -/
def SetOf (r : List PKey) (P : PKey → Prop) : Prop := r.Nodup ∧ ∀ k, k ∈ r ↔ P k

/-- The two properties have the same key and equal values. -/
def SameProperty (py : PyCompare) (e e' : PKey × Val) : Prop := e'.1 = e.1 ∧ Equal py e'.2 e.2

end V8.Spec
