import Verif.Model.Heap

/-!
# The constructor of JSPrimitiveObject

Models `src/v8serialize/jstypes/jsprimitiveobject.py`.
-/

namespace V8

/-- The checks of `JSPrimitiveObject.__init__` on the type of the value, jsprimitiveobject.py:62-79:
the tag it expects, and a second one it allows.  `none` is the TypeError of line 79.  `value is True`
comes before the test for `int`. -/
def expectedTags : Val → Option (Tag × Option Tag)
  | .str _ => some (.kStringObject, none)
  | .bool true => some (.kTrueObject, none)
  | .bool false => some (.kFalseObject, none)
  | .float _ => some (.kNumberObject, none)
  | .int n =>
    if inSafeInt n then some (.kNumberObject, some .kBigIntObject) else some (.kBigIntObject, none)
  | _ => none

/-- `JSPrimitiveObject(value, tag)`, jsprimitiveobject.py:59-91: the value and the tag stored. -/
def mkPrimObject (value : Val) (tag : Option Tag) : Except PyExc (Val × Tag) :=
  match expectedTags value with
  | none => .error .typeError
  | some (t1, t2) =>
    match tag with
    | none => .ok (value, t1)
    | some t => if t1 ≠ t ∧ t2 ≠ some t then .error .valueError else .ok (value, t)

end V8
