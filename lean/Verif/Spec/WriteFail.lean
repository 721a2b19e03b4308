import Verif.Model.WriteFail

/-!
# What may change in a stream when a write method is called (C91)
-/

namespace V8.Spec.WriteFail
open V8 V8.WriteFail

/-- The stream only got longer: what was written is still there, and the objects that had a number still have it. -/
structure Later (ws ws' : WS) : Prop where
  data : ws.data <+: ws'.data
  log : ∀ (i : Nat) s, ws.log.slots[i]? = some s → ws'.log.slots[i]? = some s

/-- A method that only makes the stream longer, whether it raises or not. -/
def OnlyAppends (m : Wx) : Prop := ∀ ws, Later ws (m ws).1

/-- A method that leaves no constraint on tags behind if there was none, whether it raises or not. -/
def NoConstraintLeft (m : Wx) : Prop := ∀ ws, ws.allowed = none → (m ws).1.allowed = none

/-- The methods for values without parts, other than `write_double` and the objects. -/
def Simple : Call → Prop
  | .tag _ | .varint _ | .zigzag _ | .header | .oneByte _ | .twoByte _ | .utf8 _ | .bigint _ | .int32 _ | .uint32 _
  | .reference _ => True
  | _ => False

/-- A call that the method itself refuses, by a check at its beginning: an array that is too long, a resizable buffer that
is larger than its maximum, a negative id, a Float16Array without the feature, a date without a timestamp. -/
inductive Refused (env : XEnv) : Call → Prop
  | length {l length identity} : length < 0 ∨ length > maxArrayLength → Refused env (.sparse l length identity)
  | max {b : ABuf} {identity} : b.max < b.exposed.length → Refused env (.resizableBuffer b identity)
  | id {t id identity} : id < 0 → Refused env (.bufferId t id identity)
  | feature {v : View} {mv resizable identity} :
      v.tag = .float16 → env.feats.float16Array = false → Refused env (.view v mv resizable identity)
  | timestamp {d identity e} : env.py.dateMs d = .error e → Refused env (.date d identity)

/-- The same method in `Model/Encode`, where it has a model. -/
def plain (env : XEnv) (rec : Val → Wr) : Call → Option Wr
  | .tag t => some (writeTag t)
  | .constant t => some (writeConstant t)
  | .double (.float x) => some (writeDoubleTagged x)
  | .oneByte s => some (writeTagged .kOneByteString (writeStringOneByte s))
  | .utf8 s => some (writeTagged .kUtf8String (writeStringUtf8 s))
  | .bigint n => some (writeTagged .kBigInt (writeBigint n))
  | .int32 n => some (writeTagged .kInt32 (writeInt32 n))
  | .uint32 n => some (writeTagged .kUint32 (writeUint32 n))
  | .primObj p identity => some (writePrimObj p identity)
  | .regexp r => some (writeRegExp r)
  | .error name message stack cause identity =>
    some (writeError env.feats.circularErrorCause rec identity name message stack cause)
  | .date d identity => some (writeDate env.py d identity)
  | .map l identity => some (writeJSMap rec l identity)
  | .set l identity => some (writeJSSet rec l identity)
  | .object l identity => some (writeJSObject rec l identity)
  | .dense els l identity => some (writeDenseArray rec els l identity)
  | .sparse l length identity => some (writeSparseArray rec l length identity)
  | .reference v => some (writeReference v)
  | .fixedBuffer data identity => some (writeFixedBuffer data identity)
  | .resizableBuffer b identity => some (writeResizableBuffer b identity)
  | .bufferId t id identity => some (writeBufferId t id identity)
  | .view v mv resizable identity => some (writeView env.feats v mv resizable identity)
  | .sharedRef id identity => some (writeSharedRef id identity)
  | _ => none

/-- The two models agree: the same exception, or the same stream. -/
def Agree (m : Wx) (w : Wr) : Prop :=
  ∀ ws, w ws = match (m ws).2 with
    | none => .ok (m ws).1
    | some e => .error e

end V8.Spec.WriteFail
