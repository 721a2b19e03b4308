import Verif.Model.JSObject
import Verif.Model.Config
import Verif.Model.Buffers
import Verif.Model.ObjectLog
import Verif.Model.Tags

/-!
# Python objects the codec works on

A heap gives each object identity its content.  The encoder reads a heap, the decoder builds one.
-/

namespace V8

/-- A `JSPrimitiveObject`, jstypes/jsprimitiveobject.py:57-91: the tag is determined by the value,
except that an int in the safe range may carry either the Number tag (`safeInt`) or the BigInt tag
(`bigint`). -/
inductive PrimObj where
  | str (s : Str)
  | bool (b : Bool)
  | float (x : F64)
  | safeInt (n : Int)
  | bigint (n : Int)
  deriving DecidableEq, Repr

/-- `obj.value`. -/
def PrimObj.value : PrimObj → Val
  | .str s => .str s
  | .bool b => .bool b
  | .float x => .float x
  | .safeInt n => .int n
  | .bigint n => .int n

/-- `obj.tag`, jstypes/jsprimitiveobject.py:62-91 -/
def PrimObj.tag : PrimObj → Tag
  | .str _ => .kStringObject
  | .bool true => .kTrueObject
  | .bool false => .kFalseObject
  | .float _ => .kNumberObject
  | .safeInt _ => .kNumberObject
  | .bigint _ => .kBigIntObject

/-- The content of a Python object, by the type that `TagWriter.encode` dispatches on
(encode.py:874-1089).
* `jsmap`: any `Mapping` that is not a JSObject (JSMap, dict): its `items()`.
* `jsset`: any `Set`: its members in iteration order.
* `pylist`: any other `Collection` (list, tuple): its elements.
* `date`: a `datetime`, as an opaque number; see `PyEnv`.
* `regexp`: a JSRegExp (an `re.Pattern` is converted to one, encode.py:945).
* `error`: JSErrorData or JSError; a Python exception is represented by the JSErrorData that
  `from_exception` makes of it (encode.py:957-959), under the exception's own identity.
  `cause = null` is `cause is None`.
* `rawBuf`: a bytearray (`true`) or a memoryview (`false`).
* `sharedBuf`, `transferBuf`: JSSharedArrayBuffer, JSArrayBufferTransfer.
* `view`: a JSTypedArray or JSDataView on a backing buffer.
* `sharedRef`: V8SharedObjectReference.
* `other`: a type no default step handles. -/
inductive Node where
  | jsmap (entries : List (Val × Val))
  | jsset (members : List Val)
  | jsobj (o : JSObj Val)
  | jsarr (o : JSObj Val)
  | pylist (els : List Val)
  | date (d : Int)
  | primObj (p : PrimObj)
  | regexp (r : RegExp)
  | error (name : Str) (message stack : Option Str) (cause : Val)
  | abuf (b : ABuf)
  | rawBuf (isBytearray : Bool) (b : Bytes)
  | sharedBuf (id : Int)
  | transferBuf (id : Int)
  | view (backing : Val) (v : View)
  | sharedRef (id : Int)
  | other
  deriving DecidableEq, Repr

/-- Object contents by identity. -/
abbrev Heap := List Node

/-- Behaviour of the Python runtime that is not modelled and left open:
* `floatStr`: `str(x)` of a float that is not an integer;
* `dateMs`: `value.timestamp() * 1000` of a datetime (encode.py:426), or the exception it raises;
* `msDate`: `datetime.fromtimestamp(ms / 1000, tz=tz)` (decode.py:521), or the exception it raises
  (ValueError, OverflowError). -/
structure PyEnv where
  floatStr : F64 → Str
  dateMs : Int → Except PyExc F64
  msDate : F64 → Except PyExc Int

/-- A value as an array element or property: `none` is JSHole. -/
def Val.toElem : Val → Option Val
  | .hole => none
  | v => some v

/-- An array element as a value. -/
def elemVal : Option Val → Val
  | none => .hole
  | some v => v

/-- A property key as a value: int or str. -/
def PKey.toVal : PKey → Val
  | .idx n => .int n
  | .name s => .str s

/-- The contents `get_buffer(backing)` gives access to (jsbuffers.py:551-560); `none`
when they cannot be accessed (NotImplementedError). -/
def backingBytes (h : Heap) : Val → Option Bytes
  | .bytes b => some b
  | .obj i =>
    match h[i]? with
    | some (.abuf b) => some b.exposed
    | some (.rawBuf _ b) => some b
    | _ => none
  | _ => none

/-- `is_backing_buffer_resizable`, jsbuffers.py:533-538 -/
def backingResizable (h : Heap) : Val → Bool
  | .obj i =>
    match h[i]? with
    | some (.abuf b) => b.resizable
    | some (.rawBuf isBytearray _) => isBytearray
    | _ => false
  | _ => false

end V8
