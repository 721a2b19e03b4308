import Verif.Model.Heap
import Verif.Model.Header

/-!
# The decoder

Models `src/v8serialize/decode.py`: `ReadableTagStream`, `TagReader` with its default options,
`DefaultDecodeContext`, `Decoder.decodes` and `loads`, and the Node.js host object reader of
`extensions.py`.
Simplifications: Python's recursion limit is not modelled; custom TagReader options (other container
types, constants, error builders, tag readers) are not modelled; a container under construction is
kept outside the heap and put into its heap cell when it is complete (its identity exists and is
recorded from the start, and nothing reads the contents of an unfinished container; `Model/InPlace` fills
it in place, and `C81_in_place` shows that the results are the same).
-/

namespace V8

/-- State of a `ReadableTagStream` (decode.py:158-163), and the objects made so far.  `calls` counts
the calls of `decode_object`; it is not part of the code and nothing depends on it. -/
structure DS where
  pos : Nat
  log : ObjLog
  heap : Heap
  version : Nat
  calls : Nat
  deriving DecidableEq, Repr

/-- A decoding computation: data and state to a result and a new state, or an exception. -/
def RM (α : Type) := Bytes → DS → Except DErr (α × DS)

namespace RM

def pure {α : Type} (a : α) : RM α := fun _ s => .ok (a, s)

def bind {α β : Type} (x : RM α) (f : α → RM β) : RM β := fun d s =>
  match x d s with
  | .ok (a, s') => f a d s'
  | .error e => .error e

instance : Monad RM where
  pure := RM.pure
  bind := RM.bind

/-- raise an exception -/
def fail {α : Type} (e : DErr) : RM α := fun _ _ => .error e

/-- A reader that touches nothing but the position. -/
def lift {α : Type} (r : Rd α) : RM α := fun d s =>
  match r d s.pos with
  | .ok (a, p) => .ok (a, { s with pos := p })
  | .error e => .error e

end RM

/-- What a `loads` call runs against; `nodejs`: host objects are read with the Node.js handler,
otherwise there is no handler. -/
structure DEnv where
  py : PyEnv
  nodejs : Bool

/-- A result that may be a Python exception. -/
def orRaise {α : Type} : Except PyExc α → RM α
  | .ok a => RM.pure a
  | .error e => RM.fail (.py e)

/-- Create an object. -/
def alloc (n : Node) : RM Id := fun _ s => .ok (s.heap.length, { s with heap := s.heap ++ [n] })

/-- Count a call of `decode_object`. -/
def tick : RM Unit := fun _ s => .ok ((), { s with calls := s.calls + 1 })

/-- Put the finished contents into an object. -/
def setNode (i : Id) (n : Node) : RM Unit := fun _ s => .ok ((), { s with heap := s.heap.set i n })

/-- `objects.record_reference(v)`, _references.py:96-100 -/
def recordD (v : Val) : RM Nat := fun _ s =>
  .ok ((s.log.record v).2, { s with log := (s.log.record v).1 })

/-- The exception of `replace_reference` (decode.py:1384). -/
def replaceExc : LogErr → DErr
  | .valueError => .py .valueError
  | _ => .py .indexError

/-- `objects.replace_reference(n, v)`, _references.py:129-136 -/
def replaceD (n : Nat) (v : Val) : RM Unit := fun _ s =>
  match s.log.replace n (.obj v) with
  | .ok log => .ok ((), { s with log := log })
  | .error e => .error (replaceExc e)

/-- `objects.get_object(n)` with the exception translated, decode.py:673-680.  (The decoder puts no
forward references into its log.) -/
def lookupD (n : Nat) : RM Val := fun _ s =>
  match s.log.getObject n with
  | .ok (.obj v) => .ok (v, s)
  | .ok (.fwd _) => .error (.py .assertionError)
  | .error _ => .error .decode

/-- A bound for the number of rounds of a reading loop: each round consumes a byte. -/
def loopFuel : RM Nat := fun d s => .ok (d.length - s.pos + 1, s)

/-- `self.version` -/
def getVersion : RM Nat := fun _ s => .ok (s.version, s)

/-- The heap so far. -/
def getHeap : RM Heap := fun _ s => .ok (s.heap, s)

/-- `ctx.decode_object()` without a tag: read one, then decode (decode.py:1085-1088). -/
def decodeNext (rec : Tag → RM Val) : RM Val := do
  let t ← RM.lift readAnyTag
  rec t

/-- `if expected_count != actual_count: self.throw(...)`, decode.py:537-541, 557-561, 604-608, 633-638,
656-661; the message contains both counts. -/
def checkCount (expected actual : Nat) : RM Unit :=
  if expected ≠ actual then RM.fail (throwFmt (max expected actual)) else RM.pure ()

/-! ## Primitive objects, RegExp, Error, Date -/

/-- The object read by `read_js_primitive_object`, decode.py:388-401 -/
def readPrimObj : Tag → Rd PrimObj
  | .kTrueObject => return .bool true
  | .kFalseObject => return .bool false
  | .kNumberObject => do
    let x ← readDouble
    return .float x
  | .kBigIntObject => do
    let n ← readBigint
    return .bigint n
  | .kStringObject => do
    let s ← readStringUtf8
    return .str s
  | _ => Rd.fail (.py .valueError)

/-- `read_js_primitive_object` and `deserialize_js_primitive_object`, decode.py:379-402, 1377-1385:
the wrapper is recorded, then replaced by the value. -/
def decodePrimObj (t : Tag) : RM Val := do
  let p ← RM.lift (readPrimObj t)
  let i ← alloc (.primObj p)
  let n ← recordD (.obj i)
  replaceD n p.value
  return p.value

/-- `assert isinstance(value, str)` -/
def assertStr : Val → RM Str
  | .str s => RM.pure s
  | _ => RM.fail (.py .assertionError)

/-- `read_js_regexp`, decode.py:404-413 -/
def decodeRegExp (rec : Tag → RM Val) : RM Val := do
  let t ← RM.lift (readTagIn jsStringTags)
  let v ← rec t
  let source ← assertStr v
  let flags ← RM.lift readVarint
  let r ← orRaise (mkRegExp source flags)
  let i ← alloc (.regexp r)
  let _ ← recordD (.obj i)
  return .obj i

/-- The result of looking up an error tag code, decode.py:418-423; the message of the error
subscripts `data[pos]`, which raises IndexError at the end of the data. -/
def errTagOf (code : Nat) : Rd ErrTag :=
  match ErrTag.ofCode code with
  | some t => Rd.pure t
  | none => do
    let _ ← byteHere
    throwD

/-- `read_error_tag`, decode.py:415-423 -/
def readErrTag : Rd ErrTag := do
  ensureCapacity 1
  let code ← readVarint
  errTagOf code

/-- Reading the tag after the error's name, decode.py:452-455 -/
def readAfterName (etag : ErrTag) : Rd ErrTag :=
  if ErrName.forTag etag ≠ .error then readErrTag else Rd.pure etag

/-- An optional message or stack: when the current tag `etag` is `want`, the string and the tag
after it (decode.py:457-462, 464-471, 498-502). -/
def readErrText (rec : Tag → RM Val) (want etag : ErrTag) : RM (Option Str × ErrTag) :=
  if etag = want then do
    let t ← RM.lift (readTagIn jsStringTags)
    let v ← rec t
    let etag' ← RM.lift readErrTag
    let s ← assertStr v
    return (some s, etag')
  else return (none, etag)

/-- The optional cause, decode.py:478-482 -/
def readErrCause (rec : Tag → RM Val) (etag : ErrTag) : RM (Val × ErrTag) :=
  if etag = .cause then do
    let v ← decodeNext rec
    let etag' ← RM.lift readErrTag
    return (v, etag')
  else return (.null, etag)

/-- The stack in its old place after the cause, decode.py:498-502 -/
def readLateStack (rec : Tag → RM Val) (stack : Option Str) (etag : ErrTag) :
    RM (Option Str × ErrTag) :=
  if stack.isNone then readErrText rec .stack etag else return (stack, etag)

/-- `if etag is not End: throw`, decode.py:504-508 -/
def checkErrEnd (etag : ErrTag) : RM Unit :=
  if etag ≠ .fin then RM.fail .decode else RM.pure ()

/-- `read_js_error` with the default builder JSError, decode.py:435-513, 1393-1397 and
jstypes/jserror.py:154-169 (a missing message becomes ""). -/
def decodeError (rec : Tag → RM Val) : RM Val := do
  let etag ← RM.lift readErrTag
  let name := ErrName.forTag etag
  let etag ← RM.lift (readAfterName etag)
  let m ← readErrText rec .message etag
  let message := some (m.1.getD [])
  let st ← readErrText rec .stack m.2
  let i ← alloc (.error name.value message st.1 .null)
  let _ ← recordD (.obj i)
  let c ← readErrCause rec st.2
  let st' ← readLateStack rec st.1 c.2
  checkErrEnd st'.2
  setNode i (.error name.value message st'.1 c.1)
  return .obj i

/-- `read_js_date`, decode.py:515-522 -/
def decodeDate (env : DEnv) : RM Val := do
  let ms ← RM.lift readDouble
  let d ← orRaise (env.py.msDate ms)
  let i ← alloc (.date d)
  let _ ← recordD (.obj i)
  return .obj i

/-! ## Map and Set -/

/-- `map[k] = v` of `update`, jsmap.py:259-273 -/
def putEntry (m : JSMap Val) (k v : Val) : RM (JSMap Val) :=
  match m.setitem k v with
  | (m', none) => RM.pure m'
  | (_, some e) => RM.fail (.py e)

/-- The loop of `read_jsmap` driven by `map.update`, decode.py:532-534, 1252 -/
def mapLoop (rec : Tag → RM Val) : Nat → JSMap Val → Nat → RM (JSMap Val × Nat)
  | 0, _, _ => RM.fail .fuel
  | f + 1, m, count => do
    let t ← RM.lift readAnyTag
    if t = .kEndJSMap then return (m, count)
    else do
      let k ← rec t
      let v ← decodeNext rec
      let m' ← putEntry m k v
      mapLoop rec f m' (count + 2)

/-- `deserialize_jsmap` and `read_jsmap`, decode.py:524-542, 1245-1253 -/
def decodeJSMap (rec : Tag → RM Val) : RM Val := do
  let i ← alloc (.jsmap [])
  let _ ← recordD (.obj i)
  let fuel ← loopFuel
  let r ← mapLoop rec fuel [] 0
  let expected ← RM.lift readVarint
  checkCount expected r.2
  setNode i (.jsmap r.1.items)
  return .obj i

/-- `set.add(v)` of `|=`, jsset.py:179-181 -/
def putMember (s : JSSet) (v : Val) : RM JSSet :=
  match s.add v with
  | (s', none) => RM.pure s'
  | (_, some e) => RM.fail (.py e)

/-- The loop of `read_jsset` driven by `set |=`, decode.py:552-554, 1262 -/
def setLoop (rec : Tag → RM Val) : Nat → JSSet → Nat → RM (JSSet × Nat)
  | 0, _, _ => RM.fail .fuel
  | f + 1, s, count => do
    let t ← RM.lift readAnyTag
    if t = .kEndJSSet then return (s, count)
    else do
      let v ← rec t
      let s' ← putMember s v
      setLoop rec f s' (count + 1)

/-- `deserialize_jsset` and `read_jsset`, decode.py:544-562, 1255-1263 -/
def decodeJSSet (rec : Tag → RM Val) : RM Val := do
  let i ← alloc (.jsset [])
  let _ ← recordD (.obj i)
  let fuel ← loopFuel
  let r ← setLoop rec fuel [] 0
  let expected ← RM.lift readVarint
  checkCount expected r.2
  setNode i (.jsset r.1.members)
  return .obj i

/-! ## Objects and arrays -/

/-- `isinstance(key, (int, float, str))`, decode.py:586-591 (a bool is an int). -/
def checkKey : Val → RM RawKey
  | .int n => RM.pure (.int n)
  | .bool b => RM.pure (.int (if b then 1 else 0))
  | .float x => RM.pure (.float x)
  | .str s => RM.pure (.str s)
  | _ => RM.fail (.py .typeError)

/-- `obj[key] = value` on a JSObject or JSArray, jsobject.py:160-170 -/
def putProp (py : PyEnv) (o : JSObj Val) (key : RawKey) (v : Val) : RM (JSObj Val) :=
  match normaliseKey py.floatStr key with
  | .error e => RM.fail (.py e)
  | .ok k =>
    match o.setitem k v.toElem with
    | (o', none) => RM.pure o'
    | (_, some e) => RM.fail (.py e)

/-- The loop of `_read_js_object_properties`, decode.py:581-601 -/
def propsLoop (env : DEnv) (rec : Tag → RM Val) (endTag : Tag) :
    Nat → JSObj Val → Nat → RM (JSObj Val × Nat)
  | 0, _, _ => RM.fail .fuel
  | f + 1, o, count => do
    let t ← RM.lift readAnyTag
    if jsObjectKeyTags.contains t then do
      let k ← rec t
      let key ← checkKey k
      let v ← decodeNext rec
      let o' ← putProp env.py o key v
      propsLoop env rec endTag f o' (count + 1)
    else if t = endTag then return (o, count)
    else RM.fail .decode

/-- `_read_js_object_properties`, decode.py:574-609 -/
def readProps (env : DEnv) (rec : Tag → RM Val) (endTag : Tag) (o : JSObj Val) : RM (JSObj Val) := do
  let fuel ← loopFuel
  let r ← propsLoop env rec endTag fuel o 0
  let expected ← RM.lift readVarint
  checkCount expected r.2
  return r.1

/-- `deserialize_js_object` and `read_js_object`, decode.py:564-572, 1265-1271 -/
def decodeJSObject (env : DEnv) (rec : Tag → RM Val) : RM Val := do
  let i ← alloc (.jsobj JSObj.empty)
  let _ ← recordD (.obj i)
  let o ← readProps env rec .kEndJSObject JSObj.empty
  setNode i (.jsobj o)
  return .obj i

/-- The element loop of `read_js_array_dense`, decode.py:622-624: `n` elements, the next one with
index `i`. -/
def elemsLoop (env : DEnv) (rec : Tag → RM Val) : Nat → Nat → JSObj Val → RM (JSObj Val)
  | 0, _, o => return o
  | n + 1, i, o => do
    let v ← decodeNext rec
    let o' ← putProp env.py o (.int i) v
    elemsLoop env rec n (i + 1) o'

/-- `deserialize_js_array_dense` and `read_js_array_dense`, decode.py:611-639, 1273-1281 -/
def decodeDenseArray (env : DEnv) (rec : Tag → RM Val) : RM Val := do
  let i ← alloc (.jsarr JSObj.empty)
  let _ ← recordD (.obj i)
  let n ← RM.lift readVarint
  let o ← elemsLoop env rec n 0 JSObj.empty
  let o ← readProps env rec .kEndDenseJSArray o
  let final ← RM.lift readVarint
  checkCount n final
  setNode i (.jsarr o)
  return .obj i

/-- `if length > 0: obj[length - 1] = JSHole`, decode.py:1291-1296 -/
def resizeTo (env : DEnv) (length : Nat) (o : JSObj Val) : RM (JSObj Val) :=
  if length > 0 then putProp env.py o (.int (length - 1 : Nat)) .hole else RM.pure o

/-- `deserialize_js_array_sparse` and `read_js_array_sparse`, decode.py:641-664, 1283-1298 -/
def decodeSparseArray (env : DEnv) (rec : Tag → RM Val) : RM Val := do
  let i ← alloc (.jsarr JSObj.empty)
  let _ ← recordD (.obj i)
  let n ← RM.lift readVarint
  let o ← resizeTo env n JSObj.empty
  let o ← readProps env rec .kEndSparseJSArray o
  let final ← RM.lift readVarint
  checkCount n final
  setNode i (.jsarr o)
  return .obj i

/-! ## Buffers and views -/

/-- `if pos + byte_length > len(data): throw`, decode.py:718-721 -/
def checkFits (n : Nat) : Rd Unit := fun d p =>
  if p + n > d.length then .error .decode else .ok ((), p)

/-- The check of the resizable form, decode.py:739-742, made before the maximum length is read and
with `>=`. -/
def checkFitsResizable (n : Nat) : Rd Unit := fun d p =>
  if p + n ≥ d.length then .error .decode else .ok ((), p)

/-- Fixed length contents, decode.py:717-731 -/
def readFixedContents : Rd Bytes := do
  let n ← readUint32
  checkFits n
  takeHere n

/-- `if max_byte_length < byte_length: throw`, decode.py:744-748 -/
def checkMax (max n : Nat) : Rd Unit := if max < n then throwD else Rd.pure ()

/-- Resizable contents and maximum length, decode.py:738-758; the slice may be short. -/
def readResizableContents : Rd (Bytes × Nat) := do
  let n ← readUint32
  checkFitsResizable n
  let max ← readUint32
  checkMax max n
  let bs ← takeHere n
  return (bs, max)

/-- `_read_js_array_buffer`, decode.py:712-731 -/
def readFixedBuffer : RM Val := do
  let bs ← RM.lift readFixedContents
  let b ← orRaise (ABuf.mk' bs none false false)
  let i ← alloc (.abuf b)
  let _ ← recordD (.obj i)
  return .obj i

/-- `_read_js_array_buffer_resizable`, decode.py:733-758 -/
def readResizableBuffer : RM Val := do
  let r ← RM.lift readResizableContents
  let b ← orRaise (ABuf.mk' r.1 (some (r.2 : Int)) true false)
  let i ← alloc (.abuf b)
  let _ ← recordD (.obj i)
  return .obj i

/-- `_read_js_array_buffer_shared`, decode.py:760-769.  Not recorded. -/
def readSharedBuffer : RM Val := do
  let n ← RM.lift readUint32
  let i ← alloc (.sharedBuf n)
  return .obj i

/-- `_read_js_array_buffer_transfer`, decode.py:771-780.  Not recorded. -/
def readTransferBuffer : RM Val := do
  let n ← RM.lift readUint32
  let i ← alloc (.transferBuf n)
  return .obj i

/-- `read_js_array_buffer`, decode.py:682-710 -/
def readArrayBuffer : Tag → RM Val
  | .kArrayBuffer => readFixedBuffer
  | .kResizableArrayBuffer => readResizableBuffer
  | .kSharedArrayBuffer => readSharedBuffer
  | .kArrayBufferTransfer => readTransferBuffer
  | _ => RM.fail (.py .valueError)

/-- `if raw_view_tag not in ArrayBufferViewTag: throw`, decode.py:792-795 -/
def viewTagOf (raw : Nat) : RM ViewTag :=
  match ViewTag.ofCode raw with
  | some t => RM.pure t
  | none => RM.fail .decode

/-- The flags field, present from version 14 on, decode.py:801-803 -/
def readViewFlags (version : Nat) : RM Nat :=
  if version ≥ 14 then do
    let n ← RM.lift readVarint
    orRaise (flagMember 3 n)
  else RM.pure 0

/-- `None if IsLengthTracking in flags else byte_length`, decode.py:809-811 -/
def viewByteLength (flags byteLength : Nat) : Option Int :=
  if flags % 2 = 1 then none else some (byteLength : Int)

/-- `read_js_array_buffer_view(tag=True)` with `create_view`, decode.py:782-814 -/
def readView (buffer : Val) : RM Val := do
  let _ ← RM.lift (readThisTag .kArrayBufferView)
  let raw ← RM.lift readVarint
  let tag ← viewTagOf raw
  let byteOffset ← RM.lift readUint32
  let byteLength ← RM.lift readUint32
  let version ← getVersion
  let flags ← readViewFlags version
  let h ← getHeap
  let v ← orRaise (View.create tag (backingResizable h buffer) (backingBytes h buffer) byteOffset
    (viewByteLength flags byteLength))
  let i ← alloc (.view buffer v)
  let _ ← recordD (.obj i)
  return .obj i

/-- `peak_tag() is kArrayBufferView`, decode.py:1332, 1370 -/
def peakIsView : Rd Bool := do
  let t ← peakTag
  return decide (t = some .kArrayBufferView)

/-- A buffer may be followed by a view on it, decode.py:1329-1337 and 1365-1375 -/
def viewAfter (buffer : Val) : RM Val := do
  let b ← RM.lift peakIsView
  if b then readView buffer else return buffer

/-- `deserialize_js_array_buffer`, decode.py:1309-1337 -/
def decodeArrayBuffer (t : Tag) : RM Val := do
  let b ← readArrayBuffer t
  viewAfter b

/-- `isinstance(obj, (JSArrayBuffer, JSSharedArrayBuffer, JSArrayBufferTransfer))`, decode.py:1361-1364 -/
def isBuffer (h : Heap) : Val → Bool
  | .obj i =>
    match h[i]? with
    | some (.abuf _) => true
    | some (.sharedBuf _) => true
    | some (.transferBuf _) => true
    | _ => false
  | _ => false

/-- `read_object_reference` and `deserialize_object_reference`, decode.py:666-680, 1355-1375 -/
def decodeReference : RM Val := do
  let n ← RM.lift readVarint
  let v ← lookupD n
  let h ← getHeap
  if isBuffer h v then viewAfter v else return v

/-- `read_v8_shared_object_reference`, decode.py:825-831 -/
def decodeSharedRef : RM Val := do
  let n ← RM.lift readUint32
  let i ← alloc (.sharedRef n)
  let _ ← recordD (.obj i)
  return .obj i

/-! ## Node.js host objects -/

/-- `NodeBufferFormat` members: code and view kind, extensions.py:159-180 -/
def nodeFormats : List (Nat × ViewTag) :=
  [(0, .int8), (1, .uint8), (2, .uint8Clamped), (3, .int16), (4, .uint16), (5, .int32), (6, .uint32),
   (7, .float32), (8, .float64), (9, .dataView), (10, .uint8), (11, .bigInt64), (12, .bigUint64)]

/-- `NodeBufferFormat(code)`, extensions.py:182-189: the first member with this code. -/
def nodeViewOfCode (code : Nat) : Option ViewTag := (nodeFormats.find? (fun e => e.1 == code)).map (·.2)

/-- `NodeBufferFormat(view_tag).nodejs_code`: the first member with this view kind. -/
def nodeCodeOfView (t : ViewTag) : Option Nat := (nodeFormats.find? (fun e => e.2 == t)).map (·.1)

/-- The view kind, or the handler's decode error, extensions.py:73-83 -/
def nodeViewTag (code : Nat) : Rd ViewTag :=
  match nodeViewOfCode code with
  | some t => Rd.pure t
  | none => throwD

/-- The data the handler reads, extensions.py:71-93 -/
def readNodeContents : Rd (ViewTag × Bytes) := do
  let code ← readUint32
  let n ← readUint32
  let t ← nodeViewTag code
  checkFits n
  let bs ← takeHere n
  return (t, bs)

/-- `NodeJsArrayBufferViewHostObjectHandler.deserialize_host_object`, extensions.py:56-95: a buffer
holding the data, and a view on all of it (`view_type(buffer)`).  Neither is recorded. -/
def decodeNodeHostObject : RM Val := do
  let r ← RM.lift readNodeContents
  let b ← orRaise (ABuf.mk' r.2 none false false)
  let i ← alloc (.abuf b)
  let v ← orRaise (View.mk' r.1 0 none)
  let j ← alloc (.view (.obj i) v)
  return .obj j

/-- `deserialize_host_object`, decode.py:1339-1348 -/
def decodeHostObject (env : DEnv) : RM Val :=
  if env.nodejs then decodeNodeHostObject else RM.fail .decode

/-! ## TagReader -/

/-- `TagReader.decode` with the registry of decode.py:1195-1240; `next` is the following step, for
tags without a reader. -/
def tagReader (env : DEnv) (rec : Tag → RM Val) (t : Tag) (next : Tag → RM Val) : RM Val :=
  match t with
  | .kDouble => do
    let x ← RM.lift readDouble
    return .float x
  | .kOneByteString => do
    let s ← RM.lift readStringOneByte
    return .str s
  | .kTwoByteString => do
    let s ← RM.lift readStringTwoByte
    return .str s
  | .kUtf8String => do
    let s ← RM.lift readStringUtf8
    return .str s
  | .kBigInt => do
    let n ← RM.lift readBigint
    return .int n
  | .kInt32 => do
    let n ← RM.lift readInt32
    return .int n
  | .kUint32 => do
    let n ← RM.lift readUint32
    return .int n
  | .kTheHole => return .hole
  | .kUndefined => return .undef
  | .kNull => return .null
  | .kTrue => return .bool true
  | .kFalse => return .bool false
  | .kRegExp => decodeRegExp rec
  | .kBeginJSMap => decodeJSMap rec
  | .kBeginJSSet => decodeJSSet rec
  | .kObjectReference => decodeReference
  | .kBeginJSObject => decodeJSObject env rec
  | .kBeginDenseJSArray => decodeDenseArray env rec
  | .kBeginSparseJSArray => decodeSparseArray env rec
  | .kArrayBuffer => decodeArrayBuffer .kArrayBuffer
  | .kResizableArrayBuffer => decodeArrayBuffer .kResizableArrayBuffer
  | .kSharedArrayBuffer => decodeArrayBuffer .kSharedArrayBuffer
  | .kArrayBufferTransfer => decodeArrayBuffer .kArrayBufferTransfer
  | .kArrayBufferView => RM.fail .decode
  | .kTrueObject => decodePrimObj .kTrueObject
  | .kFalseObject => decodePrimObj .kFalseObject
  | .kNumberObject => decodePrimObj .kNumberObject
  | .kBigIntObject => decodePrimObj .kBigIntObject
  | .kStringObject => decodePrimObj .kStringObject
  | .kError => decodeError rec
  | .kDate => decodeDate env
  | .kSharedObject => decodeSharedRef
  | .kWasmModuleTransfer => RM.fail .decode
  | .kWasmMemoryTransfer => RM.fail .decode
  | .kHostObject => decodeHostObject env
  | t => next t

/-- A decode step, given the context's `decode_object(tag=...)` for nested values. -/
abbrev DecStep := (Tag → RM Val) → Tag → (Tag → RM Val) → RM Val

/-- `_report_unhandled_tag`, decode.py:1090-1096 -/
def unhandledTag (_ : Tag) : RM Val := RM.fail .unhandledTag

/-- `decode_object(tag=t)` with given steps, decode.py:1074-1088.  `fuel` bounds the nesting depth. -/
def decodeWith (steps : List DecStep) : Nat → Tag → RM Val
  | 0, _ => RM.fail .fuel
  | fuel + 1, t => do
    tick
    chainFrom unhandledTag (steps.map (fun s => s (decodeWith steps fuel))) 0 t

/-- `default_decode_steps`, decode.py:1418 (or the TagReader made by `loads`, decode.py:1677-1701) -/
def defaultDecodeSteps (env : DEnv) : List DecStep := [tagReader env]

/-- `decode_object(tag=t)` with the default step. -/
def decodeTag (env : DEnv) : Nat → Tag → RM Val := decodeWith (defaultDecodeSteps env)

/-- A fresh stream after its header was read (decode.py:1497-1503). -/
def DS.start (pos version : Nat) : DS := ⟨pos, .empty, [], version, 0⟩

/-- `Decoder.decodes` / `loads`, decode.py:1480-1504: the value and the objects made.  The nesting
depth cannot exceed the number of bytes left. -/
def loads (env : DEnv) (data : Bytes) : Except DErr (Val × DS) :=
  match readHeader data 0 with
  | .error e => .error e
  | .ok (version, p) => decodeNext (decodeTag env (data.length - p + 1)) data (DS.start p version)

end V8
