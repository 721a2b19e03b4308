import Verif.Model.Decode

/-!
# The decoder with what it has made when it raises

The functions of `Model/Decode` once more, with exceptions that carry what exists when they are
raised: the state (objects made, object log, number of calls) and the containers that are still being
filled, with their contents so far.  (`Model/Decode` keeps a container under construction outside the
heap; its cell there is empty until it is complete.)  `C48_same` shows that this is the only difference
to `Model/Decode`.  Steps that make nothing before they raise are taken from there with `step`; the
position in the state of an exception is the one before the step that raised.  The comments there on
simplifications apply here too.
-/

namespace V8.Fail

/-- An exception, the state before the step that raised it, and the unfinished containers, the
outermost first. -/
structure Stop where
  err : DErr
  state : DS
  unfinished : List Node
  deriving DecidableEq, Repr

/-- A decoding computation. -/
def RM (α : Type) := Bytes → DS → Except Stop (α × DS)

namespace RM

def pure {α : Type} (a : α) : RM α := fun _ s => .ok (a, s)

def bind {α β : Type} (x : RM α) (f : α → RM β) : RM β := fun d s =>
  match x d s with
  | .ok (a, s') => f a d s'
  | .error e => .error e

instance : Monad RM where
  pure := RM.pure
  bind := RM.bind

end RM

/-- raise an exception -/
def fail {α : Type} (e : DErr) : RM α := fun _ s => .error ⟨e, s, []⟩

/-- A step of `Model/Decode` that makes nothing when it raises. -/
def step {α : Type} (x : V8.RM α) : RM α := fun d s =>
  match x d s with
  | .ok r => .ok r
  | .error e => .error ⟨e, s, []⟩

/-- Do `x` while `n` is being filled. -/
def holding {α : Type} (n : Node) (x : RM α) : RM α := fun d s =>
  match x d s with
  | .ok r => .ok r
  | .error e => .error { e with unfinished := n :: e.unfinished }

/-- `ctx.decode_object()` without a tag, decode.py:1085-1088 -/
def decodeNext (rec : Tag → RM Val) : RM Val := do
  let t ← step (RM.lift readAnyTag)
  rec t

/-! ## Primitive objects, RegExp, Error, Date -/

/-- `read_js_primitive_object` and `deserialize_js_primitive_object`, decode.py:379-402, 1377-1385 -/
def decodePrimObj (t : Tag) : RM Val := do
  let p ← step (RM.lift (readPrimObj t))
  let i ← step (alloc (.primObj p))
  let n ← step (recordD (.obj i))
  step (replaceD n p.value)
  return p.value

/-- `read_js_regexp`, decode.py:404-413 -/
def decodeRegExp (rec : Tag → RM Val) : RM Val := do
  let t ← step (RM.lift (readTagIn jsStringTags))
  let v ← rec t
  let source ← step (assertStr v)
  let flags ← step (RM.lift readVarint)
  let r ← step (orRaise (mkRegExp source flags))
  let i ← step (alloc (.regexp r))
  let _ ← step (recordD (.obj i))
  return .obj i

/-- An optional message or stack, decode.py:457-462, 464-471, 498-502 -/
def readErrText (rec : Tag → RM Val) (want etag : ErrTag) : RM (Option Str × ErrTag) :=
  if etag = want then do
    let t ← step (RM.lift (readTagIn jsStringTags))
    let v ← rec t
    let etag' ← step (RM.lift readErrTag)
    let s ← step (assertStr v)
    return (some s, etag')
  else return (none, etag)

/-- The optional cause, decode.py:478-482 -/
def readErrCause (rec : Tag → RM Val) (etag : ErrTag) : RM (Val × ErrTag) :=
  if etag = .cause then do
    let v ← decodeNext rec
    let etag' ← step (RM.lift readErrTag)
    return (v, etag')
  else return (.null, etag)

/-- The stack in its old place after the cause, decode.py:498-502 -/
def readLateStack (rec : Tag → RM Val) (stack : Option Str) (etag : ErrTag) :
    RM (Option Str × ErrTag) :=
  if stack.isNone then readErrText rec .stack etag else return (stack, etag)

/-- `read_js_error`, decode.py:435-513, 1393-1397.  The error in the heap is the unfinished one: it has
no cause yet. -/
def decodeError (rec : Tag → RM Val) : RM Val := do
  let etag ← step (RM.lift readErrTag)
  let name := ErrName.forTag etag
  let etag ← step (RM.lift (readAfterName etag))
  let m ← readErrText rec .message etag
  let message := some (m.1.getD [])
  let st ← readErrText rec .stack m.2
  let i ← step (alloc (.error name.value message st.1 .null))
  let _ ← step (recordD (.obj i))
  let c ← readErrCause rec st.2
  let st' ← readLateStack rec st.1 c.2
  step (checkErrEnd st'.2)
  step (setNode i (.error name.value message st'.1 c.1))
  return .obj i

/-- `read_js_date`, decode.py:515-522 -/
def decodeDate (env : DEnv) : RM Val := do
  let ms ← step (RM.lift readDouble)
  let d ← step (orRaise (env.py.msDate ms))
  let i ← step (alloc (.date d))
  let _ ← step (recordD (.obj i))
  return .obj i

/-! ## Map and Set -/

/-- The loop of `read_jsmap` driven by `map.update`, decode.py:532-534, 1252: `m` holds the entries
stored so far. -/
def mapLoop (rec : Tag → RM Val) : Nat → JSMap Val → Nat → RM (JSMap Val × Nat)
  | 0, m, _ => holding (.jsmap m.items) (fail .fuel)
  | f + 1, m, count => do
    let t ← holding (.jsmap m.items) (step (RM.lift readAnyTag))
    if t = .kEndJSMap then return (m, count)
    else do
      let k ← holding (.jsmap m.items) (rec t)
      let v ← holding (.jsmap m.items) (decodeNext rec)
      let m' ← holding (.jsmap m.items) (step (putEntry m k v))
      mapLoop rec f m' (count + 2)

/-- `deserialize_jsmap` and `read_jsmap`, decode.py:524-542, 1245-1253 -/
def decodeJSMap (rec : Tag → RM Val) : RM Val := do
  let i ← step (alloc (.jsmap []))
  let _ ← step (recordD (.obj i))
  let fuel ← step loopFuel
  let r ← mapLoop rec fuel [] 0
  let expected ← holding (.jsmap r.1.items) (step (RM.lift readVarint))
  holding (.jsmap r.1.items) (step (checkCount expected r.2))
  step (setNode i (.jsmap r.1.items))
  return .obj i

/-- The loop of `read_jsset` driven by `set |=`, decode.py:552-554, 1262 -/
def setLoop (rec : Tag → RM Val) : Nat → JSSet → Nat → RM (JSSet × Nat)
  | 0, s, _ => holding (.jsset s.members) (fail .fuel)
  | f + 1, s, count => do
    let t ← holding (.jsset s.members) (step (RM.lift readAnyTag))
    if t = .kEndJSSet then return (s, count)
    else do
      let v ← holding (.jsset s.members) (rec t)
      let s' ← holding (.jsset s.members) (step (putMember s v))
      setLoop rec f s' (count + 1)

/-- `deserialize_jsset` and `read_jsset`, decode.py:544-562, 1255-1263 -/
def decodeJSSet (rec : Tag → RM Val) : RM Val := do
  let i ← step (alloc (.jsset []))
  let _ ← step (recordD (.obj i))
  let fuel ← step loopFuel
  let r ← setLoop rec fuel [] 0
  let expected ← holding (.jsset r.1.members) (step (RM.lift readVarint))
  holding (.jsset r.1.members) (step (checkCount expected r.2))
  step (setNode i (.jsset r.1.members))
  return .obj i

/-! ## Objects and arrays -/

/-- `obj[key] = value` on a JSObject or JSArray, jsobject.py:160-170; `mk` makes the one or the other.
When the array part raises, it may have been enlarged before. -/
def putProp (mk : JSObj Val → Node) (py : PyEnv) (o : JSObj Val) (key : RawKey) (v : Val) : RM (JSObj Val) :=
  match normaliseKey py.floatStr key with
  | .error e => holding (mk o) (fail (.py e))
  | .ok k =>
    match o.setitem k v.toElem with
    | (o', none) => RM.pure o'
    | (o', some e) => holding (mk o') (fail (.py e))

/-- The loop of `_read_js_object_properties`, decode.py:581-601 -/
def propsLoop (mk : JSObj Val → Node) (env : DEnv) (rec : Tag → RM Val) (endTag : Tag) :
    Nat → JSObj Val → Nat → RM (JSObj Val × Nat)
  | 0, o, _ => holding (mk o) (fail .fuel)
  | f + 1, o, count => do
    let t ← holding (mk o) (step (RM.lift readAnyTag))
    if jsObjectKeyTags.contains t then do
      let k ← holding (mk o) (rec t)
      let key ← holding (mk o) (step (checkKey k))
      let v ← holding (mk o) (decodeNext rec)
      let o' ← putProp mk env.py o key v
      propsLoop mk env rec endTag f o' (count + 1)
    else if t = endTag then return (o, count)
    else holding (mk o) (fail .decode)

/-- `_read_js_object_properties`, decode.py:574-609 -/
def readProps (mk : JSObj Val → Node) (env : DEnv) (rec : Tag → RM Val) (endTag : Tag) (o : JSObj Val) :
    RM (JSObj Val) := do
  let fuel ← step loopFuel
  let r ← propsLoop mk env rec endTag fuel o 0
  let expected ← holding (mk r.1) (step (RM.lift readVarint))
  holding (mk r.1) (step (checkCount expected r.2))
  return r.1

/-- `deserialize_js_object` and `read_js_object`, decode.py:564-572, 1265-1271 -/
def decodeJSObject (env : DEnv) (rec : Tag → RM Val) : RM Val := do
  let i ← step (alloc (.jsobj JSObj.empty))
  let _ ← step (recordD (.obj i))
  let o ← readProps .jsobj env rec .kEndJSObject JSObj.empty
  step (setNode i (.jsobj o))
  return .obj i

/-- The element loop of `read_js_array_dense`, decode.py:622-624 -/
def elemsLoop (env : DEnv) (rec : Tag → RM Val) : Nat → Nat → JSObj Val → RM (JSObj Val)
  | 0, _, o => return o
  | n + 1, i, o => do
    let v ← holding (.jsarr o) (decodeNext rec)
    let o' ← putProp .jsarr env.py o (.int i) v
    elemsLoop env rec n (i + 1) o'

/-- `deserialize_js_array_dense` and `read_js_array_dense`, decode.py:611-639, 1273-1281 -/
def decodeDenseArray (env : DEnv) (rec : Tag → RM Val) : RM Val := do
  let i ← step (alloc (.jsarr JSObj.empty))
  let _ ← step (recordD (.obj i))
  let n ← holding (.jsarr JSObj.empty) (step (RM.lift readVarint))
  let o ← elemsLoop env rec n 0 JSObj.empty
  let o ← readProps .jsarr env rec .kEndDenseJSArray o
  let final ← holding (.jsarr o) (step (RM.lift readVarint))
  holding (.jsarr o) (step (checkCount n final))
  step (setNode i (.jsarr o))
  return .obj i

/-- `if length > 0: obj[length - 1] = JSHole`, decode.py:1291-1296 -/
def resizeTo (env : DEnv) (length : Nat) (o : JSObj Val) : RM (JSObj Val) :=
  if length > 0 then putProp .jsarr env.py o (.int (length - 1 : Nat)) .hole else RM.pure o

/-- `deserialize_js_array_sparse` and `read_js_array_sparse`, decode.py:641-664, 1283-1298 -/
def decodeSparseArray (env : DEnv) (rec : Tag → RM Val) : RM Val := do
  let i ← step (alloc (.jsarr JSObj.empty))
  let _ ← step (recordD (.obj i))
  let n ← holding (.jsarr JSObj.empty) (step (RM.lift readVarint))
  let o ← resizeTo env n JSObj.empty
  let o ← readProps .jsarr env rec .kEndSparseJSArray o
  let final ← holding (.jsarr o) (step (RM.lift readVarint))
  holding (.jsarr o) (step (checkCount n final))
  step (setNode i (.jsarr o))
  return .obj i

/-! ## Buffers and views -/

/-- `_read_js_array_buffer`, decode.py:712-731 -/
def readFixedBuffer : RM Val := do
  let bs ← step (RM.lift readFixedContents)
  let b ← step (orRaise (ABuf.mk' bs none false false))
  let i ← step (alloc (.abuf b))
  let _ ← step (recordD (.obj i))
  return .obj i

/-- `_read_js_array_buffer_resizable`, decode.py:733-758 -/
def readResizableBuffer : RM Val := do
  let r ← step (RM.lift readResizableContents)
  let b ← step (orRaise (ABuf.mk' r.1 (some (r.2 : Int)) true false))
  let i ← step (alloc (.abuf b))
  let _ ← step (recordD (.obj i))
  return .obj i

/-- `_read_js_array_buffer_shared`, decode.py:760-769 -/
def readSharedBuffer : RM Val := do
  let n ← step (RM.lift readUint32)
  let i ← step (alloc (.sharedBuf n))
  return .obj i

/-- `_read_js_array_buffer_transfer`, decode.py:771-780 -/
def readTransferBuffer : RM Val := do
  let n ← step (RM.lift readUint32)
  let i ← step (alloc (.transferBuf n))
  return .obj i

/-- `read_js_array_buffer`, decode.py:682-710 -/
def readArrayBuffer : Tag → RM Val
  | .kArrayBuffer => readFixedBuffer
  | .kResizableArrayBuffer => readResizableBuffer
  | .kSharedArrayBuffer => readSharedBuffer
  | .kArrayBufferTransfer => readTransferBuffer
  | _ => fail (.py .valueError)

/-- `read_js_array_buffer_view(tag=True)` with `create_view`, decode.py:782-814 -/
def readView (buffer : Val) : RM Val := do
  let _ ← step (RM.lift (readThisTag .kArrayBufferView))
  let raw ← step (RM.lift readVarint)
  let tag ← step (viewTagOf raw)
  let byteOffset ← step (RM.lift readUint32)
  let byteLength ← step (RM.lift readUint32)
  let version ← step getVersion
  let flags ← step (readViewFlags version)
  let h ← step getHeap
  let v ← step (orRaise (View.create tag (backingResizable h buffer) (backingBytes h buffer) byteOffset
    (viewByteLength flags byteLength)))
  let i ← step (alloc (.view buffer v))
  let _ ← step (recordD (.obj i))
  return .obj i

/-- A buffer may be followed by a view on it, decode.py:1329-1337 and 1365-1375 -/
def viewAfter (buffer : Val) : RM Val := do
  let b ← step (RM.lift peakIsView)
  if b then readView buffer else return buffer

/-- `deserialize_js_array_buffer`, decode.py:1309-1337 -/
def decodeArrayBuffer (t : Tag) : RM Val := do
  let b ← readArrayBuffer t
  viewAfter b

/-- `read_object_reference` and `deserialize_object_reference`, decode.py:666-680, 1355-1375 -/
def decodeReference : RM Val := do
  let n ← step (RM.lift readVarint)
  let v ← step (lookupD n)
  let h ← step getHeap
  if isBuffer h v then viewAfter v else return v

/-- `read_v8_shared_object_reference`, decode.py:825-831 -/
def decodeSharedRef : RM Val := do
  let n ← step (RM.lift readUint32)
  let i ← step (alloc (.sharedRef n))
  let _ ← step (recordD (.obj i))
  return .obj i

/-- `NodeJsArrayBufferViewHostObjectHandler.deserialize_host_object`, extensions.py:56-95 -/
def decodeNodeHostObject : RM Val := do
  let r ← step (RM.lift readNodeContents)
  let b ← step (orRaise (ABuf.mk' r.2 none false false))
  let i ← step (alloc (.abuf b))
  let v ← step (orRaise (View.mk' r.1 0 none))
  let j ← step (alloc (.view (.obj i) v))
  return .obj j

/-- `deserialize_host_object`, decode.py:1339-1348 -/
def decodeHostObject (env : DEnv) : RM Val :=
  if env.nodejs then decodeNodeHostObject else fail .decode

/-! ## TagReader -/

/-- `TagReader.decode` with the registry of decode.py:1195-1240, followed by `_report_unhandled_tag`
(decode.py:1090-1096). -/
def tagReader (env : DEnv) (rec : Tag → RM Val) (t : Tag) : RM Val :=
  match t with
  | .kDouble => do
    let x ← step (RM.lift readDouble)
    return .float x
  | .kOneByteString => do
    let s ← step (RM.lift readStringOneByte)
    return .str s
  | .kTwoByteString => do
    let s ← step (RM.lift readStringTwoByte)
    return .str s
  | .kUtf8String => do
    let s ← step (RM.lift readStringUtf8)
    return .str s
  | .kBigInt => do
    let n ← step (RM.lift readBigint)
    return .int n
  | .kInt32 => do
    let n ← step (RM.lift readInt32)
    return .int n
  | .kUint32 => do
    let n ← step (RM.lift readUint32)
    return .int n
  | .kTheHole => return .hole
  | .kUndefined => return .undef
  | .kNull => return .null
  | .kTrue => return .bool true
  | .kFalse => return .bool false
  | .kRegExp => decodeRegExp rec
  | .kBeginJSMap => decodeJSMap rec
  | .kBeginJSSet => decodeJSSet rec
  | .kObjectReference => decodeReference
  | .kBeginJSObject => decodeJSObject env rec
  | .kBeginDenseJSArray => decodeDenseArray env rec
  | .kBeginSparseJSArray => decodeSparseArray env rec
  | .kArrayBuffer => decodeArrayBuffer .kArrayBuffer
  | .kResizableArrayBuffer => decodeArrayBuffer .kResizableArrayBuffer
  | .kSharedArrayBuffer => decodeArrayBuffer .kSharedArrayBuffer
  | .kArrayBufferTransfer => decodeArrayBuffer .kArrayBufferTransfer
  | .kArrayBufferView => fail .decode
  | .kTrueObject => decodePrimObj .kTrueObject
  | .kFalseObject => decodePrimObj .kFalseObject
  | .kNumberObject => decodePrimObj .kNumberObject
  | .kBigIntObject => decodePrimObj .kBigIntObject
  | .kStringObject => decodePrimObj .kStringObject
  | .kError => decodeError rec
  | .kDate => decodeDate env
  | .kSharedObject => decodeSharedRef
  | .kWasmModuleTransfer => fail .decode
  | .kWasmMemoryTransfer => fail .decode
  | .kHostObject => decodeHostObject env
  | _ => fail .unhandledTag

/-- `decode_object(tag=t)` with the default step, decode.py:1074-1088 -/
def decodeTag (env : DEnv) : Nat → Tag → RM Val
  | 0, _ => fail .fuel
  | fuel + 1, t => do
    step tick
    tagReader env (decodeTag env fuel) t

/-- `Decoder.decodes` / `loads`, decode.py:1480-1504.  Nothing is made before the header was read. -/
def loads (env : DEnv) (data : Bytes) : Except Stop (Val × DS) :=
  match readHeader data 0 with
  | .error e => .error ⟨e, DS.start 0 0, []⟩
  | .ok (version, p) => decodeNext (decodeTag env (data.length - p + 1)) data (DS.start p version)

end V8.Fail
