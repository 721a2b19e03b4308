import Verif.Model.Heap
import Verif.Model.Header

/-!
# The encoder

Models `src/v8serialize/encode.py`: `WritableTagStream`, `TagWriter`, the default encode steps,
`Encoder.encode` and `dumps`.  An exception aborts the whole of `dumps` (no code catches and
continues), so the state of the stream after an exception is not modelled.
Simplification: Python's recursion limit (RecursionError on deeply nested data) is not modelled.
-/

namespace V8

/-- What `lru_cache` keys on in `DefaultEncodeContext.deduplicate`, for the values where an
equal but distinct value may have been seen: the float zeros, and the hashable objects, by class of
`==`-equal objects of the same type (`typed=True`). -/
inductive DKey where
  | zero
  | cls (k : Nat)
  deriving DecidableEq, Repr

/-- State of a `WritableTagStream` and of the context's deduplication cache (encode.py:169-187,
794-815).  `skew` and `badRef` are ghost fields: no modelled code reads them.  `skew` is the number
of log entries when the first value was written whose recording differs between encoder and decoder
(RegExp, Error without cause, shared and transferred buffers); `badRef` says that a reference was
written to a log entry made after that. -/
structure WS where
  data : Bytes
  log : ObjLog
  allowed : Option TagConstraint
  memo : Dict DKey Val
  skew : Option Nat
  badRef : Bool
  deriving DecidableEq, Repr

/-- A writer: the effect of a method on the stream, or its exception. -/
abbrev Wr := WS → Except EErr WS

/-- What a `dumps` call runs against. `hkey i` is the `lru_cache` key class of object `i`
(`none`: not hashable). -/
structure EEnv where
  heap : Heap
  feats : Features
  py : PyEnv
  hkey : Id → Option Nat

/-- `WritableTagStream(features=...)`, encode.py:161-190 -/
def WS.new : WS := ⟨[], .empty, none, [], none, false⟩

/-- `self.data.extend(bs)` -/
def emit (bs : Bytes) : Wr := fun ws => .ok { ws with data := ws.data ++ bs }

/-- Append what a primitive writer of `Model/Prim.lean` or `Model/Text.lean` produces. -/
def emitE (r : Except EErr Bytes) : Wr := fun ws =>
  match r with
  | .ok bs => emit bs ws
  | .error e => .error e

/-- Ghost: note that the log of the decoder departs from here. -/
def markSkew : Wr := fun ws =>
  .ok { ws with skew := match ws.skew with | some k => some k | none => some ws.log.slots.length }

/-- `write_tag`, encode.py:217-224 (`tag=None` is not calling it). -/
def writeTag (t : Tag) : Wr := fun ws =>
  match ws.allowed with
  | none => emit [t.byte] ws
  | some c => if c.contains t then emit [t.byte] ws else .error .encode

/-- `write_tag(tag)` followed by the payload, in methods that compute (and check) the payload
first: write_int32, write_uint32, write_bigint, the strings (encode.py:258-358). -/
def writeTagged (t : Tag) (r : Except EErr Bytes) : Wr := fun ws =>
  match r with
  | .ok bs => do
    let ws ← writeTag t ws
    emit bs ws
  | .error e => .error e

/-- `write_constant`, encode.py:240-242: the constraint in force is replaced, and removed on exit. -/
def writeConstant (t : Tag) : Wr := fun ws => do
  let ws ← writeTag t { ws with allowed := some jsConstantTags }
  return { ws with allowed := none }

/-- `objects.record_reference(v)`, _references.py:96-100 -/
def recordRef (v : Val) : Wr := fun ws => .ok { ws with log := (ws.log.record v).1 }

/-- `write_double(value)`, encode.py:249-256 -/
def writeDoubleTagged (x : F64) : Wr := fun ws => do
  let ws ← writeTag .kDouble ws
  emit (writeDouble x) ws

/-- The payload of `write_js_primitive_object`, encode.py:367-384 -/
def primObjPayload : PrimObj → Except EErr Bytes
  | .str s => writeStringUtf8 s
  | .bool _ => .ok []
  | .float x => .ok (writeDouble x)
  | .safeInt n => .ok (writeDouble (doubleOfInt n))
  | .bigint n => writeBigint n

/-- `write_js_primitive_object`, encode.py:360-384 -/
def writePrimObj (p : PrimObj) (identity : Val) : Wr := fun ws => do
  let ws ← recordRef identity ws
  let ws ← writeTag p.tag ws
  emitE (primObjPayload p) ws

/-- `write_js_regexp`, encode.py:386-392.  The object is not recorded. -/
def writeRegExp (r : RegExp) : Wr := fun ws => do
  let ws ← markSkew ws
  let ws ← writeTag .kRegExp ws
  let ws ← writeTagged .kUtf8String (writeStringUtf8 r.source) ws
  emit (writeVarint (canonicalFlags r.flags)) ws

/-- `if error_tag is not None: write_varint(error_tag)`, encode.py:399-401 -/
def writeErrProto (name : Str) : Wr := fun ws =>
  match (ErrName.forName name).tag with
  | none => .ok ws
  | some t => emit (writeVarint t.code) ws

/-- A message or stack, if there is one, encode.py:402-409 -/
def writeErrText (t : ErrTag) (text : Option Str) : Wr := fun ws =>
  match text with
  | none => .ok ws
  | some s => do
    let ws ← emit (writeVarint t.code) ws
    writeTagged .kUtf8String (writeStringUtf8 s) ws

/-- The exception that leaves `record_acyclic_reference`, _references.py:115-125 -/
def acyclicExc (n : Nat) : EErr → EErr
  | .forwardRef k => if k = n then .illegalCyclic else .forwardRef k
  | e => e

/-- Writing the cause, encode.py:412-422: under a plain recorded reference, or inside
`record_acyclic_reference` (_references.py:102-127). -/
def writeCause (circular : Bool) (rec : Val → Wr) (identity cause : Val) : Wr := fun ws => do
  let ws ← emit (writeVarint ErrTag.cause.code) ws
  if circular then do
    let ws ← recordRef identity ws
    rec cause ws
  else
    let r := ws.log.beginAcyclic identity
    match rec cause { ws with log := r.1 } with
    | .error e => .error (acyclicExc r.2 e)
    | .ok ws => .ok { ws with log := ws.log.endAcyclic r.2 identity }

/-- `write_js_error`, encode.py:394-423.  Without a cause the object is not recorded. -/
def writeError (circular : Bool) (rec : Val → Wr) (identity : Val) (name : Str)
    (message stack : Option Str) (cause : Val) : Wr := fun ws => do
  let ws ← if cause = .null then markSkew ws else .ok ws
  let ws ← writeTag .kError ws
  let ws ← writeErrProto name ws
  let ws ← writeErrText .message message ws
  let ws ← writeErrText .stack stack ws
  let ws ← if cause = .null then .ok ws else writeCause circular rec identity cause ws
  emit (writeVarint ErrTag.fin.code) ws

/-- `write_js_date`, encode.py:425-429 -/
def writeDate (py : PyEnv) (d : Int) (identity : Val) : Wr := fun ws =>
  match py.dateMs d with
  | .error e => .error (.py e)
  | .ok ms => do
    let ws ← recordRef identity ws
    let ws ← writeTag .kDate ws
    emit (writeDouble ms) ws

/-- The loops over values: `for el in array: ctx.encode_object(el)`, encode.py:458-460, 532-534 -/
def writeVals (rec : Val → Wr) : List Val → Wr
  | [], ws => .ok ws
  | v :: t, ws => do
    let ws ← rec v ws
    writeVals rec t ws

/-- The loop of `write_jsmap`, encode.py:441-444 -/
def writeEntries (rec : Val → Wr) : List (Val × Val) → Wr
  | [], ws => .ok ws
  | (k, v) :: t, ws => do
    let ws ← rec k ws
    let ws ← rec v ws
    writeEntries rec t ws

/-- `with self.constrain_tags(JS_OBJECT_KEY_TAGS): ctx.encode_object(key)`, encode.py:484-485 -/
def writeKey (rec : Val → Wr) (k : Val) : Wr := fun ws => do
  let ws ← rec k { ws with allowed := some jsObjectKeyTags }
  return { ws with allowed := none }

/-- The loop over properties, encode.py:483-487 and 538-542 -/
def writeProps (rec : Val → Wr) : List (Val × Val) → Wr
  | [], ws => .ok ws
  | (k, v) :: t, ws => do
    let ws ← writeKey rec k ws
    let ws ← rec v ws
    writeProps rec t ws

/-- `write_jsmap`, encode.py:431-446: the count is 2 per entry. -/
def writeJSMap (rec : Val → Wr) (entries : List (Val × Val)) (identity : Val) : Wr := fun ws => do
  let ws ← recordRef identity ws
  let ws ← writeTag .kBeginJSMap ws
  let ws ← writeEntries rec entries ws
  let ws ← writeTag .kEndJSMap ws
  emit (writeVarint (2 * entries.length)) ws

/-- `write_jsset`, encode.py:448-462 -/
def writeJSSet (rec : Val → Wr) (members : List Val) (identity : Val) : Wr := fun ws => do
  let ws ← recordRef identity ws
  let ws ← writeTag .kBeginJSSet ws
  let ws ← writeVals rec members ws
  let ws ← writeTag .kEndJSSet ws
  emit (writeVarint members.length) ws

/-- `_write_js_object_properties`, encode.py:475-489 -/
def writeObjectProps (rec : Val → Wr) (items : List (Val × Val)) (endTag : Tag) : Wr := fun ws => do
  let ws ← writeProps rec items ws
  let ws ← writeTag endTag ws
  emit (writeVarint items.length) ws

/-- `write_js_object`, encode.py:464-473 -/
def writeJSObject (rec : Val → Wr) (items : List (Val × Val)) (identity : Val) : Wr := fun ws => do
  let ws ← recordRef identity ws
  let ws ← writeTag .kBeginJSObject ws
  writeObjectProps rec items .kEndJSObject ws

/-- `write_js_array_dense`, encode.py:511-545.  `len(array)` is the number of elements the
iteration yields, so the assertion of line 535 holds. -/
def writeDenseArray (rec : Val → Wr) (els : List Val) (props : List (Val × Val)) (identity : Val) :
    Wr := fun ws => do
  let ws ← recordRef identity ws
  let ws ← writeTag .kBeginDenseJSArray ws
  let ws ← emit (writeVarint els.length) ws
  let ws ← writeVals rec els ws
  let ws ← writeProps rec props ws
  let ws ← writeTag .kEndDenseJSArray ws
  let ws ← emit (writeVarint props.length) ws
  emit (writeVarint els.length) ws

/-- `write_js_array_sparse`, encode.py:547-565 -/
def writeSparseArray (rec : Val → Wr) (items : List (Val × Val)) (length : Int) (identity : Val) :
    Wr := fun ws =>
  if ¬ (0 ≤ length ∧ length ≤ maxArrayLength) then .error (.py .valueError)
  else do
    let ws ← recordRef identity ws
    let ws ← writeTag .kBeginSparseJSArray ws
    let ws ← emit (writeVarint length.toNat) ws
    let ws ← writeObjectProps rec items .kEndSparseJSArray ws
    emit (writeVarint length.toNat) ws

/-- Ghost: a reference to log entry `n` is written. -/
def noteRef (n : Nat) : Wr := fun ws =>
  .ok { ws with badRef := ws.badRef || match ws.skew with | some k => decide (k ≤ n) | none => false }

/-- The exception of `get_serialized_id`, _references.py:75-85 -/
def logExc : LogErr → EErr
  | .notSerialized => .objectNotSerialized
  | .forwardRef n => .forwardRef n
  | .outOfRange => .encode
  | .valueError => .py .valueError

/-- `write_object_reference(obj=v)`, encode.py:580-590 -/
def writeReference (v : Val) : Wr := fun ws =>
  match ws.log.getId v with
  | .error e => .error (logExc e)
  | .ok n => do
    let ws ← noteRef n ws
    let ws ← writeTag .kObjectReference ws
    emit (writeVarint n) ws

/-- `_write_js_array_buffer`, encode.py:613-624; `data` is what `memoryview(buffer.data)` shows. -/
def writeFixedBuffer (data : Bytes) (identity : Val) : Wr := fun ws => do
  let ws ← recordRef identity ws
  let ws ← writeTag .kArrayBuffer ws
  let ws ← emitE (writeUint32 data.length) ws
  emit data ws

/-- `_write_js_array_buffer_resizable`, encode.py:626-640 -/
def writeResizableBuffer (b : ABuf) (identity : Val) : Wr := fun ws =>
  if b.max < b.exposed.length then .error (.py .valueError)
  else do
    let ws ← recordRef identity ws
    let ws ← writeTag .kResizableArrayBuffer ws
    let ws ← emitE (writeUint32 b.exposed.length) ws
    let ws ← emitE (writeUint32 b.max) ws
    emit b.exposed ws

/-- `write_js_array_buffer` of a JSArrayBuffer, encode.py:598-605 -/
def writeArrayBuffer (fs : Features) (b : ABuf) (identity : Val) : Wr := fun ws =>
  if b.resizable && fs.resizableArrayBuffers then writeResizableBuffer b identity ws
  else writeFixedBuffer b.exposed identity ws

/-- `_write_js_array_buffer_shared` and `_write_js_array_buffer_transfer`, encode.py:642-658 -/
def writeBufferId (t : Tag) (id : Int) (identity : Val) : Wr := fun ws =>
  if id < 0 then .error (.py .valueError)
  else do
    let ws ← markSkew ws
    let ws ← recordRef identity ws
    let ws ← writeTag t ws
    emit (writeVarint id.toNat) ws

/-- The flags of `write_js_array_buffer_view`, encode.py:679-685 (IsLengthTracking = 1,
IsBufferResizable = 2). -/
def viewFlags (resizable tracking : Bool) : Nat :=
  (if resizable then 2 else 0) + (if tracking then 1 else 0)

/-- `write_js_array_buffer_view`, encode.py:660-685.  `mv` is the contents of the backing buffer,
empty if inaccessible (jsbuffers.py:551-556). -/
def writeView (fs : Features) (v : View) (mv : Bytes) (resizable : Bool) (identity : Val) : Wr :=
  fun ws =>
  if v.tag = .float16 ∧ fs.float16Array = false then .error .featureRequired
  else do
    let ws ← recordRef identity ws
    let ws ← writeTag .kArrayBufferView ws
    let ws ← emit (writeVarint v.tag.code) ws
    let ws ← emitE (writeUint32 (v.byteOffset mv)) ws
    let ws ← emitE (writeUint32 (v.byteLength mv)) ws
    emit (writeVarint (viewFlags resizable (v.isLengthTracking resizable))) ws

/-- `write_v8_shared_object_reference`, encode.py:696-701 -/
def writeSharedRef (id : Int) (identity : Val) : Wr := fun ws => do
  let ws ← recordRef identity ws
  let ws ← writeTag .kSharedObject ws
  emitE (writeUint32 id) ws

/-! ## TagWriter -/

/-- `write_string_onebyte(str(value))` of a large int used as a property key, encode.py:887;
`str()` of too many digits is a ValueError. -/
def bigKeyPayload (n : Int) : Except EErr Bytes :=
  match pyIntStr n with
  | .error e => .error (.py e)
  | .ok s => writeStringOneByte s

/-- `serialize_int`, encode.py:874-889.  `allowed_tags is JS_OBJECT_KEY_TAGS` is read as equality of
the constraint. -/
def serializeInt (n : Int) : Wr := fun ws =>
  if inUint32 n then writeTagged .kUint32 (writeUint32 n) ws
  else if inInt32 n then writeTagged .kInt32 (writeInt32 n) ws
  else if inSafeInt n then writeDoubleTagged (doubleOfInt n) ws
  else if ws.allowed = some jsObjectKeyTags then writeTagged .kOneByteString (bigKeyPayload n) ws
  else writeTagged .kBigInt (writeBigint n) ws

/-- Property items as the values `items()` yields. -/
def itemVals (l : List (PKey × Val)) : List (Val × Val) := l.map (fun e => (e.1.toVal, e.2))

/-- `properties.items()` of a JSObject. -/
def propVals (d : Dict Str Val) : List (Val × Val) := d.map (fun e => (.str e.1, e.2))

/-- `sparse_is_smaller`, encode.py:1000-1005 -/
def sparseIsSmaller (used length : Int) : Bool :=
  decide (used * (if length < 2 ^ 14 then 3 else 4) < length - used)

/-- `serialize_js_array`, encode.py:991-1017 -/
def serializeJSArray (rec : Val → Wr) (o : JSObj Val) (identity : Val) : Wr := fun ws =>
  if sparseIsSmaller o.array.used o.array.len then
    writeSparseArray rec (itemVals o.items) o.array.len identity ws
  else writeDenseArray rec (o.array.toList.map elemVal) (propVals o.props) identity ws

/-- `serialize_buffer_view` once the Float16 check has passed, encode.py:1088-1089 -/
def serializeView (env : EEnv) (rec : Val → Wr) (backing : Val) (v : View) (identity : Val) : Wr :=
  fun ws => do
  let ws ← rec backing ws
  writeView env.feats v ((backingBytes env.heap backing).getD [])
    (backingResizable env.heap backing) identity ws

/-- `TagWriter.encode` of an object, by its type (encode.py:929-1089); `next` is the following
step. -/
def serializeNode (env : EEnv) (rec : Val → Wr) (next : Val → Wr) (v : Val) : Node → Wr
  | .jsmap es => writeJSMap rec es v
  | .jsset ms => writeJSSet rec ms v
  | .jsobj o => writeJSObject rec (itemVals o.items) v
  | .jsarr o => serializeJSArray rec o v
  | .pylist els => writeDenseArray rec els [] v
  | .date d => writeDate env.py d v
  | .primObj p => writePrimObj p v
  | .regexp r => writeRegExp r
  | .error name message stack cause =>
    writeError env.feats.circularErrorCause rec v name message stack cause
  | .abuf b => writeArrayBuffer env.feats b v
  | .rawBuf _ b => writeFixedBuffer b v
  | .sharedBuf id => writeBufferId .kSharedArrayBuffer id v
  | .transferBuf id => writeBufferId .kArrayBufferTransfer id v
  | .view backing w =>
    if w.tag = .float16 ∧ env.feats.float16Array = false then next v
    else serializeView env rec backing w v
  | .sharedRef id => writeSharedRef id v
  | .other => next v

/-- `TagWriter.encode`, encode.py:863-1089.  (An identity outside the heap does not occur.) -/
def tagWriter (env : EEnv) (rec : Val → Wr) (v : Val) (next : Val → Wr) : Wr :=
  match v with
  | .hole => writeConstant .kTheHole
  | .undef => writeConstant .kUndefined
  | .null => writeConstant .kNull
  | .bool true => writeConstant .kTrue
  | .bool false => writeConstant .kFalse
  | .int n => serializeInt n
  | .float x => writeDoubleTagged x
  | .str s => writeTagged .kUtf8String (writeStringUtf8 s)
  | .bytes b => writeFixedBuffer b v
  | .obj i =>
    match env.heap[i]? with
    | some n => serializeNode env rec next v n
    | none => next v

/-! ## Steps -/

/-- The key under which `deduplicate` caches a value (encode.py:813-815, 841-847): `none` when the
first seen equal value of that type is that same value, or the value is not hashable. -/
def dkey (env : EEnv) : Val → Option DKey
  | .float x => if fval x = .fin 0 then some .zero else none
  | .obj i => (env.hkey i).map .cls
  | _ => none

/-- `DefaultEncodeContext.deduplicate`, encode.py:841-847: the first value seen with the same key. -/
def deduplicate (env : EEnv) (v : Val) (ws : WS) : Val × WS :=
  match dkey env v with
  | none => (v, ws)
  | some k =>
    match Dict.get ws.memo k with
    | some w => (w, ws)
    | none => (v, { ws with memo := Dict.set ws.memo k v })

/-- `serialize_object_references`, encode.py:1092-1117 -/
def refsStep (env : EEnv) (v : Val) (next : Val → Wr) : Wr := fun ws =>
  let r := deduplicate env v ws
  if r.2.log.contains r.1 then writeReference r.1 r.2 else next r.1 r.2

/-- An encode step, given the context's `encode_object` for nested values. -/
abbrev EncStep := (Val → Wr) → Val → (Val → Wr) → Wr

/-- `_report_unmapped_value`, encode.py:836-839 -/
def unhandledValue (_ : Val) : Wr := fun _ => .error .unhandledValue

/-- `encode_object` with given steps, encode.py:817-834.  `fuel` bounds the nesting depth. -/
def encodeWith (steps : List EncStep) : Nat → Val → Wr
  | 0, _ => fun _ => .error .fuel
  | fuel + 1, v => chainFrom unhandledValue (steps.map (fun s => s (encodeWith steps fuel))) 0 v

/-- `default_encode_steps`, encode.py:1120-1123 -/
def defaultEncodeSteps (env : EEnv) : List EncStep := [fun _ => refsStep env, tagWriter env]

/-- `encode_object` with the default steps. -/
def encodeObject (env : EEnv) : Nat → Val → Wr := encodeWith (defaultEncodeSteps env)

/-- Nesting depth that `dumps` cannot exceed (shown in `Props/EncodeGlobal.lean`): every nested call
records another object of the heap, except at the innermost two levels. -/
def encodeFuel (env : EEnv) : Nat := env.heap.length + 3

/-- `Encoder.encode` / `dumps` with given steps, encode.py:1187-1207, 1210-1279: the final state of
the stream. -/
def dumpsWith (steps : List EncStep) (fuel : Nat) (v : Val) : Except EErr WS := do
  let ws ← emit writeHeader WS.new
  encodeWith steps fuel v ws

/-- `dumps(value)` with the default steps, as the final state of the stream. -/
def dumpsState (env : EEnv) (v : Val) : Except EErr WS :=
  dumpsWith (defaultEncodeSteps env) (encodeFuel env) v

/-- `dumps(value)`, encode.py:1210-1279 -/
def dumps (env : EEnv) (v : Val) : Except EErr Bytes := (dumpsState env v).map (·.data)

end V8
