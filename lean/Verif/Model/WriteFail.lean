import Verif.Model.Encode

/-!
# What a stream holds when a write method raises (C91)

Models the methods of `WritableTagStream` (src/v8serialize/encode.py:217-701) statement by statement, with the state of the
stream also when a statement raises.  `Model/Encode` has the same methods without that state; `C91_agrees` says that both
give the same result when nothing is raised, and the same exception otherwise.

Simplification: appending to a bytearray does not raise (MemoryError).
-/

namespace V8.WriteFail

/-- The effect of a method: the stream afterwards, and the exception if one was raised. -/
abbrev Wx := WS → WS × Option EErr

/-- A statement that is executed completely or raises before it changes anything. -/
def step (w : Wr) : Wx := fun ws =>
  match w ws with
  | .ok ws' => (ws', none)
  | .error e => (ws, some e)

/-- `raise` -/
def throwing (e : EErr) : Wx := fun ws => (ws, some e)

/-- Nothing. -/
def skip : Wx := fun ws => (ws, none)

/-- One statement after the other; the second is not reached if the first raises. -/
def seq (a b : Wx) : Wx := fun ws =>
  match a ws with
  | (ws', none) => b ws'
  | (ws', some e) => (ws', some e)

/-- `with self.constrain_tags(c): body` (encode.py:146-158, 192-211): the constraint is removed on exit, also after an
exception, and replaces one that was there. -/
def constrained (c : TagConstraint) (body : Wx) : Wx := fun ws =>
  let r := body { ws with allowed := some c }
  ({ r.1 with allowed := none }, r.2)

/-- `write_tag` (encode.py:217-224). -/
def tag (t : Tag) : Wx := step (writeTag t)

/-- `self.data.extend(bs)`, where computing `bs` may raise. -/
def payload (r : Except EErr Bytes) : Wx := step (emitE r)

/-- `write_varint` (encode.py:226-235): the check of the sign comes first. -/
def varint (n : Int) : Wx := payload (writeVarintInt n)

/-- The methods that compute and check the bytes first, then write the tag, then the bytes: write_string_onebyte,
write_string_utf8, write_bigint, write_int32, write_uint32 (encode.py:258-275, 295-358). -/
def tagged (t : Tag) (r : Except EErr Bytes) : Wx :=
  match r with
  | .error e => throwing e
  | .ok bs => seq (tag t) (step (emit bs))

/-- `write_string_twobyte` (encode.py:277-293): the text is encoded first; the padding is inserted before the tag. -/
def twoByte (s : Str) : Wx := fun ws =>
  match writeStringTwoByte ws.data.length (some Tag.kTwoByteString.byte) s with
  | .error e => (ws, some e)
  | .ok bs =>
    match tag .kTwoByteString ws with
    | (ws', some e) => (ws', some e)
    | (_, none) => ({ ws with data := ws.data ++ bs }, none)

/-- The argument of `write_double`: a float, or an int that `struct.pack` converts. -/
inductive NumArg where
  | float (x : F64)
  | int (n : Int)
  deriving DecidableEq, Repr

/-- What the methods use besides the stream: `features`, the clock, `float(n)` of an int (OverflowError if it is too
large) and the serializer of host objects. -/
structure XEnv where
  feats : Features
  py : PyEnv
  float : Int → Except PyExc F64
  host : Val → Wx

/-- `struct.pack("<d", value)` (encode.py:256). -/
def packDouble (env : XEnv) : NumArg → Except EErr Bytes
  | .float x => .ok (writeDouble x)
  | .int n =>
    match env.float n with
    | .ok x => .ok (writeDouble x)
    | .error e => .error (.py e)

/-- `for el in array: ctx.encode_object(el)` (encode.py:458-460, 532-534). -/
def vals (rec : Val → Wx) : List Val → Wx
  | [] => skip
  | v :: t => seq (rec v) (vals rec t)

/-- The loop of `write_jsmap` (encode.py:441-444). -/
def entries (rec : Val → Wx) : List (Val × Val) → Wx
  | [] => skip
  | (k, v) :: t => seq (rec k) (seq (rec v) (entries rec t))

/-- The loops over properties (encode.py:483-487, 538-542). -/
def props (rec : Val → Wx) : List (Val × Val) → Wx
  | [] => skip
  | (k, v) :: t => seq (constrained jsObjectKeyTags (rec k)) (seq (rec v) (props rec t))

/-- `if error_tag is not None: write_varint(error_tag)` (encode.py:399-401). -/
def errProto (name : Str) : Wx :=
  match (ErrName.forName name).tag with
  | none => skip
  | some t => varint t.code

/-- A message or stack, if there is one (encode.py:402-409). -/
def errText (t : ErrTag) (text : Option Str) : Wx :=
  match text with
  | none => skip
  | some s => seq (varint t.code) (tagged .kUtf8String (writeStringUtf8 s))

/-- `with self.objects.record_acyclic_reference(identity): body` (encode.py:417-422, _references.py:102-127): the forward
reference gets its value on exit, also after an exception. -/
def acyclic (identity : Val) (body : Wx) : Wx := fun ws =>
  let r := ws.log.beginAcyclic identity
  let q := body { ws with log := r.1 }
  ({ q.1 with log := q.1.log.endAcyclic r.2 identity }, q.2.map (acyclicExc r.2))

/-- The cause (encode.py:410-422). -/
def cause (circular : Bool) (rec : Val → Wx) (identity v : Val) : Wx :=
  seq (varint ErrTag.cause.code)
    (if circular then seq (step (recordRef identity)) (rec v) else acyclic identity (rec v))

/-- `_write_js_object_properties` (encode.py:475-489). -/
def objectProps (rec : Val → Wx) (items : List (Val × Val)) (endTag : Tag) : Wx :=
  seq (props rec items) (seq (tag endTag) (varint items.length))

/-- A call of a method of the stream.  `markSkew` and `noteRef` are the ghost fields of `Model/Encode`. -/
inductive Call where
  | tag (t : Tag)                                   -- write_tag, encode.py:217-224
  | varint (n : Int)                                -- write_varint, 226-235
  | zigzag (n : Int)                                -- write_zigzag, 237-238
  | constant (t : Tag)                              -- write_constant, 240-242
  | header                                          -- write_header, 244-247
  | double (x : NumArg)                             -- write_double, 249-256
  | oneByte (s : Str)                               -- write_string_onebyte, 258-275
  | twoByte (s : Str)                               -- write_string_twobyte, 277-293
  | utf8 (s : Str)                                  -- write_string_utf8, 295-311
  | bigint (n : Int)                                -- write_bigint, 313-330
  | int32 (n : Int)                                 -- write_int32, 332-344
  | uint32 (n : Int)                                -- write_uint32, 346-358
  | primObj (p : PrimObj) (identity : Val)          -- write_js_primitive_object, 360-384
  | regexp (r : RegExp)                             -- write_js_regexp, 386-392
  | error (name : Str) (message stack : Option Str) (cause identity : Val)   -- write_js_error, 394-423
  | date (d : Int) (identity : Val)                 -- write_js_date, 425-429
  | map (l : List (Val × Val)) (identity : Val)     -- write_jsmap, 431-446
  | set (l : List Val) (identity : Val)             -- write_jsset, 448-462
  | object (l : List (Val × Val)) (identity : Val)  -- write_js_object, 464-473
  | dense (els : List Val) (l : List (Val × Val)) (identity : Val)           -- write_js_array_dense, 511-545
  | sparse (l : List (Val × Val)) (length : Int) (identity : Val)            -- write_js_array_sparse, 547-565
  | reference (v : Val)                             -- write_object_reference(obj=v), 580-590
  | referenceId (n : Int)                           -- write_object_reference(serialized_id=n), 580-590
  | fixedBuffer (data : Bytes) (identity : Val)     -- _write_js_array_buffer, 613-624
  | resizableBuffer (b : ABuf) (identity : Val)     -- _write_js_array_buffer_resizable, 626-640
  | bufferId (t : Tag) (id : Int) (identity : Val)  -- _write_js_array_buffer_shared and _transfer, 642-658
  | view (v : View) (mv : Bytes) (resizable : Bool) (identity : Val)         -- write_js_array_buffer_view, 660-685
  | hostObject (v : Val)                            -- write_host_object, 687-694
  | sharedRef (id : Int) (identity : Val)           -- write_v8_shared_object_reference, 696-701

/-- The methods, with the lines given at `Call`; `rec` is `ctx.encode_object`. -/
def exec (env : XEnv) (rec : Val → Wx) : Call → Wx
  | .tag t => tag t
  | .varint n => varint n
  | .zigzag n => varint (encodeZigzag n)
  | .constant t => constrained jsConstantTags (tag t)
  | .header => seq (tag .kVersion) (varint kLatestVersion)
  | .double x => seq (tag .kDouble) (payload (packDouble env x))
  | .oneByte s => tagged .kOneByteString (writeStringOneByte s)
  | .twoByte s => twoByte s
  | .utf8 s => tagged .kUtf8String (writeStringUtf8 s)
  | .bigint n => tagged .kBigInt (writeBigint n)
  | .int32 n => tagged .kInt32 (writeInt32 n)
  | .uint32 n => tagged .kUint32 (writeUint32 n)
  | .primObj p identity => seq (step (recordRef identity)) (seq (tag p.tag) (payload (primObjPayload p)))
  | .regexp r =>
    seq (step markSkew) (seq (tag .kRegExp)
      (seq (tagged .kUtf8String (writeStringUtf8 r.source)) (varint (canonicalFlags r.flags))))
  | .error name message stack c identity =>
    seq (if c = .null then step markSkew else skip) (seq (tag .kError) (seq (errProto name)
      (seq (errText .message message) (seq (errText .stack stack)
        (seq (if c = .null then skip else cause env.feats.circularErrorCause rec identity c)
          (varint ErrTag.fin.code))))))
  | .date d identity =>
    match env.py.dateMs d with
    | .error e => throwing (.py e)
    | .ok ms => seq (step (recordRef identity)) (seq (tag .kDate) (payload (.ok (writeDouble ms))))
  | .map l identity =>
    seq (step (recordRef identity)) (seq (tag .kBeginJSMap) (seq (entries rec l)
      (seq (tag .kEndJSMap) (varint (2 * l.length : Nat)))))
  | .set l identity =>
    seq (step (recordRef identity)) (seq (tag .kBeginJSSet) (seq (vals rec l)
      (seq (tag .kEndJSSet) (varint l.length))))
  | .object l identity =>
    seq (step (recordRef identity)) (seq (tag .kBeginJSObject) (objectProps rec l .kEndJSObject))
  | .dense els l identity =>
    seq (step (recordRef identity)) (seq (tag .kBeginDenseJSArray) (seq (varint els.length) (seq (vals rec els)
      (seq (props rec l) (seq (tag .kEndDenseJSArray) (seq (varint l.length) (varint els.length)))))))
  | .sparse l length identity =>
    if ¬ (0 ≤ length ∧ length ≤ maxArrayLength) then throwing (.py .valueError)
    else seq (step (recordRef identity)) (seq (tag .kBeginSparseJSArray) (seq (varint length)
      (seq (objectProps rec l .kEndSparseJSArray) (varint length))))
  | .reference v => fun ws =>
    match ws.log.getId v with
    | .error e => (ws, some (logExc e))
    | .ok n => seq (tag .kObjectReference) (seq (varint n) (step (noteRef n))) ws
  | .referenceId n => fun ws =>
    match ws.log.getObject n with
    | .error e => (ws, some (logExc e))
    | .ok _ => seq (tag .kObjectReference) (varint n) ws
  | .fixedBuffer data identity =>
    seq (step (recordRef identity)) (seq (tag .kArrayBuffer)
      (seq (payload (writeUint32 data.length)) (payload (.ok data))))
  | .resizableBuffer b identity =>
    if b.max < b.exposed.length then throwing (.py .valueError)
    else seq (step (recordRef identity)) (seq (tag .kResizableArrayBuffer)
      (seq (payload (writeUint32 b.exposed.length)) (seq (payload (writeUint32 b.max)) (payload (.ok b.exposed)))))
  | .bufferId t id identity =>
    if id < 0 then throwing (.py .valueError)
    else seq (step markSkew) (seq (step (recordRef identity)) (seq (tag t) (varint id)))
  | .view v mv resizable identity =>
    if v.tag = .float16 ∧ env.feats.float16Array = false then throwing .featureRequired
    else seq (step (recordRef identity)) (seq (tag .kArrayBufferView) (seq (varint v.tag.code)
      (seq (payload (writeUint32 (v.byteOffset mv))) (seq (payload (writeUint32 (v.byteLength mv)))
        (varint (viewFlags resizable (v.isLengthTracking resizable)))))))
  | .hostObject v => seq (tag .kHostObject) (env.host v)
  | .sharedRef id identity =>
    seq (step (recordRef identity)) (seq (tag .kSharedObject) (payload (writeUint32 id)))

/-- What an encode step does to write a value (`EncodeStepFn`, encode.py:764-776, with the steps that it reaches by `next`): it calls
methods of the stream or `ctx.encode_object`, sees whether they raised and how the stream looks then, may catch the
exception, and ends normally or by raising.  Simplification: it changes the stream by its methods only. -/
inductive Prog where
  | done
  | fail (e : EErr)
  | call (c : Call) (next : Option EErr → WS → Prog)
  | value (v : Val) (next : Option EErr → WS → Prog)

/-- Running such a step; `rec` is `ctx.encode_object`. -/
def Prog.run (env : XEnv) (rec : Val → Wx) : Prog → Wx
  | .done => skip
  | .fail e => throwing e
  | .call c next => fun ws =>
    let r := exec env rec c ws
    (next r.2 r.1).run env rec r.1
  | .value v next => fun ws =>
    let r := rec v ws
    (next r.2 r.1).run env rec r.1

/-- `encode_object` of a context whose steps write each value as `steps` says (encode.py:817-847).  The fuel bounds the
depth of nesting, as Python's recursion limit does. -/
def encodeBy (env : XEnv) (steps : Val → Prog) : Nat → Val → Wx
  | 0 => fun _ => throwing .fuel
  | n + 1 => fun v => (steps v).run env (encodeBy env steps n)

end V8.WriteFail
