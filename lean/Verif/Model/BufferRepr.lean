import Verif.Model.Buffers

/-!
# `repr()` of buffers and of views, character by character

Models `JSRepr.repr_JSArrayBuffer`, `repr_memoryview`, `repr_bytearray` and `repr_bytes`
(`src/v8serialize/jstypes/_repr.py:319-400`), `JSArrayBufferView.__repr__` (`jsbuffers.py:634-642`), the `__repr__` that
`@dataclass` gives JSSharedArrayBuffer and JSArrayBufferTransfer (244-291), and the constructors that the text calls.

Simplifications.
* `_data` is bytes, bytearray or a memoryview of one dimension (not `array.array` or another type); classes are not
  subclassed.
* The settings `maxstring` and `maxlevel` are not negative, and `indent` is None or a number that is not negative.
* A memoryview is the bytes it shows at the moment of the call.
* The formats of memoryviews are the native single characters, with their sizes on a 64-bit machine.
-/

namespace V8.BufRepr

/-- Python text. -/
abbrev Text := List Char

/-! ## Python's own objects -/

/-- The size of the items of a memoryview of a format; none: a format `cast` does not accept (Python 3.11). -/
def formatSize : Char → Option Nat
  | 'B' | 'b' | 'c' | '?' => some 1
  | 'H' | 'h' => some 2
  | 'I' | 'i' | 'f' => some 4
  | 'L' | 'l' | 'Q' | 'q' | 'N' | 'n' | 'P' | 'd' => some 8
  | _ => none

/-- A memoryview.  `content`: the bytes of its items one after the other; `step`: it shows not all the bytes between its
first and last one; `addr`: the digits of its address. -/
structure MV where
  content : Bytes
  readonly : Bool
  format : Char
  step : Bool
  released : Bool
  addr : Text
  deriving DecidableEq, Repr

/-- Python's objects with bytes. -/
inductive Raw where
  | bytes (b : Bytes)
  | bytearray (b : Bytes)
  | mview (v : MV)
  deriving DecidableEq, Repr

/-- The bytes in the object. -/
def Raw.content : Raw → Bytes
  | .bytes b => b
  | .bytearray b => b
  | .mview v => v.content

/-- `memoryview(x).readonly` -/
def Raw.readonly : Raw → Bool
  | .bytes _ => true
  | .bytearray _ => false
  | .mview v => v.readonly

/-- `memoryview(x)` raises ValueError. -/
def Raw.released : Raw → Bool
  | .mview v => v.released
  | _ => false

/-- `len(x)` -/
def Raw.size : Raw → Nat
  | .bytes b => b.length
  | .bytearray b => b.length
  | .mview v =>
    match formatSize v.format with
    | some k => v.content.length / k
    | none => v.content.length

/-- One byte in `repr(b'..')`, CPython's `bytes_repr` (Objects/bytesobject.c), between quotes `q` -/
def escapeByte (q : Char) (b : UInt8) : Text :=
  let c := Char.ofNat b.toNat
  if c = q ∨ c = '\\' then ['\\', c]
  else if c = '\t' then ['\\', 't']
  else if c = '\n' then ['\\', 'n']
  else if c = '\r' then ['\\', 'r']
  else if b.toNat < 32 ∨ 127 ≤ b.toNat then
    ['\\', 'x', Nat.digitChar (b.toNat / 16), Nat.digitChar (b.toNat % 16)]
  else [c]

/-- `'`, but `"` if there are `'` and no `"` -/
def quoteFor (b : Bytes) : Char := if 39 ∈ b ∧ 34 ∉ b then '"' else '\''

/-- `repr(b)` of bytes -/
def pyBytes (b : Bytes) : Text :=
  let q := quoteFor b
  'b' :: q :: (b.flatMap (escapeByte q) ++ [q])

/-- `repr(b)` of a bytearray: as before, and `'` has a backslash between `"` too (Python 3.11) -/
def pyBytearray (b : Bytes) : Text :=
  let q := quoteFor b
  "bytearray(b".toList ++
    q :: (b.flatMap (fun x => if x = 39 then ['\\', '\''] else escapeByte q x) ++ [q] ++ [')'])

/-- `repr(n)` of an int that is not negative -/
def pyNat (n : Nat) : Text := Nat.toDigits 10 n

/-- `repr(x)` of an int or None -/
def pyOptNat : Option Nat → Text
  | none => "None".toList
  | some n => pyNat n

/-! ## JSRepr -/

/-- The settings of the active JSRepr that matter here. -/
structure Settings where
  maxstring : Nat
  maxlevel : Nat
  indent : Option Nat
  deriving DecidableEq, Repr

/-- `sep.join(pieces)` -/
def joinWith (sep : Text) : List Text → Text
  | [] => []
  | [p] => p
  | p :: q :: ps => p ++ sep ++ joinWith sep (q :: ps)

/-- `_join`: that of _repr.py:122-125, or of `reprlib.Repr` from Python 3.12 on -/
def Settings.join (s : Settings) (pieces : List Text) (level : Nat) : Text :=
  match s.indent with
  | none => joinWith ", ".toList pieces
  | some n =>
    let sep := ",\n".toList ++ List.replicate ((s.maxlevel - level + 1) * n) ' '
    let joined := joinWith sep ([[]] ++ pieces ++ [[]])
    (joined.drop 1).take (joined.length - 1 - n)

/-- `repr_bytes`, _repr.py:387-400 -/
def reprBytes (s : Settings) (obj : Bytes) (truncated : Option Bool) : Text :=
  let cut := truncated = none ∧ s.maxstring < obj.length
  let obj' := if cut then obj.take s.maxstring else obj
  let truncated' : Bool := if cut then true else truncated.getD false
  let repr := pyBytes obj'
  if truncated' = false then repr
  else repr.dropLast ++ ['…'] ++ repr.drop (repr.length - 1)

/-- `repr_bytearray`, _repr.py:377-386 -/
def reprBytearray (s : Settings) (obj : Bytes) (truncated : Option Bool) : Text :=
  let content := reprBytes s (obj.take s.maxstring)
    (some (truncated.getD false || decide (s.maxstring < obj.length)))
  "bytearray(".toList ++ content ++ ")".toList

/-- `repr_memoryview`, _repr.py:354-375.  TypeError: `cast("B")` of a memoryview with steps. -/
def reprMemoryview (s : Settings) (v : MV) : Except PyExc Text :=
  if v.released then .ok ("<released memory at 0x".toList ++ v.addr ++ ">".toList)
  else if v.step then .error .typeError
  else
    let content := v.content.take s.maxstring
    let truncated := decide (content.length < v.content.length)
    let repr := if v.readonly then reprBytes s content (some truncated)
      else reprBytearray s content (some truncated)
    let repr := "memoryview(".toList ++ repr ++ ")".toList
    if v.format ≠ 'B' then .ok (repr ++ ".cast('".toList ++ [v.format] ++ "')".toList)
    else .ok repr

/-- `JSArrayBuffer`, jsbuffers.py:96-101 -/
structure Buf where
  data : Raw
  max : Nat
  resizable : Bool
  deriving DecidableEq, Repr

/-- `self.repr1(obj._data, level)` for a level over 0 -/
def reprRaw (s : Settings) : Raw → Except PyExc Text
  | .bytes b => .ok (reprBytes s b none)
  | .bytearray b => .ok (reprBytearray s b none)
  | .mview v => reprMemoryview s v

/-- The text of the data, and whether `max_byte_length` and `readonly` are needed, _repr.py:319-341 -/
def bufParts (s : Settings) (b : Buf) : Except PyExc (Text × Bool × Bool) :=
  if b.data.released then do
    let t ← reprRaw s b.data
    .ok (t, true, false)
  else
    match b.data with
    | .bytearray d =>
      .ok (reprBytes s (d.take s.maxstring) (some (decide (s.maxstring < d.length))),
        decide (d.length ≠ b.max), false)
    | data => do
      let t ← reprRaw s data
      .ok (t, decide (data.content.length ≠ b.max), data.readonly)

/-- `repr_JSArrayBuffer`, _repr.py:319-352 -/
def reprBuf (s : Settings) (level : Nat) (b : Buf) : Except PyExc Text := do
  let (data, needsMax, needsReadonly) ← bufParts s b
  let pieces := [data] ++ (if needsMax then ["max_byte_length=".toList ++ pyNat b.max] else [])
    ++ (if needsReadonly then ["readonly=True".toList] else [])
  let args := if pieces.length ≠ 1 then s.join pieces level else data
  .ok ("JSArrayBuffer(".toList ++ args ++ ")".toList)

/-- `js_repr(buffer)`, _repr.py:410-412: `repr1(x, self.maxlevel)`, 30-42 -/
def jsReprBuf (s : Settings) (b : Buf) : Except PyExc Text :=
  if s.maxlevel = 0 then .ok "...".toList else reprBuf s s.maxlevel b

/-! ## Views -/

/-- What a view can have as its backing buffer. -/
inductive Backing where
  | raw (r : Raw)
  | buf (b : Buf)
  | shared (id : Nat)
  | transfer (id : Nat)
  deriving DecidableEq, Repr

/-- `JSArrayBufferView`, jsbuffers.py:386-420, of the class of `tag`; `readonly` is True or None (`1` is not kept apart
from True). -/
structure VObj where
  tag : ViewTag
  backing : Backing
  itemOffset : Nat
  itemLength : Option Nat
  readonly : Bool
  deriving DecidableEq, Repr

/-- The `__name__` of the class, jsbuffers.py:716-820 and 1027.  `backport`: this Python has no memoryviews of 16-bit
floats, and `JSFloat16Array` is `BackportJSFloat16Array` (851-857). -/
def className (backport : Bool) : ViewTag → Text
  | .int8 => "JSInt8Array".toList
  | .uint8 => "JSUint8Array".toList
  | .uint8Clamped => "JSUint8ClampedArray".toList
  | .int16 => "JSInt16Array".toList
  | .uint16 => "JSUint16Array".toList
  | .int32 => "JSInt32Array".toList
  | .uint32 => "JSUint32Array".toList
  | .float16 => if backport then "BackportJSFloat16Array".toList else "JSFloat16Array".toList
  | .float32 => "JSFloat32Array".toList
  | .float64 => "JSFloat64Array".toList
  | .bigInt64 => "JSBigInt64Array".toList
  | .bigUint64 => "JSBigUint64Array".toList
  | .dataView => "JSDataView".toList

/-- `repr(backing_buffer)`: Python's own `repr` of bytes, bytearrays and memoryviews; JSArrayBuffer's; the one of
`@dataclass` for the other two, jsbuffers.py:244-291 -/
def reprBacking (s : Settings) : Backing → Except PyExc Text
  | .raw (.bytes b) => .ok (pyBytes b)
  | .raw (.bytearray b) => .ok (pyBytearray b)
  | .raw (.mview v) =>
    .ok ((if v.released then "<released memory at 0x".toList else "<memory at 0x".toList) ++ v.addr ++ ">".toList)
  | .buf b => jsReprBuf s b
  | .shared id => .ok ("JSSharedArrayBuffer(buffer_id=".toList ++ pyNat id ++ ")".toList)
  | .transfer id => .ok ("JSArrayBufferTransfer(transfer_id=".toList ++ pyNat id ++ ")".toList)

/-- `arg_pieces` without the Nones, jsbuffers.py:635-641: what is shown as `readonly` is the `item_length`. -/
def viewPieces (v : VObj) (backing : Text) : List Text :=
  [backing]
    ++ (if v.itemOffset = 0 then [] else ["item_offset=".toList ++ pyNat v.itemOffset])
    ++ (match v.itemLength with
        | none => []
        | some n => ["item_length=".toList ++ pyNat n])
    ++ (if v.readonly then ["readonly=".toList ++ pyOptNat v.itemLength] else [])

/-- `JSArrayBufferView.__repr__`, jsbuffers.py:634-642 -/
def reprView (backport : Bool) (s : Settings) (v : VObj) : Except PyExc Text := do
  let backing ← reprBacking s v.backing
  .ok (className backport v.tag ++ "(".toList ++ joinWith ", ".toList (viewPieces v backing) ++ ")".toList)

/-! ## The constructors -/

/-- What becomes of `data`, jsbuffers.py:149-159 -/
def Raw.taken (copyData readonly : Bool) (data : Raw) : Raw :=
  if copyData then
    if readonly then .bytes data.content else .bytearray data.content
  else if readonly then
    match data with
    | .bytes b => .bytes b
    | .bytearray b => .mview ⟨b, true, 'B', false, false, []⟩
    | .mview v => .mview { v with readonly := true }
  else data

/-- `isinstance(data, bytearray)` -/
def Raw.isBytearray : Raw → Bool
  | .bytearray _ => true
  | _ => false

/-- `JSArrayBuffer(data, max_byte_length=.., resizable=.., copy_data=.., readonly=..)`, jsbuffers.py:126-190; None stands
for False, and for True in `copy_data`.  ValueError for a memoryview that was released. -/
def newBuf (data : Raw) (maxByteLength : Option Int) (resizable copyData readonly : Bool) : Except PyExc Buf :=
  let resizable := resizable || maxByteLength.isSome
  if resizable && readonly then .error .valueError
  else if data.released then .error .valueError
  else
    let data := data.taken copyData readonly
    let max : Int := maxByteLength.getD data.size
    if resizable && !data.isBytearray then .error .valueError
    else if (data.size : Int) > max then .error .jsArrayBufferError
    else .ok ⟨data, max.toNat, resizable⟩

/-- `__init__` and `__post_init__` of the views, jsbuffers.py:404-434, for arguments that are not negative.
`readonly`: None (`none`), or an int, with True as 1; `readonly not in (True, None)` holds of the others. -/
def newView (tag : ViewTag) (backing : Backing) (itemOffset : Nat) (itemLength : Option Nat)
    (readonly : Option Nat) : Except PyExc VObj :=
  match readonly with
  | none => .ok ⟨tag, backing, itemOffset, itemLength, false⟩
  | some n => if n = 1 then .ok ⟨tag, backing, itemOffset, itemLength, true⟩ else .error .valueError

end V8.BufRepr
