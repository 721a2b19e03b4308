import Verif.Model.Header
import Verif.Model.Text

/-!
# Reading from arrays and memoryviews whose items are not unsigned bytes

`Decoder.decodes` takes bytes, bytearray, array.array and memoryview objects as they are.  Their items need not be single
bytes and need not lie next to each other, and the methods of `ReadableTagStream` use them in four ways: by item
(`data[pos]`, `len(data)`), by slices of which a codec wants the memory, by slices which are copied, and by the memory of the
whole object (`struct.unpack_from`).  The readers of `Model/Bytes`, `Model/Prim`, `Model/Text`, `Model/Tags` and
`Model/Header` are given here a second time over such data.
-/

namespace V8.Source

/-- One-dimensional binary data with items of an integer type: the bytes of every item, low byte first (a little-endian
machine), whether the item type is signed, and whether the items lie next to each other in memory.  (Formats of floats and
characters, and several dimensions, are not modelled.) -/
structure Src where
  signed : Bool
  dense : Bool
  cells : List Bytes
  deriving DecidableEq, Repr

/-- The data that `bytes`, `bytearray`, `memoryview(bytes)` and `array("B", bytes)` present. -/
def ofBytes (b : Bytes) : Src := ⟨false, true, b.map ([·])⟩

/-- An item as a Python int: `data[pos]`. -/
def number (signed : Bool) (c : Bytes) : Int :=
  if signed && 2 ^ (8 * c.length) ≤ 2 * fromLE c then (fromLE c : Int) - 2 ^ (8 * c.length) else fromLE c

/-- `len(data)`: the number of items. -/
def Src.count (s : Src) : Nat := s.cells.length

/-- All items as ints. -/
def Src.items (s : Src) : List Int := s.cells.map (number s.signed)

/-- `data[p : p + n]`. -/
def Src.slice (s : Src) (p n : Nat) : Src := { s with cells := (s.cells.drop p).take n }

/-- An exception: one that reading from bytes can raise too, or BufferError. -/
inductive XErr where
  | base (e : DErr)
  | bufferError
  deriving DecidableEq, Repr

/-- What a codec or `struct.unpack_from` gets: the memory of the object, which has to be contiguous.  CPython counts one
dimension as contiguous if the items lie next to each other or there is exactly one (Objects/memoryobject.c,
`MV_CONTIGUOUS_NDIM1`). -/
def Src.memory (s : Src) : Except XErr Bytes :=
  if s.dense || s.cells.length == 1 then .ok s.cells.flatten else .error .bufferError

/-- What a copy gets (`int.from_bytes`, `bytearray(memoryview)`): the bytes of all items, contiguous or not. -/
def Src.copy (s : Src) : Bytes := s.cells.flatten

/-- The data handed to `loads`: whether its type is one of those that `is_readable_binary` knows (bytes, bytearray,
memoryview, array.array, a Sequence; src/v8serialize/_pycompat/typing.py:58-60), and its items. -/
structure Data where
  readable : Bool
  src : Src
  deriving DecidableEq, Repr

/-- The data of the stream that `Decoder.decodes` makes (src/v8serialize/decode.py:1497-1500): known types as they are, others
through `get_buffer` (_pycompat/typing.py:63-80), which casts everything that is not of the format "B".  `cast` raises
TypeError for data that is not contiguous.  (`get_buffer` is modelled for objects without a `__buffer__` method.) -/
def stream (d : Data) : Except XErr Src :=
  if d.readable then .ok d.src
  else if !d.src.signed && d.src.cells.all (·.length == 1) then .ok d.src
  else if d.src.dense || d.src.cells.length == 1 then .ok (ofBytes d.src.copy)
  else .error (.base (.py .typeError))

/-! ## Readers -/

/-- A reader, as `V8.Rd`. -/
def Rx (α : Type) := Src → Nat → Except XErr (α × Nat)

namespace Rx

def pure {α : Type} (a : α) : Rx α := fun _ p => .ok (a, p)

def bind {α β : Type} (x : Rx α) (f : α → Rx β) : Rx β := fun s p =>
  match x s p with
  | .ok (a, p') => f a s p'
  | .error e => .error e

instance : Monad Rx where
  pure := Rx.pure
  bind := Rx.bind

/-- raise an exception -/
def fail {α : Type} (e : XErr) : Rx α := fun _ _ => .error e

end Rx

/-- `ReadableTagStream.throw` (decode.py:177-180). -/
def throwX {α : Type} : Rx α := Rx.fail (.base .decode)

/-- `ensure_capacity` (decode.py:169-175). -/
def ensureCapacity (n : Nat) : Rx Unit := fun s p =>
  if p + n > s.count then .error (.base (throwFmt n)) else .ok ((), p)

/-- `self.data[self.pos]`. -/
def itemHere : Rx Int := fun s p =>
  match s.items[p]? with
  | some v => .ok (v, p)
  | none => .error (.base (.py .indexError))

/-- `self.pos += n` -/
def advance (n : Nat) : Rx Unit := fun _ p => .ok ((), p + n)

/-- `read_bytes` (decode.py:263-266): a slice of the data, of its type. -/
def readSlice (n : Nat) : Rx Src := do
  ensureCapacity n
  fun s p => .ok (s.slice p n, p + n)

/-- `SerializationTag(value)` if `value in SerializationTag`, otherwise none. -/
def tagOf (v : Int) : Option Tag := if 0 ≤ v ∧ v < 256 then Tag.ofByte (UInt8.ofNat v.toNat) else none

/-- The loop of `read_padding` (decode.py:256-261). -/
def readPaddingLoop : List Int → Nat → Except XErr (Unit × Nat)
  | [], _ => .error (.base .decode)
  | v :: vs, p => if v ≠ 0 then .ok ((), p) else readPaddingLoop vs (p + 1)

/-- `read_padding` (decode.py:256-261). -/
def readPadding : Rx Unit := fun s p => readPaddingLoop (s.items.drop p) p

/-- The padding branch of `read_tag` (decode.py:226-229). -/
def skipPadding (value : Int) : Rx Int :=
  if value = 0 then do
    advance 1
    readPadding
    itemHere
  else pure value

/-- `read_tag` (decode.py:210-254). -/
def readTag (accept : Tag → Bool) (consume : Bool := true) : Rx Tag := do
  ensureCapacity 1
  let value ← itemHere
  let value ← skipPadding value
  match tagOf value with
  | some t =>
    if accept t then do
      advance (if consume then 1 else 0)
      return t
    else throwX
  | none => throwX

/-- The loop of `read_varint` (decode.py:273-283). `encoded & 0b1111111` is the rest modulo 128, for negative items too. -/
def readVarintLoop (maxBits : Option Nat) : List Int → Nat → Nat → Nat → Except XErr (Nat × Nat)
  | [], _, _, _ => .error (.base .decode)
  | v :: vs, offset, acc, pos =>
    let uint7 := (v % 128).toNat
    let acc := acc + uint7 * 2 ^ offset
    if v = uint7 then .ok (acc, pos + 1)
    else
      let offset := offset + 7
      match maxBits with
      | some m => if offset ≥ m then .error (.base .decode) else readVarintLoop maxBits vs offset acc (pos + 1)
      | none => readVarintLoop maxBits vs offset acc (pos + 1)

/-- `read_varint` (decode.py:268-289). -/
def readVarint (maxBits : Option Nat := none) : Rx Nat := fun s p => readVarintLoop maxBits (s.items.drop p) 0 0 p

/-- `read_header` (decode.py:295-306). -/
def readHeader : Rx Nat := do
  let _ ← readTag (· == .kVersion)
  let version ← readVarint
  if version > kLatestVersion || version < 13 then Rx.fail (.base (throwFmt version)) else return version

/-- `read_int32()` (decode.py:363-369). -/
def readInt32 : Rx Int := do
  let u ← readVarint (some 32)
  if inInt32 (decodeZigzag u) then return decodeZigzag u else throwX

/-- `read_uint32()` (decode.py:371-377). -/
def readUint32 : Rx Nat := do
  let v ← readVarint (some 32)
  if inUint32 v then return v else throwX

/-- `read_double()` (decode.py:308-314): the capacity is counted in items, the place given to `struct.unpack_from` is counted in
bytes. -/
def readDouble : Rx F64 := do
  ensureCapacity 8
  fun s p =>
    match s.memory with
    | .error e => .error e
    | .ok m =>
      if m.length < p + 8 then .error (.base (.py .structError))
      else .ok (UInt64.ofNat (fromLE ((m.drop p).take 8)), p + 8)

/-- `codecs.decode(self.read_bytes(length), …)` (decode.py:325, 334, 346): the memory of the slice. -/
def readMemory (n : Nat) : Rx Bytes := do
  let s ← readSlice n
  match s.memory with
  | .error e => Rx.fail e
  | .ok m => return m

/-- `read_string_onebyte()` (decode.py:316-326). -/
def readStringOneByte : Rx Str := do
  let length ← readVarint
  ensureCapacity length
  let bs ← readMemory length
  return latin1Decode bs

/-- `read_string_twobyte()` (decode.py:328-338). -/
def readStringTwoByte : Rx Str := do
  let length ← readVarint
  let bs ← readMemory length
  match utf16Decode bs with
  | some s => return s
  | none => throwX

/-- `read_string_utf8()` (decode.py:340-350). -/
def readStringUtf8 : Rx Str := do
  let length ← readVarint
  let bs ← readMemory length
  match utf8Decode bs with
  | some s => return s
  | none => throwX

/-- `read_bigint()` (decode.py:352-361): `int.from_bytes` copies the slice. -/
def readBigint : Rx Int := do
  let bitfield ← readVarint
  let isNegative := bitfield % 2
  let byteCount := (bitfield / 2) % 2 ^ 30
  let s ← readSlice byteCount
  let value := fromLE s.copy
  if isNegative ≠ 0 then return -(value : Int) else return (value : Int)

/-- The contents of the JSArrayBuffer that `_read_js_array_buffer` makes (decode.py:711-730): a copy of the slice
`memoryview(self.data)[pos : pos + byte_length]`. -/
def readBuffer : Rx Bytes := do
  let n ← readUint32
  ensureCapacity n
  let s ← readSlice n
  return s.copy

/-! ## The same over bytes -/

/-- A result of a reader over bytes, with its exceptions among those of `XErr`. -/
def lift {α : Type} : Except DErr (α × Nat) → Except XErr (α × Nat)
  | .ok r => .ok r
  | .error e => .error (.base e)

/-- `_read_js_array_buffer` (decode.py:711-730) over bytes. -/
def bytesBuffer : Rd Bytes := do
  let n ← V8.readUint32
  V8.ensureCapacity n
  let bs ← V8.readBytes n
  return bs

end V8.Source
