import Verif.Model.Prim

/-!
# Array buffers, views and DataViews

Models `src/v8serialize/jstypes/jsbuffers.py`.
-/

namespace V8

/-! ## JSArrayBuffer -/

/-- `JSArrayBuffer`, jsbuffers.py:74-101.  Whether `_data` is bytes, bytearray or memoryview is not
kept; BufferError of a resize while a memoryview of the data is held by somebody is not modelled. -/
structure ABuf where
  data : Bytes
  max : Nat
  resizable : Bool
  deriving DecidableEq, Repr

namespace ABuf

/-- `__init__`, jsbuffers.py:126-190, for `copy_data` unset (data is copied) and bytes-like `data`.
`JSArrayBuffer(n)` is `data` = n zero bytes. -/
def mk' (data : Bytes) (maxByteLength : Option Int) (resizable readonly : Bool) : Except PyExc ABuf :=
  let resizable := resizable || maxByteLength.isSome
  if resizable && readonly then .error .valueError
  else
    let max : Int := maxByteLength.getD data.length
    if (data.length : Int) > max then .error .jsArrayBufferError
    else .ok ⟨data, max.toNat, resizable⟩

/-- `resize`, jsbuffers.py:192-213 -/
def resize (b : ABuf) (n : Int) : Except PyExc ABuf :=
  if b.resizable = false then .error .jsArrayBufferError
  else if ¬ (0 ≤ n ∧ n ≤ b.max) then .error .jsArrayBufferError
  else if n > b.data.length then
    .ok { b with data := b.data ++ List.replicate (n.toNat - b.data.length) 0 }
  else .ok { b with data := b.data.take n.toNat }

/-- `__buffer__` / `data`, jsbuffers.py:215-217 and 237-238 -/
def exposed (b : ABuf) : Bytes := b.data.take b.max

end ABuf

/-! ## Views -/

/-- View kinds, constants.py:219-232, with the element sizes of jsbuffers.py:716-807 and 1027-1055. -/
inductive ViewTag where
  | int8 | uint8 | uint8Clamped | int16 | uint16 | int32 | uint32 | float16 | float32 | float64
  | bigInt64 | bigUint64 | dataView
  deriving DecidableEq, Repr

namespace ViewTag

def all : List ViewTag :=
  [.int8, .uint8, .uint8Clamped, .int16, .uint16, .int32, .uint32, .float16, .float32, .float64,
   .bigInt64, .bigUint64, .dataView]

/-- `ArrayBufferViewTag` values, constants.py:220-232 (characters b B C w W d D h f F q Q ?). -/
def code : ViewTag → Nat
  | .int8 => 98 | .uint8 => 66 | .uint8Clamped => 67 | .int16 => 119 | .uint16 => 87 | .int32 => 100
  | .uint32 => 68 | .float16 => 104 | .float32 => 102 | .float64 => 70 | .bigInt64 => 113
  | .bigUint64 => 81 | .dataView => 63

/-- `ArrayBufferViewTag(code)`. -/
def ofCode (c : Nat) : Option ViewTag := all.find? (fun t => t.code == c)

/-- `data_format.byte_length` of the view classes. -/
def size : ViewTag → Nat
  | .int8 => 1 | .uint8 => 1 | .uint8Clamped => 1 | .int16 => 2 | .uint16 => 2 | .int32 => 4
  | .uint32 => 4 | .float16 => 2 | .float32 => 4 | .float64 => 8 | .bigInt64 => 8 | .bigUint64 => 8
  | .dataView => 1

end ViewTag

/-- `JSArrayBufferView`, jsbuffers.py:386-420, without its backing buffer.  `readonly` is left to
the places that write. -/
structure View where
  tag : ViewTag
  itemOffset : Nat
  itemLength : Option Nat
  deriving DecidableEq, Repr

namespace View

/-- `__post_init__`, jsbuffers.py:428-434 -/
def mk' (tag : ViewTag) (itemOffset : Int) (itemLength : Option Int) : Except PyExc View :=
  if itemOffset < 0 then .error .valueError
  else
    match itemLength with
    | none => .ok ⟨tag, itemOffset.toNat, none⟩
    | some n => if n < 0 then .error .valueError else .ok ⟨tag, itemOffset.toNat, some n.toNat⟩

/-- `__get_buffer_as_memoryview`, jsbuffers.py:551-588: whether the view is in range, and the bytes
it exposes of backing buffer contents `mv`.  An inaccessible backing buffer (shared or transferred)
is `mv = []`. -/
def region (v : View) (mv : Bytes) : Bool × Bytes :=
  let itemsize := v.tag.size
  let byteOffset := v.itemOffset * itemsize
  match v.itemLength with
  | some n =>
    let byteLength := n * itemsize
    if byteOffset + byteLength > mv.length then
      (false, (mv.drop byteOffset).take 0)
    else (decide (byteOffset ≤ mv.length), (mv.drop byteOffset).take byteLength)
  | none =>
    let inRange := if byteOffset > mv.length then false else decide (byteOffset ≤ mv.length)
    let available := mv.length - byteOffset
    let fullItems := available / itemsize
    (inRange, (mv.drop byteOffset).take (fullItems * itemsize))

/-- `is_in_range`, jsbuffers.py:541-543 -/
def isInRange (v : View) (mv : Bytes) : Bool := (v.region mv).1

/-- `get_buffer_as_memoryview`, jsbuffers.py:590-607: the exposed bytes. -/
def bytes (v : View) (mv : Bytes) : Bytes := (v.region mv).2

/-- `byte_offset`, jsbuffers.py:512-521 -/
def byteOffset (v : View) (mv : Bytes) : Nat :=
  if v.isInRange mv then v.itemOffset * v.tag.size else 0

/-- `byte_length`, jsbuffers.py:523-526 -/
def byteLength (v : View) (mv : Bytes) : Nat := (v.bytes mv).length

/-- `is_length_tracking`, jsbuffers.py:528-531; `resizable` is `is_backing_buffer_resizable`. -/
def isLengthTracking (v : View) (resizable : Bool) : Bool := v.itemLength.isNone && resizable

/-- The checks of `from_bytes` against an accessible buffer `mv`, jsbuffers.py:478-500. -/
def checkBounds (v : View) (resizable : Bool) (mv : Bytes) (byteOffset : Int) (byteLength : Option Int) :
    Except PyExc View :=
  if byteLength.isNone && !v.isLengthTracking resizable && mv.length % v.tag.size != 0 then
    .error .jsArrayBufferError
  else if (v.byteOffset mv : Int) < byteOffset then .error .jsArrayBufferError
  else
    match byteLength with
    | some n => if (v.byteLength mv : Int) < n then .error .jsArrayBufferError else .ok v
    | none => .ok v

/-- `from_bytes` / `create_view`, jsbuffers.py:436-510 and 1124-1159.  `mv = none` is a backing
buffer whose contents cannot be accessed (NotImplementedError, jsbuffers.py:501-509).  The item size
is positive, so Python's `%` and `//` are `Int.emod` and `Int.ediv`. -/
def create (tag : ViewTag) (resizable : Bool) (mv : Option Bytes) (byteOffset : Int)
    (byteLength : Option Int) : Except PyExc View :=
  let itemsize : Int := tag.size
  if byteOffset % itemsize ≠ 0 then .error .jsArrayBufferError
  else if byteLength.any (fun n => n % itemsize != 0) then .error .jsArrayBufferError
  else
    match mk' tag (byteOffset / itemsize) (byteLength.map (· / itemsize)) with
    | .error e => .error e
    | .ok v =>
      match mv with
      | none => .ok v
      | some mv => v.checkBounds resizable mv byteOffset byteLength

end View

/-! ## DataView -/

/-- The element types of DataView accessors, jsbuffers.py:942-1024. -/
inductive DVType where
  | bigint64 | biguint64 | float16 | float32 | float64 | int16 | int32 | uint16 | uint32 | int8 | uint8
  deriving DecidableEq, Repr

namespace DVType

/-- `struct.calcsize` of the format used by the accessor. -/
def size : DVType → Nat
  | .bigint64 => 8 | .biguint64 => 8 | .float16 => 2 | .float32 => 4 | .float64 => 8
  | .int16 => 2 | .int32 => 4 | .uint16 => 2 | .uint32 => 4 | .int8 => 1 | .uint8 => 1

end DVType

/-- A value given to or got from a DataView accessor. -/
inductive DVVal where
  | int (n : Int)
  | float (x : F64)
  deriving DecidableEq, Repr

/-- Conversions between a double and binary16 / binary32, which belong to `struct`: `pack` yields the
bit pattern (or OverflowError), `unpack` the double; `ofInt` is `float(n)` (or OverflowError).
`Model/Float` has the ones of CPython. -/
structure FloatConv where
  ofInt : Int → Option F64
  pack16 : F64 → Option Nat
  unpack16 : Nat → F64
  pack32 : F64 → Option Nat
  unpack32 : Nat → F64

/-- `struct.pack` of a signed integer of `k` bytes. -/
def packSigned (k : Nat) (n : Int) : Except PyExc Nat :=
  if -(2 ^ (8 * k - 1) : Int) ≤ n ∧ n < 2 ^ (8 * k - 1) then .ok (n % 2 ^ (8 * k)).toNat
  else .error .structError

/-- `struct.pack` of an unsigned integer of `k` bytes. -/
def packUnsigned (k : Nat) (n : Int) : Except PyExc Nat :=
  if 0 ≤ n ∧ n < 2 ^ (8 * k) then .ok n.toNat else .error .structError

/-- `struct.unpack` of a signed integer of `k` bytes. -/
def unpackSigned (k : Nat) (bits : Nat) : Int :=
  if bits < 2 ^ (8 * k - 1) then bits else (bits : Int) - 2 ^ (8 * k)

/-- The OverflowError of packing a double too big for the narrower format. -/
def packFloat (r : Option Nat) : Except PyExc Nat :=
  match r with
  | some b => .ok b
  | none => .error .overflowError

/-- An integer given to a float accessor is converted first; `struct` turns the OverflowErrors of
integers into struct.error. -/
def packIntAsFloat (x : Option F64) (pack : F64 → Option Nat) : Except PyExc Nat :=
  match x with
  | none => .error .structError
  | some x =>
    match pack x with
    | some b => .ok b
    | none => .error .structError

/-- Bit pattern stored for a value (`struct.pack_into`).  A float given to an integer accessor is
struct.error. -/
def dvPack (c : FloatConv) : DVType → DVVal → Except PyExc Nat
  | .bigint64, .int n => packSigned 8 n
  | .int32, .int n => packSigned 4 n
  | .int16, .int n => packSigned 2 n
  | .int8, .int n => packSigned 1 n
  | .biguint64, .int n => packUnsigned 8 n
  | .uint32, .int n => packUnsigned 4 n
  | .uint16, .int n => packUnsigned 2 n
  | .uint8, .int n => packUnsigned 1 n
  | .float64, .float x => .ok x.toNat
  | .float32, .float x => packFloat (c.pack32 x)
  | .float16, .float x => packFloat (c.pack16 x)
  | .float64, .int n => packIntAsFloat (c.ofInt n) (fun x => some x.toNat)
  | .float32, .int n => packIntAsFloat (c.ofInt n) c.pack32
  | .float16, .int n => packIntAsFloat (c.ofInt n) c.pack16
  | _, .float _ => .error .structError

/-- Value of a bit pattern (`struct.unpack_from`). -/
def dvUnpack (c : FloatConv) : DVType → Nat → DVVal
  | .bigint64, b => .int (unpackSigned 8 b)
  | .int32, b => .int (unpackSigned 4 b)
  | .int16, b => .int (unpackSigned 2 b)
  | .int8, b => .int (unpackSigned 1 b)
  | .biguint64, b => .int b
  | .uint32, b => .int b
  | .uint16, b => .int b
  | .uint8, b => .int b
  | .float64, b => .float (UInt64.ofNat b)
  | .float32, b => .float (c.unpack32 b)
  | .float16, b => .float (c.unpack16 b)

/-- Bytes of a bit pattern; `<` formats are little-endian, `>` big-endian. -/
def dvBytes (little : Bool) (k bits : Nat) : Bytes :=
  if little then toLE k bits else (toLE k bits).reverse

/-- Bit pattern of bytes. -/
def dvBits (little : Bool) (bs : Bytes) : Nat := if little then fromLE bs else fromLE bs.reverse

/-- `DataViewBuffer.read` behind `get_*`, jsbuffers.py:916-928 and 942-973. -/
def dvGet (c : FloatConv) (t : DVType) (buf : Bytes) (off : Int) (little : Bool) : Except PyExc DVVal :=
  if off < 0 ∨ off + t.size > buf.length then .error .jsArrayBufferError
  else .ok (dvUnpack c t (dvBits little ((buf.drop off.toNat).take t.size)))

/-- Overwrite `bs.length` bytes at `off`. -/
def overwrite (buf : Bytes) (off : Nat) (bs : Bytes) : Bytes :=
  buf.take off ++ bs ++ buf.drop (off + bs.length)

/-- `DataViewBuffer.write` behind `set_*`, jsbuffers.py:930-942 and 975-1024: the buffer afterwards
and the exception, if any.  `readonly` is a buffer that cannot be written: TypeError from
`struct.pack_into`.  CPython's `pack_into` clears the target bytes before it packs, so a value that
cannot be packed leaves zeros. -/
def dvSet (c : FloatConv) (t : DVType) (readonly : Bool) (buf : Bytes) (off : Int) (v : DVVal)
    (little : Bool) : Bytes × Option PyExc :=
  if off < 0 ∨ off + t.size > buf.length then (buf, some .jsArrayBufferError)
  else if readonly then (buf, some .typeError)
  else
    match dvPack c t v with
    | .ok bits => (overwrite buf off.toNat (dvBytes little t.size bits), none)
    | .error e => (overwrite buf off.toNat (List.replicate t.size 0), some e)

/-- Writing through a view (`JSDataView.get_buffer().set_*`), jsbuffers.py:1052-1058: the view's
region is a window of the backing buffer, so what is written to the region lands there. -/
def dvSetThrough (c : FloatConv) (v : View) (t : DVType) (readonly : Bool) (mv : Bytes) (off : Int)
    (x : DVVal) (little : Bool) : Bytes × Option PyExc :=
  let r := dvSet c t readonly (v.bytes mv) off x little
  (overwrite mv (v.byteOffset mv) r.1, r.2)

/-- Reading through a view. -/
def dvGetThrough (c : FloatConv) (v : View) (t : DVType) (mv : Bytes) (off : Int) (little : Bool) :
    Except PyExc DVVal :=
  dvGet c t (v.bytes mv) off little

end V8
