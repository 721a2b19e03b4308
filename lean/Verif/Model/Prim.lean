import Verif.Model.Bytes
/-!
# Primitive wire forms: varint, zigzag, int32, uint32, BigInt, double

Writers return the bytes they append to the stream (tags excluded: every writer
here is used with `tag=None` or right after a tag byte has been appended).
-/

namespace V8

/-- Exceptions raised while encoding: `encode` is `EncodeV8SerializeError`
(src/v8serialize/_errors.py / encode.py), the others its specific subclasses,
`py e` any other Python exception, `fuel` the model's recursion bound (shown
unreachable). `forwardRef k` is `ForwardReferenceError` for log entry `k`
(_references.py 139-147) travelling up to its context manager. -/
inductive EErr where
  | encode
  | unhandledValue          -- UnhandledValueEncodeV8SerializeError
  | featureRequired         -- FeatureNotEnabledEncodeV8SerializeError
  | illegalCyclic           -- IllegalCyclicReferenceV8SerializeError
  | objectNotSerialized     -- ObjectNotSerializedV8SerializeError
  | forwardRef (k : Nat)
  | py (e : PyExc)
  | fuel
  deriving DecidableEq, Repr

/-! ## Varint -/

/-- `WritableTagStream.write_varint` (encode.py 226-235) for a non-negative `n`.
The negative case raises ValueError and is `writeVarintInt`. -/
def writeVarint (n : Nat) : Bytes :=
  if n / 128 = 0 then [UInt8.ofNat (n % 128)]
  else UInt8.ofNat (n % 128 + 128) :: writeVarint (n / 128)
termination_by n
decreasing_by omega

/-- `write_varint` on any Python int (encode.py 226-228: negative is ValueError). -/
def writeVarintInt (n : Int) : Except EErr Bytes :=
  if n < 0 then .error (.py .valueError) else .ok (writeVarint n.toNat)

/-- The loop of `read_varint` (decode.py 273-283) over the bytes left, with the
running `offset` and sum. `maxBits = none` is `max_bits=None`. -/
def readVarintLoop (maxBits : Option Nat) : Bytes → Nat → Nat → Nat → Except DErr (Nat × Nat)
  | [], _, _, _ => .error .decode
  | b :: bs, offset, acc, pos =>
    let uint7 := b.toNat % 128
    let acc := acc + uint7 * 2 ^ offset
    if b.toNat = uint7 then .ok (acc, pos + 1)
    else
      let offset := offset + 7
      match maxBits with
      | some m => if offset ≥ m then .error .decode else readVarintLoop maxBits bs offset acc (pos + 1)
      | none => readVarintLoop maxBits bs offset acc (pos + 1)

/-- `ReadableTagStream.read_varint` (decode.py 268-289). (`max_bits=0` behaves as
None in Python; no caller passes it.) -/
def readVarint (maxBits : Option Nat := none) : Rd Nat := fun d p =>
  readVarintLoop maxBits (d.drop p) 0 0 p

/-! ## ZigZag -/

/-- `_encode_zigzag` (encode.py 133-134): `abs(number * 2) - (number < 0)`. -/
def encodeZigzag (n : Int) : Int := (n * 2).natAbs - (if n < 0 then 1 else 0)

/-- `_decode_zigzag` (decode.py 116-123). -/
def decodeZigzag (n : Nat) : Int :=
  if n % 2 ≠ 0 then -(((n + 1) / 2 : Nat) : Int) else ((n / 2 : Nat) : Int)

/-- `write_zigzag` (encode.py 237-238). -/
def writeZigzag (n : Int) : Except EErr Bytes := writeVarintInt (encodeZigzag n)

/-- `read_zigzag` (decode.py 291-293). -/
def readZigzag (maxBits : Option Nat := none) : Rd Int := do
  let u ← readVarint maxBits
  return decodeZigzag u

/-! ## int32 / uint32 -/

/-- `INT32_RANGE` (constants.py 36) -/
def inInt32 (n : Int) : Bool := -(2 ^ 31) ≤ n && n < 2 ^ 31
/-- `UINT32_RANGE` (constants.py 37) -/
def inUint32 (n : Int) : Bool := 0 ≤ n && n < 2 ^ 32
/-- `FLOAT64_SAFE_INT_RANGE` (constants.py 39) -/
def inSafeInt (n : Int) : Bool := -(2 ^ 53 - 1) ≤ n && n < 2 ^ 53

/-- `write_int32(value, tag=None)` (encode.py 332-344). -/
def writeInt32 (n : Int) : Except EErr Bytes :=
  if !inInt32 n then .error (.py .valueError) else writeZigzag n

/-- `write_uint32(value, tag=None)` (encode.py 346-358). -/
def writeUint32 (n : Int) : Except EErr Bytes :=
  if !inUint32 n then .error (.py .valueError) else writeVarintInt n

/-- `read_int32()` (decode.py 363-369). -/
def readInt32 : Rd Int := do
  let v ← readZigzag (some 32)
  if inInt32 v then return v else throwD

/-- `read_uint32()` (decode.py 371-377). -/
def readUint32 : Rd Nat := do
  let v ← readVarint (some 32)
  if inUint32 v then return v else throwD

/-! ## BigInt -/

/-- `write_bigint(value, tag=None)` (encode.py 313-330). -/
def writeBigint (n : Int) : Except EErr Bytes :=
  let byteLength := (bitLength n.natAbs + 8) / 8
  if bitLength byteLength > 30 then .error (.py .valueError)
  else
    let bitfield := byteLength * 2 + (if n < 0 then 1 else 0)
    .ok (writeVarint bitfield ++ toLE byteLength n.natAbs)

/-- `read_bigint()` (decode.py 352-361). -/
def readBigint : Rd Int := do
  let bitfield ← readVarint
  let isNegative := bitfield % 2
  let byteCount := (bitfield / 2) % 2 ^ 30
  let bs ← readBytes byteCount
  let value := fromLE bs
  if isNegative ≠ 0 then return -(value : Int) else return (value : Int)

/-! ## double -/

/-- A Python `float` / JavaScript number as its IEEE-754 binary64 bit pattern. -/
abbrev F64 := UInt64

/-- `write_double(value, tag=None)` (encode.py 249-256): `struct.pack("<d", value)`. -/
def writeDouble (v : F64) : Bytes := toLE 8 v.toNat

/-- `read_double()` (decode.py 308-314). -/
def readDouble : Rd F64 := do
  ensureCapacity 8
  let bs ← readBytes 8
  return UInt64.ofNat (fromLE bs)

end V8
