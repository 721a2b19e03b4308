/-!
# Bytes, exceptions and readers

Shared ground of the model: little-endian digits, exceptions as values and the
position-keeping reader of `ReadableTagStream`.
-/

namespace V8

/-- A byte string: Python `bytes` / `bytearray` contents. -/
abbrev Bytes := List UInt8

/-- Exceptions of Python itself that can escape from the code (the ones that are
not the library's own documented exception types). -/
inductive PyExc where
  | indexError
  | keyError
  | assertionError
  | valueError
  | typeError
  | overflowError
  | notImplementedError
  | jsArrayBufferError        -- v8serialize.jstypes.JSArrayBufferError and subclasses
  | jsRegExpError             -- v8serialize.JSRegExpV8SerializeError
  | structError               -- struct.error
  | attributeError
  deriving DecidableEq, Repr

/-- Exceptions raised while decoding. `decode` is `DecodeV8SerializeError`
(src/v8serialize/_errors.py), `unhandledTag` its subclass
`UnhandledTagDecodeV8SerializeError` (src/v8serialize/decode.py); `py e` is any
other Python exception. `fuel` is not a Python exception: it marks that the
model's recursion bound was reached, and is shown unreachable. Messages and
positions carried by the exceptions are not modelled. -/
inductive DErr where
  | decode
  | unhandledTag
  | py (e : PyExc)
  | fuel
  deriving DecidableEq, Repr

instance {ε α : Type} [DecidableEq ε] [DecidableEq α] : DecidableEq (Except ε α)
  | .ok a, .ok b => if h : a = b then isTrue (by rw [h]) else isFalse (by simpa using h)
  | .error a, .error b => if h : a = b then isTrue (by rw [h]) else isFalse (by simpa using h)
  | .ok _, .error _ => isFalse (by simp)
  | .error _, .ok _ => isFalse (by simp)

/-- Little-endian digits: `n.to_bytes(length=k, byteorder="little")` for
`n < 256^k` (higher digits are dropped otherwise; Python raises OverflowError,
callers establish the bound). -/
def toLE : Nat → Nat → Bytes
  | 0, _ => []
  | k + 1, n => UInt8.ofNat (n % 256) :: toLE k (n / 256)

/-- `int.from_bytes(data, byteorder="little")`. -/
def fromLE : Bytes → Nat
  | [] => 0
  | b :: bs => b.toNat + 256 * fromLE bs

/-- Python `int.bit_length()` of a natural number. -/
def bitLength (n : Nat) : Nat := if n = 0 then 0 else n.log2 + 1

/-- A reader: the stream's `data` and `pos` (decode.py 158-163) to a result and a
new `pos`, or an exception. After an exception the position is not observed. -/
def Rd (α : Type) := Bytes → Nat → Except DErr (α × Nat)

namespace Rd

def pure {α : Type} (a : α) : Rd α := fun _ p => .ok (a, p)

def bind {α β : Type} (x : Rd α) (f : α → Rd β) : Rd β := fun d p =>
  match x d p with
  | .ok (a, p') => f a d p'
  | .error e => .error e

instance : Monad Rd where
  pure := Rd.pure
  bind := Rd.bind

/-- raise an exception -/
def fail {α : Type} (e : DErr) : Rd α := fun _ _ => .error e

end Rd

/-- `ReadableTagStream.throw` (decode.py 177-180). -/
def throwD {α : Type} : Rd α := Rd.fail .decode

/-- `sys.get_int_max_str_digits()`: converting between `int` and decimal text raises ValueError
beyond this many digits (CPython's default). -/
def maxStrDigits : Nat := 4300

/-- The exception of `self.throw(f"... {n} ...")` (decode.py 177-180): the message is made first, and
formatting an int of more than 4300 digits raises ValueError. -/
@[irreducible] def throwFmt (n : Nat) : DErr := if n < 10 ^ maxStrDigits then .decode else .py .valueError

/-- Making a member of an `IntFlag` class from an int (CPython 3.11 `enum.Flag._missing_`; the classes
of constants.py:236-241); `known` is the value with all its flags set.  Unknown bits are kept; when
there are known ones as well, the member gets a name containing the unknown rest in decimal. -/
@[irreducible] def flagMember (known n : Nat) : Except PyExc Nat :=
  if n &&& known ≠ 0 ∧ 10 ^ maxStrDigits ≤ n - (n &&& known) then .error .valueError else .ok n

/-- `ReadableTagStream.ensure_capacity` (decode.py 169-175). -/
def ensureCapacity (count : Nat) : Rd Unit := fun d p =>
  if p + count > d.length then .error (throwFmt count) else .ok ((), p)

/-- `self.data[self.pos]` with the position unchanged: Python indexing, raising
IndexError beyond the end. -/
def byteHere : Rd UInt8 := fun d p =>
  match d[p]? with
  | some b => .ok (b, p)
  | none => .error (.py .indexError)

/-- `self.pos += n` -/
def advance (n : Nat) : Rd Unit := fun _ p => .ok ((), p + n)

/-- `self.pos += count; return self.data[self.pos - count : self.pos]`: Python
slicing, which returns fewer bytes when the data is short. -/
def takeHere (count : Nat) : Rd Bytes := fun d p => .ok ((d.drop p).take count, p + count)

/-- `ReadableTagStream.read_bytes` (decode.py 263-266). -/
def readBytes (count : Nat) : Rd Bytes := do
  ensureCapacity count
  takeHere count

end V8
