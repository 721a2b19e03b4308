import Verif.Model.Num
import Verif.Model.Text
import Verif.Model.ArrayProps

/-!
# JavaScript property keys

Models `src/v8serialize/jstypes/_normalise_property_key.py`.
-/

namespace V8

/-- A key as a caller passes it: `str | int | float`. -/
inductive RawKey where
  | int (n : Int)
  | float (x : F64)
  | str (s : Str)
  deriving DecidableEq, Repr

/-- A key after `normalise_property_key`: an array index or a name. -/
inductive PKey where
  | idx (n : Nat)
  | name (s : Str)
  deriving DecidableEq, Repr

/-- An ASCII decimal digit. -/
def isDigit (c : Nat) : Bool := 48 ≤ c && c ≤ 57

/-- `value.isdecimal() and value.isascii()`: not empty and only the characters `0`-`9`. -/
def isAsciiDecimal (s : Str) : Bool := !s.isEmpty && s.all isDigit

/-- The number a string of decimal digits denotes. -/
def parseDec (s : Str) : Nat := s.foldl (fun acc c => acc * 10 + (c - 48)) 0

/-- Decimal digits of a natural number, least significant first; `fuel` bounds the digits. -/
def decDigitsRev : Nat → Nat → Str
  | 0, _ => []
  | fuel + 1, n => if n < 10 then [48 + n] else (48 + n % 10) :: decDigitsRev fuel (n / 10)

/-- Decimal digits of a natural number (`str(n)`). -/
def decDigits (n : Nat) : Str := (decDigitsRev (n + 1) n).reverse

/-- `str(n)` for an int. -/
def pyIntStr (n : Int) : Except PyExc Str :=
  let digits := decDigits n.natAbs
  if digits.length > maxStrDigits then .error .valueError
  else .ok (if n < 0 then 45 :: digits else digits)

/-- `int(value)` for a string of ASCII digits. -/
def pyIntParse (s : Str) : Except PyExc Nat :=
  if s.length > maxStrDigits then .error .valueError else .ok (parseDec s)

/-- `canonical_numeric_index_string`, _normalise_property_key.py:6-22 -/
def canonicalNumericIndexString (value : Str) : Except PyExc (Option Nat) :=
  if isAsciiDecimal value then
    match pyIntParse value with
    | .error e => .error e
    | .ok n => .ok (if value.head? = some 48 ∧ value ≠ [48] then none else some n)
  else .ok none

/-- The integer branch, _normalise_property_key.py:60-66. -/
def normaliseInt (key : Int) : Except PyExc PKey :=
  if 0 ≤ key ∧ key < maxArrayLength then .ok (.idx key.toNat)
  else (pyIntStr key).map .name

/-- `normalise_property_key`, _normalise_property_key.py:25-67.  `floatStr` is Python's
`str(float)`, used only for floats that are not integers (including infinities and NaN); its
text is in `Model/FloatText` (C75). -/
def normaliseKey (floatStr : F64 → Str) : RawKey → Except PyExc PKey
  | .str s =>
    match canonicalNumericIndexString s with
    | .error e => .error e
    | .ok none => .ok (.name s)
    | .ok (some n) => normaliseInt n
  | .int n => normaliseInt n
  | .float x =>
    match fInt? x with
    | some n => normaliseInt n
    | none => .ok (.name (floatStr x))

end V8
