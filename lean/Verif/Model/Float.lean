import Verif.Model.Num
import Verif.Model.Buffers

/-!
# Arithmetic of floating point numbers

The operations on Python floats that the dates and the accessors of DataView use.  Magnitudes are bit patterns
without the sign bit, which are in the order of the numbers they stand for; numbers are fractions of naturals.
-/

namespace V8

/-- A binary floating point format of IEEE 754: bits of the fraction, the exponent of the smallest positive number
`2^-unit`, and the exponent field that marks infinity and NaN. -/
structure Fmt where
  frac : Nat
  unit : Nat
  top : Nat

/-- binary64: `d` of `struct`, and Python's `float`. -/
def b64 : Fmt := ⟨52, 1074, 2047⟩
/-- binary32: `f` of `struct`. -/
def b32 : Fmt := ⟨23, 149, 255⟩
/-- binary16: `e` of `struct`. -/
def b16 : Fmt := ⟨10, 24, 31⟩

namespace Fmt

/-- The first pattern that is no number: infinity. -/
def inf (F : Fmt) : Nat := F.top * 2 ^ F.frac

/-- The number a pattern below `F.inf` stands for, in units of `2^-F.unit`. -/
def mag (F : Fmt) (n : Nat) : Nat :=
  if n / 2 ^ F.frac = 0 then n % 2 ^ F.frac else (2 ^ F.frac + n % 2 ^ F.frac) * 2 ^ (n / 2 ^ F.frac - 1)

end Fmt

/-- `num / den` rounded to an integer, halves to even (the rounding of IEEE 754 and of Python's `round`). -/
def rne (num den : Nat) : Nat :=
  if 2 * (num % den) < den then num / den
  else if den < 2 * (num % den) then num / den + 1
  else if num / den % 2 = 0 then num / den
  else num / den + 1

/-- How many units of `2^-F.unit` lie between neighbouring numbers of the format at `num / den`, as a power of
two. -/
def Fmt.step (F : Fmt) (num den : Nat) : Nat := Nat.log2 (num * 2 ^ F.unit / den) - F.frac

/-- `num / den` rounded to the format, as a pattern without sign; `F.inf` or more when it is too big (the result of
every arithmetic operation and conversion of IEEE 754 in its default mode). -/
def Fmt.round (F : Fmt) (num den : Nat) : Nat :=
  F.step num den * 2 ^ F.frac + rne (num * 2 ^ F.unit) (den * 2 ^ F.step num den)

/-- A double with the given sign and the magnitude `num / den`, rounded. -/
def doubleOf (neg : Bool) (num den : Nat) : F64 :=
  UInt64.ofNat ((if neg then 2 ^ 63 else 0) + min (b64.round num den) b64.inf)

/-- `x * c` for a float `x` and a positive integer `c` that a float represents exactly. -/
def fmulNat (x : F64) (c : Nat) : F64 :=
  if fExp x.toNat = 2047 then x else doubleOf (fSign x.toNat) (fMag x.toNat * c) (2 ^ 1074)

/-- `x / c` for a float `x` and a positive integer `c` that a float represents exactly. -/
def fdivNat (x : F64) (c : Nat) : F64 :=
  if fExp x.toNat = 2047 then x else doubleOf (fSign x.toNat) (fMag x.toNat) (2 ^ 1074 * c)

/-! ### Narrow formats: `struct` with `e` and `f` -/

/-- `PyFloat_Unpack2` and `PyFloat_Unpack4` of CPython 3.11 for a pattern of `1 + k + F.frac` bits (`F.top` is
`2^k - 1`): exact for numbers; the payload of a NaN is kept for binary32 and dropped for binary16 (parameter
`keep`), and the NaN is quiet. -/
def Fmt.unpack (F : Fmt) (keep : Bool) (bits : Nat) : F64 :=
  let w := (F.top + 1) * 2 ^ F.frac
  let neg := decide (w ≤ bits)
  let n := bits % w
  if n < F.inf then doubleOf neg (F.mag n) (2 ^ F.unit)
  else if n = F.inf then UInt64.ofNat ((if neg then 2 ^ 63 else 0) + b64.inf)
  else
    let payload := if keep then (n - F.inf) % 2 ^ (F.frac - 1) * 2 ^ (52 - F.frac) else 0
    UInt64.ofNat ((if neg then 2 ^ 63 else 0) + b64.inf + 2 ^ 51 + payload)

/-- `PyFloat_Pack2` and `PyFloat_Pack4` of CPython 3.11: rounded to the nearest number, `none` is OverflowError
("float too large to pack"); infinity and NaN are kept, a NaN as for `Fmt.unpack`. -/
def Fmt.pack (F : Fmt) (keep : Bool) (x : F64) : Option Nat :=
  let s := if fSign x.toNat then (F.top + 1) * 2 ^ F.frac else 0
  if fExp x.toNat = 2047 then
    if fFrac x.toNat = 0 then some (s + F.inf)
    else
      let payload := if keep then fFrac x.toNat / 2 ^ (52 - F.frac) % 2 ^ (F.frac - 1) else 0
      some (s + F.inf + 2 ^ (F.frac - 1) + payload)
  else
    let n := F.round (fMag x.toNat) (2 ^ 1074)
    if n < F.inf then some (s + n) else none

/-- `float(n)`: rounded to the nearest double, `none` is OverflowError (`PyLong_AsDouble`). -/
def floatOfInt (n : Int) : Option F64 :=
  if b64.round n.natAbs 1 < b64.inf then some (doubleOf (decide (n < 0)) n.natAbs 1) else none

/-- The conversions of CPython's `struct` module. -/
def cpythonConv : FloatConv where
  ofInt := floatOfInt
  pack16 := b16.pack false
  unpack16 := b16.unpack false
  pack32 := b32.pack true
  unpack32 := b32.unpack true

end V8
