import Mathlib.Algebra.Order.Field.Rat
import Mathlib.Algebra.Field.Power
import Verif.Model.Prim

/-!
# Specification: binary floating point formats (IEEE 754)
-/

namespace V8.Spec

/-- What a pattern stands for.  The sign of a number is given as well because there are two zeros. -/
inductive Ieee where
  | number (negative : Bool) (q : ℚ)
  | infinity (negative : Bool)
  | nan

/-- The meaning of a pattern of 1 sign bit, `e` exponent bits and `f` fraction bits:
`± (1 + fraction / 2^f) * 2^(exponent - bias)`, or for exponent field 0 `± (fraction / 2^f) * 2^(1 - bias)`; the
highest exponent field is infinity and NaN. -/
def ieee (e f bits : Nat) : Ieee :=
  let bias : Int := 2 ^ (e - 1) - 1
  let negative := bits / 2 ^ (e + f) % 2 = 1
  let sign : ℚ := if negative then -1 else 1
  let exponent := bits / 2 ^ f % 2 ^ e
  let fraction := bits % 2 ^ f
  if exponent = 2 ^ e - 1 then
    if fraction = 0 then .infinity negative else .nan
  else if exponent = 0 then .number negative (sign * ((fraction : ℚ) / 2 ^ f * 2 ^ (1 - bias)))
  else .number negative (sign * ((1 + (fraction : ℚ) / 2 ^ f) * 2 ^ ((exponent : Int) - bias)))

/-- A double. -/
def binary64 (x : F64) : Ieee := ieee 11 52 x.toNat
/-- A single precision number, in 32 bits. -/
def binary32 (bits : Nat) : Ieee := ieee 8 23 bits
/-- A half precision number, in 16 bits. -/
def binary16 (bits : Nat) : Ieee := ieee 5 10 bits

/-- `bits` has the given sign and its number is nearest to `q` among all patterns of `size` bits; of two equally near
numbers it is the one whose pattern ends in 0. -/
def IsNearest (format : Nat → Ieee) (size : Nat) (negative : Bool) (q : ℚ) (bits : Nat) : Prop :=
  bits < 2 ^ size ∧ ∃ r, format bits = .number negative r ∧
    ∀ b' < 2 ^ size, ∀ s' r', format b' = .number s' r' →
      |r - q| ≤ |r' - q| ∧ (|r - q| = |r' - q| → r' ≠ r → bits % 2 = 0)

/-- The number that bytes stand for, the most significant byte first, or last if `little`. -/
def pattern (little : Bool) (bytes : Bytes) : Nat :=
  (if little then bytes.reverse else bytes).foldl (fun n b => 256 * n + b.toNat) 0

/-- The `k` bytes at `off`. -/
def bytesAt (buf : Bytes) (off : Int) (k : Nat) : Bytes := (buf.drop off.toNat).take k

end V8.Spec
