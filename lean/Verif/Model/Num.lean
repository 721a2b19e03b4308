import Verif.Model.Prim

/-!
# Numeric values of doubles

Python compares `int` and `float` by exact numeric value (`1 == 1.0`), and hashes them alike.
The model therefore needs the exact number a double stands for.  Every finite double is an
integer multiple of `2^-1074`, so its value is represented by the integer `value * 2^1074`.
-/

namespace V8

/-- The number a 64-bit IEEE 754 pattern denotes; `fin s` is the number `s / 2^1074`.
(The meaning of Python `float`; used by `is_integer`, `int(...)`, `isnan` and `==` in
jstypes/_normalise_property_key.py:60-66 and jstypes/_equality.py:80-87.) -/
inductive FVal where
  | nan
  | inf (neg : Bool)
  | fin (scaled : Int)
  deriving DecidableEq, Repr

/-- The sign bit of a double. -/
def fSign (n : Nat) : Bool := n / 2 ^ 63 % 2 == 1
/-- The biased exponent field of a double. -/
def fExp (n : Nat) : Nat := n / 2 ^ 52 % 2 ^ 11
/-- The fraction field of a double. -/
def fFrac (n : Nat) : Nat := n % 2 ^ 52

/-- Magnitude of a finite double in units of `2^-1074` (IEEE 754 binary64). -/
def fMag (n : Nat) : Nat :=
  if fExp n = 0 then fFrac n else (2 ^ 52 + fFrac n) * 2 ^ (fExp n - 1)

/-- The value of a double given by its bit pattern (IEEE 754 binary64). -/
def fval (x : F64) : FVal :=
  let n := x.toNat
  if fExp n = 2047 then
    if fFrac n = 0 then .inf (fSign n) else .nan
  else .fin (if fSign n then -(fMag n : Int) else (fMag n : Int))

/-- The integer a double is equal to, when it is integral: `float.is_integer` together with
`int(value)`. -/
def fInt? (x : F64) : Option Int :=
  match fval x with
  | .fin s => if s % 2 ^ 1074 = 0 then some (s / 2 ^ 1074) else none
  | _ => none

/-- `float(n)` for an integer that a double represents exactly: what `struct.pack("<d", n)`
stores.  encode.py:249-256 calls it with `int` arguments only inside the safe integer range
(encode.py:881-883 and jstypes/jsprimitiveobject.py:77-82); outside `|n| ≤ 2^53 - 1` this
definition is not meaningful and is never used. -/
def doubleOfInt (n : Int) : F64 :=
  let m := n.natAbs
  if m = 0 then 0
  else
    let e := Nat.log2 m
    UInt64.ofNat ((if n < 0 then 2 ^ 63 else 0) + (e + 1023) * 2 ^ 52
      + (m * 2 ^ (52 - e) - 2 ^ 52))

end V8
