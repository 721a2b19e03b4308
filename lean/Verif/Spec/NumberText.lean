import Verif.Model.Float
import Verif.Model.Keys
import Mathlib.Algebra.Order.Field.Rat

/-!
# Specification: the text of a number

`Number::toString` of ECMA-262 (section 6.1.6.1.20), and reading a decimal number.
-/

namespace V8.Spec

/-- The double, as a pattern without sign, that is nearest to `s * 10^e`: what reading the decimal gives.
(`C75_nearest`: it is nearest.) -/
def decimal (s : Nat) (e : Int) : Nat := b64.round (s * 10 ^ e.toNat) (10 ^ (-e).toNat)

/-- ECMA-262 6.1.6.1.20 step 5 for the double with pattern `m`: `s` has `k` digits, `s * 10^(n - k)` is read as the
number, and `k` is as small as possible. -/
structure Shortest (m k s : Nat) (n : Int) : Prop where
  pos : 1 ≤ k
  lo : 10 ^ (k - 1) ≤ s
  hi : s < 10 ^ k
  reads : decimal s (n - k) = m
  least : ∀ (k' s' : Nat) (n' : Int), 1 ≤ k' → 10 ^ (k' - 1) ≤ s' → s' < 10 ^ k' → decimal s' (n' - k') = m → k ≤ k'

/-- The digits that an implementation picks for a double: `k`, `s` and `n`.  (The standard leaves the choice where
there is more than one; V8 and CPython take the nearest, halves to even.) -/
structure Digits where
  k : Nat
  s : Nat
  n : Int

/-- They are shortest. -/
def PicksShortest (dg : Nat → Digits) : Prop :=
  ∀ m, 0 < m → m < b64.inf → Shortest m (dg m).k (dg m).s (dg m).n

/-- `j` zeros. -/
def zeros (j : Nat) : Str := List.replicate j 48

/-- `d.ddd`, or `d` for a single digit. -/
def withPoint (digits : Str) : Str := if digits.length ≤ 1 then digits else digits.take 1 ++ [46] ++ digits.drop 1

/-- ECMA-262 6.1.6.1.20 steps 6 to 12. -/
def jsDigits (d : Digits) : Str :=
  let digits := decDigits d.s
  if (d.k : Int) ≤ d.n ∧ d.n ≤ 21 then digits ++ zeros (d.n - d.k).toNat
  else if 0 < d.n ∧ d.n ≤ 21 then digits.take d.n.toNat ++ [46] ++ digits.drop d.n.toNat
  else if -6 < d.n ∧ d.n ≤ 0 then str "0." ++ zeros (-d.n).toNat ++ digits
  else withPoint digits ++ str "e" ++ (if d.n - 1 < 0 then str "-" else str "+") ++ decDigits (d.n - 1).natAbs

/-- `Number::toString`, ECMA-262 6.1.6.1.20. -/
def jsNumberText (dg : Nat → Digits) (x : F64) : Str :=
  match fval x with
  | .nan => str "NaN"
  | .inf neg => (if neg then str "-" else []) ++ str "Infinity"
  | .fin q =>
    if q = 0 then str "0"
    else (if q < 0 then str "-" else []) ++ jsDigits (dg (x.toNat % 2 ^ 63))

/-- The digits after the first `c`. -/
def after (c : Nat) (t : Str) : Str := (t.dropWhile (· ≠ c)).drop 1

/-- The number that a decimal literal without sign stands for: digits, optionally a point (46) and digits, optionally
`e` (101), a sign and digits. -/
def readUnsigned (t : Str) : ℚ :=
  let mantissa := t.takeWhile (· ≠ 101)
  let whole := mantissa.takeWhile (· ≠ 46)
  let fraction := after 46 mantissa
  let exponent := after 101 t
  let e : Int := if exponent.head? = some 45 then -(parseDec exponent.tail : Int) else parseDec exponent.tail
  (parseDec (whole ++ fraction) : ℚ) * (10 : ℚ) ^ (e - fraction.length)

/-- The same with an optional `-`. -/
def readNumber (t : Str) : ℚ := if t.head? = some 45 then -readUnsigned t.tail else readUnsigned t

end V8.Spec
