import Verif.Spec.NumberText

/-!
# `str()` of a float

What `str(key)` at _normalise_property_key.py:67 does for a float: `float.__repr__` of CPython 3.11
(`float_repr`, `PyOS_double_to_string` with format `r` and the flag `Py_DTSF_ADD_DOT_0`, `format_float_short`).
The digits come from `_Py_dg_dtoa` in mode 0: the shortest that read back as the number (parameter `dg`).
-/

namespace V8

open V8.Spec

/-- The exponent as `%+.02d`. -/
def pyExponent (e : Int) : Str :=
  (if e < 0 then str "-" else str "+") ++ (if e.natAbs < 10 then 48 :: decDigits e.natAbs else decDigits e.natAbs)

/-- `format_float_short` (Python/pystrtod.c:930-1230) for the digits of a positive number; `n` is its `decpt`. -/
def pyDigits (d : Digits) : Str :=
  let digits := decDigits d.s
  if d.n ≤ -4 ∨ 16 < d.n then withPoint digits ++ str "e" ++ pyExponent (d.n - 1)
  else if d.n ≤ 0 then str "0." ++ zeros (-d.n).toNat ++ digits
  else if (d.k : Int) ≤ d.n then digits ++ zeros (d.n - d.k).toNat ++ str ".0"
  else digits.take d.n.toNat ++ [46] ++ digits.drop d.n.toNat

/-- `str(x)` of a float. -/
def pyFloatStr (dg : Nat → Digits) (x : F64) : Str :=
  match fval x with
  | .nan => str "nan"
  | .inf neg => (if neg then str "-" else []) ++ str "inf"
  | .fin q =>
    if q = 0 then (if fSign x.toNat then str "-" else []) ++ str "0.0"
    else (if q < 0 then str "-" else []) ++ pyDigits (dg (x.toNat % 2 ^ 63))

end V8
