import Verif.Spec.Float
import Verif.Model.Buffers
import Mathlib.Data.List.Basic

/-!
# Specification: elements of typed arrays (ECMA-262, table "The TypedArray Constructors")
-/

namespace V8.Spec

/-- What the elements of a typed array are: integers of `k` bytes, or floats of `k` bytes with `e` exponent and `f`
fraction bits. -/
inductive ElementKind where
  | signed (k : Nat)
  | unsigned (k : Nat)
  | float (k e f : Nat)
  deriving DecidableEq

/-- The table; a DataView has no elements. -/
def kindOf : ViewTag → Option ElementKind
  | .int8 => some (.signed 1)
  | .uint8 => some (.unsigned 1)
  | .uint8Clamped => some (.unsigned 1)
  | .int16 => some (.signed 2)
  | .uint16 => some (.unsigned 2)
  | .int32 => some (.signed 4)
  | .uint32 => some (.unsigned 4)
  | .float16 => some (.float 2 5 10)
  | .float32 => some (.float 4 8 23)
  | .float64 => some (.float 8 11 52)
  | .bigInt64 => some (.signed 8)
  | .bigUint64 => some (.unsigned 8)
  | .dataView => none

namespace ElementKind

def size : ElementKind → Nat
  | signed k => k
  | unsigned k => k
  | float k _ _ => k

/-- The number that the pattern of an element stands for: two's complement for signed integers. -/
def value : ElementKind → Nat → Ieee
  | signed k, p => .number (decide (2 ^ (8 * k - 1) ≤ p)) (if 2 ^ (8 * k - 1) ≤ p then (p : ℚ) - 2 ^ (8 * k) else p)
  | unsigned _, p => .number false p
  | float _ e f, p => ieee e f p

/-- The numbers in a region of memory, which holds elements one after the other, least significant byte first. -/
def numbers (kind : ElementKind) (region : Bytes) : List Ieee :=
  (List.range (region.length / kind.size)).map (fun j => kind.value (pattern true (bytesAt region (j * kind.size : Nat) kind.size)))

end ElementKind

/-- What a Python int or float stands for. -/
def meaning : DVVal → Ieee
  | .int n => .number (decide (n < 0)) n
  | .float x => binary64 x

/-- Ints are used for integer elements, floats for the others. -/
def FitsKind : ElementKind → DVVal → Prop
  | .signed _, .int _ => True
  | .unsigned _, .int _ => True
  | .float _ _ _, .float _ => True
  | _, _ => False

/-- Equality of numbers: the sign of zero does not matter and NaN is equal to nothing. -/
inductive SameNumber : Ieee → Ieee → Prop
  | number {s s' : Bool} {q : ℚ} : SameNumber (.number s q) (.number s' q)
  | infinity {s : Bool} : SameNumber (.infinity s) (.infinity s)

/-- The position of index `i` in a sequence of `n` items: negative indexes count from the end. -/
def Position (n : Nat) (i : Int) (j : Nat) : Prop :=
  j < n ∧ ((j : Int) = i ∨ (j : Int) = i + n)

/-- The integers a kind of element can hold. -/
def InRange : ElementKind → Int → Prop
  | .signed k, n => -2 ^ (8 * k - 1) ≤ n ∧ n < 2 ^ (8 * k - 1)
  | .unsigned k, n => 0 ≤ n ∧ n < 2 ^ (8 * k)
  | .float _ _ _, _ => False

/-- `new` is `old` with the `size` bytes at `off` replaced by those of the pattern `p`, least significant byte first. -/
def Stored (old new : Bytes) (off size p : Nat) : Prop :=
  off + size ≤ old.length ∧ new.length = old.length ∧ pattern true (bytesAt new off size) = p ∧
    ∀ k, k < off ∨ off + size ≤ k → new[k]? = old[k]?

end V8.Spec
