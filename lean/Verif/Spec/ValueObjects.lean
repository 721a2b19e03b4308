import Verif.Model.ValueObjects
import Mathlib.Data.List.Lex
import Mathlib.Data.Prod.Lex
import Mathlib.Order.WithBot
import Mathlib.Algebra.Order.Ring.Int

/-!
# What it means for objects to be values: a linear order of keys
-/

namespace V8.Spec.ValObj
open V8 V8.ValObj

/-- The numbers with both infinities; the finite ones in units of 2^-1074. -/
abbrev Number := WithBot (WithTop ℤ)

/-- The number that a double is; NaN is none. -/
def numberOf : FVal → Option Number
  | .nan => none
  | .inf true => some ⊥
  | .inf false => some ((⊤ : WithTop ℤ) : Number)
  | .fin s => some (((s : ℤ) : WithTop ℤ) : Number)

/-- The number that a Python int, float or bool is (True is 1). -/
def number : Val → Option Number
  | .bool true => numberOf (.fin (2 ^ 1074))
  | .bool false => numberOf (.fin 0)
  | .int n => numberOf (.fin (n * 2 ^ 1074))
  | .float x => numberOf (fval x)
  | _ => none

/-- The text that a Python str is. -/
def text : Val → Option (List Nat)
  | .str s => some s
  | _ => none

/-- `r` is the answer of the operator for two members of a linear order. -/
def Answers {α : Type} [LinearOrder α] (op : Op) (x y : α) (r : Except PyExc Bool) : Prop :=
  match op with
  | .lt => r = .ok (decide (x < y))
  | .le => r = .ok (decide (x ≤ y))
  | .gt => r = .ok (decide (y < x))
  | .ge => r = .ok (decide (y ≤ x))

/-- The objects that the fields refer to are objects: one identity, one value. -/
def Coherent (cells : List Cell) : Prop := ∀ a ∈ cells, ∀ b ∈ cells, a.id = b.id → a.val = b.val

/-- NaN. -/
def IsNaN (v : Val) : Prop := ∃ x, v = .float x ∧ fval x = .nan

/-- -0.0, which equals 0.0 but is another value to JavaScript. -/
def IsMinusZero (v : Val) : Prop := v = .float 0x8000000000000000

/-- The attributes that make up the value of an object of each class. -/
def isField : Kind → String → Prop
  | .primObject, n => n = "value" ∨ n = "tag"
  | .regExp, n => n = "source" ∨ n = "flags"
  | .sharedRef, n => n = "shared_value_id"

end V8.Spec.ValObj
