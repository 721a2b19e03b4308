import Verif.Model.ReprSettings

/-!
# What the blocks of `js_repr_settings` should do
-/

namespace V8.Spec
open V8

/-- The open blocks, innermost first, after events in which only the innermost open block is ever left; `none` if
another one is left.  Blocks are numbered from `next`. -/
def nesting (stack : List Nat) (next : Nat) : List ReprEvent → Option (List Nat)
  | [] => some stack
  | .enter _ _ :: t => nesting (next :: stack) (next + 1) t
  | .exit k :: t =>
    match stack with
    | [] => none
    | innermost :: rest => if innermost = k then nesting rest next t else none

/-- Every block is left, and before the blocks around it: what `with` statements of one thread do. -/
def Nested (first : Nat) (es : List ReprEvent) : Prop := nesting [] first es = some []

/-- The number of blocks entered. -/
def entered : List ReprEvent → Nat
  | [] => 0
  | .enter _ _ :: t => entered t + 1
  | .exit _ :: t => entered t

/-- Exactly the blocks entered in `es` are left, in any order. -/
def Complete (first : Nat) (es : List ReprEvent) : Prop :=
  ∀ k, ReprEvent.exit k ∈ es ↔ first ≤ k ∧ k < first + entered es

/-- Only blocks entered in `es` are left. -/
def LeavesOwn (first : Nat) (es : List ReprEvent) : Prop := ∀ k, ReprEvent.exit k ∈ es → first ≤ k

/-- Every block is made with keyword arguments and without `force_restore`. -/
def Plain (es : List ReprEvent) : Prop :=
  ∀ e ∈ es, match e with
    | .enter (.kwargs _) false => True
    | .enter _ _ => False
    | .exit _ => True

/-- The setting that a block should have: the argument if it is given and is not None (None is a value of `indent`
only), else the setting around the block. -/
def blockSetting (around : FieldVal) (name : String) (kw : ReprKwargs) : FieldVal :=
  match kw.find? (fun p => p.1 = name) with
  | some (_, .none) => if name = "indent" then .none else around
  | some (_, v) => v
  | none => around

end V8.Spec
