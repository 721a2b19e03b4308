import Verif.Spec.Language

/-!
# Specification: how deeply a message is nested

The grammar of `Spec/Language` with a bound for the nesting: a value of kind `t` takes `frames t + 1` units, what
is nested in it has the remaining ones.
-/

namespace V8.Spec.Lang

/-- What may follow each tag if there is room for values nested in it. -/
def BodyIn (env : DEnv) (version : Nat) (frames : Tag → Nat) (room : Nat) (t : Tag) : Step Val :=
  if _ : room ≤ frames t then fun _ _ _ _ _ => False
  else Body env version (fun t' => BodyIn env version frames (room - (frames t + 1)) t') t
termination_by room
decreasing_by omega

/-- A message whose nesting fits into `room`. -/
def MessageIn (env : DEnv) (frames : Tag → Nat) (room : Nat) (data : Bytes) (v : Val) (w : World) : Prop :=
  ∃ version m1 m2 rest, TagAt data .kVersion m1 ∧ Number m1 version m2 ∧ 13 ≤ version ∧ version ≤ 15 ∧
    Item (BodyIn env version frames room) anyTag .nothing m2 v w rest

/-- A message nested `depth` deep at most. -/
def MessageAt (env : DEnv) (depth : Nat) (data : Bytes) (v : Val) (w : World) : Prop :=
  MessageIn env (fun _ => 0) depth data v w

end V8.Spec.Lang
