import Verif.Model.ObjectLog
import Verif.Spec.PyList

/-!
# Specification: a numbering of objects in recording order

The state is the list of all objects in the order they were recorded (position = id) beside what each
id stands for now.
-/

namespace V8.Spec
open V8

/-- Uses of the object log. -/
inductive LogOp where
  | record (v : Val)
  | contains (v : Val)
  | idOf (v : Val)
  | objectAt (n : Int)
  | replace (n : Int) (by' : Val)
  | openAcyclic (v : Val)
  | closeAcyclic (n : Nat) (v : Val)
  deriving DecidableEq, Repr

/-- Answers. -/
inductive LogOut where
  | unit
  | id (n : Nat)
  | yes (b : Bool)
  | slot (s : LogSlot)
  | err (e : LogErr)
  deriving DecidableEq, Repr

structure Numbering where
  recorded : List Val
  now : List LogSlot
  deriving DecidableEq, Repr

/-- The highest id under which `v` was recorded. -/
def latestId (recorded : List Val) (v : Val) : Option Nat :=
  (List.range recorded.length).reverse.find? (fun i => recorded[i]? = some v)

def numberingStep (s : Numbering) : LogOp → Numbering × LogOut
  | .record v => (⟨s.recorded ++ [v], s.now ++ [.obj v]⟩, .id s.recorded.length)
  | .contains v => (s, .yes (decide (v ∈ s.recorded)))
  | .idOf v =>
    (s, match latestId s.recorded v with
        | none => .err .notSerialized
        | some n => if s.now[n]? = some (.fwd none) then .err (.forwardRef n) else .id n)
  | .objectAt n =>
    (s, if 0 ≤ n then
          match s.now[n.toNat]? with
          | some x => .slot x
          | none => .err .outOfRange
        else if -n ≤ s.now.length then
          match s.now.reverse[(-n).toNat - 1]? with
          | some x => .slot x
          | none => .err .outOfRange
        else .err .outOfRange)
  | .replace n x =>
    if n + 1 = s.recorded.length then
      if s.recorded = [] then (s, .err .outOfRange)
      else (⟨s.recorded, s.now.dropLast ++ [.obj x]⟩, .unit)
    else (s, .err .valueError)
  | .openAcyclic v => (⟨s.recorded ++ [v], s.now ++ [.fwd none]⟩, .id s.recorded.length)
  | .closeAcyclic n v => (⟨s.recorded, s.now.set n (.fwd (some v))⟩, .unit)

/-- The same operations on the code's log. -/
def objLogStep (l : ObjLog) : LogOp → ObjLog × LogOut
  | .record v => ((l.record v).1, .id (l.record v).2)
  | .contains v => (l, .yes (l.contains v))
  | .idOf v =>
    (l, match l.getId v with
        | .ok n => .id n
        | .error e => .err e)
  | .objectAt n =>
    (l, match l.getObject n with
        | .ok s => .slot s
        | .error e => .err e)
  | .replace n x =>
    match l.replace n (.obj x) with
    | .ok l' => (l', .unit)
    | .error e => (l, .err e)
  | .openAcyclic v => ((l.beginAcyclic v).1, .id (l.beginAcyclic v).2)
  | .closeAcyclic n v => (l.endAcyclic n v, .unit)

end V8.Spec
