import Verif.Model.ArrayMixins
import Verif.Spec.PyList

/-!
# Specification: the further methods of a Python list whose elements may be `JSHole`

`same v value` is the comparison the methods use.
-/

namespace V8.Spec
variable {α : Type}

/-- All operations on an array. -/
inductive SeqOp (α : Type) where
  | base (op : ArrOp α)
  | index (v : Option α) (start : Int) (stop : Option Int)
  | contains (v : Option α)
  | count (v : Option α)
  | reversed
  | reverse
  | remove (v : Option α)
  | clear
  | extend (vs : List (Option α))
  | extendSelf

/-- What an operation returns. -/
inductive SeqOut (α : Type) where
  | base (o : ArrOut α)
  | bool (b : Bool)
  deriving DecidableEq, Repr

/-- Where a bound of `list.index` points: negative ones count from the end. -/
def bound (n : Nat) (i : Int) : Int := if i < 0 then i + n else i

/-- `list.index`: the first position, from `start` and before `stop`, of an equal element. -/
def firstIndex (same : Option α → Option α → Bool) (l : List (Option α)) (v : Option α) (start : Int) (stop : Option Int) :
    Option Nat :=
  (List.range l.length).find? fun k =>
    decide (bound l.length start ≤ k) && (match stop with | some s => decide ((k : Int) < bound l.length s) | none => true) &&
      same (l[k]?).join v

/-- One operation on the list. -/
def listSeqStep (same : Option α → Option α → Bool) (l : List (Option α)) :
    SeqOp α → List (Option α) × Except PyExc (SeqOut α)
  | .base op => ((listStep l op).1, (listStep l op).2.map .base)
  | .index v start stop =>
    match firstIndex same l v start stop with
    | some k => (l, .ok (.base (.num k)))
    | none => (l, .error .valueError)
  | .contains v => (l, .ok (.bool (l.any (fun x => same x v))))
  | .count v => (l, .ok (.base (.num (l.countP (fun x => same x v)))))
  | .reversed => (l, .ok (.base (.elems l.reverse)))
  | .reverse => (l.reverse, .ok (.base .unit))
  | .remove v =>
    match firstIndex same l v 0 none with
    | some k => (l.take k ++ l.drop (k + 1), .ok (.base .unit))
    | none => (l, .error .valueError)
  | .clear => ([], .ok (.base .unit))
  | .extend vs => (l ++ vs, .ok (.base .unit))
  | .extendSelf => (l ++ l, .ok (.base .unit))

/-- The same operations on the implementation. -/
def seqStep (same : Option α → Option α → Bool) (a : Arr α) : SeqOp α → Arr α × Except PyExc (SeqOut α)
  | .base op => ((arrStep a op).1, (arrStep a op).2.map .base)
  | .index v start stop => (a, (a.index same v start stop).map (fun i => .base (.num i)))
  | .contains v => (a.afterIndexes .ascending, .ok (.bool (a.contains same v)))
  | .count v => (a.afterIndexes .ascending, .ok (.base (.num (a.count same v))))
  | .reversed => (a, a.reversed.map (fun l => .base (.elems l)))
  | .reverse => done a.reverse
  | .remove v => done (a.remove same v)
  | .clear =>
    match a.clear with
    | some r => done r
    | none => (a, .error .notImplementedError)  -- the loop went on for too long
  | .extend vs => done (a.extend vs)
  | .extendSelf => done a.extendSelf
where
  done (r : Arr α × Option PyExc) : Arr α × Except PyExc (SeqOut α) :=
    (r.1, match r.2 with | none => .ok (.base .unit) | some e => .error e)

end V8.Spec
