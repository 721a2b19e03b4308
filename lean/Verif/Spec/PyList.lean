import Verif.Model.ArrayProps

/-!
# Specification: a Python list whose elements may be `JSHole`

Written without reference to the dense or sparse implementations.  `none` is `JSHole`.
-/

namespace V8.Spec

/-- The operations a user can apply to the `array` of a JSObject or JSArray. -/
inductive ArrOp (α : Type) where
  | get (i : Int)
  | set (i : Int) (v : Option α)
  | del (i : Int)
  | insert (i : Int) (v : Option α)
  | append (v : Option α)
  | pop (i : Int)
  | resize (n : Int)
  | len
  | used
  | indexes (descending : Bool)
  | iter
  deriving DecidableEq, Repr

/-- What an operation returns. -/
inductive ArrOut (α : Type) where
  | unit
  | elem (v : Option α)
  | num (n : Int)
  | idxs (l : List Nat)
  | elems (l : List (Option α))
  deriving DecidableEq, Repr

variable {α : Type}

/-- Position denoted by a Python subscript on a list of length `n`. -/
def subscript (n : Nat) (i : Int) : Option Nat :=
  if 0 ≤ i ∧ i < n then some i.toNat
  else if -(n : Int) ≤ i ∧ i < 0 then some (i + n).toNat
  else none

/-- Position at which Python's `list.insert` puts an element: clamped at both ends. -/
def insertPos (n : Nat) (i : Int) : Nat :=
  if i < 0 then (max 0 (n + i)).toNat else min i.toNat n

/-- Indexes that hold a value, ascending. -/
def occupied (l : List (Option α)) : List Nat :=
  (List.range l.length).filter (fun i => ((l[i]?).join).isSome)

/-- How many elements hold a value. -/
def usedCount (l : List (Option α)) : Nat := l.countP Option.isSome

/-- The list of `n` elements given by index/value pairs: at each index the value of the last pair with that index, or a
hole. -/
def fromEntries (es : List (Int × α)) (n : Nat) : List (Option α) :=
  (List.range n).map fun (k : Nat) => (es.reverse.find? (fun e => e.1 == (k : Int))).map (·.2)

/-- One operation on the list. `resize` cuts the list or pads it with holes. -/
def listStep (l : List (Option α)) : ArrOp α → List (Option α) × Except PyExc (ArrOut α)
  | .get i =>
    match subscript l.length i with
    | some k => (l, .ok (.elem (l[k]?).join))
    | none => (l, .error .indexError)
  | .set i v =>
    match subscript l.length i with
    | some k => (l.set k v, .ok .unit)
    | none => (l, .error .indexError)
  | .del i =>
    match subscript l.length i with
    | some k => (l.take k ++ l.drop (k + 1), .ok .unit)
    | none => (l, .error .indexError)
  | .insert i v =>
    let k := insertPos l.length i
    (l.take k ++ [v] ++ l.drop k, .ok .unit)
  | .append v => (l ++ [v], .ok .unit)
  | .pop i =>
    match subscript l.length i with
    | some k => (l.take k ++ l.drop (k + 1), .ok (.elem (l[k]?).join))
    | none => (l, .error .indexError)
  | .resize n =>
    if 0 ≤ n ∧ n ≤ 2 ^ 32 - 1 then
      (l.take n.toNat ++ List.replicate (n.toNat - l.length) none, .ok .unit)
    else (l, .error .valueError)
  | .len => (l, .ok (.num l.length))
  | .used => (l, .ok (.num (usedCount l)))
  | .indexes desc => (l, .ok (.idxs (if desc then (occupied l).reverse else occupied l)))
  | .iter => (l, .ok (.elems l))

/-- The same operations on the implementation (`array` of a JSObject), dispatched to the modelled
methods. -/
def arrStep (a : Arr α) : ArrOp α → Arr α × Except PyExc (ArrOut α)
  | .get i => (a, (a.getitem i).map .elem)
  | .set i v => ret (a.setitem i v)
  | .del i => ret (a.delitem i)
  | .insert i v => ret (a.insert i v)
  | .append v => ret (a.append v)
  | .pop i => let r := a.pop i; (r.1, r.2.map .elem)
  | .resize n => ret (a.resize n)
  | .len => (a, .ok (.num a.len))
  | .used => (a, .ok (.num a.used))
  | .indexes desc =>
    let o := if desc then Order.descending else Order.ascending
    (a.afterIndexes o, .ok (.idxs (a.elementIndexes o)))
  | .iter => (a.afterIndexes .ascending, .ok (.elems a.toList))
where
  ret (r : Arr α × Option PyExc) : Arr α × Except PyExc (ArrOut α) :=
    (r.1, match r.2 with | none => .ok .unit | some e => .error e)

/-- Apply a history of operations; collect what each returns or raises. -/
def runHist {σ ω ι : Type} (step : σ → ι → σ × ω) : σ → List ι → σ × List ω
  | s, [] => (s, [])
  | s, op :: ops =>
    let r := step s op
    let rest := runHist step r.1 ops
    (rest.1, r.2 :: rest.2)

end V8.Spec
