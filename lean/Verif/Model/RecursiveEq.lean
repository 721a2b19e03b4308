import Verif.Model.Heap
import Verif.Model.Num

/-!
# `==` on graphs of JavaScript objects

Models `src/v8serialize/_recursive_eq.py` and the `__eq__` methods of the classes it decorates
(JSObject and its subclass JSArray, JSMap, JSSet, JSError and its data class).

Simplifications.  One thread: other threads do not matter (`Model/EqThreads`, C72).  A `jsmap`
node is a JSMap, a `jsset` node a JSSet, an `error` node a JSErrorData (or a JSError without
traceback).  The identity of scalars is not modelled; it matters for NaN only, and two NaNs are taken
to be two objects.  Objects of other classes (dates, buffers, views, lists, ...) are compared by a
function left open, `leaf`, which may raise.
-/

namespace V8

/-- Why a comparison does not produce a result: the model ran out of fuel, or an exception. -/
inductive EqErr where
  | fuel
  | exc (e : PyExc)
  deriving DecidableEq, Repr

/-- What a comparison needs to know: the objects, and `==` where at least one side is an object of
a class that is not modelled here. -/
structure EqEnv where
  heap : Heap
  leaf : Val → Val → Except PyExc Bool

/-- A computation that uses `_RUNNING_EQ_KEYS` (_recursive_eq.py:7), which keeps its content also
when an exception passes. -/
abbrev EqM (α : Type) := List Id → Except EqErr α × List Id

/-- The number a bool, int or float stands for. -/
def numOf : Val → Option FVal
  | .bool b => some (.fin (if b then 2 ^ 1074 else 0))
  | .int n => some (.fin (n * 2 ^ 1074))
  | .float x => some (fval x)
  | _ => none

/-- Python `==` on two scalars: numbers by numeric value, NaN equal to nothing. -/
def scalarEq (v w : Val) : Bool :=
  match numOf v, numOf w with
  | some a, some b => a ≠ .nan ∧ a = b
  | _, _ => v = w

/-- `_RUNNING_EQ_KEYS.add(key)` -/
def addKey (i : Id) (run : List Id) : List Id := if i ∈ run then run else i :: run

/-- `_RUNNING_EQ_KEYS.remove(key)`, which raises KeyError if the key is absent. -/
def removeKey (i : Id) : EqM Unit := fun run =>
  if i ∈ run then (.ok (), run.erase i) else (.error (.exc .keyError), run)

/-- One step of comparing two objects: compare two values by `==` (`shortcut`: by `is` first, as tuples
and dicts do), find that the objects differ, or raise. -/
inductive Cmp where
  | pair (shortcut : Bool) (v w : Val)
  | differ
  | raise (e : PyExc)
  deriving DecidableEq, Repr

/-- `AbstractArrayProperties.__eq__`, jsarrayproperties.py:91-105 -/
def arrayCmps (a b : Arr Val) : List Cmp :=
  if a.len ≠ b.len then [.differ]
  else if a.used ≠ b.used then [.differ]
  else (a.elementIndexes .unordered).map (fun (i : Nat) =>
    match a.getitem i, b.getitem i with
    | .ok x, .ok y => .pair false (elemVal x) (elemVal y)
    | .error e, _ => .raise e
    | _, .error e => .raise e)

/-- `==` on two dicts. -/
def dictCmps (p q : Dict Str Val) : List Cmp :=
  if p.length ≠ q.length then [.differ]
  else p.map (fun e =>
    match q.get e.1 with
    | some w => .pair true e.2 w
    | none => .differ)

/-- `JSObject.__eq__` on two objects of the same class, jsobject.py:240-244 -/
def objCmps (o p : JSObj Val) : List Cmp :=
  if o.len ≠ p.len then [.differ]
  else arrayCmps o.array p.array ++ dictCmps o.props p.props

/-- An optional string as a Python value. -/
def optStr : Option Str → Val
  | none => .null
  | some s => .str s

/-- The wrapped `__eq__` of an object; `none` is NotImplemented.
* jsobject.py:222-244; an Object and an Array are NotImplemented (line 236);
* jsmap.py:204-236.  A JSMap compared with a JSObject (a Mapping) is always False: the dict made
  of its entries is compared with the JSObject, whose decorated `__eq__` finds the JSObject running and
  the dict not; with an unhashable key the items are compared in order, and that key differs
  from any property name.  (The comparisons made before reaching that key are left out.)
* jsset.py:139-165;
* jserror.py:211-226 and the data class equality of `_JSErrorData`. -/
def nodeCmps : Node → Node → Option (List Cmp)
  | .jsobj o, .jsobj p => some (objCmps o p)
  | .jsarr o, .jsarr p => some (objCmps o p)
  | .jsmap es, .jsmap fs =>
    if es.length ≠ fs.length then some [.differ]
    else some ((es.zip fs).flatMap (fun x => [.pair true x.1.1 x.2.1, .pair true x.1.2 x.2.2]))
  | .jsmap _, .jsobj _ => some [.differ]
  | .jsmap _, .jsarr _ => some [.differ]
  | .jsset ms, .jsset ns =>
    if ms.length ≠ ns.length then some [.differ]
    else some ((ms.zip ns).map (fun x => .pair false x.1 x.2))
  | .error name msg stack cause, .error name' msg' stack' cause' =>
    some [.pair true (.str name) (.str name'), .pair true (optStr msg) (optStr msg'),
      .pair true (optStr stack) (optStr stack'), .pair true cause cause']
  | _, _ => none

/-- Is the class of this object decorated with `recursive_eq`? -/
def Node.tracked : Node → Bool
  | .jsobj _ | .jsarr _ | .jsmap _ | .jsset _ | .error _ _ _ _ => true
  | _ => false

/-- The content of a value that is an object of a decorated class. -/
def trackedNode (h : Heap) : Val → Option (Id × Node)
  | .obj i =>
    match h[i]? with
    | some n => if n.tracked then some (i, n) else none
    | none => none
  | _ => none

/-- `v is w`, for objects. -/
def isSame : Val → Val → Bool
  | .obj i, .obj j => i = j
  | _, _ => false

/-- The comparisons one after the other until one is False or raises (`all(...)`, tuple and dict
equality). -/
def runCmps (eq : Val → Val → EqM Bool) : List Cmp → EqM Bool
  | [], run => (.ok true, run)
  | .differ :: _, run => (.ok false, run)
  | .raise e :: _, run => (.error (.exc e), run)
  | .pair shortcut v w :: rest, run =>
    if shortcut && isSame v w then runCmps eq rest run
    else
      match eq v w run with
      | (.ok true, run) => runCmps eq rest run
      | (.ok false, run) => (.ok false, run)
      | (.error e, run) => (.error e, run)

/-- The `finally` clause, _recursive_eq.py:65-67: remove both keys, then return or raise what the
body did. -/
def finallyRemove {α : Type} (i j : Id) (r : Except EqErr α × List Id) : Except EqErr α × List Id :=
  match removeKey i r.2 with
  | (.error e, run) => (.error e, run)
  | (.ok _, run) =>
    match removeKey j run with
    | (.error e, run) => (.error e, run)
    | (.ok _, run) => (r.1, run)

/-- The decorated `__eq__`, _recursive_eq.py:33-68; `none` is NotImplemented. -/
def recursiveEq (eq : Val → Val → EqM Bool) (i j : Id) (n m : Node) : EqM (Option Bool) := fun run =>
  if i = j then (.ok (some true), run)
  else
    let selfRunning : Bool := i ∈ run
    let otherRunning : Bool := j ∈ run
    if selfRunning || otherRunning then (.ok (some (selfRunning && otherRunning)), run)
    else
      finallyRemove i j
        (match nodeCmps n m with
        | none => (.ok none, addKey j (addKey i run))
        | some cmps =>
          match runCmps eq cmps (addKey j (addKey i run)) with
          | (.ok b, run) => (.ok (some b), run)
          | (.error e, run) => (.error e, run))

/-- Python `v == w`.  Between two objects of decorated classes: the left `__eq__`, if that is NotImplemented
the right one, and if that is too then identity.  An object of a decorated class never equals anything
else (the `__eq__` methods say NotImplemented, or False when the object is running). -/
def pyEq (env : EqEnv) : Nat → Val → Val → EqM Bool
  | 0, _, _, run => (.error .fuel, run)
  | fuel + 1, v, w, run =>
    match trackedNode env.heap v, trackedNode env.heap w with
    | some (i, n), some (j, m) =>
      match recursiveEq (pyEq env fuel) i j n m run with
      | (.error e, run) => (.error e, run)
      | (.ok (some b), run) => (.ok b, run)
      | (.ok none, run) =>
        match recursiveEq (pyEq env fuel) j i m n run with
        | (.error e, run) => (.error e, run)
        | (.ok (some b), run) => (.ok b, run)
        | (.ok none, run) => (.ok (decide (i = j)), run)
    | some _, none => (.ok false, run)
    | none, some _ => (.ok false, run)
    | none, none =>
      match v, w with
      | .obj _, _ | _, .obj _ =>
        match env.leaf v w with
        | .ok b => (.ok b, run)
        | .error e => (.error (.exc e), run)
      | _, _ => (.ok (scalarEq v w), run)

/-- `v == w` called from outside any comparison, with more fuel than it can use
(`C34_terminates`). -/
def pyEqTop (env : EqEnv) (v w : Val) : Except EqErr Bool × List Id :=
  pyEq env (env.heap.length + 1) v w []

end V8
