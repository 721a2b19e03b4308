import Verif.Model.Value

/-!
# `==` between JSMap and dict, and between JSSet and set

Models `JSMap.__eq__` (`src/v8serialize/jstypes/jsmap.py:204-236`) and `JSSet.__eq__`
(`jsset.py:139-165`) in full: the other operand can be of the same class, a plain `dict` or `set`, or
anything else.

Simplifications.  The plain containers are `dict`, `set` and `frozenset`; other classes of `Mapping` and
`Set` can define an `__eq__` of their own.  The guard against cyclic comparisons is left out here; it is in
`Model/RecursiveEq.lean`.
-/

namespace V8

/-- How Python compares the values at hand: `hash(v)` (`none` when it raises TypeError), `v is w` and
`v == w`, which can raise. -/
structure PyCompare where
  hash : Val → Option Int
  same : Val → Val → Bool
  eq : Val → Val → Except PyExc Bool

namespace PyCompare

/-- `v is w or v == w`, which is how the containers of Python compare what they contain
(`PyObject_RichCompareBool`). -/
def same_or_eq (py : PyCompare) (v w : Val) : Except PyExc Bool :=
  if py.same v w then .ok true else py.eq v w

/-- Does the key `k'` stored in a dict match the key `k` looked up?  Only keys with the same hash are
compared. -/
def keyMatch (py : PyCompare) (k' k : Val) : Except PyExc Bool :=
  if py.hash k' = py.hash k then py.same_or_eq k' k else .ok false

/-- The position of the entry of a dict that matches the key `k`; TypeError if `k` is unhashable.
Simplification: CPython goes through the entries in the order of its hash table and not in the order
of insertion. -/
def find (py : PyCompare) {β : Type} (k : Val) : List (Val × β) → Except PyExc (Option β)
  | [] => .ok none
  | (k', v) :: t =>
    match py.keyMatch k' k with
    | .error e => .error e
    | .ok true => .ok (some v)
    | .ok false => find py k t

/-- `d[k] = v` for a hashable `k`: an existing key keeps its place and stays the key, a new one goes last. -/
def store (py : PyCompare) {β : Type} (k : Val) (v : β) : List (Val × β) → Except PyExc (List (Val × β))
  | [] => .ok [(k, v)]
  | (k', v') :: t =>
    match py.keyMatch k' k with
    | .error e => .error e
    | .ok true => .ok ((k', v) :: t)
    | .ok false =>
      match store py k v t with
      | .error e => .error e
      | .ok r => .ok ((k', v') :: r)

/-- `d.update(pairs)`; TypeError at an unhashable key. -/
def storeAll (py : PyCompare) {β : Type} (d : List (Val × β)) : List (Val × β) → Except PyExc (List (Val × β))
  | [] => .ok d
  | (k, v) :: t =>
    match py.hash k with
    | none => .error .typeError
    | some _ =>
      match py.store k v d with
      | .error e => .error e
      | .ok d' => storeAll py d' t

/-- `dict(pairs)` -/
def toDict (py : PyCompare) {β : Type} (pairs : List (Val × β)) : Except PyExc (List (Val × β)) :=
  py.storeAll [] pairs

/-- Is every entry of the first dict in the second, with an equal value?  (The loop of `dict_equal`
in CPython.) -/
def entriesIn (py : PyCompare) (d : List (Val × Val)) : List (Val × Val) → Except PyExc Bool
  | [] => .ok true
  | (k, v) :: t =>
    match py.find k d with
    | .error e => .error e
    | .ok none => .ok false
    | .ok (some w) =>
      match py.same_or_eq v w with
      | .error e => .error e
      | .ok false => .ok false
      | .ok true => entriesIn py d t

/-- `==` on two dicts. -/
def dictEq (py : PyCompare) (c d : List (Val × Val)) : Except PyExc Bool :=
  if c.length ≠ d.length then .ok false else py.entriesIn d c

/-- `==` on two sets (a set is a dict without values): the same number of members, and every member of
the first is in the second. -/
def setEq (py : PyCompare) (c d : List (Val × Unit)) : Except PyExc Bool :=
  if c.length ≠ d.length then .ok false else go c
where
  /-- `set_issubset` of CPython. -/
  go : List (Val × Unit) → Except PyExc Bool
    | [] => .ok true
    | (k, _) :: t =>
      match py.find k d with
      | .error e => .error e
      | .ok none => .ok false
      | .ok (some _) => go t

/-- `x == y` on two (key, value) tuples. -/
def pairEq (py : PyCompare) (x y : Val × Val) : Except PyExc Bool :=
  match py.same_or_eq x.1 y.1 with
  | .error e => .error e
  | .ok false => .ok false
  | .ok true => py.same_or_eq x.2 y.2

end PyCompare

/-- `all(test(x, y) for x, y in zip(xs, ys))` -/
def allZip {α : Type} (test : α → α → Except PyExc Bool) : List α → List α → Except PyExc Bool
  | x :: xs, y :: ys =>
    match test x y with
    | .error e => .error e
    | .ok false => .ok false
    | .ok true => allZip test xs ys
  | _, _ => .ok true

/-- The right operand of `==` with a JSMap: the same object, another JSMap, a dict, or something else
that is no mapping. -/
inductive MapOperand where
  | itself
  | jsmap (m : JSMap Val)
  | dict (entries : List (Val × Val))
  | other

/-- `JSMap.__eq__`, jsmap.py:204-236; `none` is NotImplemented. -/
def JSMap.pyEq (py : PyCompare) (m : JSMap Val) : MapOperand → Except PyExc (Option Bool)
  | .itself => .ok (some true)
  | .jsmap m' =>
    if m.len ≠ m'.len then .ok (some false)
    else (allZip py.pairEq m.items m'.items).map some
  | .dict d =>
    if m.len ≠ d.length then .ok (some false)
    else
      match py.toDict m.items with
      | .error _ => (allZip py.pairEq m.items d).map some
      | .ok c => (py.dictEq c d).map some
  | .other => .ok none

/-- The right operand of `==` with a JSSet. -/
inductive SetOperand where
  | itself
  | jsset (s : JSSet)
  | set (members : List Val)
  | other

/-- `set(members)` -/
def PyCompare.toSet (py : PyCompare) (l : List Val) : Except PyExc (List (Val × Unit)) :=
  py.toDict (l.map (·, ()))

/-- `JSSet.__eq__`, jsset.py:139-165; `none` is NotImplemented. -/
def JSSet.pyEq (py : PyCompare) (s : JSSet) : SetOperand → Except PyExc (Option Bool)
  | .itself => .ok (some true)
  | .jsset s' =>
    if s.len ≠ s'.len then .ok (some false)
    else (allZip py.eq s.members s'.members).map some
  | .set l =>
    if s.len ≠ l.length then .ok (some false)
    else
      match py.toSet s.members with
      | .error _ => (allZip py.eq s.members l).map some
      | .ok c => (py.setEq c (l.map (·, ()))).map some
  | .other => .ok none

end V8
