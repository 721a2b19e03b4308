import Verif.Model.Value

/-!
# Methods that JSMap and JSSet inherit

`JSSet` (`src/v8serialize/jstypes/jsset.py`) extends `collections.abc.MutableSet`, `JSMap`
(`jsmap.py`) extends `collections.abc.MutableMapping`, and they use the methods defined there on top of
their own `add`, `discard`, `__contains__`, `__getitem__` and so on.  The line numbers of those methods
are the ones of `_collections_abc.py` in Python 3.11.
-/

namespace V8

/-- The right operand of a set operation.
* `jsset`: another JSSet.
* `pyset`: any other `Set` (a Python set): its members in iteration order and its own membership test,
  which may raise (TypeError for an unhashable value).
* `iter`: any other iterable. -/
inductive Operand where
  | jsset (s : JSSet)
  | pyset (els : List Val) (has : Val → Except PyExc Bool)
  | iter (els : List Val)

/-- `iter(other)` -/
def Operand.els : Operand → List Val
  | .jsset s => s.members
  | .pyset els _ => els
  | .iter els => els

namespace JSSet

/-- `_from_iterable(it)`, which is `JSSet(it)`: jsset.py:123-126 -/
def fromIterable (l : List Val) : Except PyExc JSSet :=
  match ior [] l with
  | (s, none) => .ok s
  | (_, some e) => .error e

/-- `(x for x in l if test(x))`.  The code runs the test while the result is being built; this makes no
difference, since a value that cannot be added cannot be tested either. -/
def filterE (test : Val → Except PyExc Bool) : List Val → Except PyExc (List Val)
  | [] => .ok []
  | v :: t =>
    match test v with
    | .error e => .error e
    | .ok b =>
      match filterE test t with
      | .error e => .error e
      | .ok r => .ok (if b then v :: r else r)

/-- `value not in other` -/
def notIn (has : Val → Except PyExc Bool) (v : Val) : Except PyExc Bool := (has v).map (!·)

/-- `if not isinstance(other, Set): other = self._from_iterable(other)`: members and membership test of
the operand as a set, _collections_abc.py:608-611 -/
def asSet : Operand → Except PyExc (List Val × (Val → Except PyExc Bool))
  | .jsset s => .ok (s.members, s.contains)
  | .pyset els has => .ok (els, has)
  | .iter els =>
    match fromIterable els with
    | .error e => .error e
    | .ok s => .ok (s.members, s.contains)

/-- `self & other`, _collections_abc.py:585-590 -/
def inter (s : JSSet) (o : Operand) : Except PyExc JSSet :=
  match filterE s.contains o.els with
  | .error e => .error e
  | .ok l => fromIterable l

/-- `self | other`, _collections_abc.py:599-605 -/
def union (s : JSSet) (o : Operand) : Except PyExc JSSet := fromIterable (s.members ++ o.els)

/-- `self - other`, _collections_abc.py:607-613 -/
def diff (s : JSSet) (o : Operand) : Except PyExc JSSet :=
  match asSet o with
  | .error e => .error e
  | .ok (_, has) =>
    match filterE (notIn has) s.members with
    | .error e => .error e
    | .ok l => fromIterable l

/-- `other - self`: `JSSet.__rsub__` for a Python set or another iterable, and for a JSSet `__sub__` of
the other, which does the same; _collections_abc.py:607-621 -/
def rdiff (s : JSSet) (o : Operand) : Except PyExc JSSet :=
  match asSet o with
  | .error e => .error e
  | .ok (els, _) =>
    match filterE (notIn s.contains) els with
    | .error e => .error e
    | .ok l => fromIterable l

/-- `self ^ other`, which is `(self - other) | (other - self)`: _collections_abc.py:623-629 -/
def symDiff (s : JSSet) (o : Operand) : Except PyExc JSSet :=
  match asSet o with
  | .error e => .error e
  | .ok (els, has) =>
    match diff s (.pyset els has), rdiff s (.pyset els has) with
    | .error e, _ => .error e
    | _, .error e => .error e
    | .ok a, .ok b => union a (.jsset b)

/-- `for value in l: if value in s: return False` -/
def noneIn (s : JSSet) : List Val → Except PyExc Bool
  | [] => .ok true
  | v :: t =>
    match s.contains v with
    | .error e => .error e
    | .ok true => .ok false
    | .ok false => noneIn s t

/-- `isdisjoint(other)`, _collections_abc.py:592-597 -/
def isdisjoint (s : JSSet) (o : Operand) : Except PyExc Bool := noneIn s o.els

/-- `for elem in l: if not test(elem): return False` and `return True` at the end. -/
def allE (test : Val → Except PyExc Bool) : List Val → Except PyExc Bool
  | [] => .ok true
  | v :: t =>
    match test v with
    | .error e => .error e
    | .ok false => .ok false
    | .ok true => allE test t

/-- `self <= other` for two JSSets, _collections_abc.py:541-549 -/
def le (s t : JSSet) : Except PyExc Bool :=
  if s.len > t.len then .ok false else allE t.contains s.members

/-- `self >= other` for two JSSets, _collections_abc.py:561-569 -/
def ge (s t : JSSet) : Except PyExc Bool :=
  if s.len < t.len then .ok false else allE s.contains t.members

/-- `self < other` for two JSSets, _collections_abc.py:551-554 -/
def lt (s t : JSSet) : Except PyExc Bool := if s.len < t.len then le s t else .ok false

/-- `self > other` for two JSSets, _collections_abc.py:556-559 -/
def gt (s t : JSSet) : Except PyExc Bool := if s.len > t.len then ge s t else .ok false

/-- `for value in l: self.discard(value)`: values before a failing one stay discarded. -/
def discardAll (s : JSSet) : List Val → JSSet × Option PyExc
  | [] => (s, none)
  | v :: t =>
    match discard s v with
    | (s', some e) => (s', some e)
    | (s', none) => discardAll s' t

/-- `self &= it`, _collections_abc.py:722-725 -/
def iand (s : JSSet) (o : Operand) : JSSet × Option PyExc :=
  match diff s o with
  | .error e => (s, some e)
  | .ok d => discardAll s d.members

/-- `self -= it`, _collections_abc.py:740-746; `none` is `it is self`. -/
def isub (s : JSSet) : Option Operand → JSSet × Option PyExc
  | none => ([], none)
  | some o => discardAll s o.els

/-- `for value in it: if value in self: self.discard(value) else: self.add(value)` -/
def toggleAll (s : JSSet) : List Val → JSSet × Option PyExc
  | [] => (s, none)
  | v :: t =>
    match s.contains v with
    | .error e => (s, some e)
    | .ok b =>
      match if b then discard s v else add s v with
      | (s', some e) => (s', some e)
      | (s', none) => toggleAll s' t

/-- `self ^= it`, _collections_abc.py:727-738; `none` is `it is self`. -/
def ixor (s : JSSet) : Option Operand → JSSet × Option PyExc
  | none => ([], none)
  | some o =>
    match asSet o with
    | .error e => (s, some e)
    | .ok (els, _) => toggleAll s els

/-- `remove(value)`, _collections_abc.py:693-697 -/
def remove (s : JSSet) (v : Val) : JSSet × Option PyExc :=
  match s.contains v with
  | .error e => (s, some e)
  | .ok false => (s, some .keyError)
  | .ok true => discard s v

/-- `pop()`, _collections_abc.py:699-707 -/
def pop (s : JSSet) : JSSet × Except PyExc Val :=
  match s.members with
  | [] => (s, .error .keyError)
  | v :: _ =>
    match discard s v with
    | (s', none) => (s', .ok v)
    | (s', some e) => (s', .error e)

end JSSet

namespace JSMap
variable {β : Type}

/-- `key in self`, _collections_abc.py:778-784 -/
def contains (m : JSMap β) (k : Val) : Except PyExc Bool :=
  match m.getitem k with
  | .ok _ => .ok true
  | .error .keyError => .ok false
  | .error e => .error e

/-- `pop(key[, default])`, _collections_abc.py:907-919 -/
def pop (m : JSMap β) (k : Val) (default : Option β) : JSMap β × Except PyExc β :=
  match m.getitem k with
  | .error .keyError =>
    match default with
    | none => (m, .error .keyError)
    | some d => (m, .ok d)
  | .error e => (m, .error e)
  | .ok v =>
    match m.delitem k with
    | (m', some e) => (m', .error e)
    | (m', none) => (m', .ok v)

/-- `popitem()`, _collections_abc.py:921-931 -/
def popitem (m : JSMap β) : JSMap β × Except PyExc (Val × β) :=
  match m.items with
  | [] => (m, .error .keyError)
  | (k, _) :: _ =>
    match m.getitem k with
    | .error e => (m, .error e)
    | .ok v =>
      match m.delitem k with
      | (m', some e) => (m', .error e)
      | (m', none) => (m', .ok (k, v))

/-- `setdefault(key, default)`, _collections_abc.py:959-965 -/
def setdefault (m : JSMap β) (k : Val) (default : β) : JSMap β × Except PyExc β :=
  match m.getitem k with
  | .ok v => (m, .ok v)
  | .error .keyError =>
    match m.setitem k default with
    | (m', some e) => (m', .error e)
    | (m', none) => (m', .ok default)
  | .error e => (m, .error e)

end JSMap
end V8
