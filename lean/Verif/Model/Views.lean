import Verif.Model.SetAlgebra
import Verif.Model.PlainEq

/-!
# The views of a JSMap, and JSSet against Python sets

`keys()`, `items()` and `values()` of a JSMap (`src/v8serialize/jstypes/jsmap.py`) are the views of
`collections.abc.Mapping`.  They find keys with the methods of JSMap.  The view of the keys is a `Set`, and so is a
JSSet (`jsset.py`): both take the operators of `collections.abc.Set`.  The line numbers are the ones of
`_collections_abc.py` in Python 3.11.

Simplifications: the views are of a JSMap that does not change meanwhile; `items()` is not modelled as an operand
of `&`, `|`, `-` and `^`.
-/

namespace V8

/-- What the operators of `collections.abc.Set` use of a set: its members in the order of iteration, and `in`.
Its `len()` is the number of members. -/
structure SetView where
  els : List Val
  has : Val → Except PyExc Bool

namespace SetView

/-- A JSSet. -/
def ofJSSet (s : JSSet) : SetView := ⟨s.members, s.contains⟩

/-- `m.keys()` for a JSMap: `KeysView.__iter__`, `__contains__` and `__len__`, _collections_abc.py:808-836, with
jsmap.py:195-202. -/
def ofKeys {β : Type} (m : JSMap β) : SetView := ⟨m.items.map (·.1), m.contains⟩

/-- A Python set (or frozenset) with these members.  `v in s` hashes `v` first; TypeError if it cannot be hashed. -/
def ofSet (py : PyCompare) (l : List Val) : SetView :=
  ⟨l, fun v =>
    match py.hash v with
    | none => .error .typeError
    | some _ => (py.find v (l.map (·, ()))).map Option.isSome⟩

/-- `self <= other`, _collections_abc.py:540-548 -/
def le (a b : SetView) : Except PyExc Bool :=
  if a.els.length > b.els.length then .ok false else JSSet.allE b.has a.els

/-- `self >= other`, _collections_abc.py:560-568 -/
def ge (a b : SetView) : Except PyExc Bool :=
  if a.els.length < b.els.length then .ok false else JSSet.allE a.has b.els

/-- `self < other`, _collections_abc.py:550-553 -/
def lt (a b : SetView) : Except PyExc Bool := if a.els.length < b.els.length then a.le b else .ok false

/-- `self > other`, _collections_abc.py:555-558 -/
def gt (a b : SetView) : Except PyExc Bool := if a.els.length > b.els.length then a.ge b else .ok false

/-- `self == other`, _collections_abc.py:570-573 (a JSSet has an `__eq__` of its own). -/
def eqv (a b : SetView) : Except PyExc Bool := if a.els.length = b.els.length then a.le b else .ok false

/-- `set(v for v in l if test(v))`, with the set made so far. -/
def gather (py : PyCompare) (test : Val → Except PyExc Bool) (made : List (Val × Unit)) :
    List Val → Except PyExc (List (Val × Unit))
  | [] => .ok made
  | v :: t =>
    match test v with
    | .error e => .error e
    | .ok false => gather py test made t
    | .ok true =>
      match py.hash v with
      | none => .error .typeError
      | some _ =>
        match py.store v () made with
        | .error e => .error e
        | .ok made' => gather py test made' t

/-- `KeysView._from_iterable(v for v in l if test(v))`, _collections_abc.py:828-830: the members of the Python set. -/
def makeSet (py : PyCompare) (test : Val → Except PyExc Bool) (l : List Val) : Except PyExc (List Val) :=
  (gather py test [] l).map (·.map (·.1))

/-- `keys & other`, and `other & keys` for a Python set, _collections_abc.py:584-589 -/
def and (py : PyCompare) (a : SetView) (other : List Val) : Except PyExc (List Val) := makeSet py a.has other

/-- `keys | other`, and `other | keys` for a Python set, _collections_abc.py:598-604 -/
def or (py : PyCompare) (a : SetView) (other : List Val) : Except PyExc (List Val) :=
  makeSet py (fun _ => .ok true) (a.els ++ other)

/-- `keys - other` with another set, _collections_abc.py:606-612 -/
def sub (py : PyCompare) (a b : SetView) : Except PyExc (List Val) := makeSet py (JSSet.notIn b.has) a.els

/-- `keys - other` with an iterable that is no set, _collections_abc.py:606-612 -/
def subIter (py : PyCompare) (a : SetView) (other : List Val) : Except PyExc (List Val) :=
  match makeSet py (fun _ => .ok true) other with
  | .error e => .error e
  | .ok l => sub py a (ofSet py l)

/-- `keys ^ other` with a Python set or the keys of another JSMap, _collections_abc.py:622-628:
`(self - other) | (other - self)`.  Both differences are Python sets: `other - self` is `KeysView.__rsub__` of `self`
for a Python set, lines 614-620, and `KeysView.__sub__` of `other` for keys. -/
def xor (py : PyCompare) (a b : SetView) : Except PyExc (List Val) :=
  match sub py a b with
  | .error e => .error e
  | .ok l =>
    match sub py b a with
    | .error e => .error e
    | .ok r => makeSet py (fun _ => .ok true) (l ++ r)

end SetView

namespace JSMap
variable {β : Type}

/-- `[(key, self[key]) for key in l]` -/
def lookUp (m : JSMap β) : List Val → Except PyExc (List (Val × β))
  | [] => .ok []
  | k :: t =>
    match m.getitem k with
    | .error e => .error e
    | .ok v =>
      match lookUp m t with
      | .error e => .error e
      | .ok r => .ok ((k, v) :: r)

/-- `list(m.items())`: `ItemsView.__iter__`, _collections_abc.py:859-861, looks every key up. -/
def itemsIter (m : JSMap β) : Except PyExc (List (Val × β)) := m.lookUp (m.items.map (·.1))

/-- `list(m.values())`: `ValuesView.__iter__`, _collections_abc.py:878-880 -/
def valuesIter (m : JSMap β) : Except PyExc (List β) := m.itemsIter.map (·.map (·.2))

/-- `(key, value) in m.items()`: `ItemsView.__contains__`, _collections_abc.py:850-857 -/
def itemsHas (py : PyCompare) (m : JSMap Val) (item : Val × Val) : Except PyExc Bool :=
  match m.getitem item.1 with
  | .error .keyError => .ok false
  | .error e => .error e
  | .ok v => py.same_or_eq v item.2

/-- `for item in l: if item not in m.items(): return False` and `return True` at the end. -/
def allItems (py : PyCompare) (m : JSMap Val) : List (Val × Val) → Except PyExc Bool
  | [] => .ok true
  | e :: t =>
    match m.itemsHas py e with
    | .error x => .error x
    | .ok false => .ok false
    | .ok true => allItems py m t

/-- `m.items() <= m'.items()`, _collections_abc.py:540-548 -/
def itemsLe (py : PyCompare) (m m' : JSMap Val) : Except PyExc Bool :=
  if m.len > m'.len then .ok false
  else
    match m.itemsIter with
    | .error e => .error e
    | .ok l => m'.allItems py l

/-- `m.items() == m'.items()`, _collections_abc.py:570-573 -/
def itemsEq (py : PyCompare) (m m' : JSMap Val) : Except PyExc Bool :=
  if m.len = m'.len then m.itemsLe py m' else .ok false

/-- The loop of `value in m.values()`, _collections_abc.py:871-876 -/
def valuesHasIn (py : PyCompare) (m : JSMap Val) (value : Val) : List Val → Except PyExc Bool
  | [] => .ok false
  | k :: t =>
    match m.getitem k with
    | .error e => .error e
    | .ok v =>
      match py.same_or_eq v value with
      | .error e => .error e
      | .ok true => .ok true
      | .ok false => valuesHasIn py m value t

/-- `value in m.values()` -/
def valuesHas (py : PyCompare) (m : JSMap Val) (value : Val) : Except PyExc Bool :=
  m.valuesHasIn py value (m.items.map (·.1))

end JSMap
end V8
