import Verif.Model.Views
import Verif.Model.Heap

/-!
# The views of a JSObject

`keys()`, `items()` and `values()` of a JSObject or JSArray (`src/v8serialize/jstypes/jsobject.py:38`, a
`MutableMapping`) are the views of `collections.abc.Mapping`, as for a JSMap (`Model/Views.lean`).  They find keys with
`JSObject.__getitem__`, which takes any spelling of a property key.  The line numbers are the ones of
`_collections_abc.py` in Python 3.11.

Simplifications: the views are of an object that does not change meanwhile; iterating may store the sorted indexes of
a sparse array (`JSObj.afterIter`), which changes no answer and is left out here; `items()` is not modelled as an
operand of `&`, `|`, `-` and `^`.
-/

namespace V8

/-- `normalise_property_key(key)`, _normalise_property_key.py:25-67, with any value as the key.  A bool is an int.
For everything that is no str and no int line 61 calls `key.is_integer()`, and of the other values only floats have
this method. -/
def normaliseVal (floatStr : F64 → Str) : Val → Except PyExc PKey
  | .int n => normaliseKey floatStr (.int n)
  | .bool b => normaliseKey floatStr (.int (if b then 1 else 0))
  | .float x => normaliseKey floatStr (.float x)
  | .str s => normaliseKey floatStr (.str s)
  | .hole | .undef | .null | .bytes _ | .obj _ => .error .attributeError

namespace JSObj
variable {β : Type}

/-- `o[key]` with any value as the key, jsobject.py:144-158 -/
def getVal (floatStr : F64 → Str) (o : JSObj β) (key : Val) : Except PyExc β :=
  match normaliseVal floatStr key with
  | .error e => .error e
  | .ok k => o.getitem k

/-- `key in o`: `Mapping.__contains__`, _collections_abc.py:778-784, for which only KeyError means that there is no
such key. -/
def hasVal (floatStr : F64 → Str) (o : JSObj β) (key : Val) : Except PyExc Bool :=
  match o.getVal floatStr key with
  | .ok _ => .ok true
  | .error .keyError => .ok false
  | .error e => .error e

/-- `o.keys()`: `KeysView.__iter__`, `__contains__` and `__len__`, _collections_abc.py:808-836, with
jsobject.py:213-217. -/
def keysView (floatStr : F64 → Str) (o : JSObj β) : SetView := ⟨o.keys.map PKey.toVal, o.hasVal floatStr⟩

/-- `[(key, self[key]) for key in l]` -/
def lookUp (floatStr : F64 → Str) (o : JSObj β) : List Val → Except PyExc (List (Val × β))
  | [] => .ok []
  | k :: t =>
    match o.getVal floatStr k with
    | .error e => .error e
    | .ok v =>
      match lookUp floatStr o t with
      | .error e => .error e
      | .ok r => .ok ((k, v) :: r)

/-- `list(o.items())`: `ItemsView.__iter__`, _collections_abc.py:859-861, looks every key up. -/
def itemsIter (floatStr : F64 → Str) (o : JSObj β) : Except PyExc (List (Val × β)) :=
  o.lookUp floatStr (o.keys.map PKey.toVal)

/-- `list(o.values())`: `ValuesView.__iter__`, _collections_abc.py:878-880 -/
def valuesIter (floatStr : F64 → Str) (o : JSObj β) : Except PyExc (List β) :=
  (o.itemsIter floatStr).map (·.map (·.2))

/-- `(key, value) in o.items()`: `ItemsView.__contains__`, _collections_abc.py:850-857 -/
def itemsHas (floatStr : F64 → Str) (py : PyCompare) (o : JSObj Val) (item : Val × Val) : Except PyExc Bool :=
  match o.getVal floatStr item.1 with
  | .error .keyError => .ok false
  | .error e => .error e
  | .ok v => py.same_or_eq v item.2

/-- `for item in l: if item not in o.items(): return False` and `return True` at the end. -/
def allItems (floatStr : F64 → Str) (py : PyCompare) (o : JSObj Val) : List (Val × Val) → Except PyExc Bool
  | [] => .ok true
  | e :: t =>
    match o.itemsHas floatStr py e with
    | .error x => .error x
    | .ok false => .ok false
    | .ok true => allItems floatStr py o t

/-- `o.items() <= o'.items()`, _collections_abc.py:540-548 -/
def itemsLe (floatStr : F64 → Str) (py : PyCompare) (o o' : JSObj Val) : Except PyExc Bool :=
  if o.len > o'.len then .ok false
  else
    match o.itemsIter floatStr with
    | .error e => .error e
    | .ok l => o'.allItems floatStr py l

/-- `o.items() == o'.items()`, _collections_abc.py:570-573 -/
def itemsEq (floatStr : F64 → Str) (py : PyCompare) (o o' : JSObj Val) : Except PyExc Bool :=
  if o.len = o'.len then o.itemsLe floatStr py o' else .ok false

/-- The loop of `value in o.values()`, _collections_abc.py:871-876 -/
def valuesHasIn (floatStr : F64 → Str) (py : PyCompare) (o : JSObj Val) (value : Val) : List Val → Except PyExc Bool
  | [] => .ok false
  | k :: t =>
    match o.getVal floatStr k with
    | .error e => .error e
    | .ok v =>
      match py.same_or_eq v value with
      | .error e => .error e
      | .ok true => .ok true
      | .ok false => valuesHasIn floatStr py o value t

/-- `value in o.values()` -/
def valuesHas (floatStr : F64 → Str) (py : PyCompare) (o : JSObj Val) (value : Val) : Except PyExc Bool :=
  o.valuesHasIn floatStr py value (o.keys.map PKey.toVal)

end JSObj
end V8
