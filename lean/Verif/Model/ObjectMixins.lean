import Verif.Model.JSObject

/-!
# The methods that JSObject and JSArray inherit, and their constructors

`JSObject` is a `MutableMapping` (jsobject.py:38): `in`, `get`, `pop`, `popitem`, `setdefault`, `clear` and
`update` come from `collections.abc`, in terms of the methods in `JSObject.lean`.  Line numbers of
`_collections_abc.py` are those of Python 3.11.
-/

namespace V8

namespace JSObj
variable {α : Type}

/-- `iter(o)`, jsobject.py:216-217: the object after `element_indexes()`, which may have sorted its keys. -/
def afterIter (o : JSObj α) : JSObj α := { o with array := o.array.afterIndexes .ascending }

/-- `Mapping.__contains__`, _collections_abc.py:778-784 -/
def contains (o : JSObj α) (k : PKey) : Except PyExc Bool :=
  match o.getitem k with
  | .ok _ => .ok true
  | .error .keyError => .ok false
  | .error e => .error e

/-- `Mapping.get`, _collections_abc.py:771-776 -/
def getDefault (o : JSObj α) (k : PKey) (default : α) : Except PyExc α :=
  match o.getitem k with
  | .ok v => .ok v
  | .error .keyError => .ok default
  | .error e => .error e

/-- `MutableMapping.pop`, _collections_abc.py:907-919; `none` as `default` is the marker for none given. -/
def pop (o : JSObj α) (k : PKey) (default : Option α) : JSObj α × Except PyExc α :=
  match o.getitem k with
  | .error .keyError =>
    match default with
    | none => (o, .error .keyError)
    | some d => (o, .ok d)
  | .error e => (o, .error e)
  | .ok v =>
    match o.delitem k with
    | (o', some e) => (o', .error e)
    | (o', none) => (o', .ok v)

/-- `MutableMapping.popitem`, _collections_abc.py:921-931 -/
def popitem (o : JSObj α) : JSObj α × Except PyExc (PKey × α) :=
  match o.keys with
  | [] => (o.afterIter, .error .keyError)
  | key :: _ =>
    let o := o.afterIter
    match o.getitem key with
    | .error e => (o, .error e)
    | .ok value =>
      match o.delitem key with
      | (o', some e) => (o', .error e)
      | (o', none) => (o', .ok (key, value))

/-- The loop of `MutableMapping.clear`, _collections_abc.py:933-939: `popitem` until KeyError.  `none`: more
than `fuel` rounds. -/
def clearLoop : Nat → JSObj α → Option (JSObj α × Option PyExc)
  | 0, _ => none
  | fuel + 1, o =>
    match o.popitem with
    | (o', .error .keyError) => some (o', none)
    | (o', .error e) => some (o', some e)
    | (o', .ok _) => clearLoop fuel o'

/-- `MutableMapping.clear` -/
def clear (o : JSObj α) : Option (JSObj α × Option PyExc) := clearLoop (o.keys.length + 1) o

/-- `MutableMapping.setdefault`, _collections_abc.py:959-965; `default` may be JSHole (`none`). -/
def setdefault (o : JSObj α) (k : PKey) (default : Option α) : JSObj α × Except PyExc (Option α) :=
  match o.getitem k with
  | .ok v => (o, .ok (some v))
  | .error .keyError =>
    match o.setitem k default with
    | (o', some e) => (o', .error e)
    | (o', none) => (o', .ok default)
  | .error e => (o, .error e)

/-- `JSObject(properties, **kwargs)`, jsobject.py:125-142, with the properties as pairs of normalised key and
value (`update` goes through pairs, or through the keys of a mapping, in order). -/
def ofPairs (pairs kwargs : List (PKey × Option α)) : JSObj α × Option PyExc :=
  match JSObj.empty.update pairs with
  | (o, some e) => (o, some e)
  | (o, none) => o.update kwargs

/-- `JSArray(values, **kwargs)` with an iterable, jsarray.py:169-184. -/
def arrayOfValues (values : List (Option α)) (kwargs : List (PKey × Option α)) : JSObj α × Option PyExc :=
  match (JSObj.empty : JSObj α).array.extend values with
  | (a, some e) => ({ JSObj.empty with array := a }, some e)
  | (a, none) => JSObj.update { JSObj.empty with array := a } kwargs

end JSObj
end V8
