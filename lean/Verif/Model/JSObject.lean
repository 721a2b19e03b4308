import Verif.Model.Keys

/-!
# JSObject and JSArray

Models `src/v8serialize/jstypes/jsobject.py` and `jsarray.py`.  Keys are already normalised
(`Keys.lean`); `none` as a value is `JSHole`.
-/

namespace V8

/-- jsobject.py:103-108: the two attributes of a JSObject. (A JSArray is the same class with a
different type; the heap model tags it.) -/
structure JSObj (α : Type) where
  array : Arr α
  props : Dict Str α
  deriving DecidableEq, Repr

namespace JSObj
variable {α : Type}

/-- `JSObject()`, jsobject.py:131-137 -/
def empty : JSObj α := ⟨.dense ⟨[], 0⟩, []⟩

/-- `__getitem__`, jsobject.py:144-158 (NormalizedKeyError is a KeyError) -/
def getitem (o : JSObj α) : PKey → Except PyExc α
  | .name s =>
    match o.props.get s with
    | some v => .ok v
    | none => .error .keyError
  | .idx k =>
    if (k : Int) < o.array.len then
      match o.array.getitem k with
      | .error e => .error e
      | .ok (some v) => .ok v
      | .ok none => .error .keyError
    else .error .keyError

/-- The entries `array.elements().items()` of a dense array, ascending. -/
def denseEntries : List (Option α) → Nat → List (Int × α) := Sparse.enumUsed

/-- `_ensure_array_capacity`, jsobject.py:172-191.  `(used + 1) / new_length < 1 / 4` is written
`4 * (used + 1) < new_length`. -/
def ensureCapacity (a : Arr α) (index : Nat) : Arr α × Option PyExc :=
  if (index : Int) < a.len then (a, none)
  else
    let newLength : Int := index + 1
    match a with
    | .dense d =>
      if newLength ≥ 16 ∧ 4 * (d.used + 1) < newLength then
        match Sparse.ofEntries (denseEntries d.items 0) newLength with
        | .ok s => (.sparse s, none)
        | .error e => (.dense d, some e)
      else (Arr.dense d).resize newLength
    | .sparse s => (Arr.sparse s).resize newLength

/-- `__setitem__`, jsobject.py:160-170 -/
def setitem (o : JSObj α) (key : PKey) (value : Option α) : JSObj α × Option PyExc :=
  match key with
  | .name s =>
    match value with
    | none => ({ o with props := o.props.del s }, none)
    | some v => ({ o with props := o.props.set s v }, none)
  | .idx k =>
    match ensureCapacity o.array k with
    | (a, some e) => ({ o with array := a }, some e)
    | (a, none) =>
      let r := a.setitem k value
      ({ o with array := r.1 }, r.2)

/-- `__delitem__`, jsobject.py:193-211 -/
def delitem (o : JSObj α) (key : PKey) : JSObj α × Option PyExc :=
  match key with
  | .name s =>
    match o.props.get s with
    | some _ => ({ o with props := o.props.del s }, none)
    | none => (o, some .keyError)
  | .idx k =>
    if (k : Int) < o.array.len then
      match o.array.getitem k with
      | .error e => (o, some e)
      | .ok (some _) =>
        let r := o.array.setitem k none
        ({ o with array := r.1 }, r.2)
      | .ok none => (o, some .keyError)
    else (o, some .keyError)

/-- `__len__`, jsobject.py:213-214 -/
def len (o : JSObj α) : Int := o.array.used + o.props.length

/-- `__iter__`, jsobject.py:216-217: index keys ascending, then names in dict order. -/
def keys (o : JSObj α) : List PKey :=
  (o.array.elementIndexes .ascending).map .idx ++ o.props.keys.map .name

/-- `items()` of an array's elements in ascending order. -/
def elementItems (a : Arr α) : List (Nat × α) :=
  (a.elementIndexes .ascending).filterMap (fun (k : Nat) =>
    match a.getitem k with
    | .ok (some v) => some (k, v)
    | _ => none)

/-- `items()` (the `Mapping` mixin: each key with `self[key]`). -/
def items (o : JSObj α) : List (PKey × α) :=
  (elementItems o.array).map (fun e => (.idx e.1, e.2)) ++ o.props.map (fun e => (.name e.1, e.2))

/-- `update(pairs)` (the `MutableMapping` mixin: assign one by one). -/
def update : JSObj α → List (PKey × Option α) → JSObj α × Option PyExc
  | o, [] => (o, none)
  | o, (k, v) :: t =>
    match o.setitem k v with
    | (o', none) => update o' t
    | (o', some e) => (o', some e)

end JSObj
end V8
