import Verif.Model.Dict

/-!
# Array properties: `DenseArrayProperties` and `SparseArrayProperties`

Models `src/v8serialize/jstypes/jsarrayproperties.py`.  An element is `Option α`; `none` is
`JSHole`.  Methods that change the object return the object afterwards together with the
exception they raise, if any (Python keeps whatever mutation happened before the `raise`).
Slice arguments (which raise NotImplementedError) are not modelled.
-/

namespace V8

/-- jsarrayproperties.py:203 -/
def maxArrayLength : Nat := 2 ^ 32 - 1

/-- `isHole v` is `v is JSHole`. -/
def isHole {α : Type} (v : Option α) : Bool := v.isNone

/-- Number of elements that are not JSHole (`sum(1 for ... if items[i] is not JSHole)`). -/
def countUsed {α : Type} (l : List (Option α)) : Nat := l.countP (fun v => !isHole v)

/-- `Order` of `element_indexes`, jstypes/_v8 / jsarrayproperties.py:360-368 -/
inductive Order where
  | ascending | descending | unordered
  deriving DecidableEq, Repr

/-- `[i for i, v in enumerate(items, start) if v is not JSHole]` -/
def usedIndexes {α : Type} : List (Option α) → Nat → List Nat
  | [], _ => []
  | some _ :: t, i => i :: usedIndexes t (i + 1)
  | none :: t, i => usedIndexes t (i + 1)

/-- A Python subscript on a sequence of length `n`: the position it denotes, or `none` for
IndexError. -/
def pyIndex (n : Nat) (i : Int) : Option Nat :=
  if i < 0 then (if (n : Int) + i < 0 then none else some ((n : Int) + i).toNat)
  else if i < n then some i.toNat else none

/-! ## Dense -/

/-- `DenseArrayProperties`, jsarrayproperties.py:233-246.  `used` is an `Int` because the code
adjusts a counter rather than recounting. -/
structure Dense (α : Type) where
  items : List (Option α)
  used : Int
  deriving DecidableEq, Repr

namespace Dense
variable {α : Type}

/-- jsarrayproperties.py:237-246 -/
def ofValues (values : List (Option α)) : Dense α := ⟨values, countUsed values⟩

/-- jsarrayproperties.py:354-355 -/
def len (d : Dense α) : Nat := d.items.length

/-- jsarrayproperties.py:248-267.  `length / current < 0.5` is written `2 * length < current`. -/
def resize (d : Dense α) (length : Int) : Dense α × Option PyExc :=
  if length < 0 ∨ length > maxArrayLength then (d, some .valueError)
  else
    let n := length.toNat
    if n < d.items.length then
      let usedAfter : Int :=
        if 2 * n < d.items.length then (countUsed (d.items.take n) : Int)
        else d.used - countUsed (d.items.drop n)
      (⟨d.items.take n, usedAfter⟩, none)
    else (⟨d.items ++ List.replicate (n - d.items.length) none, d.used⟩, none)

/-- `_normalise_index`, jsarrayproperties.py:274-283; `none` is IndexError. -/
def normaliseIndex (d : Dense α) (i : Int) : Option Nat :=
  if i < 0 then
    (if (d.len : Int) + i < 0 then none else some ((d.len : Int) + i).toNat)
  else some i.toNat

/-- `__getitem__`, jsarrayproperties.py:291-294: a plain list subscript. -/
def getitem (d : Dense α) (i : Int) : Except PyExc (Option α) :=
  match pyIndex d.items.length i with
  | none => .error .indexError
  | some k =>
    match d.items[k]? with
    | some v => .ok v
    | none => .error .indexError

/-- `__setitem__`, jsarrayproperties.py:302-318 -/
def setitem (d : Dense α) (i : Int) (value : Option α) : Dense α × Option PyExc :=
  match d.normaliseIndex i with
  | none => (d, some .indexError)
  | some k =>
    match d.items[k]? with
    | none => (d, some .indexError)
    | some current =>
      let used :=
        if isHole current then (if !isHole value then d.used + 1 else d.used)
        else if isHole value then d.used - 1 else d.used
      (⟨d.items.set k value, used⟩, none)

/-- `__delitem__`, jsarrayproperties.py:326-338 -/
def delitem (d : Dense α) (i : Int) : Dense α × Option PyExc :=
  match d.normaliseIndex i with
  | none => (d, some .indexError)
  | some k =>
    match d.items[k]? with
    | none => (d, some .indexError)
    | some current =>
      if isHole current then (⟨d.items.eraseIdx k, d.used⟩, none)
      else (⟨d.items.eraseIdx k, d.used - 1⟩, none)

/-- `insert`, jsarrayproperties.py:340-346.  `list.insert` puts the element last when the
position is past the end. -/
def insert (d : Dense α) (i : Int) (o : Option α) : Dense α × Option PyExc :=
  match d.normaliseIndex i with
  | none => (d, some .indexError)
  | some k =>
    (⟨d.items.take k ++ o :: d.items.drop k, if !isHole o then d.used + 1 else d.used⟩, none)

/-- `append`, jsarrayproperties.py:348-352 -/
def append (d : Dense α) (value : Option α) : Dense α × Option PyExc :=
  (⟨d.items ++ [value], if !isHole value then d.used + 1 else d.used⟩, none)

/-- `element_indexes`, jsarrayproperties.py:360-368 -/
def elementIndexes (d : Dense α) : Order → List Nat
  | .descending => (usedIndexes d.items.reverse 0).map (fun i => d.len - 1 - i)
  | _ => usedIndexes d.items 0

/-- `__iter__`, jsarrayproperties.py:357-358 -/
def toList (d : Dense α) : List (Option α) := d.items

end Dense

/-! ## Sparse -/

/-- Insertion into an ascending list (for `sorted`). -/
def insertSorted (k : Nat) : List Nat → List Nat
  | [] => [k]
  | h :: t => if k ≤ h then k :: h :: t else h :: insertSorted k t

/-- Python's `sorted` on a list of indexes. -/
def sortNat : List Nat → List Nat
  | [] => []
  | h :: t => insertSorted h (sortNat t)

/-- `bisect_left(keys, x)` on an ascending list: how many keys are below `x`. -/
def bisectLeft : List Nat → Nat → Nat
  | [], _ => 0
  | h :: t, x => if h < x then bisectLeft t x + 1 else 0

/-- `-1 if len(keys) == 0 else keys[-1]`, jsarrayproperties.py:430 and 553 -/
def lastKey (keys : List Nat) : Int :=
  match keys.getLast? with
  | none => -1
  | some k => k

/-- `SparseArrayProperties`, jsarrayproperties.py:374-378 -/
structure Sparse (α : Type) where
  items : Dict Nat α
  sortedKeys : Option (List Nat)
  maxIndex : Int
  deriving DecidableEq, Repr

namespace Sparse
variable {α : Type}

/-- jsarrayproperties.py:622-623 -/
def len (s : Sparse α) : Int := s.maxIndex + 1

/-- `__init__` with `entries` and `length`, jsarrayproperties.py:396-447.  (The loop breaks at
the first negative index and then raises, so any negative index raises.) -/
def ofEntries (entries : List (Int × α)) (length : Int) : Except PyExc (Sparse α) :=
  if length < 0 ∨ length > maxArrayLength then .error .valueError
  else if entries.any (fun e => e.1 < 0) then .error .indexError
  else
    let items : Dict Nat α :=
      Dict.ofList ((entries.filter (fun e => e.1 < length)).map (fun e => (e.1.toNat, e.2)))
    .ok ⟨items, if items.length > 1 then none else some items.keys, length - 1⟩

/-- `__init__` with `entries` only, jsarrayproperties.py:418-431. -/
def ofEntriesNoLength (entries : List (Int × α)) : Except PyExc (Sparse α) :=
  if entries.any (fun e => e.1 < 0) then .error .indexError
  else if entries.any (fun e => e.1 ≥ maxArrayLength) then .error .indexError
  else
    let items : Dict Nat α := Dict.ofList (entries.map (fun e => (e.1.toNat, e.2)))
    let sorted := sortNat items.keys
    .ok ⟨items, some sorted, lastKey sorted⟩

/-- `enumerate(values)` without the holes. -/
def enumUsed : List (Option α) → Nat → List (Int × α)
  | [], _ => []
  | some v :: t, i => ((i : Int), v) :: enumUsed t (i + 1)
  | none :: t, i => enumUsed t (i + 1)

/-- `__init__` with a sized `values`, jsarrayproperties.py:403-413. -/
def ofValues (values : List (Option α)) : Except PyExc (Sparse α) :=
  ofEntries (enumUsed values 0) values.length

/-- `_get_sorted_keys`, jsarrayproperties.py:625-633: the value returned ... -/
def sortedKeysNow (s : Sparse α) : List Nat :=
  match s.sortedKeys with
  | some l => l
  | none => sortNat s.items.keys

/-- ... and the object afterwards (the list is cached). -/
def cacheSorted (s : Sparse α) : Sparse α := { s with sortedKeys := some s.sortedKeysNow }

/-- `{i: items[i] for i in keys}`; `none` is KeyError. -/
def selectKeys (items : Dict Nat α) : List Nat → Option (List (Nat × α))
  | [] => some []
  | k :: t =>
    match items.get k, selectKeys items t with
    | some v, some r => some ((k, v) :: r)
    | _, _ => none

/-- `for i in keys: del items[i]` -/
def delKeys (items : Dict Nat α) : List Nat → Dict Nat α
  | [] => items
  | k :: t => delKeys (items.del k) t

/-- `resize`, jsarrayproperties.py:449-473.  `proportion_retained <= 0.5` holds exactly when
there are keys and `first_removed / len(sorted_keys) <= 0.5` is False. -/
def resize (s : Sparse α) (length : Int) : Sparse α × Option PyExc :=
  if length < 0 ∨ length > maxArrayLength then (s, some .valueError)
  else
    let keys := s.sortedKeysNow
    let firstRemoved := bisectLeft keys length.toNat
    let after := keys.take firstRemoved
    if keys.length ≠ 0 ∧ ¬ (2 * firstRemoved ≤ keys.length) then
      match selectKeys s.items after with
      | none => (s.cacheSorted, some .keyError)
      | some l => (⟨Dict.ofList l, some after, length - 1⟩, none)
    else (⟨delKeys s.items (keys.drop firstRemoved), some after, length - 1⟩, none)

/-- `elements_used`, jsarrayproperties.py:475-478 -/
def used (s : Sparse α) : Nat := s.items.length

/-- `_normalise_index`, jsarrayproperties.py:480-489; `none` is IndexError. -/
def normaliseIndex (s : Sparse α) (i : Int) : Option Nat :=
  if i < 0 then (if s.len + i < 0 then none else some (s.len + i).toNat)
  else if i ≥ s.len then none else some i.toNat

/-- `__getitem__`, jsarrayproperties.py:497-501 -/
def getitem (s : Sparse α) (i : Int) : Except PyExc (Option α) :=
  match s.normaliseIndex i with
  | none => .error .indexError
  | some k => .ok (s.items.get k)

/-- `__setitem__` where the position is occupied and becomes a hole,
jsarrayproperties.py:522-544. -/
def setHole (s : Sparse α) (k : Nat) : Sparse α × Option PyExc :=
  let items := s.items.del k
  match s.sortedKeys with
  | none =>
    if items.length ≤ 1 then ({ s with items := items }, some .assertionError)
    else ({ s with items := items }, none)
  | some l =>
    match l.getLast? with
    | none => ({ s with items := items }, some .indexError)
    | some last =>
      if k = last then ({ s with items := items, sortedKeys := some l.dropLast }, none)
      else ({ s with items := items, sortedKeys := none }, none)

/-- `__setitem__` where the position is a hole and gets a value, jsarrayproperties.py:545-558. -/
def fillHole (s : Sparse α) (k : Nat) (v : α) : Sparse α × Option PyExc :=
  let items := s.items.set k v
  match s.sortedKeys with
  | none =>
    if items.length ≤ 1 then ({ s with items := items }, some .assertionError)
    else ({ s with items := items, sortedKeys := none }, none)
  | some l =>
    if (k : Int) > lastKey l then ({ s with items := items, sortedKeys := some (l ++ [k]) }, none)
    else ({ s with items := items, sortedKeys := none }, none)

/-- `__setitem__`, jsarrayproperties.py:509-558 -/
def setitem (s : Sparse α) (i : Int) (value : Option α) : Sparse α × Option PyExc :=
  match s.normaliseIndex i with
  | none => (s, some .indexError)
  | some k =>
    match s.items.get k, value with
    | some _, none => s.setHole k
    | some _, some v => ({ s with items := s.items.set k v }, none)
    | none, none => (s, none)
    | none, some v => s.fillHole k v

/-- `__delitem__`, jsarrayproperties.py:566-580 -/
def delitem (s : Sparse α) (i : Int) : Sparse α × Option PyExc :=
  match s.normaliseIndex i with
  | none => (s, some .indexError)
  | some k =>
    let items := Dict.ofList ((s.items.del k).map
      (fun e => (if e.1 ≤ k then e.1 else e.1 - 1, e.2)))
    (⟨items, if items.length ≤ 1 then some items.keys else none, s.maxIndex - 1⟩, none)

/-- `if value is not JSHole: items[i] = value`, jsarrayproperties.py:592-593 -/
def putValue (items : Dict Nat α) (k : Nat) (value : Option α) : Dict Nat α :=
  match value with
  | some v => items.set k v
  | none => items

/-- `insert`, jsarrayproperties.py:582-598 -/
def insert (s : Sparse α) (i : Int) (value : Option α) : Sparse α × Option PyExc :=
  match s.normaliseIndex i with
  | none => (s, some .indexError)
  | some k =>
    if s.len ≥ maxArrayLength then (s, some .indexError)
    else
      let shifted := Dict.ofList (s.items.map
        (fun e => (if e.1 < k then e.1 else e.1 + 1, e.2)))
      let items := putValue shifted k value
      (⟨items, if s.sortedKeys.isNone ∧ items.length ≤ 1 then some items.keys else none,
        s.maxIndex + 1⟩, none)

/-- `append`, jsarrayproperties.py:600-620.  (`len(sorted_keys) == 0 or sorted_keys[-1] < i` is
`lastKey l < i`, since `i` is never negative.) -/
def append (s : Sparse α) (value : Option α) : Sparse α × Option PyExc :=
  match value with
  | none => (s, none)
  | some v =>
    let i := s.maxIndex + 1
    if i ≥ maxArrayLength then (s, some .indexError)
    else
      let items := s.items.set i.toNat v
      match s.sortedKeys with
      | none => (⟨items, if items.length = 1 then some [i.toNat] else none, i⟩, none)
      | some l =>
        if (l.length : Int) ≠ (items.length : Int) - 1 then
          ({ s with items := items }, some .assertionError)
        else if ¬ lastKey l < i then
          ({ s with items := items }, some .assertionError)
        else (⟨items, some (l ++ [i.toNat]), i⟩, none)

/-- `element_indexes`, jsarrayproperties.py:642-647 -/
def elementIndexes (s : Sparse α) : Order → List Nat
  | .unordered => s.items.keys
  | .descending => s.sortedKeysNow.reverse
  | .ascending => s.sortedKeysNow

/-- `elements(order=ASCENDING).items()`: the view's `__iter__` and `__getitem__`,
jsarrayproperties.py:662-671. -/
def elementItems (s : Sparse α) : List (Nat × α) :=
  s.sortedKeysNow.filterMap (fun k => (s.items.get k).map (fun v => (k, v)))

end Sparse

/-- The runs of adjacent indexes that `groupby` makes in `alternating_regions`,
jsarrayproperties.py:116-139: (start of the run, its values). -/
def adjacentRuns {α : Type} : List (Nat × α) → List (Nat × List α)
  | [] => []
  | (i, v) :: t =>
    match adjacentRuns t with
    | (j, vs) :: rest => if j = i + 1 then (i, v :: vs) :: rest else (i, [v]) :: (j, vs) :: rest
    | [] => [(i, [v])]

/-- The elements `alternating_regions` yields, region by region, as `__iter__` expands them
(jsarrayproperties.py:140-158 and 635-640): holes up to each run, then the run, then holes up to
the length. -/
def expandRuns {α : Type} (length : Int) : Int → List (Nat × List α) → List (Option α)
  | pos, [] => List.replicate (length - pos).toNat none
  | pos, (start, vs) :: rest =>
    List.replicate ((start : Int) - pos).toNat none ++ vs.map some
      ++ expandRuns length ((start : Int) + vs.length) rest

/-- `SparseArrayProperties.__iter__`, jsarrayproperties.py:635-640 -/
def Sparse.toList {α : Type} (s : Sparse α) : List (Option α) :=
  expandRuns s.len 0 (adjacentRuns s.elementItems)

/-! ## Either implementation -/

/-- The `array` attribute of a JSObject: one of the two implementations. -/
inductive Arr (α : Type) where
  | dense (d : Dense α)
  | sparse (s : Sparse α)
  deriving DecidableEq, Repr

namespace Arr
variable {α : Type}

/-- `len(array)` -/
def len : Arr α → Int
  | dense d => d.len
  | sparse s => s.len

/-- `array.elements_used` -/
def used : Arr α → Int
  | dense d => d.used
  | sparse s => s.used

/-- `array[i]` -/
def getitem : Arr α → Int → Except PyExc (Option α)
  | dense d => d.getitem
  | sparse s => s.getitem

/-- `array[i] = value` -/
def setitem : Arr α → Int → Option α → Arr α × Option PyExc
  | dense d, i, v => let r := d.setitem i v; (dense r.1, r.2)
  | sparse s, i, v => let r := s.setitem i v; (sparse r.1, r.2)

/-- `del array[i]` -/
def delitem : Arr α → Int → Arr α × Option PyExc
  | dense d, i => let r := d.delitem i; (dense r.1, r.2)
  | sparse s, i => let r := s.delitem i; (sparse r.1, r.2)

/-- `array.insert(i, value)` -/
def insert : Arr α → Int → Option α → Arr α × Option PyExc
  | dense d, i, v => let r := d.insert i v; (dense r.1, r.2)
  | sparse s, i, v => let r := s.insert i v; (sparse r.1, r.2)

/-- `array.append(value)` -/
def append : Arr α → Option α → Arr α × Option PyExc
  | dense d, v => let r := d.append v; (dense r.1, r.2)
  | sparse s, v => let r := s.append v; (sparse r.1, r.2)

/-- `array.resize(length)` -/
def resize : Arr α → Int → Arr α × Option PyExc
  | dense d, n => let r := d.resize n; (dense r.1, r.2)
  | sparse s, n => let r := s.resize n; (sparse r.1, r.2)

/-- `list(array.element_indexes(order=...))` -/
def elementIndexes : Arr α → Order → List Nat
  | dense d => d.elementIndexes
  | sparse s => s.elementIndexes

/-- `list(array)` -/
def toList : Arr α → List (Option α)
  | dense d => d.toList
  | sparse s => s.toList

/-- What reading the elements in order does to the object: the sparse implementation caches its
sorted keys (jsarrayproperties.py:625-633). -/
def afterIndexes : Arr α → Order → Arr α
  | dense d, _ => dense d
  | sparse s, .unordered => sparse s
  | sparse s, _ => sparse s.cacheSorted

/-- `array.elements()[key]`, `ArrayPropertiesElementsView.__getitem__`,
jsarrayproperties.py:662-668 -/
def elementsGet (a : Arr α) (key : Int) : Except PyExc α :=
  if ¬ (0 ≤ key ∧ key ≤ a.len) then .error .keyError
  else match a.getitem key with
    | .error e => .error e
    | .ok (some v) => .ok v
    | .ok none => .error .keyError

/-- `array.extend(values)` (the `MutableSequence` mixin: append one by one). -/
def extend : Arr α → List (Option α) → Arr α × Option PyExc
  | a, [] => (a, none)
  | a, v :: t =>
    match a.append v with
    | (a', none) => extend a' t
    | (a', some e) => (a', some e)

/-- `array.pop(i)` (the `MutableSequence` mixin: subscript, then `del`). -/
def pop (a : Arr α) (i : Int) : Arr α × Except PyExc (Option α) :=
  match a.getitem i with
  | .error e => (a, .error e)
  | .ok v =>
    match a.delitem i with
    | (a', none) => (a', .ok v)
    | (a', some e) => (a', .error e)

end Arr
end V8
