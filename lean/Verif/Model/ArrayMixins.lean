import Verif.Model.ArrayProps

/-!
# Methods that array properties inherit from `MutableSequence`

`AbstractArrayProperties` (`src/v8serialize/jstypes/jsarrayproperties.py:88`) is a
`collections.abc.MutableSequence`; the methods below are those it does not define itself
(`_collections_abc.py` of CPython 3.11).  `extend` and `pop` are in `Model/ArrayProps`.

`same v value` stands for `v is value or v == value`; it is a parameter, so that what is proved holds whatever the
comparison answers, as long as it does not change the array or raise.
-/

namespace V8
namespace Arr
variable {α : Type}

/-- `not (stop is None or i < stop)`, _collections_abc.py:1022 -/
def reached (stop : Option Int) (i : Int) : Bool :=
  match stop with
  | none => false
  | some s => !decide (i < s)

/-- The loop of `Sequence.index`, _collections_abc.py:1021-1029, from `i`; it ends at the end of the array, so that
`len(self) + 1` rounds are enough. -/
def indexLoop (same : Option α → Option α → Bool) (a : Arr α) (value : Option α) (stop : Option Int) :
    Nat → Int → Except PyExc Int
  | 0, _ => .error .valueError
  | fuel + 1, i =>
    if reached stop i then .error .valueError
    else
      match a.getitem i with
      | .error .indexError => .error .valueError
      | .error e => .error e
      | .ok v => if same v value then .ok i else indexLoop same a value stop fuel (i + 1)

/-- `Sequence.index`, _collections_abc.py:1009-1030 -/
def index (same : Option α → Option α → Bool) (a : Arr α) (value : Option α) (start : Int) (stop : Option Int) :
    Except PyExc Int :=
  let start := if start < 0 then max (a.len + start) 0 else start
  let stop := stop.map (fun s => if s < 0 then s + a.len else s)
  indexLoop same a value stop (a.len.toNat + 1) start

/-- `Sequence.__contains__`, _collections_abc.py:999-1003 -/
def contains (same : Option α → Option α → Bool) (a : Arr α) (value : Option α) : Bool := a.toList.any (fun v => same v value)

/-- `Sequence.count`, _collections_abc.py:1032-1034 -/
def count (same : Option α → Option α → Bool) (a : Arr α) (value : Option α) : Nat := a.toList.countP (fun v => same v value)

/-- `Sequence.__reversed__`, _collections_abc.py:1005-1007: the elements from index `n - 1` down. -/
def reversedFrom (a : Arr α) : Nat → Except PyExc (List (Option α))
  | 0 => .ok []
  | n + 1 => do
    let v ← a.getitem n
    let rest ← a.reversedFrom n
    .ok (v :: rest)

/-- `list(reversed(array))` -/
def reversed (a : Arr α) : Except PyExc (List (Option α)) := a.reversedFrom a.len.toNat

/-- `self[i], self[j] = self[j], self[i]`: both are read first, then both written. -/
def swap (a : Arr α) (i j : Int) : Arr α × Option PyExc :=
  match a.getitem j with
  | .error e => (a, some e)
  | .ok x =>
    match a.getitem i with
    | .error e => (a, some e)
    | .ok y =>
      match a.setitem i x with
      | (a', some e) => (a', some e)
      | (a', none) => a'.setitem j y

/-- The loop of `MutableSequence.reverse`, _collections_abc.py:1088-1092, for `i` and the following `r` indexes. -/
def reverseLoop (n : Nat) : Nat → Nat → Arr α → Arr α × Option PyExc
  | 0, _, a => (a, none)
  | r + 1, i, a =>
    match a.swap i ((n : Int) - i - 1) with
    | (a', some e) => (a', some e)
    | (a', none) => reverseLoop n r (i + 1) a'

/-- `MutableSequence.reverse` -/
def reverse (a : Arr α) : Arr α × Option PyExc := reverseLoop a.len.toNat (a.len.toNat / 2) 0 a

/-- `MutableSequence.remove`, _collections_abc.py:1109-1113 -/
def remove (same : Option α → Option α → Bool) (a : Arr α) (value : Option α) : Arr α × Option PyExc :=
  match a.index same value 0 none with
  | .error e => (a, some e)
  | .ok i => a.delitem i

/-- The loop of `MutableSequence.clear`, _collections_abc.py:1080-1086: `pop()` until IndexError.  `none`: more rounds than
`fuel`. -/
def clearLoop : Nat → Arr α → Option (Arr α × Option PyExc)
  | 0, _ => none
  | fuel + 1, a =>
    match a.pop (-1) with
    | (a', .ok _) => clearLoop fuel a'
    | (a', .error .indexError) => some (a', none)
    | (a', .error e) => some (a', some e)

/-- `MutableSequence.clear` -/
def clear (a : Arr α) : Option (Arr α × Option PyExc) := clearLoop (a.len.toNat + 1) a

/-- `extend(self)`, _collections_abc.py:1094-1099: the values are copied first. -/
def extendSelf (a : Arr α) : Arr α × Option PyExc := (a.afterIndexes .ascending).extend a.toList

end Arr
end V8
