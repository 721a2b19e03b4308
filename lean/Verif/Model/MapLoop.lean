import Verif.Model.Value

/-!
# Changing a JSMap or JSSet in a loop over it

`JSMap.__iter__` is `map(itemgetter(0), self.__dict.values())` (src/v8serialize/jstypes/jsmap.py:198-199) and
`JSSet.__iter__` is `iter(self.__members.values())` (jsset.py:171-172), so a loop over one of them is a loop over the
values of a dict.  What such a loop gives while its body changes the dict depends on the table of the dict, which is
modelled here as CPython has it (`Objects/dictobject.c`, 3.8 and later).

Simplifications: exceptions of the changes are caught in the loop body; the changes are `m[k] = v`, `del m[k]` and
`clear()`, from which the other methods are built.
-/

namespace V8.MapLoop
variable {κ β : Type} [DecidableEq κ]

/-- The entries of a dict in the order in which they were added; an entry that was deleted leaves an empty place. -/
abbrev Table (κ β : Type) := List (Option (κ × β))

/-- The dict: the entries that are there. -/
def dict (t : Table κ β) : Dict κ β := t.filterMap id

/-- Storing under a key that is there: the entry keeps its place. -/
def overwrite : Table κ β → κ → β → Table κ β
  | [], _, _ => []
  | none :: t, k, b => none :: overwrite t k b
  | some (k', b') :: t, k, b => if k' = k then some (k', b) :: t else some (k', b') :: overwrite t k b

/-- `d[k] = b` (`insertdict`): a new key goes to the end.  `rebuild`: the table is full, so it is made anew without its
empty places before (`insertion_resize`).  When that is so depends on the sizes that the table had before; here it may be
at any time. -/
def put (t : Table κ β) (k : κ) (b : β) (rebuild : Bool) : Table κ β :=
  if (Dict.get (dict t) k).isSome then overwrite t k b
  else (if rebuild then (dict t).map some else t) ++ [some (k, b)]

/-- `del d[k]` (`delitem_common`); nothing if there is no such key. -/
def erase : Table κ β → κ → Table κ β
  | [], _ => []
  | none :: t, k => none :: erase t k
  | some (k', b') :: t, k => if k' = k then none :: t else some (k', b') :: erase t k

/-- A change of a dict. -/
inductive Change (κ β : Type) where
  | put (k : κ) (b : β) (rebuild : Bool)
  | erase (k : κ)
  | clear
  deriving DecidableEq, Repr

/-- The table after a change; `clear` starts with a new table. -/
def Change.apply (t : Table κ β) : Change κ β → Table κ β
  | .put k b r => MapLoop.put t k b r
  | .erase k => MapLoop.erase t k
  | .clear => []

/-- A dict made by `{}` and then changed. -/
def built (changes : List (Change κ β)) : Table κ β := changes.foldl Change.apply []

/-- The iterator of `values()` (`dictiterobject`): the next place to look at (`di_pos`), the number of entries when it was
made (`di_used`), and how many are still to come (`len`). -/
structure Cursor where
  pos : Nat
  used : Nat
  left : Nat
  deriving DecidableEq, Repr

/-- `iter(d.values())`. -/
def start (t : Table κ β) : Cursor := ⟨0, (dict t).length, (dict t).length⟩

/-- The first entry from here on, with its place. -/
def scan : Table κ β → Nat → Option (Nat × κ × β)
  | [], _ => none
  | some e :: _, i => some (i, e)
  | none :: t, i => scan t (i + 1)

/-- How a loop ends: normally, or by the RuntimeError of the iterator (`dictionary changed size during iteration`,
`dictionary keys changed during iteration`). -/
inductive Ending where
  | stop | runtimeError
  deriving DecidableEq, Repr

/-- What `next` gives. -/
inductive Outcome (κ β : Type) where
  | entry (e : κ × β) (c : Cursor)
  | ended (e : Ending)
  deriving DecidableEq, Repr

/-- `next` of the iterator (`dictiter_iternextvalue`). -/
def next (t : Table κ β) (c : Cursor) : Outcome κ β :=
  if (dict t).length ≠ c.used then .ended .runtimeError
  else
    match scan (t.drop c.pos) c.pos with
    | none => .ended .stop
    | some (i, e) => if c.left = 0 then .ended .runtimeError else .entry e ⟨i + 1, c.used, c.left - 1⟩

/-- What happened in a loop: the entries that came, each with the table as it was then; how the loop ended; the table at
the end. -/
structure Result (κ β : Type) where
  came : List ((κ × β) × Table κ β)
  ending : Option Ending
  final : Table κ β

/-- A loop.  `script` has the changes that the body makes each time round; a loop longer than the script is cut off there
(`ending` is `none`). -/
def run (t : Table κ β) (c : Cursor) : List (List (Change κ β)) → Result κ β
  | [] => ⟨[], none, t⟩
  | cs :: script =>
    match next t c with
    | .ended e => ⟨[], some e, t⟩
    | .entry e c' =>
      let r := run (cs.foldl Change.apply t) c' script
      ⟨(e, t) :: r.came, r.ending, r.final⟩

/-- `for x in d.values(): ...` -/
def loop (t : Table κ β) (script : List (List (Change κ β))) : Result κ β := run t (start t) script

/-! ## JSMap -/

/-- A change of a JSMap by its methods: `m[k] = v` (jsmap.py:189-190), `del m[k]` (192-193), `clear()` (242-243). -/
inductive MapChange where
  | set (k v : Val) (rebuild : Bool)
  | del (k : Val)
  | clear
  deriving DecidableEq, Repr

/-- The change of `self.__dict`; none if `same_value_zero` raises. -/
def MapChange.change : MapChange → List (Change SvzKey (Val × Val))
  | .set k v r =>
    match sameValueZero k with
    | .ok key => [.put key (k, v) r]
    | .error _ => []
  | .del k =>
    match sameValueZero k with
    | .ok key => [.erase key]
    | .error _ => []
  | .clear => [.clear]

/-- The table of a JSMap after changes by its methods. -/
def changeMap (t : Table SvzKey (Val × Val)) (cs : List MapChange) : Table SvzKey (Val × Val) :=
  (cs.flatMap MapChange.change).foldl Change.apply t

/-- What the loop of `write_jsmap` wrote: the values given to `ctx.encode_object`, the count, how the loop ended. -/
structure Written where
  values : List Val
  count : Nat
  ending : Option (Except PyExc Ending)
  deriving DecidableEq

/-- `for key, value in items: encode_object(key); encode_object(value); count += 2` (encode.py:440-444), where `items` is
`m.items()`: `ItemsView.__iter__` gives `(key, m[key])` for each key of `iter(m)` (CPython `_collections_abc.py`).
`script` has what encode steps change in `m` while they write the key, and while they write the value. -/
def writeItems (t : Table SvzKey (Val × Val)) (c : Cursor) (count : Nat) :
    List (List MapChange × List MapChange) → Written
  | [] => ⟨[], count, none⟩
  | (a, b) :: script =>
    match next t c with
    | .ended e => ⟨[], count, some (.ok e)⟩
    | .entry (_, k, _) c' =>
      match JSMap.getitem (dict t) k with
      | .error e => ⟨[], count, some (.error e)⟩
      | .ok v =>
        let r := writeItems (changeMap (changeMap t a) b) c' (count + 2) script
        ⟨k :: v :: r.values, r.count, r.ending⟩

end V8.MapLoop
