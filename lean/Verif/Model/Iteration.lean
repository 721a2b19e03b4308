import Verif.Model.JSObject

/-!
# Changing a JSObject in a loop over it

Models the iterator of `JSObject.__iter__` (src/v8serialize/jstypes/jsobject.py:216-217, inherited by JSArray) as a
loop uses it that changes the object: `for key in obj: ...; obj[k] = v; ...; del obj[k]; ...`.  The iterator of the index
keys holds on to a list of the array (`_items` of a dense one, `_sorted_keys` of a sparse one) and to a place in it, so
what matters is which changes are made in that same list and which ones put another list, or another array, into its
place.

Simplifications: keys are normalised already (`Keys.lean`); exceptions of the changes are caught in the loop body; the
body uses `obj[k] = v` and `del obj[k]` only, from which the mixin methods of the MutableMapping are built.
-/

namespace V8.Iter
variable {α : Type}

/-- A change that the loop body makes: `obj[k] = v` (`none` is JSHole) or `del obj[k]`. -/
inductive Change (α : Type) where
  | set (k : PKey) (v : Option α)
  | del (k : PKey)
  deriving DecidableEq, Repr

/-- The object after a change; an exception is caught. jsobject.py:160-211 -/
def Change.apply (o : JSObj α) : Change α → JSObj α
  | .set k v => (o.setitem k v).1
  | .del k => (o.delitem k).1

/-- An object made by `JSObject()` and then changed. -/
def built (changes : List (Change α)) : JSObj α := changes.foldl Change.apply .empty

/-- The iterator.  `live` says that the list is still the one that the array of the object uses; then `list` is what
the list holds now.  Otherwise nobody changes the list any more.
* `items`: the generator of `DenseArrayProperties.element_indexes` over `enumerate(self._items)`,
  jsarrayproperties.py:360-362;
* `keys`: the list iterator of `SparseArrayProperties.element_indexes` over `_sorted_keys`,
  jsarrayproperties.py:642-647;
* `names`: `chain` has gone on to the iterator of the dict `_properties` (jsobject.py:217), which had these keys then;
* `finished`: nothing more comes. -/
inductive Cursor (α : Type) where
  | items (live : Bool) (list : List (Option α)) (pos : Nat)
  | keys (live : Bool) (list : List Nat) (pos : Nat)
  | names (list : List Str) (pos : Nat)
  | finished
  deriving DecidableEq, Repr

/-- How a loop ends: normally, or with the RuntimeError of a dict that changed its size.  `unclear`: names were taken
away and as many added between two steps, then what the dict iterator does depends on the layout of its hash table. -/
inductive Ending where
  | stop | runtimeError | unclear
  deriving DecidableEq, Repr

/-- What `next` gives. -/
inductive Outcome where
  | key (k : PKey)
  | ended (e : Ending)
  deriving DecidableEq, Repr

/-- `iter(obj)`, jsobject.py:216-217: `element_indexes()` is called at once; a sparse array then caches its sorted
keys (jsarrayproperties.py:625-633). -/
def start (o : JSObj α) : JSObj α × Cursor α :=
  match o.array with
  | .dense d => (o, .items true d.items 0)
  | .sparse s => ({ o with array := .sparse s.cacheSorted }, .keys true s.sortedKeysNow 0)

/-- The first element from here on that is not JSHole, jsarrayproperties.py:362. -/
def scan : List (Option α) → Nat → Option Nat
  | [], _ => none
  | some _ :: _, i => some i
  | none :: t, i => scan t (i + 1)

/-- `next` of the iterator of the dict `_properties`. -/
def nextName (o : JSObj α) (list : List Str) (pos : Nat) : Cursor α × Outcome :=
  if o.props.length ≠ list.length then (.finished, .ended .runtimeError)
  else if o.props.keys ≠ list then (.finished, .ended .unclear)
  else
    match list[pos]? with
    | some n => (.names list (pos + 1), .key (.name n))
    | none => (.finished, .ended .stop)

/-- `next` of the iterator of `__iter__`, jsobject.py:217.  `chain` asks the dict for its iterator when the first
iterator has come to its end. -/
def next (o : JSObj α) : Cursor α → Cursor α × Outcome
  | .items live l pos =>
    match scan (l.drop pos) pos with
    | some i => (.items live l (i + 1), .key (.idx i))
    | none => nextName o o.props.keys 0
  | .keys live l pos =>
    match l[pos]? with
    | some k => (.keys live l (pos + 1), .key (.idx k))
    | none => nextName o o.props.keys 0
  | .names l pos => nextName o l pos
  | .finished => (.finished, .ended .stop)

/-- Whether a change makes the array longer: `_ensure_array_capacity` then calls `resize` (jsobject.py:172-191), which
puts a new list into `_sorted_keys` (jsarrayproperties.py:456 and 472). -/
def grows (o : JSObj α) : Change α → Bool
  | .set (.idx k) _ => decide (¬ (k : Int) < o.array.len ∧ k + 1 ≤ maxArrayLength)
  | _ => false

/-- The list `_sorted_keys` after a change, if it is still the same list.  `__setitem__` pops from the list or appends
to it, or sets `_sorted_keys` to None (jsarrayproperties.py:538-544 and 553-558). -/
def sameKeys (o : JSObj α) (c : Change α) : Option (List Nat) :=
  match (c.apply o).array with
  | .sparse s => if grows o c then none else s.sortedKeys
  | .dense _ => none

/-- What a change of the object does to the list that the iterator holds.  A dense array changes its one list in place;
only when the object goes over to a sparse array (jsobject.py:185-189) does the iterator keep the list of the old one. -/
def track (o : JSObj α) (c : Change α) : Cursor α → Cursor α
  | .items true l pos =>
    match (c.apply o).array with
    | .dense d => .items true d.items pos
    | .sparse _ => .items false l pos
  | .keys true l pos =>
    match sameKeys o c with
    | some l' => .keys true l' pos
    | none => .keys false l pos
  | cur => cur

/-- One change. -/
def change (s : JSObj α × Cursor α) (c : Change α) : JSObj α × Cursor α := (c.apply s.1, track s.1 c s.2)

/-- A loop.  `script` has the changes that the body makes each time round; a loop longer than the script is cut off
there (`none`).  The result is the keys that come, each with the object as it is when the key comes, and how the loop
ends. -/
def run (o : JSObj α) (cur : Cursor α) : List (List (Change α)) → List (PKey × JSObj α) × Option Ending
  | [] => ([], none)
  | cs :: script =>
    match next o cur with
    | (_, .ended e) => ([], some e)
    | (cur', .key k) =>
      let s := cs.foldl change (o, cur')
      let r := run s.1 s.2 script
      ((k, o) :: r.1, r.2)

/-- `for key in obj: ...` -/
def loop (o : JSObj α) (script : List (List (Change α))) : List (PKey × JSObj α) × Option Ending :=
  run (start o).1 (start o).2 script

end V8.Iter
