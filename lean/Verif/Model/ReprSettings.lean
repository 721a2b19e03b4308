import Verif.Model.Dict

/-!
# Settings of `repr()` for JS types

Models `JSRepr.__init__` and `js_repr_settings` (`src/v8serialize/jstypes/_repr.py:87-106, 452-503`).

Simplifications: a JSRepr object is its known fields, and nobody assigns to them; warnings are counted, not
raised; fields hold integers, strings or None.
-/

namespace V8

/-- The value of a setting: `int | str | None`. -/
inductive FieldVal where
  | none
  | int (n : Int)
  | str (s : String)
  deriving DecidableEq, Repr

/-- `_known_fields`, _repr.py:510-526 -/
def knownFields : List String :=
  ["maxjsobject", "maxjsarray", "maxlevel", "maxtuple", "maxlist", "maxarray", "maxdict", "maxset",
   "maxfrozenset", "maxdeque", "maxstring", "maxlong", "maxother", "fillvalue", "indent"]

/-- The known fields of a JSRepr object. -/
abbrev ReprFields := Dict String FieldVal

/-- Keyword arguments, in order; Python keeps their names distinct. -/
abbrev ReprKwargs := List (String × FieldVal)

/-- What `super().__init__()` sets (`reprlib.Repr.__init__`), and the defaults of `JSRepr.__init__`,
_repr.py:87-96 -/
def reprDefaults : ReprFields :=
  [("maxjsobject", .int 20), ("maxjsarray", .int 20), ("maxlevel", .int 6), ("maxtuple", .int 6),
   ("maxlist", .int 6), ("maxarray", .int 5), ("maxdict", .int 4), ("maxset", .int 6),
   ("maxfrozenset", .int 6), ("maxdeque", .int 6), ("maxstring", .int 30), ("maxlong", .int 40),
   ("maxother", .int 30), ("fillvalue", .str "..."), ("indent", .none)]

/-- The arguments that `JSRepr.__init__` stores even if they are None, _repr.py:92-95 -/
def storedAsIs (k : String) : Bool :=
  k = "fillvalue" || k = "indent" || k = "maxjsobject" || k = "maxjsarray"

/-- One argument of `JSRepr.__init__`, _repr.py:92-106: the loop over the other arguments skips None.  (The order in
which fields are set does not matter.) -/
def applyReprArg (fs : ReprFields) (k : String) (v : FieldVal) : ReprFields :=
  if storedAsIs k then Dict.set fs k v
  else if v = .none then fs
  else Dict.set fs k v

/-- `JSRepr(**kwargs)`, _repr.py:87-106 -/
def mkJSRepr : ReprKwargs → Except PyExc ReprFields
  | [] => .ok reprDefaults
  | (k, v) :: t =>
    if k ∉ knownFields then .error .typeError
    else match mkJSRepr t with
      | .error e => .error e
      | .ok fs => .ok (applyReprArg fs k v)

/-- `{field: getattr(initial_js_repr, field) for field in _known_fields}`, _repr.py:477-479 -/
def inheritedFields (fs : ReprFields) : List String → ReprKwargs
  | [] => []
  | k :: t =>
    match Dict.get fs k with
    | some v => (k, v) :: inheritedFields fs t
    | none => inheritedFields fs t

/-- The loop over `kwargs`, _repr.py:480-486 -/
def overrideFields (st : ReprFields) : ReprKwargs → Except PyExc ReprFields
  | [] => .ok st
  | (k, v) :: t =>
    if Dict.get st k = none then .error .typeError
    else if v ≠ .none ∨ k = "indent" then overrideFields (Dict.set st k v) t
    else overrideFields st t

/-- The first argument of `js_repr_settings`, or its keyword arguments (ignored when it is given). -/
inductive ReprArg where
  | obj (r : Nat)
  | kwargs (kw : ReprKwargs)
  deriving Repr

/-- A `with js_repr_settings(...)` block: the local variables of the generator. -/
structure ReprBlock where
  jsRepr : Nat
  initial : Nat
  force : Bool
  isOpen : Bool
  deriving DecidableEq, Repr

/-- JSRepr objects by identity, the global `active_js_repr`, the blocks entered so far by number, and the number of
warnings. -/
structure ReprState where
  objs : List ReprFields
  active : Nat
  blocks : List ReprBlock
  warnings : Nat
  deriving DecidableEq, Repr

/-- The JSRepr of a block, and the objects with it, _repr.py:476-487 -/
def blockRepr (s : ReprState) : ReprArg → Except PyExc (Nat × List ReprFields)
  | .obj r => .ok (r, s.objs)
  | .kwargs kw =>
    match s.objs[s.active]? with
    | none => .error .typeError
    | some fs =>
      match overrideFields (inheritedFields fs knownFields) kw with
      | .error e => .error e
      | .ok st =>
        match mkJSRepr st with
        | .error e => .error e
        | .ok new => .ok (s.objs.length, s.objs ++ [new])

/-- Entering a block, _repr.py:473-491 -/
def enterBlock (s : ReprState) (arg : ReprArg) (force : Bool) : Except PyExc ReprState :=
  match blockRepr s arg with
  | .error e => .error e
  | .ok (r, objs) =>
    .ok { s with objs := objs, active := r, blocks := s.blocks ++ [⟨r, s.active, force, true⟩] }

/-- The `finally` of block `b`, _repr.py:493-503 -/
def closeBlock (s : ReprState) (b : ReprBlock) : ReprState :=
  if s.active = b.jsRepr ∨ b.force = true then { s with active := b.initial }
  else { s with warnings := s.warnings + 1 }

/-- Leaving block number `k`.  `valueError` stands for leaving a block that is not open, which does not occur. -/
def exitBlock (s : ReprState) (k : Nat) : Except PyExc ReprState :=
  match s.blocks[k]? with
  | none => .error .valueError
  | some b =>
    if b.isOpen = false then .error .valueError
    else
      let s := closeBlock s b
      .ok { s with blocks := s.blocks.set k { b with isOpen := false } }

/-- Blocks are entered and left; they are numbered in the order of entering. -/
inductive ReprEvent where
  | enter (arg : ReprArg) (force : Bool)
  | exit (k : Nat)
  deriving Repr

/-- One event. -/
def reprStep (s : ReprState) : ReprEvent → Except PyExc ReprState
  | .enter arg force => enterBlock s arg force
  | .exit k => exitBlock s k

/-- A sequence of events. -/
def reprRun (s : ReprState) : List ReprEvent → Except PyExc ReprState
  | [] => .ok s
  | e :: t =>
    match reprStep s e with
    | .error x => .error x
    | .ok s' => reprRun s' t

/-- Python's state when no block has been entered: `active_js_repr = default_js_repr`, _repr.py:531-547 (`indent` is
None when Python is not interactive). -/
def reprStart : ReprState :=
  ⟨[[("maxjsobject", .int 100), ("maxjsarray", .int 100), ("maxlevel", .int 20), ("maxtuple", .int 100),
     ("maxlist", .int 100), ("maxarray", .int 100), ("maxdict", .int 100), ("maxset", .int 100),
     ("maxfrozenset", .int 100), ("maxdeque", .int 100), ("maxstring", .int 200), ("maxlong", .int 40),
     ("maxother", .int 100), ("fillvalue", .str "..."), ("indent", .none)]], 0, [], 0⟩

end V8
