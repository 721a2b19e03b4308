import Verif.Model.PrimObject

/-!
# The frozen dataclasses JSPrimitiveObject, JSRegExp and V8SharedObjectReference, and TagConstraint

Models what `@dataclass(frozen=True, order=True)` makes of `jstypes/jsprimitiveobject.py`,
`jstypes/jsregexp.py` and `jstypes/_v8.py` (comparison, hash, assignment), and
`FrozenAfterInitDataclass` (`_pycompat/dataclasses.py`) of which TagConstraint (`constants.py`) is one.
The methods that the decorator writes are those of CPython's `dataclasses.py`.
-/

namespace V8.ValObj

/-- The identity of a Python object: a member of an enum (there is one object for each value of an IntEnum or
IntFlag), or any other object. -/
inductive Ident where
  | member (code : Int)
  | obj (n : Nat)
  deriving DecidableEq, Repr

/-- What a field refers to: an object with its identity and its value.  A member of SerializationTag or
JSRegExpFlag is an `int` (constants.py:63, 241: IntEnum and IntFlag). -/
structure Cell where
  id : Ident
  val : Val
  deriving DecidableEq, Repr

/-- The number that an int, a bool or a float is. -/
def numOf : Val → Option FVal
  | .bool b => some (.fin (if b then 2 ^ 1074 else 0))
  | .int n => some (.fin (n * 2 ^ 1074))
  | .float x => some (fval x)
  | _ => none

/-- `==` of numbers: by exact value; NaN equals nothing. -/
def numEq : FVal → FVal → Bool
  | .fin a, .fin b => a == b
  | .inf a, .inf b => a == b
  | _, _ => false

/-- `<` of numbers: by exact value; false if one is NaN. -/
def numLt : FVal → FVal → Bool
  | .nan, _ => false
  | _, .nan => false
  | .inf a, .inf b => a && !b
  | .inf a, .fin _ => a
  | .fin _, .inf b => !b
  | .fin a, .fin b => decide (a < b)

/-- `==` of what the fields can hold, str and numbers (CPython's `unicode_eq`, `long_richcompare`,
`float_richcompare`).  Other values are equal to nothing else. -/
def valEq (v w : Val) : Bool :=
  match v, w with
  | .str a, .str b => a == b
  | _, _ =>
    match numOf v, numOf w with
    | some x, some y => numEq x y
    | _, _ => false

/-- `<` of two str: by the first code point that differs, else the shorter one is less (`unicode_compare`). -/
def strLt : Str → Str → Bool
  | [], [] => false
  | [], _ :: _ => true
  | _ :: _, [] => false
  | a :: s, b :: t => if a = b then strLt s t else decide (a < b)

/-- The four order operators. -/
inductive Op where
  | lt
  | le
  | gt
  | ge
  deriving DecidableEq, Repr

/-- An operator from the answers for "less", "equal" and "greater". -/
def Op.pick (op : Op) (lt eq gt : Bool) : Bool :=
  match op with
  | .lt => lt
  | .le => lt || eq
  | .gt => gt
  | .ge => gt || eq

/-- An order operator on what the fields can hold: str with str, number with number; TypeError otherwise. -/
def valCmp (op : Op) (v w : Val) : Except PyExc Bool :=
  match v, w with
  | .str a, .str b => .ok (op.pick (strLt a b) (a == b) (strLt b a))
  | _, _ =>
    match numOf v, numOf w with
    | some x, some y => .ok (op.pick (numLt x y) (numEq x y) (numLt y x))
    | _, _ => .error .typeError

/-- Items of tuples count as equal if they are the same object or `==` (`PyObject_RichCompareBool`). -/
def same (a b : Cell) : Bool := a.id == b.id || valEq a.val b.val

/-- `==` of two tuples (`tuplerichcompare`). -/
def tupleEq : List Cell → List Cell → Bool
  | [], [] => true
  | a :: as, b :: bs => same a b && tupleEq as bs
  | _, _ => false

/-- An order operator on two tuples (`tuplerichcompare`): the first items that are not equal decide, else the
lengths. -/
def tupleCmp (op : Op) : List Cell → List Cell → Except PyExc Bool
  | [], [] => .ok (op.pick false true false)
  | [], _ :: _ => .ok (op.pick true false false)
  | _ :: _, [] => .ok (op.pick false false true)
  | a :: as, b :: bs => if same a b then tupleCmp op as bs else valCmp op a.val b.val

/-- The three frozen dataclasses. -/
inductive Kind where
  | primObject
  | regExp
  | sharedRef
  deriving DecidableEq, Repr

/-- `order=True`: jsprimitiveobject.py:26 and jsregexp.py:14, but not _v8.py:12. -/
def Kind.ordered : Kind → Bool
  | .primObject => true
  | .regExp => true
  | .sharedRef => false

/-- The names of the fields, jsprimitiveobject.py:54-57, jsregexp.py:31-32, _v8.py:22. -/
def Kind.fieldNames : Kind → List String
  | .primObject => ["value", "tag"]
  | .regExp => ["source", "flags"]
  | .sharedRef => ["shared_value_id"]

/-- An object of one of these classes.  `cls` tells the class itself (0) from its subclasses. `fields` are the
values of the fields in order; `extra` are other attributes, which only a subclass can have (`slots`). -/
structure Obj where
  kind : Kind
  cls : Nat
  fields : List Cell
  extra : List (String × Cell)
  deriving DecidableEq, Repr

/-- The member of SerializationTag for a tag, as what a field refers to. -/
def tagCell (t : Tag) : Cell := ⟨.member t.byte.toNat, .int t.byte.toNat⟩

/-- The member of JSRegExpFlag for an int. -/
def flagCell (flags : Nat) : Cell := ⟨.member flags, .int flags⟩

/-- `JSPrimitiveObject(value, tag)`, jsprimitiveobject.py:59-91. -/
def newPrim (value : Cell) (tag : Option Tag) : Except PyExc Obj :=
  match mkPrimObject value.val tag with
  | .error e => .error e
  | .ok (_, t) => .ok ⟨.primObject, 0, [value, tagCell t], []⟩

/-- `JSRegExp(source, flags)`, jsregexp.py:31-48.  `empty` is the identity of the constant `"(?:)"`. -/
def newRegExp (empty source : Nat) (s : Str) (flags : Nat) : Except PyExc Obj :=
  match mkRegExp s flags with
  | .error e => .error e
  | .ok r => .ok ⟨.regExp, 0, [⟨.obj (if s = [] then empty else source), .str r.source⟩, flagCell r.flags], []⟩

/-- `V8SharedObjectReference(shared_value_id)`, _v8.py:12-22. -/
def newSharedRef (i : Cell) : Obj := ⟨.sharedRef, 0, [i], []⟩

/-- `__eq__` of the dataclass: for another class both sides return NotImplemented, and the objects, being two,
are not equal. -/
def eqObj (a b : Obj) : Bool :=
  if a.kind = b.kind ∧ a.cls = b.cls then tupleEq a.fields b.fields else false

/-- `__lt__`, `__le__`, `__gt__`, `__ge__` of the dataclass with `order=True`: for another class both sides
return NotImplemented, which is a TypeError.  Without `order=True` there are no such methods: TypeError. -/
def cmpObj (op : Op) (a b : Obj) : Except PyExc Bool :=
  if a.kind = b.kind ∧ a.cls = b.cls then
    if a.kind.ordered then tupleCmp op a.fields b.fields else .error .typeError
  else .error .typeError

/-- `hash()` of numbers, str and tuples: any functions.  The hash of an int, bool or float depends on its exact
value alone (CPython's documentation, "Hashing of numeric types"), that of a NaN on the object. -/
structure PyHash where
  num : FVal → Int
  nan : Ident → Int
  str : Str → Int
  other : Ident → Int
  tuple : List Int → Int

/-- The hash of what a field refers to. -/
def hashCell (h : PyHash) (c : Cell) : Int :=
  match c.val with
  | .str s => h.str s
  | v =>
    match numOf v with
    | some .nan => h.nan c.id
    | some x => h.num x
    | none => h.other c.id

/-- `__hash__` of a frozen dataclass with `eq=True`: `hash((self.value, self.tag))`. -/
def hashObj (h : PyHash) (a : Obj) : Int := h.tuple (a.fields.map (hashCell h))

/-! ## Assignment -/

/-- What can be tried with an attribute. -/
inductive Act where
  | set (name : String) (c : Cell)
  | del (name : String)
  deriving DecidableEq, Repr

/-- The name of the attribute. -/
def Act.name : Act → String
  | .set n _ => n
  | .del n => n

/-- Exceptions of assignments. FrozenInstanceError is an AttributeError. -/
inductive AErr where
  | frozen
  | attributeError
  | typeError
  deriving DecidableEq, Repr

/-- The assignment to attributes kept in `__dict__`, by `object.__setattr__` and `object.__delattr__`. -/
def dictAct (d : List (String × Cell)) : Act → List (String × Cell) × Option AErr
  | .set n c => ((d.filter (fun e => e.1 ≠ n)) ++ [(n, c)], none)
  | .del n => if (d.map (·.1)).contains n then (d.filter (fun e => e.1 ≠ n), none) else (d, some .attributeError)

/-- `__setattr__` and `__delattr__` that `@dataclass(frozen=True)` writes (`_frozen_get_del_attr`):
`if type(self) is cls or name in fields: raise FrozenInstanceError`, else `super(cls, self)`.  `slots` is
`slots=True` (Python 3.10 and later, _pycompat/dataclasses.py:18-25): the class is then made a second time, `cls` is
the first one, which no object is an instance of, and `super(cls, self)` is a TypeError. -/
def frozenAct (slots : Bool) (o : Obj) (act : Act) : Obj × Option AErr :=
  if o.kind.fieldNames.contains act.name then (o, some .frozen)
  else if slots then (o, some .typeError)
  else if o.cls = 0 then (o, some .frozen)
  else ({ o with extra := (dictAct o.extra act).1 }, (dictAct o.extra act).2)

/-- Several attempts one after another; exceptions are caught. -/
def frozenActs (slots : Bool) : Obj → List Act → Obj
  | o, [] => o
  | o, a :: as => frozenActs slots (frozenAct slots o a).1 as

/-- Calling `__init__` a second time on a JSPrimitiveObject, jsprimitiveobject.py:59-91: `object.__setattr__` is
not stopped, and `value` is stored (line 60) before the checks. -/
def primInitAgain (o : Obj) (value : Cell) (tag : Option Tag) : Obj × Option PyExc :=
  match mkPrimObject value.val tag with
  | .error e => ({ o with fields := value :: o.fields.drop 1 }, some e)
  | .ok (_, t) => ({ o with fields := [value, tagCell t] }, none)

/-! ## FrozenAfterInitDataclass -/

/-- The fields of TagConstraint, constants.py:653-656. -/
def constraintFields : List String := ["name", "allowed_tags"]

/-- A TagConstraint under construction or finished: its attributes. -/
abbrev Attrs := List (String × Cell)

/-- `FrozenAfterInitDataclass.__setattr__` and `__delattr__`, _pycompat/dataclasses.py:37-46. -/
def onceAct (d : Attrs) (act : Act) : Attrs × Option AErr :=
  match act with
  | .del n => if constraintFields.contains n then (d, some .frozen) else dictAct d act
  | .set n _ =>
    if constraintFields.contains n && (d.map (·.1)).contains n then (d, some .frozen) else dictAct d act

/-- Several attempts one after another; exceptions are caught. -/
def onceActs : Attrs → List Act → Attrs
  | d, [] => d
  | d, a :: as => onceActs (onceAct d a).1 as

/-- The `__init__` of TagConstraint that `@dataclass` writes: `self.name = name`, then
`self.allowed_tags = allowed_tags`, both through `__setattr__`; an exception ends it. -/
def constraintInit (d : Attrs) (name allowed : Cell) : Attrs × Option AErr :=
  match onceAct d (.set "name" name) with
  | (d', some e) => (d', some e)
  | (d', none) => onceAct d' (.set "allowed_tags" allowed)

end V8.ValObj
