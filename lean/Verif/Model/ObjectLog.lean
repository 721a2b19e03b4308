import Verif.Model.Value

/-!
# The log of serialized objects

Models `src/v8serialize/_references.py`.
-/

namespace V8

/-- What a slot of the log holds: an object, or a `ForwardReference` (with its value once set).
A forward reference is identified with the slot it was created for. -/
inductive LogSlot where
  | obj (v : Val)
  | fwd (value : Option Val)
  deriving DecidableEq, Repr

/-- Errors of the log. -/
inductive LogErr where
  | notSerialized
  | outOfRange
  | forwardRef (slot : Nat)
  | valueError
  deriving DecidableEq, Repr

/-- `SerializedObjectLog`, _references.py:56-70.  `ids` is `_serialized_id_by_pyid`, `slots` is
`_object_by_serialized_id`.  Objects stay referenced by the log, so Python identities are not reused
while it lives; identity is a `Val` (see `Model/Value.lean`). -/
structure ObjLog where
  ids : Dict Val Nat
  slots : List LogSlot
  deriving DecidableEq, Repr

namespace ObjLog

/-- `__init__`, _references.py:68-70 -/
def empty : ObjLog := ⟨[], []⟩

/-- `__contains__`, _references.py:72-73 -/
def contains (l : ObjLog) (v : Val) : Bool := (Dict.get l.ids v).isSome

/-- `get_serialized_id`, _references.py:75-85 -/
def getId (l : ObjLog) (v : Val) : Except LogErr Nat :=
  match Dict.get l.ids v with
  | none => .error .notSerialized
  | some n =>
    match l.slots[n]? with
    | some (.fwd none) => .error (.forwardRef n)
    | _ => .ok n

/-- `get_object`, _references.py:87-94: Python list indexing, so negative ids count from the end. -/
def getObject (l : ObjLog) (n : Int) : Except LogErr LogSlot :=
  match pyIndex l.slots.length n with
  | some i =>
    match l.slots[i]? with
    | some s => .ok s
    | none => .error .outOfRange
  | none => .error .outOfRange

/-- `record_reference`, _references.py:96-100 -/
def record (l : ObjLog) (v : Val) : ObjLog × Nat :=
  (⟨Dict.set l.ids v l.slots.length, l.slots ++ [.obj v]⟩, l.slots.length)

/-- `replace_reference`, _references.py:129-136 -/
def replace (l : ObjLog) (n : Int) (s : LogSlot) : Except LogErr ObjLog :=
  if n ≠ (l.slots.length : Int) - 1 then .error .valueError
  else if l.slots.length = 0 then .error .outOfRange
  else .ok ⟨l.ids, l.slots.set (l.slots.length - 1) s⟩

/-- Entering `record_acyclic_reference`, _references.py:111-113: record, then put a forward
reference without value in the slot. -/
def beginAcyclic (l : ObjLog) (v : Val) : ObjLog × Nat :=
  let r := l.record v
  (⟨r.1.ids, r.1.slots.set r.2 (.fwd none)⟩, r.2)

/-- Leaving `record_acyclic_reference`, _references.py:126-127 (`finally`). -/
def endAcyclic (l : ObjLog) (n : Nat) (v : Val) : ObjLog :=
  ⟨l.ids, l.slots.set n (.fwd (some v))⟩

end ObjLog
end V8
