import Verif.Spec.JSCollections

/-!
# Specification: sets and maps as lists, further operations
-/

namespace V8.Spec

/-- Values collected one after the other: each class once, where it first occurred, as the last value of the
class. -/
def collected (l : List Val) : List Val := l.foldl (fun acc v => setStore v acc) []

/-- Every value of the left list is in the right one. -/
def Within (l k : List Val) : Prop := ∀ v, hasMember v l = true → hasMember v k = true

variable {β : Type}

/-- Operations on a Map that Python programs have beside those of `MapOp`. -/
inductive MapOpX (β : Type) where
  | basic (op : MapOp β)
  | contains (k : Val)
  | pop (k : Val) (default : Option β)
  | popitem
  | setdefault (k : Val) (v : β)

/-- What an operation can give back. -/
inductive MapAns (β : Type) where
  | nothing
  | bool (b : Bool)
  | val (v : β)
  | item (k : Val) (v : β)

/-- One operation on the entry list.  `popitem` takes the entry that was stored first; `pop` of a missing key
gives the default or is a KeyError; `setdefault` stores only if the key is missing; an int that does not fit
a double is an OverflowError, also for `contains`. -/
def mapSpecStepX (l : List (Val × β)) : MapOpX β → List (Val × β) × Except PyExc (MapAns β)
  | .basic op =>
    ((mapSpecStep l op).1, (mapSpecStep l op).2.map fun a => match a with | none => .nothing | some v => .val v)
  | .contains k => (l, if TooBig k then .error .overflowError else .ok (.bool (mapLookup k l).isSome))
  | .pop k default =>
    if TooBig k then (l, .error .overflowError)
    else match mapLookup k l with
      | some v => (mapRemove k l, .ok (.val v))
      | none => (l, match default with | some d => .ok (.val d) | none => .error .keyError)
  | .popitem =>
    match l with
    | [] => ([], .error .keyError)
    | (k, v) :: t => (t, .ok (.item k v))
  | .setdefault k v =>
    if TooBig k then (l, .error .overflowError)
    else match mapLookup k l with
      | some w => (l, .ok (.val w))
      | none => (l ++ [(k, v)], .ok (.val v))

/-- Operations on a Set that change it, beside those of `SetOp`. -/
inductive SetOpX where
  | basic (op : SetOp)
  | remove (v : Val)
  | pop

/-- One operation on the member list: `pop` takes the member that was added first, `remove` of a value that
is not there is a KeyError. -/
def setSpecStepX (l : List Val) : SetOpX → List Val × Except PyExc (Bool ⊕ Val)
  | .basic op => ((setSpecStep l op).1, (setSpecStep l op).2.map .inl)
  | .remove v =>
    if TooBig v then (l, .error .overflowError)
    else if hasMember v l then (l.filter (fun w => decide (¬ SameValueZero w v)), .ok (.inl true))
    else (l, .error .keyError)
  | .pop =>
    match l with
    | [] => ([], .error .keyError)
    | v :: t => (t, .ok (.inr v))

end V8.Spec
