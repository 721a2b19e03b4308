import Verif.Model.Value

/-!
# Specification: JavaScript Map and Set

A JavaScript Map is a list of entries searched with the SameValueZero relation; a Set likewise.
No hashing and no key surrogates here.
-/

namespace V8.Spec

/-- JavaScript's SameValueZero on the modelled values.  Numbers compare by value (so `0` and `-0`
are the same), NaN is the same as NaN, strings compare by content, objects by identity, and values
of different types are different.  Python-only cases: `bytes` compare by content, and an `int`
compares with a `float` by exact value (both are JavaScript numbers). -/
def SameValueZero : Val → Val → Prop
  | .hole, .hole => True
  | .undef, .undef => True
  | .null, .null => True
  | .bool a, .bool b => a = b
  | .int m, .int n => m = n
  | .int m, .float y => fval y = .fin (m * 2 ^ 1074)
  | .float x, .int n => fval x = .fin (n * 2 ^ 1074)
  | .float x, .float y => fval x = fval y
  | .str s, .str t => s = t
  | .bytes s, .bytes t => s = t
  | .obj i, .obj j => i = j
  | _, _ => False

instance (a b : Val) : Decidable (SameValueZero a b) := by
  unfold SameValueZero; split <;> infer_instance

/-- An int that the code cannot use as a key: `math.isnan` overflows on it. -/
def TooBig : Val → Prop
  | .int n => n.natAbs ≥ 2 ^ 1024 - 2 ^ 970
  | _ => False

instance (a : Val) : Decidable (TooBig a) := by
  unfold TooBig; split <;> infer_instance

variable {β : Type}

/-- Operations on a Map. -/
inductive MapOp (β : Type) where
  | set (k : Val) (v : β)
  | del (k : Val)
  | get (k : Val)
  | clear
  deriving DecidableEq, Repr

/-- The value stored under a key. -/
def mapLookup (k : Val) : List (Val × β) → Option β
  | [] => none
  | (k', v) :: t => if SameValueZero k' k then some v else mapLookup k t

/-- Store under a key: an entry for the same key is replaced where it stands (the stored key becomes
the given one), otherwise the entry goes last. -/
def mapStore (k : Val) (v : β) : List (Val × β) → List (Val × β)
  | [] => [(k, v)]
  | (k', v') :: t => if SameValueZero k' k then (k, v) :: t else (k', v') :: mapStore k v t

/-- Remove the entry for a key. -/
def mapRemove (k : Val) (l : List (Val × β)) : List (Val × β) :=
  l.filter (fun e => decide (¬ SameValueZero e.1 k))

/-- One operation on the entry list.  Python: a missing key is a KeyError, an int that does not fit
a double is an OverflowError, and in both cases nothing changes. -/
def mapSpecStep (l : List (Val × β)) : MapOp β → List (Val × β) × Except PyExc (Option β)
  | .clear => ([], .ok none)
  | .set k v => if TooBig k then (l, .error .overflowError) else (mapStore k v l, .ok none)
  | .del k =>
    if TooBig k then (l, .error .overflowError)
    else if (mapLookup k l).isSome then (mapRemove k l, .ok none) else (l, .error .keyError)
  | .get k =>
    if TooBig k then (l, .error .overflowError)
    else match mapLookup k l with
      | some v => (l, .ok (some v))
      | none => (l, .error .keyError)

/-- The same operations on the modelled JSMap. -/
def jsMapStep (m : JSMap β) : MapOp β → JSMap β × Except PyExc (Option β)
  | .clear => ([], .ok none)
  | .set k v => ret (m.setitem k v)
  | .del k => ret (m.delitem k)
  | .get k => (m, (m.getitem k).map some)
where
  ret (r : JSMap β × Option PyExc) : JSMap β × Except PyExc (Option β) :=
    (r.1, match r.2 with | none => .ok none | some e => .error e)

/-- Operations on a Set. -/
inductive SetOp where
  | add (v : Val)
  | discard (v : Val)
  | contains (v : Val)
  | clear
  deriving DecidableEq, Repr

/-- Whether the list has a member that is the same value. -/
def hasMember (v : Val) (l : List Val) : Bool := l.any (fun w => decide (SameValueZero w v))

/-- Add a member: one that is the same value is replaced where it stands, otherwise it goes last. -/
def setStore (v : Val) : List Val → List Val
  | [] => [v]
  | w :: t => if SameValueZero w v then v :: t else w :: setStore v t

/-- One operation on the member list; the answer of `contains` is returned. -/
def setSpecStep (l : List Val) : SetOp → List Val × Except PyExc Bool
  | .clear => ([], .ok true)
  | .add v => if TooBig v then (l, .error .overflowError) else (setStore v l, .ok true)
  | .discard v =>
    if TooBig v then (l, .error .overflowError)
    else (l.filter (fun w => decide (¬ SameValueZero w v)), .ok true)
  | .contains v => if TooBig v then (l, .error .overflowError) else (l, .ok (hasMember v l))

/-- The same operations on the modelled JSSet. -/
def jsSetStep (s : JSSet) : SetOp → JSSet × Except PyExc Bool
  | .clear => ([], .ok true)
  | .add v => ret (s.add v)
  | .discard v => ret (s.discard v)
  | .contains v => (s, s.contains v)
where
  ret (r : JSSet × Option PyExc) : JSSet × Except PyExc Bool :=
    (r.1, match r.2 with | none => .ok true | some e => .error e)

end V8.Spec
