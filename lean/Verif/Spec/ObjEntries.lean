import Verif.Model.ObjectMixins
import Verif.Spec.PyList

/-!
# Specification: a JavaScript object as a list of its properties

The properties with an index, by ascending index, and then those with a name, in the order of their creation.
-/

namespace V8.Spec
variable {α : Type}

/-- The properties of an object in the order in which they are enumerated. -/
structure Entries (α : Type) where
  elems : List (Nat × α)
  named : List (Str × α)
  deriving DecidableEq, Repr

/-- No properties. -/
def Entries.empty : Entries α := ⟨[], []⟩

/-- The value of the first pair with key `k`. -/
def valueOf {κ : Type} [DecidableEq κ] (k : κ) : List (κ × α) → Option α
  | [] => none
  | (k', v) :: t => if k' = k then some v else valueOf k t

/-- The pairs with keys other than `k`. -/
def without {κ : Type} [DecidableEq κ] (k : κ) (l : List (κ × α)) : List (κ × α) := l.filter fun e => decide (e.1 ≠ k)

/-- The value of a property. -/
def Entries.value (m : Entries α) : PKey → Option α
  | .idx n => valueOf n m.elems
  | .name s => valueOf s m.named

/-- A value for index `n`, at its place in the order. -/
def putIndex (n : Nat) (v : α) (l : List (Nat × α)) : List (Nat × α) :=
  l.filter (fun e => decide (e.1 < n)) ++ (n, v) :: l.filter (fun e => decide (n < e.1))

/-- A value for a name: in place if the name is there, otherwise at the end. -/
def putName (s : Str) (v : α) (l : List (Str × α)) : List (Str × α) :=
  if (valueOf s l).isSome then l.map (fun e => if e.1 = s then (s, v) else e) else l ++ [(s, v)]

/-- The object after a property got a value; `none` (JSHole) removes it. -/
def Entries.put (m : Entries α) : PKey → Option α → Entries α
  | .idx n, some v => { m with elems := putIndex n v m.elems }
  | .idx n, none => { m with elems := without n m.elems }
  | .name s, some v => { m with named := putName s v m.named }
  | .name s, none => { m with named := without s m.named }

/-- All pairs of key and value. -/
def Entries.items (m : Entries α) : List (PKey × α) :=
  m.elems.map (fun e => (.idx e.1, e.2)) ++ m.named.map (fun e => (.name e.1, e.2))

/-- Several properties get a value, one after the other. -/
def Entries.putAll (m : Entries α) : List (PKey × α) → Entries α
  | [] => m
  | (k, v) :: t => (m.put k (some v)).putAll t

/-- The elements of a list with holes, with their positions from `i` on. -/
def positions (i : Nat) : List (Option α) → List (Nat × α)
  | [] => []
  | none :: t => positions (i + 1) t
  | some v :: t => (i, v) :: positions (i + 1) t

/-- Operations on a JSObject. -/
inductive ObjOpX (α : Type) where
  | get (k : PKey)
  | set (k : PKey) (v : Option α)
  | del (k : PKey)
  | contains (k : PKey)
  | getDefault (k : PKey) (d : α)
  | pop (k : PKey) (d : Option α)
  | popitem
  | setdefault (k : PKey) (d : Option α)
  | clear
  | keys
  | len

/-- Their answers; `looping` stands for not returning at all. -/
inductive ObjAns (α : Type) where
  | unit
  | val (v : Option α)
  | bool (b : Bool)
  | item (k : PKey) (v : α)
  | keys (l : List PKey)
  | len (n : Int)
  | looping
  deriving DecidableEq

/-- The operations on the list of properties. -/
def entriesStep (m : Entries α) : ObjOpX α → Entries α × Except PyExc (ObjAns α)
  | .get k =>
    match m.value k with
    | some v => (m, .ok (.val (some v)))
    | none => (m, .error .keyError)
  | .set k v => (m.put k v, .ok .unit)
  | .del k =>
    match m.value k with
    | some _ => (m.put k none, .ok .unit)
    | none => (m, .error .keyError)
  | .contains k => (m, .ok (.bool (m.value k).isSome))
  | .getDefault k d => (m, .ok (.val (some ((m.value k).getD d))))
  | .pop k d =>
    match m.value k, d with
    | some v, _ => (m.put k none, .ok (.val (some v)))
    | none, some d => (m, .ok (.val (some d)))
    | none, none => (m, .error .keyError)
  | .popitem =>
    match m.items with
    | [] => (m, .error .keyError)
    | (k, v) :: _ => (m.put k none, .ok (.item k v))
  | .setdefault k d =>
    match m.value k with
    | some v => (m, .ok (.val (some v)))
    | none => (m.put k d, .ok (.val d))
  | .clear => (.empty, .ok .unit)
  | .keys => (m, .ok (.keys (m.items.map Prod.fst)))
  | .len => (m, .ok (.len m.items.length))

/-- The key an operation is about. -/
def ObjOpX.key : ObjOpX α → Option PKey
  | .get k | .set k _ | .del k | .contains k | .getDefault k _ | .pop k _ | .setdefault k _ => some k
  | .popitem | .clear | .keys | .len => none

/-- The operations that may change an element and do not look at the order of elements. -/
def ObjOpX.writesElement : ObjOpX α → Prop
  | .set (.idx _) _ | .del (.idx _) | .pop (.idx _) _ | .setdefault (.idx _) _ => True
  | _ => False

/-- The same operations on the modelled JSObject. -/
def objStepX (o : JSObj α) : ObjOpX α → JSObj α × Except PyExc (ObjAns α)
  | .get k => (o, (o.getitem k).map fun v => .val (some v))
  | .set k v => ret (o.setitem k v)
  | .del k => ret (o.delitem k)
  | .contains k => (o, (o.contains k).map .bool)
  | .getDefault k d => (o, (o.getDefault k d).map fun v => .val (some v))
  | .pop k d => ((o.pop k d).1, (o.pop k d).2.map fun v => .val (some v))
  | .popitem => (o.popitem.1, o.popitem.2.map fun e => .item e.1 e.2)
  | .setdefault k d => ((o.setdefault k d).1, (o.setdefault k d).2.map .val)
  | .clear =>
    match o.clear with
    | some r => ret r
    | none => (o, .ok .looping)
  | .keys => (o.afterIter, .ok (.keys o.keys))
  | .len => (o, .ok (.len o.len))
where
  ret (r : JSObj α × Option PyExc) : JSObj α × Except PyExc (ObjAns α) :=
    (r.1, match r.2 with | none => .ok .unit | some e => .error e)

/-- The two lists of answers agree, except that an operation that writes an element may raise AssertionError. -/
def AgreeButAssertX : List (ObjOpX α) → List (Except PyExc (ObjAns α)) → List (Except PyExc (ObjAns α)) → Prop
  | [], [], [] => True
  | op :: ops, x :: xs, y :: ys =>
    (x = y ∨ (x = .error .assertionError ∧ op.writesElement)) ∧ AgreeButAssertX ops xs ys
  | _, _, _ => False

end V8.Spec
