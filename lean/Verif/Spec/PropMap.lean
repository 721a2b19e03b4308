import Verif.Model.JSObject
import Verif.Spec.PyList

/-!
# Specification: the properties of a JavaScript object

A finite map from normalised keys to values, plus the order in which the names (non-index keys)
were created.  No dense or sparse storage here.
-/

namespace V8.Spec

/-- The observable content of a JSObject. -/
structure PropMap (α : Type) where
  val : PKey → Option α
  order : List Str

variable {α : Type}

/-- Operations on a JSObject; assigning `none` (JSHole) removes the property. -/
inductive ObjOp (α : Type) where
  | get (k : PKey)
  | set (k : PKey) (v : Option α)
  | del (k : PKey)
  deriving DecidableEq, Repr

/-- The key an operation is about. -/
def ObjOp.key : ObjOp α → PKey
  | .get k => k
  | .set k _ => k
  | .del k => k

/-- The object with no properties. -/
def PropMap.empty : PropMap α := ⟨fun _ => none, []⟩

/-- Order of names after `k` got a value. -/
def orderAfterSet (m : PropMap α) : PKey → List Str
  | .idx _ => m.order
  | .name s => if (m.val (.name s)).isSome then m.order else m.order ++ [s]

/-- Order of names after `k` was removed. -/
def orderAfterDel (m : PropMap α) : PKey → List Str
  | .idx _ => m.order
  | .name s => m.order.filter (fun t => decide (t ≠ s))

/-- One operation on the map.  Reading or deleting an absent property is a KeyError. -/
def mapStep (m : PropMap α) : ObjOp α → PropMap α × Except PyExc (Option α)
  | .get k =>
    match m.val k with
    | some v => (m, .ok (some v))
    | none => (m, .error .keyError)
  | .set k (some v) =>
    (⟨fun k' => if k' = k then some v else m.val k', orderAfterSet m k⟩, .ok none)
  | .set k none => (⟨fun k' => if k' = k then none else m.val k', orderAfterDel m k⟩, .ok none)
  | .del k =>
    match m.val k with
    | some _ => (⟨fun k' => if k' = k then none else m.val k', orderAfterDel m k⟩, .ok none)
    | none => (m, .error .keyError)

/-- The same operations on the modelled JSObject. -/
def objStep (o : JSObj α) : ObjOp α → JSObj α × Except PyExc (Option α)
  | .get k => (o, (o.getitem k).map some)
  | .set k v => ret (o.setitem k v)
  | .del k => ret (o.delitem k)
where
  ret (r : JSObj α × Option PyExc) : JSObj α × Except PyExc (Option α) :=
    (r.1, match r.2 with | none => .ok none | some e => .error e)

end V8.Spec
