import Verif.Model.Repr
import Verif.Spec.StructEq
import Verif.Spec.JSCollections

/-!
# Specification: copies of values, and values whose `repr` shows all of them
-/

namespace V8.Spec

/-- Contents of the same class with corresponding parts in the same order: property keys, array
lengths, names, messages and stacks are the same, values are related by `R`. -/
inductive CopyNode (R : Val → Val → Prop) : Node → Node → Prop
  | object {o p : JSObj Val} : o.array.len = p.array.len →
      List.Forall₂ (fun a b => a.1 = b.1 ∧ R a.2 b.2) o.items p.items → CopyNode R (.jsobj o) (.jsobj p)
  | array {o p : JSObj Val} : o.array.len = p.array.len →
      List.Forall₂ (fun a b => a.1 = b.1 ∧ R a.2 b.2) o.items p.items → CopyNode R (.jsarr o) (.jsarr p)
  | map {es fs : List (Val × Val)} :
      List.Forall₂ (fun e f => R e.1 f.1 ∧ R e.2 f.2) es fs → CopyNode R (.jsmap es) (.jsmap fs)
  | set {ms ns : List Val} : List.Forall₂ R ms ns → CopyNode R (.jsset ms) (.jsset ns)
  | error {name : Str} {message stack : Option Str} {c d : Val} :
      R c d → CopyNode R (.error name message stack c) (.error name message stack d)

/-- `w` is a copy of `v`, to a depth less than the number: the same scalar (not NaN), or an
object whose contents are copies. -/
def CopyAt (H : Heap) : Nat → Val → Val → Prop
  | 0 => fun _ _ => False
  | depth + 1 => fun v w =>
    (IsScalar v ∧ w = v ∧ numOf v ≠ some .nan) ∨
    ∃ i j n m, v = .obj i ∧ w = .obj j ∧ H[i]? = some n ∧ H[j]? = some m ∧ CopyNode (CopyAt H depth) n m

/-- The last element of the array part, if there is one, is not a hole. -/
def NoTrailingHole (o : JSObj Val) : Prop := o.array.abs.getLast? ≠ some none

/-- What is asked of JSObjects and JSArrays: the storage invariants; the array is no longer than
JavaScript allows; names are not array indexes, values are not JSHole; and if all names look like identifiers, then
none of them is a reserved word or is changed by Unicode normalisation. -/
structure ObjectFits (env : ReprEnv) (ee : PyEval) (o : JSObj Val) : Prop where
  inv : o.Inv
  len : o.array.abs.length ≤ 2 ^ 32 - 1
  names : ∀ e ∈ o.props, normaliseKey ee.floatStr (.str e.1) = .ok (.name e.1)
  values : ∀ e ∈ o.items, e.2 ≠ .hole
  kwargs : (∀ e ∈ o.props, env.isIdent e.1 = true) → ∀ e ∈ o.props, ee.keyword e.1 = false ∧ ee.nfkc e.1 = e.1

/-- The object is shown in full, its parts satisfying `fits`: the number of properties, entries or members is within
the limit; an object, or a JSArray stored sparsely, has no hole at the end of its array; a JSArray stored densely is not
made of holes alone; keys of a map and members of a set are different from each other; the name of a JSError is not shown, or it is
a plain string. -/
def NodeFits (env : ReprEnv) (ee : PyEval) (fits : Val → Prop) (i : Id) : Node → Prop
  | .jsobj o => ObjectFits env ee o ∧ o.items.length ≤ env.maxjsobject ∧ NoTrailingHole o ∧ ∀ e ∈ o.items, fits e.2
  | .jsarr ⟨.sparse s, ps⟩ => ObjectFits env ee ⟨.sparse s, ps⟩ ∧ (JSObj.mk (.sparse s) ps).items.length ≤ env.maxjsarray ∧
      NoTrailingHole ⟨.sparse s, ps⟩ ∧ ∀ e ∈ (JSObj.mk (.sparse s) ps).items, fits e.2
  | .jsarr ⟨.dense d, ps⟩ => ObjectFits env ee ⟨.dense d, ps⟩ ∧ d.items.length + ps.length ≤ env.maxjsarray ∧
      (d.items = [] ∨ (∃ v, some v ∈ d.items) ∨ ps ≠ []) ∧ (∀ v ∈ d.items, fits (elemVal v)) ∧ ∀ e ∈ ps, fits e.2
  | .jsmap es => es.length ≤ env.maxdict ∧ es.Pairwise (fun a b => ¬ SameValueZero a.1 b.1) ∧
      ∀ e ∈ es, ¬ TooBig e.1 ∧ fits e.1 ∧ fits e.2
  | .jsset ms => ms.length ≤ env.maxset ∧ ms.Pairwise (fun a b => ¬ SameValueZero a b) ∧
      ∀ v ∈ ms, ¬ TooBig v ∧ fits v
  | .error name message stack cause => (∃ m, message = some m ∧ fits (.str m)) ∧
      (name = errorName ∨ env.enumName i = false ∧ fits (.str name)) ∧ (∀ s, stack = some s → fits (.str s)) ∧
      (cause = .null ∨ fits cause)
  | _ => False

/-- `repr1(v, level)` shows `v` in full: to a depth less than the level there are scalars with a text that is neither abbreviated
nor `inf` or `nan`, and objects shown in full that are not inside themselves. -/
def ShownFully (env : ReprEnv) (ee : PyEval) : Nat → List Id → Val → Prop
  | 0, _, _ => False
  | level + 1, running, .obj i =>
    i ∉ running ∧ ∃ n, env.heap[i]? = some n ∧ NodeFits env ee (ShownFully env ee level (i :: running)) i n
  | _ + 1, _, v => env.short v = true ∧ ∀ x, v = .float x → ∃ s, fval x = .fin s

/-- The objects of the five classes cannot be hashed. -/
def Unhashable (env : ReprEnv) : Prop :=
  ∀ i n, env.heap[i]? = some n → IsJS n → env.py.hash (.obj i) = none

/-- Objects contain only objects that exist. -/
def AllExist (h : Heap) : Prop := ∀ i j : Id, Inside h i (.obj j) → j < h.length

end V8.Spec
