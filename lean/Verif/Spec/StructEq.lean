import Verif.Model.RecursiveEq
import Verif.Proofs.JSObject

/-!
# Specification: structural equality of graphs

Two values are structurally equal if some relation between values contains the pair and has the property
that related values look alike and have related contents (a bisimulation).  On values without cycles
this is the usual comparison to the bottom; it makes sense for cyclic graphs too.  Nothing here
refers to running comparisons.
-/

namespace V8.Spec

/-- A JSObject, JSArray, JSMap, JSSet or JSError. -/
def IsJS : Node → Prop
  | .jsobj _ | .jsarr _ | .jsmap _ | .jsset _ | .error _ _ _ _ => True
  | _ => False

/-- `v` is an object of one of these classes. -/
def IsJSVal (h : Heap) (v : Val) : Prop := ∃ i n, v = .obj i ∧ h[i]? = some n ∧ IsJS n

/-- `v` is not an object. -/
def IsScalar : Val → Prop
  | .obj _ => False
  | _ => True

/-- Python's equality of scalars: numbers (bool, int, float) of the same value, NaN being equal to nothing;
everything else if identical. -/
def EqualScalars (v w : Val) : Prop :=
  (∃ a, numOf v = some a ∧ numOf w = some a ∧ a ≠ .nan) ∨ (numOf v = none ∧ v = w)

/-- The same object, or related. -/
def SameOr (R : Val → Val → Prop) (v w : Val) : Prop := (∃ i, v = .obj i ∧ w = .obj i) ∨ R v w

/-- Both absent, or both present and related. -/
def BothOr (R : Val → Val → Prop) : Option Val → Option Val → Prop
  | none, none => True
  | some v, some w => R v w
  | _, _ => False

/-- Same array length, and the same properties with related values (in any order). -/
def SameProps (R : Val → Val → Prop) (o p : JSObj Val) : Prop :=
  o.array.len = p.array.len ∧
  (∀ k, BothOr R (o.lookup (.idx k)) (p.lookup (.idx k))) ∧
  (∀ s, BothOr (SameOr R) (o.lookup (.name s)) (p.lookup (.name s)))

/-- Contents of the same class, with related parts: properties of objects by name, entries of maps and
members of sets by position. -/
inductive AlikeNode (R : Val → Val → Prop) : Node → Node → Prop
  | object {o p : JSObj Val} : SameProps R o p → AlikeNode R (.jsobj o) (.jsobj p)
  | array {o p : JSObj Val} : SameProps R o p → AlikeNode R (.jsarr o) (.jsarr p)
  | map {es fs : List (Val × Val)} :
      List.Forall₂ (fun e f => SameOr R e.1 f.1 ∧ SameOr R e.2 f.2) es fs → AlikeNode R (.jsmap es) (.jsmap fs)
  | set {ms ns : List Val} : List.Forall₂ R ms ns → AlikeNode R (.jsset ms) (.jsset ns)
  | error {name : Str} {msg stack : Option Str} {c d : Val} :
      SameOr R c d → AlikeNode R (.error name msg stack c) (.error name msg stack d)

/-- Values that look alike and have related contents: the same object, equal scalars, objects with alike
contents; values of other classes if their own `==` says so. -/
inductive Alike (env : EqEnv) (R : Val → Val → Prop) : Val → Val → Prop
  | same {i : Id} {n : Node} : env.heap[i]? = some n → IsJS n → Alike env R (.obj i) (.obj i)
  | scalars {v w : Val} : IsScalar v → IsScalar w → EqualScalars v w → Alike env R v w
  | others {v w : Val} : ¬ IsJSVal env.heap v → ¬ IsJSVal env.heap w → ¬ (IsScalar v ∧ IsScalar w) →
      env.leaf v w = .ok true → Alike env R v w
  | objects {i j : Id} {n m : Node} : env.heap[i]? = some n → env.heap[j]? = some m → AlikeNode R n m →
      Alike env R (.obj i) (.obj j)

/-- Structural equality. -/
def StructEq (env : EqEnv) (v w : Val) : Prop :=
  ∃ R : Val → Val → Prop, (∀ a b, R a b → Alike env R a b) ∧ R v w

/-- Object `i` directly contains the value `c`. -/
inductive Inside (h : Heap) (i : Id) : Val → Prop
  | prop {o : JSObj Val} {k : PKey} {c : Val} : (h[i]? = some (.jsobj o) ∨ h[i]? = some (.jsarr o)) → o.lookup k = some c →
      Inside h i c
  | entryKey {es : List (Val × Val)} {e : Val × Val} : h[i]? = some (.jsmap es) → e ∈ es → Inside h i e.1
  | entryValue {es : List (Val × Val)} {e : Val × Val} : h[i]? = some (.jsmap es) → e ∈ es → Inside h i e.2
  | member {ms : List Val} {c : Val} : h[i]? = some (.jsset ms) → c ∈ ms → Inside h i c
  | cause {name : Str} {msg stack : Option Str} {c : Val} : h[i]? = some (.error name msg stack c) → Inside h i c

/-- No object contains itself, at any depth: objects can be ranked so that every object has a higher rank
than those directly inside it. -/
def Acyclic (h : Heap) : Prop := ∃ rank : Id → Nat, ∀ i j, Inside h i (.obj j) → rank j < rank i

/-- Two graphs without common objects, with roots `a` and `b`, whose cycles all go through the root:
leaving out the references to the roots, the objects can be ranked. -/
structure OnlyRootCycles (h : Heap) (a b : Id) (L R : Id → Prop) (rank : Id → Nat) : Prop where
  rootL : L a
  rootR : R b
  disjoint : ∀ i, L i → ¬ R i
  closedL : ∀ i j, L i → Inside h i (.obj j) → L j
  closedR : ∀ i j, R i → Inside h i (.obj j) → R j
  ranked : ∀ i j, L i ∨ R i → Inside h i (.obj j) → j ≠ a → j ≠ b → rank j < rank i

/-- JSObjects satisfy their storage invariants, and JSHole is not stored as a value. -/
def HeapOK (h : Heap) : Prop :=
  ∀ (i : Id) (o : JSObj Val), (h[i]? = some (.jsobj o) ∨ h[i]? = some (.jsarr o)) →
    o.Inv ∧ ∀ k, o.lookup k ≠ some .hole

/-- Two values inside corresponding objects: corresponding objects, equal scalars, or values of
other classes that are equal. -/
def Corresponding (env : EqEnv) (P : Id → Id → Prop) (v w : Val) : Prop :=
  (∃ i j, v = .obj i ∧ w = .obj j ∧ P i j) ∨
  (IsScalar v ∧ IsScalar w ∧ EqualScalars v w) ∨
  (¬ IsJSVal env.heap v ∧ ¬ IsJSVal env.heap w ∧ ¬ (IsScalar v ∧ IsScalar w) ∧ env.leaf v w = .ok true)

/-- `P` pairs the objects of two graphs one to one such that paired objects are one object or have alike
contents.  An object that is part of both graphs is paired with itself. -/
structure SameIdentity (env : EqEnv) (P : Id → Id → Prop) : Prop where
  isJS : ∀ i j, P i j → IsJSVal env.heap (.obj i) ∧ IsJSVal env.heap (.obj j)
  alike : ∀ i j n m, P i j → i ≠ j → env.heap[i]? = some n → env.heap[j]? = some m →
    AlikeNode (Corresponding env P) n m
  left : ∀ i j j', P i j → P i j' → j = j'
  right : ∀ i i' j, P i j → P i' j → i = i'
  both : ∀ i j k, P i j → P k i → k = i

/-- No other object is equal to JSHole. -/
def HoleUnique (env : EqEnv) : Prop := ∀ v, v ≠ .hole → env.leaf v .hole ≠ .ok true

end V8.Spec
