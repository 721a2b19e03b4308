import Verif.Spec.Graph

/-!
# Specification: two graphs of the same form

Two heaps of Python objects, possibly with other identities and in another order, with a pairing `R` of
their objects.  What follows says when paired objects have the same contents, as far as a message can
tell.  Nothing here refers to encoded bytes, to the log or to the encoder.
-/

namespace V8.Spec

/-- Values of the same form: paired objects (or `bytes`), the same scalar, or an integer beyond 32 bits
and the double with exactly its value. -/
def SameFormVal (R : Val → Val → Prop) : Val → Val → Prop
  | .obj i, w => R (.obj i) w
  | .bytes b, w => R (.bytes b) w
  | .int n, .float x => ¬ (-2 ^ 31 ≤ n ∧ n < 2 ^ 32) ∧ n.natAbs ≤ 2 ^ 53 - 1 ∧ fval x = .fin (n * 2 ^ 1074)
  | v, w => v = w

/-- Same keys in the same order, values of the same form. -/
def SameFormItems (R : Val → Val → Prop) (l l' : List (PKey × Val)) : Prop :=
  List.Forall₂ (fun a b => a.1 = b.1 ∧ SameFormVal R a.2 b.2) l l'

/-- What is to be seen of a view: its kind, where it starts, how long it is, whether it follows the
length of its buffer and whether that buffer can change length. -/
def SameFormView (h h' : Heap) (b b' : Val) (v v' : View) : Prop :=
  let mv := (backingBytes h b).getD []
  let mv' := (backingBytes h' b').getD []
  v.tag = v'.tag ∧ v.byteOffset mv = v'.byteOffset mv' ∧ v.byteLength mv = v'.byteLength mv' ∧
    backingResizable h b = backingResizable h' b' ∧
    v.isLengthTracking (backingResizable h b) = v'.isLengthTracking (backingResizable h' b')

/-- The contents of a buffer, and the length it can grow to if it is resizable and such buffers are
enabled. -/
def bufferForm (fs : Features) : Node → Option (Bytes × Option Nat)
  | .abuf b => some (b.exposed, if b.resizable = true ∧ fs.resizableArrayBuffers = true then some b.max else none)
  | .rawBuf _ bs => some (bs, none)
  | _ => none

/-- Contents of the same form.  A list (or tuple) has the form of a JSArray with the same elements and no
other properties. -/
def SameFormNode (e e' : EEnv) (R : Val → Val → Prop) : Node → Node → Prop
  | .jsmap es, .jsmap es' => List.Forall₂ (fun a b => SameFormVal R a.1 b.1 ∧ SameFormVal R a.2 b.2) es es'
  | .jsset ms, .jsset ms' => List.Forall₂ (SameFormVal R) ms ms'
  | .jsobj o, .jsobj o' => SameFormItems R o.items o'.items
  | .jsarr o, .jsarr o' => o.array.len = o'.array.len ∧ SameFormItems R o.items o'.items
  | .pylist l, .pylist l' => List.Forall₂ (SameFormVal R) l l'
  | .pylist l, .jsarr o => (∀ v ∈ l, v ≠ .hole) ∧ o.array.len = l.length ∧
      SameFormItems R (l.zipIdx.map fun p => (.idx p.2, p.1)) o.items
  | .date d, .date d' => e.py.dateMs d = e'.py.dateMs d'
  | .primObj p, .primObj p' => p = p'
  | .regexp r, .regexp r' => r.source = r'.source ∧ canonicalFlags r.flags = canonicalFlags r'.flags
  | .error name msg stack cause, .error name' msg' stack' cause' =>
      ErrName.forName name = ErrName.forName name' ∧ msg = msg' ∧ stack = stack' ∧ SameFormVal R cause cause'
  | .sharedBuf id, .sharedBuf id' => id = id'
  | .transferBuf id, .transferBuf id' => id = id'
  | .view b v, .view b' v' => SameFormVal R b b' ∧ SameFormView e.heap e'.heap b b' v v'
  | .sharedRef id, .sharedRef id' => id = id'
  | .other, .other => True
  | n, n' => ∃ f, bufferForm e.feats n = some f ∧ bufferForm e'.feats n' = some f

/-- The contents of an object; `bytes` are a buffer that cannot be written to. -/
def contents (h : Heap) : Val → Option Node
  | .obj i => h[i]?
  | .bytes b => some (.rawBuf false b)
  | _ => none

/-- A pairing of the objects of two heaps:
* it is one to one,
* paired objects have contents of the same form,
* it does not matter whether objects are found interchangeable before or after going over. -/
structure SameForm (e e' : EEnv) (R : Val → Val → Prop) : Prop where
  one : ∀ {a a' b b'}, R a b → R a' b' → (a = a' ↔ b = b')
  content : ∀ {a b}, R a b → ∃ n n', contents e.heap a = some n ∧ contents e'.heap b = some n' ∧ SameFormNode e e' R n n'
  twins : ∀ {a a' b b'}, R a b → R a' b' → (OneObject e a a' ↔ OneObject e' b b')

end V8.Spec
