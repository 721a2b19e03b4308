import Verif.Model.Encode
import Verif.Proofs.JSObject
import Verif.Spec.JSCollections

/-!
# Specification: when decoded data has the content of what was encoded

The encoder reads a heap of Python objects, the decoder builds another heap.  `P v w` says that the
object `v` of the first (an object or a `bytes` value) came back as `w`.  What follows says when the
contents agree, given `P` for the objects inside: nothing here refers to encoded bytes, to logs or to
the functions of the encoder and the decoder.
-/

namespace V8.Spec

/-- Scalars that count as equal: same constant, same text, numerically the same number (an int may
come back as the double with exactly its value), the same double bit for bit. -/
def SameScalar : Val → Val → Prop
  | .hole, .hole => True
  | .undef, .undef => True
  | .null, .null => True
  | .bool a, .bool b => a = b
  | .int m, .int n => m = n
  | .int m, .float y => fval y = .fin (m * 2 ^ 1074)
  | .float x, .float y => x = y
  | .str s, .str t => s = t
  | _, _ => False

/-- Objects that may stand for each other: the same one, or hashable ones of the same type that
compare equal. -/
def Interchangeable (env : EEnv) (i j : Id) : Prop :=
  i = j ∨ ∃ c, env.hkey i = some c ∧ env.hkey j = some c

/-- The integers that are written as integers: those of 32 bits, signed or not, and those beyond the safe
range of doubles. -/
def KeptInt (m : Int) : Prop := (-2 ^ 31 ≤ m ∧ m < 2 ^ 32) ∨ 2 ^ 53 ≤ m.natAbs

/-- A value inside the encoded data, and what it came back as.  An integer comes back as itself or, between
32 bits and 2^53, as the double with exactly its value.  The float zeros 0.0 and -0.0 are not told
apart: they all come back as the same zero `z`. -/
def SameVal (env : EEnv) (z : F64) (P : Val → Val → Prop) : Val → Val → Prop
  | .obj i, w => ∃ j, Interchangeable env i j ∧ P (.obj j) w
  | .bytes b, w => P (.bytes b) w
  | .float x, w => w = .float (if fval x = .fin 0 then z else x)
  | .int m, w => (KeptInt m ∧ w = .int m) ∨ (¬ KeptInt m ∧ ∃ y, w = .float y ∧ fval y = .fin (m * 2 ^ 1074))
  | v, w => SameScalar v w

/-- Key-value pairs, in order. -/
def SameItems (env : EEnv) (z : F64) (P : Val → Val → Prop) (l l' : List (PKey × Val)) : Prop :=
  List.Forall₂ (fun a b => a.1 = b.1 ∧ SameVal env z P a.2 b.2) l l'

/-- A view comes back with its kind, offset and contents, and length-tracking if it was.  A view on
a buffer whose contents cannot be accessed comes back empty. -/
def SameView (h : Heap) (backing : Val) (v v' : View) : Prop :=
  match backingBytes h backing with
  | some mv => v'.tag = v.tag ∧ v'.byteOffset mv = v.byteOffset mv ∧ v'.bytes mv = v.bytes mv ∧
      (v'.itemLength = none ↔ v.itemLength = none ∧ backingResizable h backing = true)
  | none => v' = ⟨v.tag, 0, some 0⟩

/-- An array buffer that comes back with fixed length. -/
def fixedBuf (data : Bytes) : ABuf := ⟨data, data.length, false⟩

/-- The contents of an object and of the object it came back as.
* Maps and sets: related entries, stored one after the other.
* JSObject: same keys in the same order with related values; JSArray also the same length.
* list, tuple: a JSArray of the same length without other properties.
* What came back satisfies the storage invariants of JSObject.
* A resizable buffer stays resizable if the feature is on; every other buffer has fixed length. -/
def SameContent (env : EEnv) (z : F64) (P : Val → Val → Prop) : Node → Node → Prop
  | .jsmap es, .jsmap es' => ∃ ps : List (Val × Val),
      List.Forall₂ (fun a b => SameVal env z P a.1 b.1 ∧ SameVal env z P a.2 b.2) es ps ∧
      es' = ps.foldl (fun l e => mapStore e.1 e.2 l) []
  | .jsset ms, .jsset ms' => ∃ ps : List Val,
      List.Forall₂ (SameVal env z P) ms ps ∧ ms' = ps.foldl (fun l v => setStore v l) []
  | .jsobj o, .jsobj o' => o'.Inv ∧ SameItems env z P o.items o'.items
  | .jsarr o, .jsarr o' => o'.Inv ∧ o'.array.len = o.array.len ∧ SameItems env z P o.items o'.items
  | .pylist els, .jsarr o' =>
      o'.Inv ∧ List.Forall₂ (SameVal env z P) els (o'.array.toList.map elemVal) ∧ o'.props = []
  | .date d, .date d' => d' = d
  | .regexp r, .regexp r' => r'.source = r.source ∧ r'.flags = canonicalFlags r.flags
  | .error name msg stack cause, .error name' msg' stack' cause' =>
      name' = (ErrName.forName name).value ∧ msg' = some (msg.getD []) ∧ stack' = stack ∧
      SameVal env z P cause cause'
  | .abuf b, .abuf b' =>
      b' = if b.resizable = true ∧ env.feats.resizableArrayBuffers = true then ⟨b.exposed, b.max, true⟩
        else fixedBuf b.exposed
  | .rawBuf _ bs, .abuf b' => b' = fixedBuf bs
  | .sharedBuf id, .sharedBuf id' => id' = id
  | .transferBuf id, .transferBuf id' => id' = id
  | .view b v, .view b' v' => SameVal env z P b b' ∧ SameView env.heap b v v'
  | .sharedRef id, .sharedRef id' => id' = id
  | _, _ => False

/-- An object with contents `n` came back as `w`, an object of the heap `h'`; the wrapper objects of
primitives come back as the primitive value. -/
def SameNode (env : EEnv) (z : F64) (P : Val → Val → Prop) (h' : Heap) (w : Val) : Node → Prop
  | .primObj p => SameScalar p.value w
  | n => ∃ j n', w = .obj j ∧ h'[j]? = some n' ∧ SameContent env z P n n'

/-- The object (or `bytes`) `v` of the encoded data came back as `w`. -/
def SameObject (env : EEnv) (z : F64) (P : Val → Val → Prop) (h' : Heap) : Val → Val → Prop
  | .bytes b, w => ∃ j, w = .obj j ∧ h'[j]? = some (.abuf (fixedBuf b))
  | .obj i, w => ∃ n, env.heap[i]? = some n ∧ SameNode env z P h' w n
  | _, _ => False

/-- The objects the encoder does not record, and so writes in full each time: RegExp, and Error
without cause. -/
def IsUnlogged (env : EEnv) : Val → Prop
  | .obj i =>
    match env.heap[i]? with
    | some (.regexp _) => True
    | some (.error _ _ _ .null) => True
    | _ => False
  | _ => False

/-- Two mentions of one object (or of objects that may stand for each other, or of equal `bytes`). -/
def OneObject (env : EEnv) (a b : Val) : Prop :=
  a = b ∨ ∃ i j, a = .obj i ∧ b = .obj j ∧ Interchangeable env i j

/-- The values that an object contains, by the public API of its class. -/
def members : Node → List Val
  | .jsmap es => es.flatMap (fun e => [e.1, e.2])
  | .jsset ms => ms
  | .jsobj o | .jsarr o => o.items.map (·.2)
  | .pylist els => els
  | .error _ _ _ cause => if cause = .null then [] else [cause]
  | .view backing _ => [backing]
  | _ => []

/-- The double `x` is the encoded value, or inside one of the objects that came back. -/
def FloatIn (env : EEnv) (P : Val → Val → Prop) (v : Val) (x : F64) : Prop :=
  v = .float x ∨ ∃ (i : Id) (b : Val) (n : Node), P (.obj i) b ∧ env.heap[i]? = some n ∧ .float x ∈ members n

/-- The value `v` came back as `w` with the objects `h'`, by the correspondence `P` of objects:
* the contents of corresponding objects agree,
* one object comes back as one object (except for those written in full each time),
* different objects come back as different objects,
* the zero `z` that all float zeros come back as is one of them. -/
structure SameGraph (env : EEnv) (z : F64) (P : Val → Val → Prop) (v w : Val) (h' : Heap) : Prop where
  root : SameVal env z P v w
  objects : ∀ a b, P a b → SameObject env z P h' a b
  shared : ∀ a a' b b', P a b → P a' b' → OneObject env a a' → IsUnlogged env a ∨ IsUnlogged env a' ∨ b = b'
  distinct : ∀ a a' j, P a (.obj j) → P a' (.obj j) → a = a'
  zeros : ∀ x, FloatIn env P v x → fval x = .fin 0 → fval z = .fin 0 ∧ FloatIn env P v z

/-! ## Data that the encoder is made for -/

/-- An array buffer of some kind. -/
def IsBuffer (h : Heap) : Val → Prop
  | .bytes _ => True
  | .obj i =>
    match h[i]? with
    | some (.abuf _) => True
    | some (.rawBuf _ _) => True
    | some (.sharedBuf _) => True
    | some (.transferBuf _) => True
    | _ => False
  | _ => False

/-- A Map key or Set member: not an integer (or BigInt object) too large to be one when it comes
back. -/
def KeyOK (env : EEnv) (k : Val) : Prop :=
  ¬ TooBig k ∧ ∀ i j n, k = .obj i → Interchangeable env i j →
    env.heap[j]? = some (.primObj (.bigint n)) → ¬ TooBig (.int n)

/-- A JSObject or JSArray as the API builds them: consistent storage, at most 2^32 - 1 elements,
names that are not array indexes, no JSHole stored as a value. -/
structure ObjOK (env : EEnv) (o : JSObj Val) : Prop where
  inv : o.Inv
  len : o.array.abs.length ≤ 2 ^ 32 - 1
  names : ∀ e ∈ o.props, normaliseKey env.py.floatStr (.str e.1) = .ok (.name e.1)
  values : ∀ e ∈ o.items, e.2 ≠ .hole

/-- A view in range of its buffer; a length-tracking one whose buffer does not come back resizable
must be on a whole number of elements. -/
def ViewOK (env : EEnv) (backing : Val) (v : View) : Prop :=
  IsBuffer env.heap backing ∧
  ∀ mv, backingBytes env.heap backing = some mv → v.isInRange mv = true ∧
    (v.itemLength = none → backingResizable env.heap backing = true →
      (∃ i b, backing = .obj i ∧ env.heap[i]? = some (.abuf b) ∧
        env.feats.resizableArrayBuffers = true) ∨ mv.length % v.tag.size = 0)

/-- What is asked of the objects in the heap. -/
def NodeOK (env : EEnv) : Node → Prop
  | .jsmap es => ∀ e ∈ es, KeyOK env e.1
  | .jsset ms => ∀ m ∈ ms, KeyOK env m
  | .jsobj o => ObjOK env o
  | .jsarr o => ObjOK env o
  | .pylist els => els.length ≤ 2 ^ 32 - 1
  | .date d => ∀ ms, env.py.dateMs d = .ok ms → env.py.msDate ms = .ok d
  | .primObj (.safeInt n) => n.natAbs ≤ 2 ^ 53 - 1
  | .regexp r => mkRegExp r.source r.flags = .ok r
  | .sharedBuf id => id < 2 ^ 32
  | .transferBuf id => id < 2 ^ 32
  | .view b v => ViewOK env b v
  | _ => True

/-- A heap the round trip is claimed for.  Interchangeable buffers have the same contents. -/
structure Encodable (env : EEnv) : Prop where
  nodes : ∀ (i : Id) (n : Node), env.heap[i]? = some n → NodeOK env n
  buffers : ∀ (i j : Id), Interchangeable env i j → IsBuffer env.heap (.obj i) → env.heap[j]? = env.heap[i]?

/-- What the Python classes guarantee: every view is on a buffer, only buffers stand for buffers, the
storage of JSObject and JSArray is consistent. -/
structure WellTyped (env : EEnv) : Prop where
  views : ∀ (i : Id) (b : Val) (v : View), env.heap[i]? = some (.view b v) → IsBuffer env.heap b
  buffers : ∀ (i j : Id), Interchangeable env i j → IsBuffer env.heap (.obj i) → IsBuffer env.heap (.obj j)
  objects : ∀ (i : Id) (o : JSObj Val), env.heap[i]? = some (.jsobj o) ∨ env.heap[i]? = some (.jsarr o) → o.Inv

/-- No RegExp, no Error without cause, no shared or transferred buffer: the objects that encoder and
decoder do not number alike. -/
def NumberedAlike (env : EEnv) : Prop :=
  ∀ (i : Id) (n : Node), env.heap[i]? = some n →
    match n with
    | .regexp _ => False
    | .error _ _ _ cause => cause ≠ .null
    | .sharedBuf _ => False
    | .transferBuf _ => False
    | _ => True

end V8.Spec
