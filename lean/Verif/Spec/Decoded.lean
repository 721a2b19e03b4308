import Verif.Model.Decode
import Verif.Proofs.JSObject
import Verif.Spec.JSCollections
import Verif.Spec.Writable

/-!
# Specification: the objects that loads makes

What can be relied on of a decoded value and of the objects in it, whatever the data was.  Nothing here
refers to the data or to the steps of the decoder.
-/

namespace V8.Spec

/-- The names that an Error can have. -/
def errorNames : List String :=
  ["EvalError", "RangeError", "ReferenceError", "SyntaxError", "TypeError", "UriError", "Error"]

/-- A value that can be part of the result for `size` bytes of data: text without surrogates, an integer of
32 bits or of as many bits as the data has, no `bytes` object, and an object only if it exists and is not the
wrapper of a primitive (those are replaced by the primitive). -/
def Known (size : Nat) (h : Heap) : Val → Prop
  | .obj i => ∃ n, h[i]? = some n ∧ ∀ p, n ≠ .primObj p
  | .str s => PlainText s
  | .int n => n.natAbs < 2 ^ 32 ∨ n.natAbs < 2 ^ (8 * size)
  | .bytes _ => False
  | _ => True

/-- A JSObject or JSArray with consistent storage that is not longer than JavaScript allows, whose values
are known and are not holes, and whose names are text without surrogates and not array indexes. -/
structure ObjMade (py : PyEnv) (size : Nat) (h : Heap) (o : JSObj Val) : Prop where
  inv : o.Inv
  len : o.array.abs.length ≤ 2 ^ 32 - 1
  values : ∀ e ∈ o.items, Known size h e.2 ∧ e.2 ≠ .hole
  names : ∀ e ∈ o.props, normaliseKey py.floatStr (.str e.1) = .ok (.name e.1) ∧ PlainText e.1

/-- What holds of each object. -/
def NodeMade (py : PyEnv) (size : Nat) (h : Heap) : Node → Prop
  | .jsmap es => (∀ e ∈ es, Known size h e.1 ∧ Known size h e.2 ∧ ¬ TooBig e.1) ∧ es.Pairwise (fun a b => ¬ SameValueZero a.1 b.1)
  | .jsset ms => (∀ v ∈ ms, Known size h v ∧ ¬ TooBig v) ∧ ms.Pairwise (fun a b => ¬ SameValueZero a b)
  | .jsobj o => ObjMade py size h o
  | .jsarr o => ObjMade py size h o
  | .date d => ∃ ms, py.msDate ms = .ok d
  | .primObj p => ∀ n, p ≠ .safeInt n
  | .regexp r => r.source ≠ [] ∧ PlainText r.source ∧ ¬ (r.flags.testBit 4 = true ∧ r.flags.testBit 8 = true) ∧
      (r.flags % 2 ^ 9 = 0 ∨ r.flags - r.flags % 2 ^ 9 < 10 ^ 4300)
  | .error name msg stack cause => Known size h cause ∧ msg ≠ none ∧ (∃ k ∈ errorNames, name = str k) ∧
      (∀ s, msg = some s → PlainText s) ∧ ∀ s, stack = some s → PlainText s
  | .abuf b => b.data.length ≤ b.max ∧ b.max < 2 ^ 32 ∧ (b.resizable = false → b.max = b.data.length)
  | .sharedBuf id => 0 ≤ id ∧ id < 2 ^ 32
  | .transferBuf id => 0 ≤ id ∧ id < 2 ^ 32
  | .sharedRef id => 0 ≤ id ∧ id < 2 ^ 32
  | .view b v => isBuffer h b = true ∧ ∀ mv, backingBytes h b = some mv → v.isInRange mv = true
  | .pylist _ => False
  | .rawBuf _ _ => False
  | .other => False

/-- Python fact: the text of a float that is not an integer does not read as an array index and has no
surrogates. -/
def FloatNames (py : PyEnv) : Prop :=
  ∀ x, fInt? x = none → normaliseKey py.floatStr (.str (py.floatStr x)) = .ok (.name (py.floatStr x)) ∧
    PlainText (py.floatStr x)

end V8.Spec
