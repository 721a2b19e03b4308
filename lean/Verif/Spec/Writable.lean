import Verif.Spec.Reach

/-!
# Specification: the values that can be written

What is asked of a value itself; what it contains is reached separately (`Reaches`).  Nothing here refers
to the functions of the encoder.
-/

namespace V8.Spec

/-- Text without surrogates: each character is a Unicode scalar value. -/
def PlainText (s : Str) : Prop := ∀ c ∈ s, c < 0x110000 ∧ ¬ (0xD800 ≤ c ∧ c ≤ 0xDFFF)

/-- The most bits a BigInt can have: the size in bytes, sign bit included, has 30 bits. -/
def mostBits : Nat := 8 * (2 ^ 30 - 1) - 1

/-- An object that can be written, if what it contains can.
* Texts have no surrogates, integers have at most `mostBits` bits.
* Dates have a number of milliseconds.
* Buffers, and the maximum size of resizable ones, have less than 2^32 bytes.
* Numbers of shared buffers are not negative, those of shared objects have 32 bits.
* Float16Array needs its feature flag. -/
def NodeWritable (env : EEnv) : Node → Prop
  | .jsobj o => ∀ e ∈ o.props, PlainText e.1
  | .jsarr o => ∀ e ∈ o.props, PlainText e.1
  | .date d => ∃ ms, env.py.dateMs d = .ok ms
  | .primObj (.str s) => PlainText s
  | .primObj (.bigint n) => n.natAbs < 2 ^ mostBits
  | .regexp r => PlainText r.source
  | .error _ msg stack _ => (∀ s, msg = some s → PlainText s) ∧ ∀ s, stack = some s → PlainText s
  | .abuf b => b.exposed.length < 2 ^ 32 ∧
      (b.resizable = true → env.feats.resizableArrayBuffers = true → b.max < 2 ^ 32)
  | .rawBuf _ b => b.length < 2 ^ 32
  | .sharedBuf id => 0 ≤ id
  | .transferBuf id => 0 ≤ id
  | .sharedRef id => 0 ≤ id ∧ id < 2 ^ 32
  | .view _ v => v.tag = .float16 → env.feats.float16Array = true
  | .other => False
  | _ => True

/-- The same of a value. -/
def Writable (env : EEnv) : Val → Prop
  | .int n => n.natAbs < 2 ^ mostBits
  | .str s => PlainText s
  | .bytes b => b.length < 2 ^ 32
  | .obj i => ∃ n, env.heap[i]? = some n ∧ NodeWritable env n
  | _ => True

/-- Arrays, and the elements of objects, are not longer than JavaScript allows (which their classes
enforce). -/
def ArraysSized (env : EEnv) : Prop :=
  ∀ (i : Id) (o : JSObj Val), env.heap[i]? = some (.jsobj o) ∨ env.heap[i]? = some (.jsarr o) →
    o.array.abs.length ≤ 2 ^ 32 - 1

/-- Objects that compare equal can both be written or neither, and contain the same up to such objects.  This is so
where no two objects compare equal, and for equal RegExps, dates and wrapper objects; but two views can be equal, and
stand for each other, though their buffers are different. -/
def TwinsAlike (env : EEnv) : Prop :=
  ∀ i j, Interchangeable env i j → (Writable env (.obj i) → Writable env (.obj j)) ∧
    ∀ n m, env.heap[i]? = some n → env.heap[j]? = some m → ∀ c ∈ members m, ∃ c' ∈ members n, OneObject env c' c

end V8.Spec
