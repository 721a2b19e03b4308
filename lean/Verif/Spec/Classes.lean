import Verif.Model.Dispatch

/-!
# Classes of a Python program

What Python guarantees of `__bases__`, `__mro__`, `issubclass()` and `__subclasses__()`, as far as the choice of a method by
`functools.singledispatch` depends on it.  The last four are up to whoever writes the classes: `issubclass()` can be made to
answer anything.
-/

namespace V8.Dispatch

/-- `registry` are the registered classes; `born` is the order in which classes were made. -/
structure PyClasses {κ : Type} (W : Classes κ) (registry : List κ) (born : κ → Nat) : Prop where
  /-- A class is in its own mro. -/
  self_mem : ∀ c, c ∈ W.mro c
  /-- The mro of a class has those of its bases, -/
  mro_base : ∀ c b, b ∈ W.bases c → ∀ d ∈ W.mro b, d ∈ W.mro c
  /-- and nothing else. -/
  mro_cases : ∀ c d, d ∈ W.mro c → d ≠ c → ∃ b ∈ W.bases c, d ∈ W.mro b
  /-- Bases are made before the classes derived from them. -/
  older : ∀ c b, b ∈ W.bases c → born b < born c
  /-- `__subclasses__()` has classes that inherit. -/
  child_mro : ∀ c s, s ∈ W.children c → c ∈ W.mro s
  /-- A class is a subclass of the classes that it inherits from, -/
  sub_mro : ∀ c d, d ∈ W.mro c → W.sub c d = true
  /-- and of the registered ones that its bases are subclasses of. -/
  sub_base : ∀ c b e, b ∈ W.bases c → e ∈ registry → W.sub b e = true → W.sub c e = true
  /-- Being a subclass is transitive, for registered classes. -/
  sub_trans : ∀ c a e, a ∈ registry → e ∈ registry → W.sub c a = true → W.sub a e = true → W.sub c e = true
  /-- No class is a subclass of a registered class derived from it. -/
  acyclic : ∀ c a, a ∈ registry → W.sub c a = true → c ∈ W.mro a → c = a

end V8.Dispatch
