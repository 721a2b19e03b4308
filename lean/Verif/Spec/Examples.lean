import Verif.Model.Encode
import Verif.Model.Decode

/-!
# An environment for concrete examples

Dates are whole numbers of milliseconds, kept as they are; no object defines equality of its own.
-/

namespace V8.Spec

def examplePy : PyEnv :=
  ⟨fun _ => [], fun d => .ok (UInt64.ofNat d.toNat), fun x => if x.toNat < 2 ^ 63 then .ok x.toNat else .error .valueError⟩

/-- A reader with the Node.js host object handler. -/
def exampleDec : DEnv := ⟨examplePy, true⟩

/-- A writer with all features, over the given objects. -/
def exampleEnc (h : Heap) : EEnv := ⟨h, ⟨true, true, true, true⟩, examplePy, fun _ => none⟩

/-- The value, the objects and the position after a successful run. -/
def result : Except DErr (Val × DS) → Option (Val × Heap × Nat)
  | .ok (v, s) => some (v, s.heap, s.pos)
  | .error _ => none

theorem result_ok {r : Except DErr (Val × DS)} {v : Val} {h : Heap} {p : Nat} (hr : result r = some (v, h, p)) :
    ∃ s, r = .ok (v, s) ∧ s.heap = h ∧ s.pos = p := by
  match r, hr with
  | .ok (w, s), hr =>
    simp only [result, Option.some.injEq, Prod.mk.injEq] at hr
    exact ⟨s, by rw [hr.1], hr.2.1, hr.2.2⟩

end V8.Spec
