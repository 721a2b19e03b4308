import Verif.Model.Sources

/-!
# Kinds of binary data
-/

namespace V8.Spec.Sources

open V8 V8.Source

/-- The bytes that the data holds, in order. -/
def bytesOf (s : Src) : Bytes := s.cells.flatten

/-- Every item is one unsigned byte. -/
def ByteItems (s : Src) : Prop := s.signed = false ∧ ∀ c ∈ s.cells, c.length = 1

/-- What bytes, bytearray, `memoryview` of bytes and `array("B")` are: unsigned bytes next to each other. -/
def ByteLike (s : Src) : Prop := ByteItems s ∧ s.dense = true

/-- Every item has `w` bytes. -/
def Width (w : Nat) (s : Src) : Prop := ∀ c ∈ s.cells, c.length = w

/-- Two readers do the same: `x` on the data, `r` on its bytes, wherever the position is. -/
def Same {α : Type} (s : Src) (x : Rx α) (r : Rd α) : Prop := ∀ p, x s p = lift (r (bytesOf s) p)

/-- `x` is right whenever it returns: what it returns on the data, and the position after it, is what `r` gives for the bytes;
if it raises, then BufferError or the exception of `r`. -/
def Honest {α : Type} (s : Src) (x : Rx α) (r : Rd α) : Prop :=
  ∀ p, x s p = lift (r (bytesOf s) p) ∨ x s p = .error .bufferError

/-- `wide` holds one byte of `b` in every item, in the low byte of the item. -/
def OnePerItem (b : Bytes) (s : Src) : Prop := s.items = b.map fun x => (x.toNat : Int)

end V8.Spec.Sources
