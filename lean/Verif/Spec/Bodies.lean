import Verif.Model.Decode

/-!
# What the entries of a collection in the data are

Independent of the decoder's loops: an entry is a tag that does not end the collection followed by
what it announces; a body is `n` entries one after the other.
-/

namespace V8.Spec

/-- `R` leads from the first state to the second in exactly `n` steps. -/
def Times {S : Type} (R : S → S → Prop) : Nat → S → S → Prop
  | 0, s, s' => s = s'
  | n + 1, s, s' => ∃ m, R s m ∧ Times R n m s'

/-- A value can be read in state `s` and leaves the reader in `s'`. -/
def ReadsValue (rec : Tag → RM Val) (d : Bytes) (s s' : DS) : Prop :=
  ∃ t p v, readAnyTag d s.pos = .ok (t, p) ∧ rec t d { s with pos := p } = .ok (v, s')

/-- The same, but the value's tag satisfies `P`. -/
def ReadsTagged (rec : Tag → RM Val) (P : Tag → Prop) (d : Bytes) (s s' : DS) : Prop :=
  ∃ t p v, readAnyTag d s.pos = .ok (t, p) ∧ P t ∧ rec t d { s with pos := p } = .ok (v, s')

/-- One key and value of a Map. -/
def MapEntry (rec : Tag → RM Val) (d : Bytes) (s s' : DS) : Prop :=
  ∃ s1, ReadsTagged rec (fun t => t.byte ≠ 0x3a) d s s1 ∧ ReadsValue rec d s1 s'

/-- One member of a Set. -/
def SetEntry (rec : Tag → RM Val) (d : Bytes) (s s' : DS) : Prop :=
  ReadsTagged rec (fun t => t.byte ≠ 0x2c) d s s'

/-- The tags of numbers and strings, also wrapped: `I` `U` `N` `n`, `"` `c` `S` `s`. -/
def keyBytes : List UInt8 := [0x49, 0x55, 0x4e, 0x6e, 0x22, 0x63, 0x53, 0x73]

/-- One key and value of an object. -/
def PropEntry (rec : Tag → RM Val) (d : Bytes) (s s' : DS) : Prop :=
  ∃ s1, ReadsTagged rec (fun t => t.byte ∈ keyBytes) d s s1 ∧ ReadsValue rec d s1 s'

/-- The end tag with this byte stands at the position of `s`, and is followed by the number `n`,
which ends at `p'`. -/
def EndsWith (d : Bytes) (e : UInt8) (s : DS) (n p' : Nat) : Prop :=
  ∃ t p, readAnyTag d s.pos = .ok (t, p) ∧ t.byte = e ∧ readVarint none d p = .ok (n, p')

/-- The state in which the entries of a collection are read: the collection exists, is known under
the next object id, and its own decoding has been counted. -/
def opened (s : DS) (n : Node) : DS :=
  { s with calls := s.calls + 1, heap := s.heap ++ [n], log := (s.log.record (.obj s.heap.length)).1 }

end V8.Spec
