import Verif.Model.RegExpPy

/-!
# Specification: RegExp flags in V8 and in Python

The bits as V8 (`regexp-flags.h`) and Python's `re` document them.
-/

namespace V8.Spec

/-- The flag letters of V8 and their bits. -/
def letterBits : List (Char × Nat) :=
  [('g', 0), ('i', 1), ('m', 2), ('y', 3), ('u', 4), ('s', 5), ('l', 6), ('d', 7), ('v', 8)]

/-- A flag value has the flag of this letter. -/
def HasLetter (flags : Nat) (c : Char) : Prop := ∃ b, (c, b) ∈ letterBits ∧ flags.testBit b = true

/-- The bits of Python's `re` flags. -/
def pyIgnoreCase : Nat := 1
def pyMultiline : Nat := 3
def pyDotAll : Nat := 4
def pyUnicode : Nat := 5
def pyVerbose : Nat := 6

/-- The JavaScript flags (by letter) that mean what a Python flag means. -/
def Means (p : Nat) (c : Char) : Prop :=
  (p = pyIgnoreCase ∧ c = 'i') ∨ (p = pyMultiline ∧ c = 'm') ∨ (p = pyDotAll ∧ c = 's') ∨
  (p = pyUnicode ∧ (c = 'u' ∨ c = 'v'))

end V8.Spec
