import Verif.Model.Versions

/-!
# What version texts say

Independent of the pattern: release numbers written with dots, and suffixes of words.
-/

namespace V8.Spec

open V8.Versions

/-- `12.9.202.2` -/
def dotted (r : List Nat) : Str := (str ".").intercalate (r.map decDigits)

/-- A suffix of words: the first word, and further words with the `.` or `_` before them. -/
structure Suffix where
  first : Str
  more : List (Nat × Str)

/-- `rusty.node_33` -/
def Suffix.text (w : Suffix) : Str := w.first ++ w.more.flatMap fun x => x.1 :: x.2

/-- An ASCII letter or digit. -/
def letterOrDigit (c : Nat) : Bool := (48 ≤ c && c ≤ 57) || (65 ≤ c && c ≤ 90) || (97 ≤ c && c ≤ 122)

/-- A word: not empty, only ASCII letters and digits, and not a number too long for `int()`. -/
def Word (w : Str) : Prop :=
  w ≠ [] ∧ (∀ c ∈ w, letterOrDigit c = true) ∧ (w.all isDigit = true → w.length ≤ maxStrDigits)

/-- Words with `.` or `_` between them. -/
def Suffix.Ok (w : Suffix) : Prop :=
  Word w.first ∧ ∀ x ∈ w.more, (x.1 = 46 ∨ x.1 = 95) ∧ Word x.2

/-- What a word means in a version: a number, or the word in small letters. -/
def wordMeaning (w : Str) : Nat ⊕ Str :=
  if w.all isDigit then .inl (parseDec w)
  else .inr (w.map fun c => if 65 ≤ c ∧ c ≤ 90 then c + 32 else c)

/-- The local part of the version. -/
def Suffix.parts (w : Suffix) : List (Nat ⊕ Str) := (w.first :: w.more.map Prod.snd).map wordMeaning

end V8.Spec
