import Verif.Model.ReprText

/-!
# Layout of texts
-/

namespace V8.Spec.ReprText

open V8 V8.ReprText

/-- One more character in front of a text without layout: spaces and line ends are dropped, and commas before a closing
bracket. -/
def squashStep (c : Char) (rest : Text) : Text :=
  if c = ' ' ∨ c = '\n' then rest
  else if c = ',' then
    match rest with
    | d :: _ => if d = ')' ∨ d = ']' ∨ d = '}' then rest else c :: rest
    | [] => c :: rest
  else c :: rest

/-- A text without its layout: no spaces, no line ends, and no commas before closing brackets. -/
def squash (t : Text) : Text := t.foldr squashStep []

/-- A text moved to the right: `n` spaces after every line end. -/
def shift (n : Nat) (t : Text) : Text := t.flatMap fun c => if c = '\n' then '\n' :: List.replicate n ' ' else [c]

/-- No text that is left open has a line end. -/
structure OneLine (look : Look) : Prop where
  fill : '\n' ∉ look.fill
  lit : ∀ v, '\n' ∉ look.lit v
  enumText : ∀ s, '\n' ∉ look.enumText s
  other : ∀ i, '\n' ∉ look.other i
  ident : ∀ s, '\n' ∉ look.ident s
  key : ∀ s, '\n' ∉ look.key s
  index : ∀ i, '\n' ∉ look.index i

/-- Every piece on a line of its own, `n` spaces to the right. -/
def lines (n : Nat) (pieces : List Text) : Text :=
  pieces.flatMap fun p => '\n' :: List.replicate n ' ' ++ p ++ [',']

end V8.Spec.ReprText
