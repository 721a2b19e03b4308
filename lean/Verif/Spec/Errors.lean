import Verif.Model.Errors

/-!
# Calls of Python functions, and exceptions that a program can have

`Fits` and `Passed` are the rules of Python for the arguments of a call ("Calls" in the language reference).
-/

namespace V8.Spec

open V8.Errors

/-- The call with these positional and keyword arguments fits the parameters. -/
structure CallFits (s : Sig) (pos : List Val) (kw : List (String × Val)) : Prop where
  /-- every keyword is the name of a parameter -/
  known : ∀ n ∈ kw.map (·.1), ∃ d, (n, d) ∈ s.positional ∨ (n, d) ∈ s.keyword
  /-- there are not too many positional arguments -/
  few : s.star = true ∨ pos.length ≤ s.positional.length
  /-- no parameter is given twice -/
  once : ∀ (i : Nat) n d, s.positional[i]? = some (n, d) → i < pos.length → n ∉ kw.map (·.1)
  /-- every positional parameter has a value -/
  given : ∀ (i : Nat) n d, s.positional[i]? = some (n, d) → pos.length ≤ i → n ∈ kw.map (·.1) ∨ ∃ v, d = some v
  /-- and every other one -/
  named : ∀ n d, (n, d) ∈ s.keyword → n ∈ kw.map (·.1) ∨ ∃ v, d = some v

/-- The call passes the value `v` for the parameter `n`. -/
inductive Passed (s : Sig) (pos : List Val) (kw : List (String × Val)) : String → Val → Prop where
  | position {i : Nat} {n d v} : s.positional[i]? = some (n, d) → pos[i]? = some v → Passed s pos kw n v
  | keyword {n v} : kw.lookup n = some v → Passed s pos kw n v
  | default {i : Nat} {n v} : s.positional[i]? = some (n, some v) → pos[i]? = none → kw.lookup n = none → Passed s pos kw n v
  | defaultNamed {n v} : (n, some v) ∈ s.keyword → kw.lookup n = none → Passed s pos kw n v

/-- An exception that was made by a call of its class, and whose attributes were then assigned in any way. -/
def Made (fmt : Val → Val → Val) (e : Err) : Prop :=
  ∃ c pos kw e₀ sets, make fmt c pos kw = .ok e₀ ∧ e = e₀.setAll sets

/-- The two exceptions cannot be told apart by their class, their `args` and their attributes. -/
def SameError (a b : Err) : Prop := a.cls = b.cls ∧ a.args = b.args ∧ ∀ n, a.get n = b.get n

end V8.Spec
