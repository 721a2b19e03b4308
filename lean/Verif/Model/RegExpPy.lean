import Verif.Model.Config
import Verif.Model.Text
import Verif.Model.Dict

/-!
# RegExp flags as text, and conversion from and to Python's `re`

Models `JSRegExpFlag` (`src/v8serialize/constants.py`) and the two conversions in
`src/v8serialize/jstypes/jsregexp.py`.
-/

namespace V8

/-- A member of `JSRegExpFlag`: its letter, its bit, and the bit of its Python flag. `python = none`
is the Python value `None` (no equivalent), `python = some none` is `RegexFlag.NOFLAG`. -/
structure FlagDef where
  char : Nat
  bit : Nat
  python : Option (Option Nat)
  deriving DecidableEq, Repr

/-- The members in definition order, constants.py:255-264.  Iterating a flag value gives its members
in this order and skips bits without a member (`enum.Flag.__iter__`, or `_pycompat/enum.py:41-44` on
older Pythons).  `NoFlag` has no bit and is never iterated. Python's flags have the bits of the
standard library: IGNORECASE 1, LOCALE 2, MULTILINE 3, DOTALL 4, UNICODE 5, VERBOSE 6, ASCII 8. -/
def jsFlagDefs : List FlagDef :=
  [⟨100, 7, some none⟩,        -- d HasIndices
   ⟨103, 0, some none⟩,        -- g Global
   ⟨105, 1, some (some 1)⟩,    -- i IgnoreCase
   ⟨108, 6, none⟩,             -- l Linear
   ⟨109, 2, some (some 3)⟩,    -- m Multiline
   ⟨115, 5, some (some 4)⟩,    -- s DotAll
   ⟨117, 4, some (some 5)⟩,    -- u Unicode
   ⟨118, 8, some (some 5)⟩,    -- v UnicodeSets
   ⟨121, 3, some none⟩]        -- y Sticky

/-- `for f in self` on a flag value. -/
def flagMembers (flags : Nat) : List FlagDef := jsFlagDefs.filter (fun f => flags.testBit f.bit)

/-- `JSRegExpFlag.__str__`, constants.py:348-349 -/
def flagsStr (flags : Nat) : Str := (flagMembers flags).map (·.char)

/-- `_python_flag_mapping`, constants.py:281-292: from Python bits to JavaScript bits.  A dict
comprehension over the members with a nonzero Python flag, without `Unicode`. -/
def pythonFlagMapping : Dict Nat Nat :=
  Dict.ofList (jsFlagDefs.filterMap fun f =>
    match f.python with
    | some (some p) => if f.bit = flagUnicode then none else some (p, f.bit)
    | _ => none)

/-- The bits of `_pycompat.re.RegexFlag` in definition order, _pycompat/re.py:15-23 -/
def pythonFlagBits : List Nat := [8, 4, 1, 2, 3, 5, 6]

/-- `from_python_flags`, constants.py:294-306 -/
def fromPythonFlags (p : Nat) : Except PyExc Nat :=
  if p.testBit 6 then .error .jsRegExpError
  else .ok ((((pythonFlagBits.filter p.testBit).filterMap (Dict.get pythonFlagMapping)).map (2 ^ ·)).foldl
    (· ||| ·) 0)

/-- The loop of `as_python_flags`, constants.py:330-336: `none` is the `break`. -/
def asPythonLoop : List FlagDef → Nat → Option Nat
  | [], flags => some flags
  | f :: t, flags =>
    match f.python with
    | none => none
    | some none => asPythonLoop t flags
    | some (some p) => asPythonLoop t (flags ||| 2 ^ p)

/-- `as_python_flags`, constants.py:319-346 -/
def asPythonFlags (flags : Nat) (throw : Bool) : Except PyExc (Option Nat) :=
  match asPythonLoop (flagMembers flags) 0 with
  | some p => .ok (some p)
  | none => if throw then .error .jsRegExpError else .ok none

/-- The `pattern` of an `re.Pattern`. -/
inductive PySource where
  | str (s : Str)
  | bytes (b : Bytes)
  deriving DecidableEq, Repr

/-- An `re.Pattern`: its source and the int `flags`. -/
structure PyPattern where
  source : PySource
  flags : Nat
  deriving DecidableEq, Repr

/-- `pattern.pattern.decode()` or the str itself, jsregexp.py:71-74.  UnicodeDecodeError is a
ValueError. -/
def patternSource : PySource → Except PyExc Str
  | .str s => .ok s
  | .bytes b =>
    match utf8Decode b with
    | some s => .ok s
    | none => .error .valueError

/-- `from_python_pattern`, jsregexp.py:60-84 -/
def fromPythonPattern (p : PyPattern) (throw : Bool) : Except PyExc (Option RegExp) :=
  match patternSource p.source with
  | .error e => .error e
  | .ok source =>
    match fromPythonFlags p.flags with
    | .error e => if throw then .error e else .ok none
    | .ok flags =>
      match mkRegExp source flags with
      | .error e => .error e
      | .ok r => .ok (some r)

/-- What `re.compile` can do: return a pattern, raise `re.error`, or raise something else (for
instance ValueError for an inline flag that does not go with the flags given). -/
inductive Compiled (π : Type) where
  | ok (p : π)
  | reError
  | other (e : PyExc)
  deriving DecidableEq, Repr

/-- `as_python_pattern`, jsregexp.py:92-109, for any `re.compile`. -/
def asPythonPattern {π : Type} (compile : Str → Nat → Compiled π) (r : RegExp) (throw : Bool) :
    Except PyExc (Option π) :=
  match asPythonFlags r.flags true with
  | .error _ => if throw then .error .jsRegExpError else .ok none
  | .ok none => if throw then .error .jsRegExpError else .ok none
  | .ok (some flags) =>
    match compile r.source flags with
    | .ok p => .ok (some p)
    | .reError => if throw then .error .jsRegExpError else .ok none
    | .other e => .error e

end V8
