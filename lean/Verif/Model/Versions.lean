import Verif.Model.Traceback
import Verif.Model.Config

/-!
# Version texts

Models `src/v8serialize/_versions.py` (all of it) and the use of its result in
`SerializationFeature.supported_by` (constants.py:598-633), with all the parts a
`packaging.version.Version` can have.  `packaging` is not part of the repository; its
`VERSION_PATTERN`, `Version.__init__`, `_parse_letter_version`, `_parse_local_version` and `_cmpkey`
(packaging 24.1, version.py) are transcribed here as the specification of what the code calls.

A regular expression is a function from the text not read yet to the list of its matches, in the
order Python's `re` tries them (greedy repeats longest first, alternatives left to right).
-/

namespace V8.Versions

/-- The texts matched by the named groups of `VERSION_PATTERN`; `none` is a group that took no part. -/
structure Groups where
  epoch : Option Str := none
  release : Str := []
  preL : Option Str := none
  preN : Option Str := none
  postN1 : Option Str := none
  postL : Option Str := none
  postN2 : Option Str := none
  devL : Option Str := none
  devN : Option Str := none
  loc : Option Str := none
  deriving DecidableEq, Repr

/-- `[-_\.]` -/
def isSep (c : Nat) : Bool := c == 45 || c == 95 || c == 46

/-- A pattern letter `x` (lower case) matching the character `c`; `ci` is `re.IGNORECASE`.  With it
Python lets the characters U+0130 and U+0131 match `i`, and U+017F match `s`. -/
def sameLetter (ci : Bool) (x c : Nat) : Bool :=
  c == x || (ci && (c + 32 == x || (x == 105 && (c == 0x130 || c == 0x131)) || (x == 115 && c == 0x17f)))

/-- `[a-z0-9]`; with `re.IGNORECASE` Python adds the upper case letters and U+0130, U+0131, U+017F
and U+212A. -/
def isAlnum (ci : Bool) (c : Nat) : Bool :=
  isDigit c || (97 ≤ c && c ≤ 122) ||
    (ci && ((65 ≤ c && c ≤ 90) || c == 0x130 || c == 0x131 || c == 0x17f || c == 0x212a))

/-- `C+` for a class of characters: the text matched and the rest, longest first. -/
def plus (p : Nat → Bool) : Str → List (Str × Str)
  | [] => []
  | c :: t => if p c then (plus p t).map (fun m => (c :: m.1, m.2)) ++ [([c], t)] else []

/-- `(?:S C+)*` for a separator class and a class of characters, longest first.  The number bounds
the repetitions; every repetition reads at least two characters. -/
def moreWords (sep p : Nat → Bool) : Nat → Str → List (Str × Str)
  | 0, t => [([], t)]
  | n + 1, t =>
    (match t with
     | [] => []
     | c :: u =>
       if sep c then
         (plus p u).flatMap fun m =>
           (moreWords sep p n m.2).map fun k => (c :: m.1 ++ k.1, k.2)
       else []) ++ [([], t)]

/-- `C+(?:S C+)*` -/
def words (sep p : Nat → Bool) (t : Str) : List (Str × Str) :=
  (plus p t).flatMap fun m => (moreWords sep p m.2.length m.2).map fun k => (m.1 ++ k.1, k.2)

/-- One word of the pattern: the text matched and the rest. -/
def lit (ci : Bool) : Str → Str → Option (Str × Str)
  | [], t => some ([], t)
  | _ :: _, [] => none
  | x :: xs, c :: t =>
    if sameLetter ci x c then (lit ci xs t).map fun m => (c :: m.1, m.2) else none

/-- `[-_\.]?`: what is left. -/
def sepOpt (t : Str) : List Str :=
  match t with
  | [] => [[]]
  | c :: u => if isSep c then [u, c :: u] else [c :: u]

/-- `([0-9]+)?` -/
def numOpt (t : Str) : List (Option Str × Str) :=
  (plus isDigit t).map (fun m => (some m.1, m.2)) ++ [(none, t)]

/-- `[-_\.]?(name|name|…)[-_\.]?([0-9]+)?`: the name as written, the number and the rest. -/
def letterGroup (ci : Bool) (names : List Str) (t : Str) : List (Str × Option Str × Str) :=
  (sepOpt t).flatMap fun t1 =>
    names.flatMap fun name =>
      match lit ci name t1 with
      | none => []
      | some m => (sepOpt m.2).flatMap fun x => (numOpt x).map fun n => (m.1, n.1, n.2)

def preNames : List Str :=
  [str "alpha", str "a", str "beta", str "b", str "preview", str "pre", str "c", str "rc"]
def postNames : List Str := [str "post", str "rev", str "r"]
def devNames : List Str := [str "dev"]

/-- `(?:\+(?P<local>[a-z0-9]+(?:[-_\.][a-z0-9]+)*))?` -/
def localOpt (ci : Bool) (g : Groups) (t : Str) : List (Groups × Str) :=
  (match t with
   | [] => []
   | c :: u =>
     if c == 43 then (words isSep (isAlnum ci) u).map fun m => ({ g with loc := some m.1 }, m.2)
     else []) ++ [(g, t)]

/-- `(?P<dev>…)?` and what follows. -/
def devOpt (ci : Bool) (g : Groups) (t : Str) : List (Groups × Str) :=
  ((letterGroup ci devNames t).flatMap fun m =>
    localOpt ci { g with devL := some m.1, devN := m.2.1 } m.2.2) ++ localOpt ci g t

/-- `-(?P<post_n1>[0-9]+)` -/
def dashNumber (t : Str) : List (Str × Str) :=
  match t with
  | [] => []
  | c :: u => if c == 45 then plus isDigit u else []

/-- `(?P<post>…)?` and what follows. -/
def postOpt (ci : Bool) (g : Groups) (t : Str) : List (Groups × Str) :=
  ((dashNumber t).flatMap fun m => devOpt ci { g with postN1 := some m.1 } m.2) ++
  ((letterGroup ci postNames t).flatMap fun m =>
    devOpt ci { g with postL := some m.1, postN2 := m.2.1 } m.2.2) ++
  devOpt ci g t

/-- `(?P<pre>…)?` and what follows. -/
def preOpt (ci : Bool) (g : Groups) (t : Str) : List (Groups × Str) :=
  ((letterGroup ci preNames t).flatMap fun m =>
    postOpt ci { g with preL := some m.1, preN := m.2.1 } m.2.2) ++ postOpt ci g t

/-- `(?P<release>[0-9]+(?:\.[0-9]+)*)` and what follows. -/
def releasePart (ci : Bool) (g : Groups) (t : Str) : List (Groups × Str) :=
  (words (· == 46) isDigit t).flatMap fun m => preOpt ci { g with release := m.1 } m.2

/-- `!` after a match. -/
def bang (m : Str × Str) : List (Str × Str) :=
  match m.2 with
  | [] => []
  | c :: u => if c == 33 then [(m.1, u)] else []

/-- `(?P<epoch>[0-9]+)!` -/
def epochPart (t : Str) : List (Str × Str) := (plus isDigit t).flatMap bang

/-- `(?:(?P<epoch>[0-9]+)!)?` and what follows. -/
def epochOpt (ci : Bool) (t : Str) : List (Groups × Str) :=
  ((epochPart t).flatMap fun m => releasePart ci { epoch := some m.1 } m.2) ++ releasePart ci {} t

/-- `v?` -/
def vOpt (ci : Bool) (t : Str) : List Str :=
  match t with
  | [] => [[]]
  | c :: u => if sameLetter ci 118 c then [u, c :: u] else [c :: u]

/-- All matches of `VERSION_PATTERN` at the start of the text: groups and rest. -/
def pattern (ci : Bool) (t : Str) : List (Groups × Str) := (vOpt ci t).flatMap (epochOpt ci)

/-! ## `packaging.version.Version` -/

/-- The exceptions of this file. `InvalidVersion` is a subclass of ValueError; `valueError` is the
ValueError of `int()` for more than 4300 digits. -/
inductive VErr where
  | invalid
  | valueError
  | assertion
  | lookup
  deriving DecidableEq, Repr

/-- The fields of `Version._version`. -/
structure Version where
  epoch : Nat := 0
  release : List Nat
  pre : Option (Str × Nat) := none
  post : Option (Str × Nat) := none
  dev : Option (Str × Nat) := none
  loc : Option (List (Nat ⊕ Str)) := none
  deriving DecidableEq, Repr

/-- `int(text)` of a text of digits. -/
def toInt (t : Str) : Except VErr Nat :=
  if maxStrDigits < t.length then .error .valueError else .ok (parseDec t)

/-- `re.split` on single characters of a class. -/
def splitBy (p : Nat → Bool) : Str → List Str
  | [] => [[]]
  | c :: t =>
    if p c then [] :: splitBy p t
    else
      match splitBy p t with
      | [] => [[c]]
      | w :: ws => (c :: w) :: ws

/-- `str.lower()`; exact for the characters a version can contain. -/
def lowerStr (t : Str) : Str :=
  t.flatMap fun c =>
    if 65 ≤ c && c ≤ 90 then [c + 32]
    else if c == 0x130 then [105, 0x307]
    else if c == 0x212a then [107]
    else [c]

/-- The spellings `_parse_letter_version` unifies. -/
def letterName (l : Str) : Str :=
  let l := lowerStr l
  if l = str "alpha" then str "a"
  else if l = str "beta" then str "b"
  else if l = str "c" ∨ l = str "pre" ∨ l = str "preview" then str "rc"
  else if l = str "rev" ∨ l = str "r" then str "post"
  else l

/-- `_parse_letter_version` -/
def parseLetter (letter number : Option Str) : Except VErr (Option (Str × Nat)) :=
  match letter, number with
  | some l, none => .ok (some (letterName l, 0))
  | some l, some n => (toInt n).map fun k => some (letterName l, k)
  | none, some n => (toInt n).map fun k => some (str "post", k)
  | none, none => .ok none

/-- One part of `_parse_local_version`: `part.lower() if not part.isdigit() else int(part)`. -/
def localPart (w : Str) : Except VErr (Nat ⊕ Str) :=
  if w ≠ [] ∧ w.all isDigit then (toInt w).map Sum.inl else .ok (.inr (lowerStr w))

/-- `_parse_local_version` -/
def parseLocal : Option Str → Except VErr (Option (List (Nat ⊕ Str)))
  | none => .ok none
  | some t => ((splitBy isSep t).mapM localPart).map some

/-- `int(match.group("epoch")) if match.group("epoch") else 0` -/
def parseEpoch : Option Str → Except VErr Nat
  | none => .ok 0
  | some e => toInt e

/-- The body of `Version.__init__` once the pattern matched. -/
def fromGroups (g : Groups) : Except VErr Version := do
  let epoch ← parseEpoch g.epoch
  let release ← (splitBy (· == 46) g.release).mapM toInt
  let pre ← parseLetter g.preL g.preN
  let post ← parseLetter g.postL (g.postN1.or g.postN2)
  let dev ← parseLetter g.devL g.devN
  let loc ← parseLocal g.loc
  return ⟨epoch, release, pre, post, dev, loc⟩

/-- `Version(text)`: the pattern, ignoring case, between white space. -/
def version (s : Str) : Except VErr Version :=
  match (pattern true (s.dropWhile isSpaceChar)).find? (fun m => m.2.all isSpaceChar) with
  | none => .error .invalid
  | some m => fromGroups m.1

/-- `_key`'s infinities around a type. -/
inductive Ext (α : Type) where
  | neg
  | val (a : α)
  | inf
  deriving DecidableEq, Repr

/-- `Version._key` -/
structure Key where
  epoch : Nat
  release : List Nat
  pre : Ext (Str × Nat)
  post : Ext (Str × Nat)
  dev : Ext (Str × Nat)
  loc : Ext (List (Ext Nat × Str))
  deriving DecidableEq, Repr

/-- `_cmpkey` -/
def Version.key (v : Version) : Key where
  epoch := v.epoch
  release := stripZeros v.release
  pre :=
    match v.pre, v.post, v.dev with
    | none, none, some _ => .neg
    | none, _, _ => .inf
    | some p, _, _ => .val p
  post := match v.post with
    | none => .neg
    | some p => .val p
  dev := match v.dev with
    | none => .inf
    | some d => .val d
  loc := match v.loc with
    | none => .neg
    | some l => .val (l.map fun
      | .inl n => (.val n, [])
      | .inr s => (.neg, s))

/-- `<` with `packaging._structures.Infinity` and `NegativeInfinity`. -/
def extLt {α : Type} (lt : α → α → Bool) : Ext α → Ext α → Bool
  | .neg, .neg => false
  | .neg, _ => true
  | .val _, .neg => false
  | .val a, .val b => lt a b
  | .val _, .inf => true
  | .inf, _ => false

/-- Python's `<` on tuples of any length (and on strings, character by character). -/
def listLt {α : Type} [DecidableEq α] (lt : α → α → Bool) : List α → List α → Bool
  | _, [] => false
  | [], _ :: _ => true
  | a :: t, b :: u => if a = b then listLt lt t u else lt a b

/-- Python's `<` on pairs. -/
def pairLt {α β : Type} [DecidableEq α] (lt : α → α → Bool) (lt' : β → β → Bool) (a b : α × β) : Bool :=
  if a.1 = b.1 then lt' a.2 b.2 else lt a.1 b.1

/-- `<` on ints. -/
def natLt (a b : Nat) : Bool := decide (a < b)

/-- `<` on the pairs of a letter and a number. -/
def letterLt : Str × Nat → Str × Nat → Bool := pairLt (listLt natLt) natLt

/-- `<` on the parts of a local version. -/
def localPartLt : Ext Nat × Str → Ext Nat × Str → Bool := pairLt (extLt natLt) (listLt natLt)

/-- Python's `<` on the tuples `_key`. -/
def Key.lt (a b : Key) : Bool :=
  if a.epoch ≠ b.epoch then natLt a.epoch b.epoch
  else if a.release ≠ b.release then tupleLt a.release b.release
  else if a.pre ≠ b.pre then extLt letterLt a.pre b.pre
  else if a.post ≠ b.post then extLt letterLt a.post b.post
  else if a.dev ≠ b.dev then extLt letterLt a.dev b.dev
  else extLt (listLt localPartLt) a.loc b.loc

/-- `Version.__lt__` -/
def Version.lt (v w : Version) : Bool := v.key.lt w.key

/-- `Version.__le__` -/
def Version.le (v w : Version) : Bool := decide (v.key = w.key) || v.key.lt w.key

/-! ## The code of the repository -/

/-- `$`: the end, or before a line feed that ends the text. -/
def atEnd (t : Str) : Bool := t = [] || t = [10]

/-- What follows `VERSION_PATTERN` in `LENIENT_VERSION_PATTERN`, _versions.py:7-9:
`(?:-(?P<suffix>\S+))?$`.  Outside `none`: no match; inside: the suffix group.
`\S+` cannot stop early, because the character after it would have to be a line feed. -/
def suffixOpt (t : Str) : Option (Option Str) :=
  let w := t.tail.takeWhile (fun c => !isSpaceChar c)
  if t.head? = some 45 ∧ w ≠ [] ∧ atEnd (t.tail.drop w.length) then some (some w)
  else if atEnd t then some none
  else none

/-- `LENIENT_VERSION_PATTERN.match`, _versions.py:7-9 and 32: the groups, the text after
`(?P<version>…)` and the suffix.  The pattern is compiled without `re.IGNORECASE`. -/
def lenientMatch (s : Str) : Option (Groups × Str × Option Str) :=
  (pattern false s).findSome? fun m => (suffixOpt m.2).map fun x => (m.1, m.2, x)

/-- `parse_lenient_version`, _versions.py:12-44. -/
def parseLenient (s : Str) : Except VErr Version :=
  match lenientMatch s with
  | none => .error .invalid
  | some (_, _, none) => version s
  | some (g, rest, some w) =>
    if g.loc.isSome then .error .assertion
    else version (s.take (s.length - rest.length) ++ str "+" ++ w)

/-- A version with release numbers and nothing else: `Version("10.0.29")`. -/
def plain (r : List Nat) : Version := { release := r }

/-- `feature.first_v8_version <= v8_version` for a `Version`, constants.py:437-450 and 494-578. -/
def hasFeature (f : Feature) (v : Version) : Bool :=
  match f.first with
  | .rel r => (plain r).le v
  | .unreleased => false

/-- The loop of `supported_by`, constants.py:629-632. -/
def collect (v : Version) : List Feature → Features → Features
  | [], fs => fs
  | f :: t, fs => collect v t (if hasFeature f v then fs.add f else fs)

/-- `SerializationFeature.supported_by` of a `Version`, constants.py:622-633. -/
def supportedByVersion (v : Version) : Except VErr Features :=
  if v.lt (plain [10, 0, 29]) then .error .lookup
  else .ok (collect v Feature.all Features.none)

/-- `SerializationFeature.supported_by` of a text, constants.py:598-633. -/
def supportedByText (s : Str) : Except VErr Features := do
  let v ← parseLenient s
  supportedByVersion v

end V8.Versions
