import Verif.Model.ReprText
import Verif.Proofs.JSObject

/-!
# Expressions written out

How an expression of `Model/Repr` is written in Python on one line.
-/

namespace V8.Spec.ReprWritten

open V8 V8.ReprText

/-- Parts with commas between them. -/
def commas (parts : List Text) : Text := List.intercalate [',', ' '] parts

/-- The name of a class. -/
def className : ReprCls → Text
  | .object => ['J', 'S', 'O', 'b', 'j', 'e', 'c', 't']
  | .array => ['J', 'S', 'A', 'r', 'r', 'a', 'y']
  | .map => ['J', 'S', 'M', 'a', 'p']
  | .set => ['J', 'S', 'S', 'e', 't']

/-- The key of a property in a dict display. -/
def keyText (look : Look) : PKey → Text
  | .idx n => look.index n
  | .name s => look.key s

/-- `...` after the last part, if there is more. -/
def filled (look : Look) (more : Bool) (parts : List Text) : List Text := if more then parts ++ [look.fill] else parts

/-- The positional argument, if there is one. -/
def writeArg (look : Look) (w : PExpr → Text) : PArg → List Text
  | .none => []
  | .props ps more => [['{'] ++ commas (filled look more (ps.map fun e => keyText look e.1 ++ [':', ' '] ++ w e.2)) ++ ['}']]
  | .list es more => [['['] ++ commas (filled look more (es.map w)) ++ [']']]
  | .entries true es more => [['{'] ++ commas (filled look more (es.map fun e => w e.1 ++ [':', ' '] ++ w e.2)) ++ ['}']]
  | .entries false es more =>
    [['['] ++ commas (filled look more (es.map fun e => ['('] ++ w e.1 ++ [',', ' '] ++ w e.2 ++ [')'])) ++ [']']]

/-- The keyword arguments, or the dict display after `**`. -/
def writeKwargs (look : Look) (w : PExpr → Text) (star : Bool) (kwargs : List (Str × PExpr)) (more : Bool) : List Text :=
  if star then
    [['*', '*', '{'] ++ commas (filled look more (kwargs.map fun e => look.key e.1 ++ [':', ' '] ++ w e.2)) ++ ['}']]
  else filled look more (kwargs.map fun e => look.ident e.1 ++ ['='] ++ w e.2)

/-- A keyword argument that may be left out. -/
def writeOpt (w : PExpr → Text) (name : Text) : Option PExpr → List Text
  | none => []
  | some e => [name ++ ['='] ++ w e]

/-- An expression written out.  The first argument bounds its depth. -/
def write (look : Look) : Nat → PExpr → Text
  | 0, _ => []
  | depth + 1, e =>
    match e with
    | .lit v | .cut v => look.lit v
    | .enumMember s => look.enumText s
    | .fill => look.fill
    | .other i => look.other i
    | .call cls arg star kwargs more =>
      className cls ++ ['('] ++
        commas (writeArg look (write look depth) arg ++ writeKwargs look (write look depth) star kwargs more) ++ [')']
    | .errorCall message name stack cause =>
      ['J', 'S', 'E', 'r', 'r', 'o', 'r'] ++ ['('] ++
        commas ([write look depth message] ++ writeOpt (write look depth) ['n', 'a', 'm', 'e'] name ++
          writeOpt (write look depth) ['s', 't', 'a', 'c', 'k'] stack ++ writeOpt (write look depth) ['c', 'a', 'u', 's', 'e'] cause) ++ [')']

/-- The texts left open are as those of Python: scalars and the fill value are shown as something, and neither names nor the
fill value begin with a space. -/
structure Ordinary (look : Look) : Prop where
  fill : ∃ c t, look.fill = c :: t ∧ c.isWhitespace = false
  lit : ∀ v, look.lit v ≠ []
  ident : ∀ s, ∃ c t, look.ident s = c :: t ∧ c.isWhitespace = false

/-- The object is stored as it should be, and not both its elements and its other properties are cut off in one dict display. -/
def OneFill (env : ReprEnv) (limit : Nat) (o : JSObj Val) : Prop :=
  o.Inv ∧ (o.props = [] ∨ canBeKwargs env o.props = true ∨ o.array.used.toNat ≤ limit)

/-- The same for all objects and arrays of a heap. -/
def OneFillEach (env : ReprEnv) : Prop :=
  (∀ (i : Id) o, env.heap[i]? = some (.jsobj o) → OneFill env env.maxjsobject o) ∧
  (∀ (i : Id) s ps, env.heap[i]? = some (.jsarr ⟨.sparse s, ps⟩) → OneFill env env.maxjsarray ⟨.sparse s, ps⟩)

end V8.Spec.ReprWritten
