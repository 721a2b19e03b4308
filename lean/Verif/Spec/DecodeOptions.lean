import Verif.Model.DecodeOptions
import Verif.Spec.JSCollections
import Verif.Spec.PlainEq
import Mathlib.Data.List.Basic

/-!
# What options of TagReader change

Two graphs, node by node: one as it is read with the default options, the other as it is read with given options.
-/

namespace V8.Spec

/-- The constants of the format and what they are by default. -/
def constantValues : List (Tag × Val) :=
  [(.kTheHole, .hole), (.kUndefined, .undef), (.kNull, .null), (.kTrue, .bool true), (.kFalse, .bool false)]

/-- What a constant is with these options: the value given for its tag, if any. -/
def constantAs (o : ReaderOptions) (t : Tag) (v : Val) : Val :=
  match o.constants t with
  | some w => w
  | none => v

/-- `v` is read as `v'`: a constant as what the options say, anything else unchanged.  (True and False that come out of
wrapper objects are no constants of the format.) -/
def ReadAs (o : ReaderOptions) (v v' : Val) : Prop :=
  (∃ t, (t, v) ∈ constantValues ∧ v' = constantAs o t v) ∨ (v' = v ∧ v ≠ .hole ∧ v ≠ .undef ∧ v ≠ .null)

/-- A JSMap made by storing these entries one after another. -/
def IsJSMapOf (entries : List (Val × Val)) (n : Node) : Prop :=
  ∃ m, JSMap.update [] entries = (m, none) ∧ n = .jsmap m.items

/-- A dict made by storing these entries one after another. -/
def IsDictOf (cmp : PyCompare) (entries : List (Val × Val)) (n : Node) : Prop :=
  ∃ d, cmp.toDict entries = .ok d ∧ n = .jsmap d

/-- A JSSet made by adding these members one after another. -/
def IsJSSetOf (members : List Val) (n : Node) : Prop :=
  ∃ m, JSSet.ior [] members = (m, none) ∧ n = .jsset m.members

/-- A value as a key of an object. -/
def objectKey : Val → Option RawKey
  | .int n => some (.int n)
  | .bool b => some (.int (if b then 1 else 0))
  | .float x => some (.float x)
  | .str s => some (.str s)
  | _ => none

/-- `obj[key] = value` for these, one after another, without exceptions. -/
def Assigned (py : PyEnv) : JSObj Val → List (Val × Val) → JSObj Val → Prop
  | o, [], r => r = o
  | o, (k, v) :: rest, r => ∃ key p o', objectKey k = some key ∧ normaliseKey py.floatStr key = .ok p ∧
      o.setitem p v.toElem = (o', none) ∧ Assigned py o' rest r

/-- A JSObject, or a JSArray, made by these assignments. -/
def IsObjectOf (py : PyEnv) (array : Bool) (assigned : List (Val × Val)) (n : Node) : Prop :=
  ∃ r, Assigned py JSObj.empty assigned r ∧ n = if array then .jsarr r else .jsobj r

/-- The assignment by which an array read in the sparse form gets its length `n` (none for the dense form: `n = 0`). -/
def lengthMark (n : Nat) : List (Val × Val) := if n = 0 then [] else [(.int (n - 1 : Nat), .hole)]

/-- Entries of a Map: key and value. -/
def EntryAs (o : ReaderOptions) (e e' : Val × Val) : Prop := ReadAs o e.1 e'.1 ∧ ReadAs o e.2 e'.2

/-- Properties: the same key, and the value. -/
def PropAs (o : ReaderOptions) (e e' : Val × Val) : Prop := e'.1 = e.1 ∧ ReadAs o e.2 e'.2

/-- The node `n` of the graph read with the default options is `n'` with the given options. -/
def NodeAs (o : ReaderOptions) (py : PyEnv) (n n' : Node) : Prop :=
  match n with
  | .jsmap _ => ∃ es es', List.Forall₂ (EntryAs o) es es' ∧ IsJSMapOf es n ∧
      (if o.mapDict then IsDictOf o.cmp es' n' else IsJSMapOf es' n')
  | .jsset _ => o.setSet = false ∧ ∃ ms ms', List.Forall₂ (ReadAs o) ms ms' ∧ IsJSSetOf ms n ∧ IsJSSetOf ms' n'
  | .jsobj _ => ∃ ps ps', List.Forall₂ (PropAs o) ps ps' ∧ IsObjectOf py false ps n ∧
      (if o.objectDict then IsDictOf o.cmp ps' n' else IsObjectOf py false ps' n')
  | .jsarr _ => ∃ len ps ps', List.Forall₂ (PropAs o) ps ps' ∧ IsObjectOf py true (lengthMark len ++ ps) n ∧
      (if o.arrayDict then IsDictOf o.cmp (lengthMark len ++ ps') n' else IsObjectOf py true (lengthMark len ++ ps') n')
  | .error name message stack cause => ∃ message' cause', n' = .error name message' stack cause' ∧
      (if o.errorData then message' = message ∨ message = some [] ∧ message' = none else message' = message) ∧
      (ReadAs o cause cause' ∨ cause = .null ∧ cause' = .null)
  | _ => n' = n

/-- The same state of the stream and of the objects, up to the options. -/
structure SameUpTo (o : ReaderOptions) (py : PyEnv) (s s' : DS) : Prop where
  pos : s'.pos = s.pos
  log : s'.log = s.log
  version : s'.version = s.version
  calls : s'.calls = s.calls
  heap : List.Forall₂ (NodeAs o py) s.heap s'.heap

/-- The default container types are used, holes stay holes and nothing else becomes one, and no constant is an int that
JSMap cannot have as key. -/
structure OnlyConstantsAndErrors (o : ReaderOptions) : Prop where
  map : o.mapDict = false
  set : o.setSet = false
  object : o.objectDict = false
  array : o.arrayDict = false
  hole : ∀ t v, (t, v) ∈ constantValues → (constantAs o t v = .hole ↔ v = .hole)
  keys : ∀ t v, (t, v) ∈ constantValues → ¬ TooBig (constantAs o t v)

/-- Two keys are the same key (`same`) after the options were applied exactly if they were before. -/
def KeptApart (same : Val → Val → Prop) (es es' : List (Val × Val)) : Prop :=
  ∀ p ∈ es.zip es', ∀ q ∈ es.zip es', SameValueZero p.1.1 q.1.1 ↔ same p.2.1 q.2.1

end V8.Spec
