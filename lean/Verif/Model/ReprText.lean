import Verif.Model.Repr

/-!
# The characters of `repr()` of JSObject, JSArray, JSMap, JSSet and JSError

`Model/Repr` has the expressions that are printed.  Here are the characters, with `indent` and any `fillvalue`
(`src/v8serialize/jstypes/_repr.py:24-317`), function by function.

Simplifications.
* The texts of everything that is not one of the five classes are left open (`Look`), also the texts of names and keys.
* The limits are not negative; `indent` is None or an int.
* `_join` is the one of `reprlib.Repr` in Python 3.12 and later; before, `indent` has no effect (_repr.py:122-125) and the
  text is the one for `indent=None`.
* `str.isspace` is `Char.isWhitespace`, for the first character of the keyword arguments.
-/

namespace V8.ReprText

open V8

/-- Python text. -/
abbrev Text := List Char

/-- The settings of JSRepr that only matter for the characters, and the texts that are left open.
* `lit`: of a scalar, in full or cut;
* `enumText`: of a member of JSErrorName;
* `other`: of an object of another class;
* `ident`: a property name itself;
* `key`: `repr()` of a property name;
* `index`: `repr()` of an array index. -/
structure Look where
  indent : Option Int
  fill : Text
  lit : Val → Text
  enumText : Str → Text
  other : Id → Text
  ident : Str → Text
  key : Str → Text
  index : Nat → Text

/-- `sep.join(pieces)` -/
def joinWith (sep : Text) : List Text → Text
  | [] => []
  | [p] => p
  | p :: q :: ps => p ++ sep ++ joinWith sep (q :: ps)

/-- `Repr._join(pieces, level)` of reprlib with `depth = maxlevel - level + 1`.  `generator`: the pieces are given as a
generator, which is never false. -/
def join (look : Look) (depth : Nat) (generator : Bool) (pieces : List Text) : Except PyExc Text :=
  match look.indent with
  | none => .ok (joinWith ", ".toList pieces)
  | some n =>
    if !generator && pieces.isEmpty then .ok []
    else if n < 0 then .error .valueError
    else
      let sep := ",\n".toList ++ List.replicate (depth * n.toNat) ' '
      let joined := joinWith sep ([] :: (pieces ++ [[]]))
      .ok ((joined.drop 1).take (joined.length - 1 - n.toNat))

/-- The texts of the pieces, made in turn. -/
def collect : List (Except PyExc Text) → Except PyExc (List Text)
  | [] => .ok []
  | x :: xs => do
    let t ← x
    let ts ← collect xs
    return t :: ts

/-- `pieces.append(self.fillvalue)` if there is more. -/
def withFill (look : Look) (more : Bool) (pieces : List Text) : List Text :=
  if more then pieces ++ [look.fill] else pieces

/-- `_contains_single_piece`, _repr.py:403-407 -/
def singlePiece (pieces : List Text) : Option Text :=
  match pieces with
  | [p] => if '\n' ∈ p ∨ '\r' ∈ p then none else some p
  | _ => none

/-- What is between the parentheses: the only piece, or the pieces joined (_repr.py:173-176, 232-235, 256-259). -/
def inside (pieces : List Text) (joined : Text) : Text :=
  match singlePiece pieces with
  | some p => p
  | none => joined

/-- `"" if kwargs_repr[0].isspace() else " "`, _repr.py:179 and 238: IndexError for the empty text. -/
def gapBefore : Text → Except PyExc Text
  | [] => .error .indexError
  | c :: _ => .ok (if c.isWhitespace then [] else [' '])

/-- `f"{head}{repr1(v, level - 1)}"` -/
def after (head : Text) (x : Except PyExc Text) : Except PyExc Text := x.map (head ++ ·)

/-- `__repr_JSObject`, _repr.py:133-192, at a level above 0. -/
def textObject (env : ReprEnv) (look : Look) (depth : Nat) (sub : Val → Except PyExc Text) (name : Text) (maxprops : Nat)
    (o : JSObj Val) : Except PyExc Text :=
  if o.len = 0 then .ok (name ++ "()".toList)
  else do
    let used := o.array.used.toNat
    let arr ← collect (((JSObj.elementItems o.array).take maxprops).map fun e => after (look.index e.1 ++ ": ".toList) (sub e.2))
    let arr := withFill look (decide (maxprops < used)) arr
    let left := maxprops - used
    let more := decide (left < o.props.length)
    if canBeKwargs env o.props then do
      let kw ← collect ((o.props.take left).map fun e => after (look.ident e.1 ++ "=".toList) (sub e.2))
      let kw := withFill look more kw
      let kwText ← join look depth false kw
      if arr.isEmpty then .ok (name ++ "(".toList ++ (inside kw kwText ++ ")".toList))
      else do
        let arrText ← join look depth false arr
        let gap ← gapBefore kwText
        .ok (name ++ "({".toList ++ (arrText ++ "}".toList) ++ (",".toList ++ gap) ++ (kwText ++ ")".toList))
    else do
      let ps ← collect ((o.props.take left).map fun e => after (look.key e.1 ++ ": ".toList) (sub e.2))
      let pieces := arr ++ withFill look (!o.props.isEmpty && more) ps
      let t ← join look depth false pieces
      .ok (name ++ "({".toList ++ (t ++ "}".toList) ++ ")".toList)

/-- `repr_JSArray`, _repr.py:194-264, at a level above 0. -/
def textArray (env : ReprEnv) (look : Look) (depth : Nat) (sub : Val → Except PyExc Text) (o : JSObj Val) :
    Except PyExc Text :=
  if o.len = 0 then .ok "JSArray()".toList
  else
    match o.array with
    | .sparse _ => textObject env look depth sub "JSArray".toList env.maxjsarray o
    | .dense d => do
      let maxprops := env.maxjsarray
      let arr ← collect ((d.items.take maxprops).map fun v => sub (elemVal v))
      let arr := withFill look (decide (maxprops < d.items.length)) arr
      let left := maxprops - d.items.length
      let more := decide (left < o.props.length)
      if canBeKwargs env o.props then do
        let kw ← collect ((o.props.take left).map fun e => after (look.ident e.1 ++ "=".toList) (sub e.2))
        let kw := withFill look more kw
        let kwText ← join look depth false kw
        if arr.isEmpty then .ok ("JSArray(".toList ++ (inside kw kwText ++ ")".toList))
        else do
          let arrText ← join look depth false arr
          let gap ← gapBefore kwText
          .ok ("JSArray([".toList ++ (arrText ++ "]".toList) ++ (",".toList ++ gap) ++ (kwText ++ ")".toList))
      else do
        let ps ← collect ((o.props.take left).map fun e => after (look.key e.1 ++ ": ".toList) (sub e.2))
        let ps := withFill look (!o.props.isEmpty && more) ps
        let psText ← join look depth false ps
        if arr.isEmpty then .ok ("JSArray({".toList ++ (inside ps psText ++ "}".toList) ++ ")".toList)
        else do
          let arrText ← join look depth false arr
          if ps.isEmpty then .ok ("JSArray([".toList ++ (arrText ++ "]".toList) ++ ")".toList)
          else .ok ("JSArray([".toList ++ (arrText ++ "]".toList) ++ ", **{".toList ++ (psText ++ "}".toList) ++ ")".toList)

/-- An entry of a JSMap: `"%s: %s"` or `"(%s, %s)"`, _repr.py:278-288. -/
def entryText (dict : Bool) (k v : Except PyExc Text) : Except PyExc Text := do
  let k ← k
  let v ← v
  .ok (if dict then k ++ ": ".toList ++ v else "(".toList ++ k ++ ", ".toList ++ v ++ ")".toList)

/-- `repr_JSMap`, _repr.py:266-291, at a level above 0. -/
def textMap (env : ReprEnv) (look : Look) (depth : Nat) (sub : Val → Except PyExc Text) (es : List (Val × Val)) :
    Except PyExc Text :=
  if es.length = 0 then .ok "JSMap()".toList
  else do
    let dict := isDictEquivalent env es
    let pieces ← collect ((es.take env.maxdict).map fun e => entryText dict (sub e.1) (sub e.2))
    let pieces := withFill look (decide (env.maxdict < es.length)) pieces
    let t ← join look depth false pieces
    if dict then .ok ("JSMap({".toList ++ (t ++ "}".toList) ++ ")".toList)
    else .ok ("JSMap([".toList ++ (t ++ "]".toList) ++ ")".toList)

/-- `repr_JSSet`, _repr.py:293-296, and `Repr._repr_iterable` of reprlib, at a level above 0. -/
def textSet (env : ReprEnv) (look : Look) (depth : Nat) (sub : Val → Except PyExc Text) (ms : List Val) :
    Except PyExc Text :=
  if ms.length = 0 then .ok "JSSet()".toList
  else do
    let pieces ← collect ((ms.take env.maxset).map sub)
    let pieces := withFill look (decide (env.maxset < ms.length)) pieces
    let t ← join look depth false pieces
    .ok ("JSSet([".toList ++ (t ++ "]".toList) ++ ")".toList)

/-- `name=…`, `stack=…`, `cause=…` of an error, if they are shown. -/
def errorArg (head : Text) : Option (Except PyExc Text) → List (Except PyExc Text)
  | none => []
  | some x => [after head x]

/-- `repr_JSError`, _repr.py:298-317; `enum` is `repr1` of a member of JSErrorName.  Empty texts are left out. -/
def textError (env : ReprEnv) (look : Look) (depth : Nat) (sub : Val → Except PyExc Text) (enum : Str → Except PyExc Text)
    (i : Id) (name : Str) (message stack : Option Str) (cause : Val) : Except PyExc Text := do
  let args ← collect ([sub (.str (message.getD []))] ++
    errorArg "name=".toList
      (if name = errorName then none else some (if env.enumName i then enum name else sub (.str name))) ++
    errorArg "stack=".toList (stack.map fun s => sub (.str s)) ++
    errorArg "cause=".toList (if cause = .null then none else some (sub cause)))
  let t ← join look depth true (args.filter (!·.isEmpty))
  .ok ("JSError(".toList ++ (t ++ ")".toList))

/-- `repr1(obj, level)` of an object, by its class. -/
def textNode (env : ReprEnv) (look : Look) (depth : Nat) (sub : Val → Except PyExc Text) (enum : Str → Except PyExc Text)
    (i : Id) : Node → Except PyExc Text
  | .jsobj o => textObject env look depth sub "JSObject".toList env.maxjsobject o
  | .jsarr o => textArray env look depth sub o
  | .jsmap es => textMap env look depth sub es
  | .jsset ms => textSet env look depth sub ms
  | .error name message stack cause => textError env look depth sub enum i name message stack cause
  | _ => .ok (look.other i)

/-- `RecursiveReprMixin.repr1`, _repr.py:30-42, with its `level`; `running` are the objects whose `repr` is being made. -/
def text (env : ReprEnv) (look : Look) (maxlevel : Nat) : Nat → List Id → Val → Except PyExc Text
  | 0, _, _ => .ok look.fill
  | level + 1, running, .obj i =>
    if i ∈ running then .ok look.fill
    else
      match env.heap[i]? with
      | some n =>
        textNode env look (maxlevel - (level + 1) + 1) (text env look maxlevel level (i :: running))
          (fun s => .ok (if level = 0 then look.fill else look.enumText s)) i n
      | none => .ok (look.other i)
  | _ + 1, _, v => .ok (look.lit v)

/-- `js_repr(obj)`, _repr.py:410-412: `Repr.repr` of reprlib. -/
def reprOf (env : ReprEnv) (look : Look) (maxlevel : Nat) (v : Val) : Except PyExc Text :=
  text env look maxlevel maxlevel [] v

end V8.ReprText
