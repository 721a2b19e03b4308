import Verif.Model.Heap
import Verif.Model.ObjectMixins
import Verif.Model.PlainEq

/-!
# `repr()` of JS values, and what evaluating it gives

Models `RecursiveReprMixin.repr1` and the methods of `JSRepr` for JSObject, JSArray, JSMap, JSSet and
JSError (`src/v8serialize/jstypes/_repr.py:24-317`), and `_is_dict_equivalent_jsmap` (415-421).

Simplifications.
* What is produced is the syntax tree of the text and not its characters: `indent` only changes the
  whitespace between the pieces.
* `fillvalue` is `...` (the default), and the limits are not negative.
* The values inside are scalars and objects of these five classes; how anything else is shown is left open
  (`other`).  Subclasses of the five classes are not modelled.
* A scalar whose text is over `maxstring`, `maxlong` or `maxother` is shown with its middle cut out (`cut`); which
  scalars these are is left open (`short`).  An int over the digit limit, on which `repr` raises ValueError, is
  among them.
-/

namespace V8

/-- The limits and settings of the active `JSRepr`, and the behaviour of Python it uses.
* `short v`: the text of the scalar `v` is within the limits;
* `isIdent s`: `s.isidentifier()`;
* `enumName i`: the `name` of the JSError `i` is a member of the enum JSErrorName, not a plain str. -/
structure ReprEnv where
  heap : Heap
  maxjsobject : Nat
  maxjsarray : Nat
  maxdict : Nat
  maxset : Nat
  short : Val → Bool
  isIdent : Str → Bool
  enumName : Id → Bool
  py : PyCompare

/-- The class called. -/
inductive ReprCls where
  | object | array | map | set
  deriving DecidableEq, Repr

mutual
/-- The expressions printed.
* `lit`, `cut`: the text of a scalar, in full or abbreviated;
* `enumMember`: the `repr` of a member of JSErrorName, `<JSErrorName.X: 'X'>`;
* `fill`: `...`;
* `other`: the text of an object of another class;
* `call cls arg star kwargs more`: `Cls(arg, k=v, ..)`, or `Cls(arg, **{'k': v, ..})` if `star`; `more`: there is a
  `...` after the last one;
* `errorCall`: `JSError(message, name=.., stack=.., cause=..)`. -/
inductive PExpr where
  | lit (v : Val)
  | cut (v : Val)
  | enumMember (s : Str)
  | fill
  | other (i : Id)
  | call (cls : ReprCls) (arg : PArg) (star : Bool) (kwargs : List (Str × PExpr)) (more : Bool)
  | errorCall (message : PExpr) (name stack cause : Option PExpr)

/-- The positional argument: none, a dict display with int and str keys, a list display, a dict display of any
keys (`entries true`), or a list display of pairs (`entries false`).  `more`: with a `...` at the end. -/
inductive PArg where
  | none
  | props (ps : List (PKey × PExpr)) (more : Bool)
  | list (es : List PExpr) (more : Bool)
  | entries (dict : Bool) (es : List (PExpr × PExpr)) (more : Bool)
end

/-- `all_properties_can_be_kwargs`, _repr.py:159-161 and 218-220 -/
def canBeKwargs (env : ReprEnv) (props : Dict Str Val) : Bool :=
  !props.isEmpty && props.all (fun e => env.isIdent e.1)

/-- `__repr_JSObject`, _repr.py:133-192, at a level above 0; `sub` is `repr1(_, level - 1)`.  Where
`maxprops` gets negative in the code it is 0 here, which makes no difference: it is only used as
`max(0, maxprops)` and compared with a positive number of properties. -/
def reprObject (env : ReprEnv) (sub : Val → PExpr) (cls : ReprCls) (maxprops : Nat) (o : JSObj Val) : PExpr :=
  if o.len = 0 then .call cls .none false [] false
  else
    let elements := JSObj.elementItems o.array
    let used := o.array.used.toNat
    let arrayPieces := (elements.take maxprops).map (fun e => (PKey.idx e.1, sub e.2))
    let arrayMore := decide (maxprops < used)
    let left := maxprops - used
    let more := decide (left < o.props.length)
    if canBeKwargs env o.props then
      let kwargs := (o.props.take left).map (fun e => (e.1, sub e.2))
      if used = 0 then .call cls .none false kwargs more
      else .call cls (.props arrayPieces arrayMore) false kwargs more
    else
      let propPieces := (o.props.take left).map (fun e => (PKey.name e.1, sub e.2))
      .call cls (.props (arrayPieces ++ propPieces) (arrayMore || (!o.props.isEmpty && more))) false [] false

/-- `repr_JSArray`, _repr.py:194-264, at a level above 0. -/
def reprArray (env : ReprEnv) (sub : Val → PExpr) (o : JSObj Val) : PExpr :=
  if o.len = 0 then .call .array .none false [] false
  else
    match o.array with
    | .sparse _ => reprObject env sub .array env.maxjsarray o
    | .dense d =>
      let maxprops := env.maxjsarray
      let arrayPieces := (d.items.take maxprops).map (fun v => sub (elemVal v))
      let arrayMore := decide (maxprops < d.items.length)
      let left := maxprops - d.items.length
      let more := decide (left < o.props.length)
      if canBeKwargs env o.props then
        let kwargs := (o.props.take left).map (fun e => (e.1, sub e.2))
        if d.items.length = 0 then .call .array .none false kwargs more
        else .call .array (.list arrayPieces arrayMore) false kwargs more
      else
        let propPieces := (o.props.take left).map (fun e => (e.1, sub e.2))
        if d.items.length = 0 then
          .call .array (.props (propPieces.map (fun e => (PKey.name e.1, e.2))) (!o.props.isEmpty && more)) false [] false
        else if o.props.isEmpty then .call .array (.list arrayPieces arrayMore) false [] false
        else .call .array (.list arrayPieces arrayMore) true propPieces more

/-- `_is_dict_equivalent_jsmap`, _repr.py:415-421: `dict(obj) == obj`, which comes down to
`JSMap.__eq__` with the dict on the right (jsmap.py:219-234). -/
def isDictEquivalent (env : ReprEnv) (es : List (Val × Val)) : Bool :=
  if env.maxdict < es.length then false
  else
    match env.py.toDict es with
    | .error _ => false
    | .ok c =>
      if es.length ≠ c.length then false
      else
        match env.py.dictEq c c with
        | .ok b => b
        | .error _ => false

/-- `repr_JSMap`, _repr.py:266-291, at a level above 0. -/
def reprMap (env : ReprEnv) (sub : Val → PExpr) (es : List (Val × Val)) : PExpr :=
  if es.length = 0 then .call .map .none false [] false
  else
    .call .map (.entries (isDictEquivalent env es)
      ((es.take env.maxdict).map (fun e => (sub e.1, sub e.2))) (decide (env.maxdict < es.length))) false [] false

/-- `repr_JSSet`, _repr.py:293-296, and `Repr._repr_iterable` of reprlib. -/
def reprSet (env : ReprEnv) (sub : Val → PExpr) (ms : List Val) : PExpr :=
  if ms.length = 0 then .call .set .none false [] false
  else .call .set (.list ((ms.take env.maxset).map sub) (decide (env.maxset < ms.length))) false [] false

/-- "Error", the value of `JSErrorName.Error`, constants.py:392. -/
def errorName : Str := [69, 114, 114, 111, 114]

/-- `repr_JSError`, _repr.py:298-317.  A JSError without a message has the message "" (jserror.py:163-164,
176-178).  `enum` is `repr1` of a member of JSErrorName. -/
def reprError (env : ReprEnv) (sub : Val → PExpr) (enum : Str → PExpr) (i : Id) (name : Str) (message stack : Option Str)
    (cause : Val) : PExpr :=
  .errorCall
    (sub (.str (message.getD [])))
    (if name = errorName then none else if env.enumName i then some (enum name) else some (sub (.str name)))
    (stack.map (fun s => sub (.str s)))
    (if cause = .null then none else some (sub cause))

/-- `repr1(obj, level)` of an object, by its class: `Repr.repr1` of reprlib looks for `repr_<class name>`. -/
def reprNode (env : ReprEnv) (sub : Val → PExpr) (enum : Str → PExpr) (i : Id) : Node → PExpr
  | .jsobj o => reprObject env sub .object env.maxjsobject o
  | .jsarr o => reprArray env sub o
  | .jsmap es => reprMap env sub es
  | .jsset ms => reprSet env sub ms
  | .error name message stack cause => reprError env sub enum i name message stack cause
  | _ => .other i

/-- `RecursiveReprMixin.repr1`, _repr.py:30-42; `running` are the objects whose `repr` is being made. -/
def repr1 (env : ReprEnv) : Nat → List Id → Val → PExpr
  | 0, _, _ => .fill
  | level + 1, running, .obj i =>
    if i ∈ running then .fill
    else
      match env.heap[i]? with
      | some n => reprNode env (repr1 env level (i :: running)) (fun s => if level = 0 then .fill else .enumMember s) i n
      | none => .other i
  | _ + 1, _, v => if env.short v then .lit v else .cut v

/-! ## Evaluating the text -/

/-- The behaviour of Python that evaluation uses.
* `floatStr`: `str(x)` of a float that is not an integer;
* `keyword s`: `s` is a reserved word;
* `nfkc`: the normal form in which Python reads an identifier (PEP 3131);
* `abbreviated s`: the string that the abbreviated text of `s` stands for. -/
structure PyEval where
  floatStr : F64 → Str
  keyword : Str → Bool
  nfkc : Str → Str
  abbreviated : Str → Str
  py : PyCompare

/-- Why an evaluation fails: the text is no expression, a name is not defined, an exception is
raised by a constructor, or the outcome is not modelled. -/
inductive EvalError where
  | syntaxError
  | nameError
  | raised (e : PyExc)
  | unmodelled
  deriving DecidableEq, Repr

/-- Expressions evaluated from left to right. -/
def evalList (ev : PExpr → Heap → Except EvalError (Val × Heap)) :
    List PExpr → Heap → Except EvalError (List Val × Heap)
  | [], h => .ok ([], h)
  | e :: t, h =>
    match ev e h with
    | .error x => .error x
    | .ok (v, h1) =>
      match evalList ev t h1 with
      | .error x => .error x
      | .ok (vs, h2) => .ok (v :: vs, h2)

/-- Keys and values in turn. -/
def keyValuePairs : List Val → List (Val × Val)
  | k :: v :: t => (k, v) :: keyValuePairs t
  | _ => []

/-- A key of a dict display as the constructor gets it. -/
def PKey.raw : PKey → RawKey
  | .idx n => .int n
  | .name s => .str s

/-- The assignments `self[k] = v` that `update` makes for the entries of a dict: keys are normalised.
Simplification: an invalid key fails before any assignment. -/
def assignments (floatStr : F64 → Str) : List (RawKey × Val) → Except EvalError (List (PKey × Option Val))
  | [] => .ok []
  | (k, v) :: t =>
    match normaliseKey floatStr k with
    | .error e => .error (.raised e)
    | .ok k' =>
      match assignments floatStr t with
      | .error x => .error x
      | .ok r => .ok ((k', v.toElem) :: r)

/-- The names of the keyword arguments as the function gets them. -/
def kwNames (ee : PyEval) (star : Bool) (names : List Str) : Except EvalError (List Str) :=
  if star then .ok names
  else if names.any ee.keyword then .error .syntaxError
  else if (names.map ee.nfkc).Nodup then .ok (names.map ee.nfkc)
  else .error .syntaxError

/-- A new object. -/
def newObject (n : Node) (h : Heap) : Val × Heap := (.obj h.length, h ++ [n])

/-- A constructor's outcome as a new object. -/
def constructed {β : Type} (node : β → Node) (h : Heap) : β × Option PyExc → Except EvalError (Val × Heap)
  | (_, some e) => .error (.raised e)
  | (x, none) => .ok (newObject (node x) h)

/-- The entries of a dict display (`dict`), which are those of the dict it makes, or of a list display. -/
def mapEntries (ee : PyEval) (dict : Bool) (pairs : List (Val × Val)) : Except EvalError (List (Val × Val)) :=
  if dict then
    match ee.py.toDict pairs with
    | .ok c => .ok c
    | .error e => .error (.raised e)
  else .ok pairs

/-- A list display: `...` in it is the object Ellipsis. -/
def evalDisplay (ev : PExpr → Heap → Except EvalError (Val × Heap)) (es : List PExpr) (more : Bool) (h : Heap) :
    Except EvalError (List Val × Heap) :=
  evalList ev (if more then es ++ [.fill] else es) h

/-- `Cls(arg, **kwargs)`: JSObject (jsobject.py:125-142), JSArray (jsarray.py:169-184), JSMap (jsmap.py:177-188), JSSet
(jsset.py:123-126).  In a dict display, or after keyword arguments, `...` is a syntax error.  A list of pairs
that ends in `...` cannot be unpacked.  A dict display with a repeated key is one with the later value in the
earlier place, for which assigning all of them in turn has the same outcome; a JSMap gets the dict itself. -/
def evalCall (ee : PyEval) (ev : PExpr → Heap → Except EvalError (Val × Heap))
    (cls : ReprCls) (arg : PArg) (star : Bool) (kwargs : List (Str × PExpr)) (more : Bool) (h : Heap) :
    Except EvalError (Val × Heap) := do
  if more then .error .syntaxError
  match cls with
  | .object | .array =>
    let node : JSObj Val → Node := if cls = .object then .jsobj else .jsarr
    let (values, pairs, h1) ← (match arg with
      | .none => Except.ok ([], [], h)
      | .props ps m => do
        if m then Except.error EvalError.syntaxError
        let (vs, h1) ← evalList ev (ps.map (·.2)) h
        let l ← assignments ee.floatStr ((ps.map (fun e => e.1.raw)).zip vs)
        Except.ok ([], l, h1)
      | .list es m => do
        let (vs, h1) ← evalDisplay ev es m h
        if cls = .array then Except.ok (vs.map Val.toElem, [], h1) else Except.error .unmodelled
      | .entries _ _ _ => Except.error .unmodelled)
    let names ← kwNames ee star (kwargs.map (·.1))
    let (ws, h2) ← evalList ev (kwargs.map (·.2)) h1
    let kw ← assignments ee.floatStr ((names.map RawKey.str).zip ws)
    if values.isEmpty then constructed node h2 (JSObj.ofPairs pairs kw)
    else constructed node h2 (JSObj.arrayOfValues values kw)
  | .map =>
    match arg with
    | .none => .ok (newObject (.jsmap []) h)
    | .entries dict es m =>
      if m && dict then .error .syntaxError
      else if m then .error (.raised .typeError)
      else do
        let (vs, h1) ← evalList ev (es.flatMap (fun e => [e.1, e.2])) h
        let pairs ← mapEntries ee dict (keyValuePairs vs)
        constructed (fun m : JSMap Val => .jsmap m.items) h1 (JSMap.update [] pairs)
    | _ => .error .unmodelled
  | .set =>
    match arg with
    | .none => .ok (newObject (.jsset []) h)
    | .list es m => do
      let (vs, h1) ← evalDisplay ev es m h
      constructed (fun s : JSSet => .jsset s.members) h1 (JSSet.ior [] vs)
    | _ => .error .unmodelled

/-- A string argument of JSError. -/
def strArg : Val → Except EvalError Str
  | .str s => .ok s
  | _ => .error .unmodelled

/-- `name`, by default `JSErrorName.Error` -/
def nameArg : Option Val → Except EvalError Str
  | none => .ok errorName
  | some v => strArg v

/-- `stack`, by default None -/
def stackArg : Option Val → Except EvalError (Option Str)
  | none => .ok none
  | some v => (strArg v).map some

/-- An argument that may be left out. -/
def evalOpt (ev : PExpr → Heap → Except EvalError (Val × Heap)) : Option PExpr → Heap → Except EvalError (Option Val × Heap)
  | none, h => .ok (none, h)
  | some e, h =>
    match ev e h with
    | .error x => .error x
    | .ok (v, h1) => .ok (some v, h1)

/-- `JSError(message, name=.., stack=.., cause=..)`, jserror.py:154-169. -/
def evalErrorCall (ev : PExpr → Heap → Except EvalError (Val × Heap)) (message : PExpr) (name stack cause : Option PExpr)
    (h : Heap) : Except EvalError (Val × Heap) := do
  let (m, h1) ← ev message h
  let (n, h2) ← evalOpt ev name h1
  let (s, h3) ← evalOpt ev stack h2
  let (c, h4) ← evalOpt ev cause h3
  let m ← strArg m
  let n ← nameArg n
  let s ← stackArg s
  .ok (newObject (.error n (some m) s (c.getD .null)) h4)

/-- Is the text of the scalar an expression for it?  `inf` and `nan` are names that are not defined, and
an object is no scalar. -/
def literal : Val → Bool
  | .float x =>
    match fval x with
    | .fin _ => true
    | _ => false
  | .obj _ => false
  | _ => true

/-- `eval(text)`, with the classes and `JSHole`, `JSUndefined` in scope: the value and the objects then in the
heap.  The first argument bounds the depth of the expression. -/
def evalExpr (ee : PyEval) : Nat → PExpr → Heap → Except EvalError (Val × Heap)
  | 0, _, _ => .error .unmodelled
  | fuel + 1, e, h =>
    match e with
    | .lit v => if literal v then .ok (v, h) else .error .nameError
    | .cut (.str s) => .ok (.str (ee.abbreviated s), h)
    | .cut _ => .error .syntaxError
    | .enumMember _ => .error .syntaxError
    | .fill => .ok (newObject .other h)
    | .other _ => .error .unmodelled
    | .call cls arg star kwargs more => evalCall ee (evalExpr ee fuel) cls arg star kwargs more h
    | .errorCall m n s c => evalErrorCall (evalExpr ee fuel) m n s c h

end V8
