import Verif.Model.Value

/-!
# The arguments of JSMap, JSMap.update and JSSet

Models the constructors and `update` of `src/v8serialize/jstypes/jsmap.py` and the constructor of `jsset.py` for any
arguments: which parameter each of them is for, and what is taken from them.
-/

namespace V8.MapArgs

/-- An item of an iterable where `for k, v in other` wants a pair: a pair, or something that cannot be unpacked to
two (TypeError or ValueError). -/
inductive Item where
  | pair (k v : Val)
  | bad (e : PyExc)
  deriving DecidableEq, Repr

/-- What an argument has to give.
* `mapping`: a `collections.abc.Mapping`: its `items()`.
* `keyed`: another object with `keys`: its keys, and what `other[k]` gives for each.
* `iterable`: another iterable: its items, and the exception with which the iteration ends, if it does.
* `plain`: anything else. -/
inductive Source where
  | mapping (items : List (Val × Val))
  | keyed (entries : List (Val × Except PyExc Val))
  | iterable (items : List Item) (fails : Option PyExc)
  | plain
  deriving DecidableEq, Repr

/-- An argument: the value it is, and what it gives when it is used as a source of entries. -/
structure Arg where
  val : Val
  source : Source
  deriving DecidableEq, Repr

/-- `None`: jsmap.py:181. -/
def Arg.none : Arg := ⟨.null, .plain⟩

/-- `for k in other.keys()` with `(same_value_zero(k), (k, other[k]))`, jsmap.py:264-267. -/
def storeKeyed (m : JSMap Val) : List (Val × Except PyExc Val) → JSMap Val × Option PyExc
  | [] => (m, .none)
  | (k, r) :: t =>
    match sameValueZero k with
    | .error e => (m, some e)
    | .ok _ =>
      match r with
      | .error e => (m, some e)
      | .ok v =>
        match m.setitem k v with
        | (m', some e) => (m', some e)
        | (m', .none) => storeKeyed m' t

/-- `for k, v in other`, jsmap.py:268-270. -/
def storeItems (m : JSMap Val) (fails : Option PyExc) : List Item → JSMap Val × Option PyExc
  | [] => (m, fails)
  | .bad e :: _ => (m, some e)
  | .pair k v :: t =>
    match m.setitem k v with
    | (m', some e) => (m', some e)
    | (m', .none) => storeItems m' fails t

/-- The first part of `update`, jsmap.py:262-270. -/
def storeSource (m : JSMap Val) : Source → JSMap Val × Option PyExc
  | .mapping items => m.update items
  | .keyed entries => storeKeyed m entries
  | .iterable items fails => storeItems m fails items
  | .plain => (m, some .typeError)

/-- The keyword arguments as a dict: names to values. -/
abbrev Keywords := List (Str × Arg)

/-- The items of the dict of keyword arguments. -/
def Keywords.items (kw : Keywords) : List (Val × Val) := kw.map fun e => (.str e.1, e.2.val)

/-- `update(self, other=(), /, **kwds)`, jsmap.py:256-273: all parameters before `**kwds` are positional only, so that
every keyword goes to `kwds`. -/
def update (m : JSMap Val) (pos : List Arg) (kw : Keywords) : JSMap Val × Option PyExc :=
  match pos with
  | [] => m.update kw.items
  | [a] =>
    match storeSource m a.source with
    | (m', some e) => (m', some e)
    | (m', .none) => m'.update kw.items
  | _ :: _ :: _ => (m, some .typeError)

/-- The body of `__init__`, jsmap.py:183-187, with its parameters `init` and `kwargs`.  The result is the new object; an
exception leaves none. -/
def initBody (init : Arg) (kwargs : Keywords) : Except PyExc (JSMap Val) :=
  match (if init.val = .null then (([] : JSMap Val), (.none : Option PyExc)) else update [] [init] []) with
  | (_, some e) => .error e
  | (m, .none) =>
    match (if kwargs = [] then (m, (.none : Option PyExc)) else update m [⟨.obj 0, .mapping kwargs.items⟩] []) with
    | (_, some e) => .error e
    | (m', .none) => .ok m'

/-- `JSMap(*pos, **kw)`: how Python finds the parameters of `__init__(self, init=None, **kwargs)`, jsmap.py:178-182.
`self` and `init` are not positional only (the overloads above it say they are), so that keywords of these names are not
for `kwargs`. -/
def new (pos : List Arg) (kw : Keywords) : Except PyExc (JSMap Val) :=
  if (kw.map (·.1)).contains (str "self") then .error .typeError
  else
    match pos with
    | [] => initBody ((kw.lookup (str "init")).getD Arg.none) (kw.filter fun e => e.1 ≠ str "init")
    | [a] => if (kw.map (·.1)).contains (str "init") then .error .typeError else initBody a kw
    | _ :: _ :: _ => .error .typeError

/-- `self |= iterable` in a new JSSet: `MutableSet.__ior__` adds one member after the other. -/
def addAll (s : JSSet) (fails : Option PyExc) : List Val → JSSet × Option PyExc
  | [] => (s, fails)
  | v :: t =>
    match s.add v with
    | (s', some e) => (s', some e)
    | (s', .none) => addAll s' fails t

/-- An argument of JSSet: its value, and its members if it is iterable. -/
structure SetArg where
  val : Val
  members : Option (List Val × Option PyExc)
  deriving DecidableEq, Repr

/-- `JSSet(*pos, **kw)`, jsset.py:123-126: `__init__(self, iterable=None, /)`.  Keywords are refused. -/
def newSet (pos : List SetArg) (keywords : Bool) : Except PyExc JSSet :=
  if keywords then .error .typeError
  else
    match pos with
    | [] => .ok []
    | [a] =>
      if a.val = .null then .ok []
      else
        match a.members with
        | .none => .error .typeError
        | some (vs, fails) =>
          match addAll [] fails vs with
          | (_, some e) => .error e
          | (s, .none) => .ok s
    | _ :: _ :: _ => .error .typeError

end V8.MapArgs
