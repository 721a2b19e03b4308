import Verif.Model.Value

/-!
# The exceptions of the package as Python objects

Models the classes of exceptions in `src/v8serialize/_errors.py`, `encode.py`, `_references.py`, `extensions.py`,
`jstypes/jsbuffers.py` and `jstypes/jserror.py`: their base classes, what their constructors store, how their
attributes are read and assigned, the `==` that `@dataclass` makes, and how `copy` and `pickle` make a new one
(`BaseException.__reduce__` and `__setstate__` of Python).

Simplifications.  Values are those of `Model/Value`.  A formatted text (the argument of NormalizedKeyError) is given by a
function.  The attributes that every exception of Python has (`args`, `__cause__`, `__traceback__` and so on) are not
assigned.  `deepcopy` and `pickle` also copy the values of attributes, which is left out: they are the same values
here.
-/

namespace V8.Errors

/-- The classes, with their place in the source. -/
inductive Cls where
  | v8                -- V8SerializeError, _errors.py:13-36
  | decode            -- DecodeV8SerializeError, _errors.py:39-49
  | unhandledTag      -- UnhandledTagDecodeV8SerializeError, _errors.py:52-77
  | nodeHost          -- NodeJsArrayBufferViewHostObjectHandlerDecodeError, extensions.py:205-208
  | regExp            -- JSRegExpV8SerializeError, _errors.py:101-102
  | encode            -- EncodeV8SerializeError, encode.py:86-88
  | unhandledValue    -- UnhandledValueEncodeV8SerializeError, encode.py:91-114
  | feature           -- FeatureNotEnabledEncodeV8SerializeError, encode.py:117-130
  | reference         -- ObjectReferenceV8SerializeError, _references.py:20-21
  | notSerialized     -- ObjectNotSerializedV8SerializeError, _references.py:24-30
  | idOutOfRange      -- SerializedIdOutOfRangeV8SerializeError, _references.py:33-39
  | cyclic            -- IllegalCyclicReferenceV8SerializeError, _references.py:42-50
  | arrayBuffer       -- JSArrayBufferError, jsbuffers.py:1162-1166
  | byteLength        -- ByteLengthJSArrayBufferError, jsbuffers.py:1169-1181
  | itemSize          -- ItemSizeJSArrayBufferError, jsbuffers.py:1184-1198
  | bounds            -- BoundsJSArrayBufferError, jsbuffers.py:1201-1219
  | jsError           -- JSError, jserror.py:129-227
  | normalizedKey     -- NormalizedKeyError, _errors.py:80-98
  | forwardReference  -- ForwardReferenceError, _references.py:142-147
  deriving DecidableEq, Repr

/-- A base class: one of the package or one of Python. -/
inductive Base where
  | cls (c : Cls)
  | exception | valueError | keyError | referenceError | protocol
  deriving DecidableEq, Repr

/-- The base classes in the `class` statement (the lines given at `Cls`). -/
def Cls.bases : Cls → List Base
  | .v8 => [.exception]
  | .decode => [.cls .v8, .valueError]
  | .unhandledTag => [.cls .decode]
  | .nodeHost => [.cls .decode]
  | .regExp => [.cls .v8]
  | .encode => [.cls .v8, .valueError]
  | .unhandledValue => [.cls .encode, .valueError]
  | .feature => [.cls .encode]
  | .reference => [.cls .v8, .keyError]
  | .notSerialized => [.cls .reference]
  | .idOutOfRange => [.cls .reference]
  | .cyclic => [.cls .reference]
  | .arrayBuffer => [.cls .v8]
  | .byteLength => [.cls .v8, .valueError]
  | .itemSize => [.cls .arrayBuffer, .valueError]
  | .bounds => [.cls .arrayBuffer, .valueError]
  | .jsError => [.protocol, .cls .v8]
  | .normalizedKey => [.keyError]
  | .forwardReference => [.referenceError]

/-- Whether the class has the decorator `@dataclass`, without `frozen` and `unsafe_hash`: it sets `__hash__` to None. -/
def Cls.decorated : Cls → Bool
  | .nodeHost | .regExp | .reference | .forwardReference => false
  | _ => true

/-- `issubclass(a, b)` -/
inductive Cls.Sub : Cls → Base → Prop where
  | self (a : Cls) : Sub a (.cls a)
  | base {a : Cls} {b : Base} : b ∈ a.bases → Sub a b
  | up {a c : Cls} {b : Base} : .cls c ∈ a.bases → Sub c b → Sub a b

/-- `hash(e)` works: no class that `e` is an instance of has set `__hash__` to None. -/
def Cls.Hashable (a : Cls) : Prop := ∀ c, Cls.Sub a (.cls c) → c.decorated = false

/-- The parameters of a function: those that may be given by position, with a default or not; whether there is an
`*args`; and those that can only be given by keyword. -/
structure Sig where
  positional : List (String × Option Val)
  star : Bool
  keyword : List (String × Option Val)

/-- The signatures of the `__init__` methods (the lines given at `Cls`; inherited where the class has none). -/
def Cls.sig : Cls → Sig
  | .v8 | .regExp | .encode | .reference | .arrayBuffer => ⟨[("message", none)], true, []⟩
  | .decode | .nodeHost => ⟨[("message", none)], true, [("position", none), ("data", none)]⟩
  | .unhandledTag => ⟨[("message", none)], true, [("tag", none), ("position", none), ("data", none)]⟩
  | .unhandledValue => ⟨[("message", none)], true, [("value", none)]⟩
  | .feature => ⟨[("message", none)], false, [("feature_required", none)]⟩
  | .notSerialized => ⟨[("message", none)], true, [("obj", none)]⟩
  | .idOutOfRange => ⟨[("message", none), ("serialized_id", none)], false, []⟩
  | .cyclic => ⟨[("message", none), ("serialized_id", none), ("obj", none)], false, []⟩
  | .byteLength => ⟨[("message", none)], false, [("byte_length", none), ("max_byte_length", none)]⟩
  | .itemSize => ⟨[("message", none)], false, [("itemsize", none), ("byte_offset", none), ("byte_length", none)]⟩
  | .bounds => ⟨[("message", none), ("byte_offset", none), ("byte_length", none), ("buffer_byte_length", none)],
      false, []⟩
  | .jsError => ⟨[("message", some .null)], false,
      [("name", some (.str (str "Error"))), ("stack", some .null), ("cause", some .null)]⟩
  | .normalizedKey => ⟨[("normalized_key", none), ("raw_key", none)], false, []⟩
  | .forwardReference => ⟨[("message", none), ("forward_reference", none)], false, []⟩

/-- How Python finds the values of the positional parameters; the second list is what is left over. -/
def bindPositional (kw : List (String × Val)) :
    List (String × Option Val) → List Val → Except PyExc (List Val × List Val)
  | [], pos => .ok ([], pos)
  | (n, _) :: ps, v :: pos =>
    if n ∈ kw.map (·.1) then .error .typeError
    else
      match bindPositional kw ps pos with
      | .error e => .error e
      | .ok (vs, rest) => .ok (v :: vs, rest)
  | (n, d) :: ps, [] =>
    match kw.lookup n, d with
    | none, none => .error .typeError
    | some v, _ | none, some v =>
      match bindPositional kw ps [] with
      | .error e => .error e
      | .ok (vs, rest) => .ok (v :: vs, rest)

/-- How Python finds the values of the parameters that are given by keyword. -/
def bindKeyword (kw : List (String × Val)) : List (String × Option Val) → Except PyExc (List Val)
  | [] => .ok []
  | (n, d) :: ps =>
    match kw.lookup n, d with
    | none, none => .error .typeError
    | some v, _ | none, some v =>
      match bindKeyword kw ps with
      | .error e => .error e
      | .ok vs => .ok (v :: vs)

/-- The values of the positional parameters, of `*args` and of the others in a call; TypeError if the call does not fit.
-/
def Sig.bind (s : Sig) (pos : List Val) (kw : List (String × Val)) :
    Except PyExc (List Val × List Val × List Val) :=
  if kw.any (fun e => !(s.positional ++ s.keyword).any (fun p => p.1 == e.1)) then .error .typeError
  else
    match bindPositional kw s.positional pos with
    | .error e => .error e
    | .ok (vs, rest) =>
      if rest ≠ [] ∧ s.star = false then .error .typeError
      else
        match bindKeyword kw s.keyword with
        | .error e => .error e
        | .ok ks => .ok (vs, rest, ks)

/-- An exception: its class, its `args`, its `__dict__` and its slots (only NormalizedKeyError has any, from
`slots_if310`). -/
structure Err where
  cls : Cls
  args : List Val
  dict : List (String × Val)
  slots : List (String × Val)
  deriving DecidableEq, Repr

/-- Assigning a key of a dict: in place, or at the end. -/
def setKey (n : String) (v : Val) : List (String × Val) → List (String × Val)
  | [] => [(n, v)]
  | e :: t => if e.1 = n then (n, v) :: t else e :: setKey n v t

/-- Calling a class.  `BaseException.__new__` stores the positional arguments as `args`, and `BaseException.__init__`,
which is reached through `super().__init__(…)`, the ones it is given.  `JSError.__init__` calls the `__init__` of the
protocol AnyJSError instead, which does nothing (`typing._no_init_or_replace_init`).  `fmt` is the text of
_errors.py:97.  The last case does not occur: `Sig.bind` gives as many values as there are parameters. -/
def make (fmt : Val → Val → Val) (c : Cls) (pos : List Val) (kw : List (String × Val)) : Except PyExc Err :=
  match c.sig.bind pos kw with
  | .error e => .error e
  | .ok b =>
    match c, b with
    | .v8, ([m], as, []) | .regExp, ([m], as, []) | .encode, ([m], as, []) | .reference, ([m], as, [])
    | .arrayBuffer, ([m], as, []) => .ok ⟨c, m :: as, [], []⟩
    | .decode, ([m], as, [p, d]) | .nodeHost, ([m], as, [p, d]) => .ok ⟨c, m :: as, [("position", p), ("data", d)], []⟩
    | .unhandledTag, ([m], as, [t, p, d]) => .ok ⟨c, m :: t :: as, [("position", p), ("data", d)], []⟩
    | .unhandledValue, ([m], as, [v]) => .ok ⟨c, m :: v :: as, [], []⟩
    | .feature, ([m], [], [f]) => .ok ⟨c, [m], [("feature_required", f)], []⟩
    | .notSerialized, ([m], as, [o]) => .ok ⟨c, m :: as, [("obj", o)], []⟩
    | .idOutOfRange, ([m, i], [], []) => .ok ⟨c, [m], [("serialized_id", i)], []⟩
    | .cyclic, ([m, i, o], [], []) => .ok ⟨c, [m], [("serialized_id", i), ("obj", o)], []⟩
    | .byteLength, ([m], [], [l, x]) => .ok ⟨c, [m], [("byte_length", l), ("max_byte_length", x)], []⟩
    | .itemSize, ([m], [], [i, o, l]) => .ok ⟨c, [m], [("itemsize", i), ("byte_offset", o), ("byte_length", l)], []⟩
    | .bounds, ([m, o, l, b], [], []) =>
      .ok ⟨c, [m], [("byte_offset", o), ("byte_length", l), ("buffer_byte_length", b)], []⟩
    | .jsError, ([m], [], [n, s, x]) =>
      .ok ⟨c, pos, [("name", n), ("_JSError__message", if m = .null then .str [] else m), ("stack", s), ("cause", x)], []⟩
    | .normalizedKey, ([n, r], [], []) => .ok ⟨c, [fmt n r], [], [("normalized_key", n), ("raw_key", r)]⟩
    | .forwardReference, ([m, f], [], []) => .ok ⟨c, [m], [("forward_reference", f)], []⟩
    | _, _ => .error .typeError

/-- The fields that `@dataclass` finds in the class and its base classes, in order. -/
def Cls.fields : Cls → List String
  | .v8 | .regExp | .encode | .reference | .arrayBuffer => ["message"]
  | .decode | .nodeHost => ["message", "position", "data"]
  | .unhandledTag => ["message", "position", "data", "tag"]
  | .unhandledValue => ["message", "value"]
  | .feature => ["message", "feature_required"]
  | .notSerialized => ["message", "obj"]
  | .idOutOfRange => ["message", "serialized_id"]
  | .cyclic => ["message", "serialized_id", "obj"]
  | .byteLength => ["message", "byte_length", "max_byte_length"]
  | .itemSize => ["message", "itemsize", "byte_offset", "byte_length"]
  | .bounds => ["message", "byte_offset", "byte_length", "buffer_byte_length"]
  | .jsError => ["message", "name", "_JSError__message", "stack", "cause"]
  | .normalizedKey => ["normalized_key", "raw_key"]
  | .forwardReference => []

/-- The properties of the classes: the place in `args` that they read, or the attribute.  `message` is in
_errors.py:23-25 and jserror.py:173-176, `tag` in _errors.py:75-77, `value` in encode.py:112-114. -/
inductive Accessor where
  | arg (i : Nat)
  | attr (n : String)
  deriving DecidableEq, Repr

/-- The property of a class with this name, if there is one. -/
def Cls.property : Cls → String → Option Accessor
  | .jsError, "message" => some (.attr "_JSError__message")
  | .normalizedKey, _ => none
  | .forwardReference, _ => none
  | .unhandledTag, "tag" => some (.arg 1)
  | .unhandledValue, "value" => some (.arg 1)
  | _, "message" => some (.arg 0)
  | _, _ => none

/-- Whether the instances have a slot of this name. -/
def Cls.slot : Cls → String → Bool
  | .normalizedKey, n => n == "normalized_key" || n == "raw_key"
  | _, _ => false

/-- `e.n`: a property, a slot, or an attribute in `__dict__`. -/
def Err.get (e : Err) (n : String) : Except PyExc Val :=
  match e.cls.property n with
  | some (.arg i) =>
    match e.args[i]? with
    | some v => .ok v
    | none => .error .indexError
  | some (.attr m) =>
    match e.dict.lookup m with
    | some v => .ok v
    | none => .error .attributeError
  | none =>
    match (if e.cls.slot n then e.slots else e.dict).lookup n with
    | some v => .ok v
    | none => .error .attributeError

/-- `e.n = v`.  Only the property `message` of JSError can be assigned, jserror.py:178-180 (a message is a str or None).
-/
def Err.set (e : Err) (n : String) (v : Val) : Err × Option PyExc :=
  match e.cls.property n with
  | some (.arg _) => (e, some .attributeError)
  | some (.attr m) => ({ e with dict := setKey m (if v = .null then .str [] else v) e.dict }, none)
  | none =>
    if e.cls.slot n then ({ e with slots := setKey n v e.slots }, none)
    else ({ e with dict := setKey n v e.dict }, none)

/-- Several assignments; those that raise change nothing. -/
def Err.setAll (e : Err) : List (String × Val) → Err
  | [] => e
  | (n, v) :: t => (e.set n v).1.setAll t

/-- `copy.copy(e)`, and `pickle.loads(pickle.dumps(e))`: `BaseException.__reduce__` gives the class, `args` and
`__dict__`; the class is called with `args`, and `BaseException.__setstate__` assigns what was in `__dict__`. -/
def Err.copy (fmt : Val → Val → Val) (e : Err) : Except PyExc Err :=
  match make fmt e.cls e.args [] with
  | .error x => .error x
  | .ok y => .ok (y.setAll e.dict)

/-- The values of the fields; an exception if one cannot be read. -/
def Err.readAll (e : Err) : List String → Except PyExc (List Val)
  | [] => .ok []
  | n :: t =>
    match e.get n with
    | .error x => .error x
    | .ok v =>
      match e.readAll t with
      | .error x => .error x
      | .ok r => .ok (v :: r)

/-- `a == b` as `@dataclass` defines it (not for JSError, which has its own, and not for ForwardReferenceError): the
tuples of the fields if the classes are the same; `same` compares two values. -/
def Err.eq (same : Val → Val → Bool) (a b : Err) : Except PyExc Bool :=
  if a.cls = b.cls then
    match a.readAll a.cls.fields with
    | .error x => .error x
    | .ok l =>
      match b.readAll b.cls.fields with
      | .error x => .error x
      | .ok r => .ok (decide (l.length = r.length) && (l.zip r).all (fun e => same e.1 e.2))
  else .ok false

end V8.Errors
