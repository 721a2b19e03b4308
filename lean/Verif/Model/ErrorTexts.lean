import Verif.Model.Errors

/-!
# The texts of the exceptions of the package (C90)

Models `V8SerializeError.__str__` (src/v8serialize/_errors.py:27-35), the `__repr__` that `@dataclass` makes (Python 3.11
Lib/dataclasses.py:596-603), and the `__str__` and `__repr__` that NormalizedKeyError and ForwardReferenceError inherit from
KeyError and BaseException (CPython Objects/exceptions.c, `KeyError_str`, `BaseException_str`, `BaseException_repr`).

Simplification: `repr(v)` of a value is given by a function, and so is `format(v)` (the braces without `!r` in an f-string),
which for a str is the str itself.
-/

namespace V8.Errors

/-- `__qualname__` of a class. -/
def Cls.qualname : Cls → String
  | .v8 => "V8SerializeError"
  | .decode => "DecodeV8SerializeError"
  | .unhandledTag => "UnhandledTagDecodeV8SerializeError"
  | .nodeHost => "NodeJsArrayBufferViewHostObjectHandlerDecodeError"
  | .regExp => "JSRegExpV8SerializeError"
  | .encode => "EncodeV8SerializeError"
  | .unhandledValue => "UnhandledValueEncodeV8SerializeError"
  | .feature => "FeatureNotEnabledEncodeV8SerializeError"
  | .reference => "ObjectReferenceV8SerializeError"
  | .notSerialized => "ObjectNotSerializedV8SerializeError"
  | .idOutOfRange => "SerializedIdOutOfRangeV8SerializeError"
  | .cyclic => "IllegalCyclicReferenceV8SerializeError"
  | .arrayBuffer => "JSArrayBufferError"
  | .byteLength => "ByteLengthJSArrayBufferError"
  | .itemSize => "ItemSizeJSArrayBufferError"
  | .bounds => "BoundsJSArrayBufferError"
  | .jsError => "JSError"
  | .normalizedKey => "NormalizedKeyError"
  | .forwardReference => "ForwardReferenceError"

/-- `[(f.name, getattr(self, f.name)) for f in …]` (_errors.py:28-30). -/
def Err.pairs (e : Err) : List String → Except PyExc (List (String × Val))
  | [] => .ok []
  | n :: t =>
    match e.get n with
    | .error x => .error x
    | .ok v =>
      match e.pairs t with
      | .error x => .error x
      | .ok r => .ok ((n, v) :: r)

/-- `", ".join(f"{f}={v!r}" for (f, v) in field_values)` (_errors.py:31). -/
def joinPairs (repr : Val → Str) (l : List (String × Val)) : Str :=
  (str ", ").intercalate (l.map fun p => str p.1 ++ str "=" ++ repr p.2)

/-- What `__str__` may return. -/
def asStr : Val → Except PyExc Str
  | .str s => .ok s
  | _ => .error .typeError

/-- `V8SerializeError.__str__` (_errors.py:27-35). -/
def Err.v8Str (repr format : Val → Str) (e : Err) : Except PyExc Str :=
  match e.pairs (e.cls.fields.filter (fun n => n != "message")) with
  | .error x => .error x
  | .ok l =>
    match e.get "message" with
    | .error x => .error x
    | .ok m => if joinPairs repr l ≠ [] then .ok (format m ++ str ": " ++ joinPairs repr l) else asStr m

/-- `str(e)`.  KeyError shows the `repr()` of a single argument; BaseException its `str()`. -/
def Err.text (repr format : Val → Str) (e : Err) : Except PyExc Str :=
  match e.cls with
  | .normalizedKey =>
    match e.args with
    | [a] => .ok (repr a)
    | _ => .error .typeError       -- does not occur: `_errors.py:96-98` passes one argument
  | .forwardReference =>
    match e.args with
    | [a] => .ok (format a)
    | _ => .error .typeError       -- does not occur: `_references.py:146` passes one argument
  | _ => e.v8Str repr format

/-- `repr(e)` (not for JSError, whose `__repr__` is that of `Model/Repr`). -/
def Err.reprText (repr : Val → Str) (e : Err) : Except PyExc Str :=
  match e.cls with
  | .forwardReference =>
    .ok (str e.cls.qualname ++ str "(" ++ (str ", ").intercalate (e.args.map repr) ++ str ")")
  | _ =>
    match e.pairs e.cls.fields with
    | .error x => .error x
    | .ok l => .ok (str e.cls.qualname ++ str "(" ++ joinPairs repr l ++ str ")")

end V8.Errors
