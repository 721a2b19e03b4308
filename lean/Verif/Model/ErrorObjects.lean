import Verif.Model.Text
import Verif.Model.Versions

/-!
# JSError and JSErrorData as Python objects

Models `src/v8serialize/jstypes/jserror.py`: constructors, the `message` property, `from_js_error`,
`builder`, `__eq__` and the comparison methods that `@dataclass` generates, and `V8SerializeError.__str__`
(`src/v8serialize/_errors.py:27-35`) for JSError.

Simplifications.  The `recursive_eq` wrapper is left out here (see `Model/RecursiveEq`): the causes are
values of any type `α` with a function for their `==`, which includes the test for identity that tuples
make.  A subclass of JSError has the `__eq__` of JSError.  Tracebacks are compared by identity and are
given by a number.
-/

namespace V8.ErrorObjects

open V8.Versions (listLt natLt)

/-- The class of an error: JSError (or a subclass) with its `__traceback__`, or JSErrorData or a
subclass of it. -/
inductive Kind where
  | jsError (traceback : Option Nat)
  | data (cls : Nat)
  deriving DecidableEq, Repr

/-- An error object. -/
structure ErrObj (α : Type) where
  id : Nat
  kind : Kind
  name : Str
  message : Option Str
  stack : Option Str
  cause : α
  deriving DecidableEq, Repr

/-- `JSErrorData` itself. -/
def dataClass : Kind := .data 0

/-- `JSError.__init__`, jserror.py:154-169 -/
def newJSError {α : Type} (id : Nat) (name : Str) (message stack : Option Str) (cause : α) : ErrObj α :=
  ⟨id, .jsError none, name, some (message.getD []), stack, cause⟩

/-- `_JSErrorData.__init__`, jserror.py:35-46, of any class derived from JSErrorData. -/
def newData {α : Type} (id cls : Nat) (name : Str) (message stack : Option Str) (cause : α) : ErrObj α :=
  ⟨id, .data cls, name, message, stack, cause⟩

/-- `JSError.from_js_error`, jserror.py:180-188 -/
def fromJSError {α : Type} (id : Nat) (e : ErrObj α) : ErrObj α := newJSError id e.name e.message e.stack e.cause

/-- `JSErrorData.builder`, jserror.py:101-117 -/
def buildData {α : Type} (id cls : Nat) (e : ErrObj α) : ErrObj α := newData id cls e.name e.message e.stack e.cause

/-- What a program can do with a JSError. -/
inductive Op (α : Type) where
  | setMessage (m : Option Str)
  | setName (n : Str)
  | setStack (s : Option Str)
  | setCause (c : α)
  | raised (traceback : Nat)

/-- The effect of one operation on a JSError; the `message` setter is jserror.py:176-178
(`message or ""`). -/
def ErrObj.apply {α : Type} (e : ErrObj α) : Op α → ErrObj α
  | .setMessage m => { e with message := some (m.getD []) }
  | .setName n => { e with name := n }
  | .setStack s => { e with stack := s }
  | .setCause c => { e with cause := c }
  | .raised t => { e with kind := .jsError (some t) }

/-- The comparison of the four fields by tuples, jserror.py:220-225 and `@dataclass`. -/
def fieldsEq {α : Type} (ceq : α → α → Bool) (a b : ErrObj α) : Bool :=
  decide (a.name = b.name) && decide (a.message = b.message) && decide (a.stack = b.stack) && ceq a.cause b.cause

/-- `a.__eq__(b)` by the class of `a`; `none` is NotImplemented.  JSError: jserror.py:211-226 (`isinstance(other,
JSErrorData)` is True for JSErrors too, jserror.py:130).  JSErrorData: `@dataclass(order=True)`, jserror.py:25-26. -/
def eqMethod {α : Type} (ceq : α → α → Bool) (a b : ErrObj α) : Option Bool :=
  match a.kind, b.kind with
  | .jsError t, .jsError u =>
    if a.id = b.id then some true
    else if t ≠ u then some false
    else some (fieldsEq ceq a b)
  | .jsError _, .data _ => if a.id = b.id then some true else some (fieldsEq ceq a b)
  | .data c, .data d => if a.id = b.id then some true else if c = d then some (fieldsEq ceq a b) else none
  | .data _, .jsError _ => if a.id = b.id then some true else none

/-- Python's `a == b`. -/
def errEq {α : Type} (ceq : α → α → Bool) (a b : ErrObj α) : Bool :=
  match eqMethod ceq a b with
  | some r => r
  | none =>
    match eqMethod ceq b a with
    | some r => r
    | none => decide (a.id = b.id)

/-- `<` of two strings or Nones; `none` is TypeError. -/
def optLt : Option Str → Option Str → Except PyExc Bool
  | some a, some b => .ok (listLt natLt a b)
  | _, _ => .error .typeError

/-- `(message, name, stack, cause) < (…)`: the first field that differs decides. -/
def fieldsLt {α : Type} (ceq : α → α → Bool) (clt : α → α → Except PyExc Bool) (a b : ErrObj α) : Except PyExc Bool :=
  if a.message ≠ b.message then optLt a.message b.message
  else if a.name ≠ b.name then .ok (listLt natLt a.name b.name)
  else if a.stack ≠ b.stack then optLt a.stack b.stack
  else if !ceq a.cause b.cause then clt a.cause b.cause
  else .ok false

/-- Python's `a < b`.  `@dataclass(order=True)`, jserror.py:26, for two objects of the same class; JSError has no
such methods, and two classes are NotImplemented on both sides: TypeError. -/
def errLt {α : Type} (ceq : α → α → Bool) (clt : α → α → Except PyExc Bool) (a b : ErrObj α) : Except PyExc Bool :=
  match a.kind, b.kind with
  | .data c, .data d => if c = d then fieldsLt ceq clt a b else .error .typeError
  | _, _ => .error .typeError

/-- `repr()` of a string or None by a function for strings. -/
def optRepr (repr : Str → Str) : Option Str → Str
  | none => str "None"
  | some s => repr s

/-- `str()` of a JSError, _errors.py:27-35: `fields()` are `message`, `name`, `_JSError__message`, `stack` and
`cause`.  `repr` is `repr()` of a string, `crepr` that of a cause. -/
def strOf {α : Type} (repr : Str → Str) (crepr : α → Str) (e : ErrObj α) : Str :=
  e.message.getD [] ++ str ": name=" ++ repr e.name ++ str ", _JSError__message=" ++ optRepr repr e.message ++
    str ", stack=" ++ optRepr repr e.stack ++ str ", cause=" ++ crepr e.cause

end V8.ErrorObjects
