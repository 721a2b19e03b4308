import Verif.Model.Keys
import Verif.Model.Dict

/-!
# Values, same-value-zero keys, JSMap and JSSet

Models `src/v8serialize/jstypes/_equality.py`, `jsmap.py` and `jsset.py`.
-/

namespace V8

/-- Python object identity (`id(obj)`). -/
abbrev Id := Nat

/-- A Python value as the codec sees it.  Immutable scalars are given by value; everything else is
an object with an identity whose content lives in a heap (`Model/Heap.lean`).
Simplifications: subclasses of the scalar types are not distinguished from them, and a JavaScript
BigInt and a JavaScript Number with the same integer value are both `int`, as in the code. -/
inductive Val where
  | hole
  | undef
  | null
  | bool (b : Bool)
  | int (n : Int)
  | float (x : F64)
  | str (s : Str)
  | bytes (b : Bytes)
  | obj (i : Id)
  deriving DecidableEq, Repr

/-- What `same_value_zero` returns, up to Python `==` and `hash`: numbers compare by exact numeric
value (`num s` is the number `s / 2^1074`), bools are wrapped in a tuple, NaN is one shared tuple,
objects (and the JSHole enum member) are wrapped identities. -/
inductive SvzKey where
  | num (scaled : Int)
  | inf (neg : Bool)
  | nan
  | bool (b : Bool)
  | undef
  | null
  | hole
  | str (s : Str)
  | bytes (b : Bytes)
  | obj (i : Id)
  deriving DecidableEq, Repr

/-- The least magnitude of an `int` that `math.isnan` cannot convert to a double. -/
def isnanIntLimit : Nat := 2 ^ 1024 - 2 ^ 970

/-- `same_value_zero`, _equality.py:79-96.  `isnan` on an int too large for a double raises
OverflowError (line 83). -/
def sameValueZero : Val → Except PyExc SvzKey
  | .bool b => .ok (.bool b)
  | .int n => if n.natAbs < isnanIntLimit then .ok (.num (n * 2 ^ 1074)) else .error .overflowError
  | .float x =>
    match fval x with
    | .nan => .ok .nan
    | .inf neg => .ok (.inf neg)
    | .fin s => .ok (.num s)
  | .undef => .ok .undef
  | .null => .ok .null
  | .str s => .ok (.str s)
  | .bytes b => .ok (.bytes b)
  | .hole => .ok .hole
  | .obj i => .ok (.obj i)

/-- A JSMap: `self.__dict`, from same-value-zero keys to (key, value) pairs (jsmap.py:136). -/
abbrev JSMap (β : Type) := Dict SvzKey (Val × β)

namespace JSMap
variable {β : Type}

/-- `__setitem__`, jsmap.py:189-190 -/
def setitem (m : JSMap β) (k : Val) (v : β) : JSMap β × Option PyExc :=
  match sameValueZero k with
  | .error e => (m, some e)
  | .ok key => (Dict.set m key (k, v), none)

/-- `__delitem__`, jsmap.py:192-193 -/
def delitem (m : JSMap β) (k : Val) : JSMap β × Option PyExc :=
  match sameValueZero k with
  | .error e => (m, some e)
  | .ok key =>
    match Dict.get m key with
    | none => (m, some .keyError)
    | some _ => (Dict.del m key, none)

/-- `__getitem__`, jsmap.py:195-196 -/
def getitem (m : JSMap β) (k : Val) : Except PyExc β :=
  match sameValueZero k with
  | .error e => .error e
  | .ok key =>
    match Dict.get m key with
    | none => .error .keyError
    | some p => .ok p.2

/-- `get(key, default)`, jsmap.py:281-282 -/
def getDefault (m : JSMap β) (k : Val) (default : β) : Except PyExc β :=
  match sameValueZero k with
  | .error e => .error e
  | .ok key =>
    match Dict.get m key with
    | none => .ok default
    | some p => .ok p.2

/-- `items()`: the stored pairs in dict order; jsmap.py:198-199 and `ItemsView` of `collections.abc` -/
def items (m : JSMap β) : List (Val × β) := m.map (·.2)

/-- `__len__`, jsmap.py:201-202 -/
def len (m : JSMap β) : Nat := m.length

/-- `update(iterable)`, jsmap.py:259-273: entries before a failing one stay stored. -/
def update (m : JSMap β) : List (Val × β) → JSMap β × Option PyExc
  | [] => (m, none)
  | (k, v) :: t =>
    match setitem m k v with
    | (m', some e) => (m', some e)
    | (m', none) => update m' t

end JSMap

/-- A JSSet: `self.__members`, from same-value-zero keys to members (jsset.py:115). -/
abbrev JSSet := Dict SvzKey Val

namespace JSSet

/-- `add`, jsset.py:128-129 -/
def add (s : JSSet) (v : Val) : JSSet × Option PyExc :=
  match sameValueZero v with
  | .error e => (s, some e)
  | .ok key => (Dict.set s key v, none)

/-- `discard`, jsset.py:131-134 -/
def discard (s : JSSet) (v : Val) : JSSet × Option PyExc :=
  match sameValueZero v with
  | .error e => (s, some e)
  | .ok key =>
    match Dict.get s key with
    | none => (s, none)
    | some _ => (Dict.del s key, none)

/-- `__contains__`, jsset.py:136-137 -/
def contains (s : JSSet) (v : Val) : Except PyExc Bool :=
  match sameValueZero v with
  | .error e => .error e
  | .ok key => .ok (Dict.get s key).isSome

/-- `__iter__`, jsset.py:166-167 -/
def members (s : JSSet) : List Val := s.map (·.2)

/-- `__len__`, jsset.py:169-170 -/
def len (s : JSSet) : Nat := s.length

/-- `__ior__(iterable)`, jsset.py:179-181 -/
def ior (s : JSSet) : List Val → JSSet × Option PyExc
  | [] => (s, none)
  | v :: t =>
    match add s v with
    | (s', some e) => (s', some e)
    | (s', none) => ior s' t

end JSSet
end V8
