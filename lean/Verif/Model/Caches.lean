import Verif.Model.Decode
import Verif.Model.Versions

/-!
# Cached lookups

Models the functions decorated with `functools.lru_cache` whose cache lives as long as the program:
`ArrayBufferViewStructFormat._missing_` (jsbuffers.py:1108-1115), `NodeBufferFormat._missing_`
(extensions.py:180-187), `JSErrorName.for_error_tag` (constants.py:427-434) and
`SerializationFeature.supported_by` (constants.py:598-633), and `DataFormat.resolve`
(jsbuffers.py:350-382), on which the first depends.

`functools.lru_cache` and `enum` are transcribed from CPython 3.11 as the specification of what the code
calls.
-/

namespace V8.Caches

open V8.Versions

/-- A call of a function decorated with `lru_cache(max)`.  The cache is a list of arguments and results,
the last used first; `eq` compares keys.  Exceptions are not cached. -/
def lruCall {κ β ε : Type} (eq : κ → κ → Bool) (max : Nat) (f : κ → Except ε β) (cache : List (κ × β)) (x : κ) :
    Except ε β × List (κ × β) :=
  match cache.find? (fun e => eq e.1 x) with
  | some e => (.ok e.2, e :: cache.eraseP (fun e => eq e.1 x))
  | none =>
    match f x with
    | .error err => (.error err, cache)
    | .ok v => (.ok v, ((x, v) :: cache).take max)

/-- The results of calls one after the other. -/
def lruRun {κ β ε : Type} (eq : κ → κ → Bool) (max : Nat) (f : κ → Except ε β) : List (κ × β) → List κ → List (Except ε β)
  | _, [] => []
  | cache, x :: xs =>
    let r := lruCall eq max f cache x
    r.1 :: lruRun eq max f r.2 xs

/-! ## Arguments of lookups -/

/-- `DataType`, jsbuffers.py:309-333 -/
inductive DataType where
  | unsignedInt | signedInt | float | bytes
  deriving DecidableEq, Repr

/-- `DataFormat`, jsbuffers.py:336-348 -/
structure DataFormat where
  byteLength : Nat
  dataType : DataType
  format : Nat
  deriving DecidableEq, Repr

/-- An argument of a lookup by a tag of an `IntEnum`: an int, a tag, some other object that equals an int (a
float, a bool, a member of another IntEnum), a DataFormat, or an object that equals only itself. -/
inductive Arg (τ : Type) where
  | int (n : Int)
  | tag (t : τ)
  | num (n : Int)
  | fmt (d : DataFormat)
  | other (k : Nat)
  deriving DecidableEq, Repr

/-- The int that an argument equals. -/
def Arg.number {τ : Type} (code : τ → Nat) : Arg τ → Option Int
  | .int n => some n
  | .tag t => some (code t)
  | .num n => some n
  | _ => none

/-- Python's `a == b`. -/
def Arg.eq {τ : Type} [DecidableEq τ] (code : τ → Nat) (a b : Arg τ) : Bool :=
  match a.number code, b.number code with
  | some n, some m => decide (n = m)
  | none, none => decide (a = b)
  | _, _ => false

/-- Equality of the keys that `lru_cache` makes of one positional argument: an int (exactly of that class) is its own
key, anything else is put in a tuple.  (A string would be its own key too.) -/
def Arg.keyEq {τ : Type} [DecidableEq τ] (code : τ → Nat) (a b : Arg τ) : Bool :=
  match a, b with
  | .int n, .int m => decide (n = m)
  | .int _, _ => false
  | _, .int _ => false
  | a, b => a.eq code b

/-! ## The cached functions -/

/-- `struct_formats`, jsbuffers.py:313-316 -/
def DataType.formats : DataType → Str
  | .unsignedInt => str "BHILQ"
  | .signedInt => str "bhilq"
  | .float => str "efd"
  | .bytes => str "c"

/-- `DataFormat.resolve`, jsbuffers.py:350-382; `calcsize` is `struct.calcsize` of the platform, `none` is
ValueError. -/
def resolve (calcsize : Nat → Nat) (dataType : DataType) (byteLength : Nat) : Option DataFormat :=
  (dataType.formats.find? fun c => calcsize c == byteLength).map fun c => ⟨byteLength, dataType, c⟩

/-- The `data_type` in the `data_format` of the view classes, jsbuffers.py:716-807 and 1049. -/
def dataTypeOf : ViewTag → DataType
  | .int8 | .int16 | .int32 | .bigInt64 => .signedInt
  | .uint8 | .uint8Clamped | .uint16 | .uint32 | .bigUint64 => .unsignedInt
  | .float16 | .float32 | .float64 => .float
  | .dataView => .bytes

/-- `data_format` of a view class; on a platform without such a format (`none`) the module cannot be imported. -/
def formatOf (calcsize : Nat → Nat) (t : ViewTag) : Option DataFormat := resolve calcsize (dataTypeOf t) t.size

/-- `value.view_type.data_format == arg` -/
def hasFormat (calcsize : Nat → Nat) (t : ViewTag) (a : Arg ViewTag) : Bool :=
  match a with
  | .fmt d => decide (formatOf calcsize t = some d)
  | _ => false

/-- `ArrayBufferViewStructFormat._missing_`, jsbuffers.py:1110-1115.  Members are given by their tags; the inner
`none` is the result None, from which `enum` makes a ValueError. -/
def structMissing (calcsize : Nat → Nat) (a : Arg ViewTag) : Except PyExc (Option ViewTag) :=
  .ok (ViewTag.all.find? fun t => decide (a = .tag t) || hasFormat calcsize t a)

/-- `NodeBufferFormat._missing_`, extensions.py:182-187.  Members are given by code and tag. -/
def nodeMissing (a : Arg ViewTag) : Except PyExc (Option (Nat × ViewTag)) :=
  .ok (nodeFormats.find? fun e => (Arg.int e.1).eq ViewTag.code a || decide (a = .tag e.2))

/-- `JSErrorName.for_error_tag`, constants.py:429-434. -/
def errorNameFor (a : Arg ErrTag) : Except PyExc ErrName :=
  .ok (match ErrName.all.find? (fun n =>
      match n.tag with
      | some t => decide (a = .tag t)
      | none => false) with
    | some n => n
    | none => .error)

/-- An argument of `supported_by`. -/
inductive VersionArg where
  | text (s : Str)
  | version (v : Version)
  | unreleased
  deriving DecidableEq, Repr

/-- Equality of these arguments; two Versions are equal if their `_key` is. -/
def VersionArg.keyEq : VersionArg → VersionArg → Bool
  | .text s, .text t => decide (s = t)
  | .version v, .version w => decide (v.key = w.key)
  | .unreleased, .unreleased => true
  | _, _ => false

/-- `SerializationFeature.supported_by` without its cache, constants.py:622-633.  The symbolic version is not before any
version and all first versions are at most it (`Features.supportedBy .unreleased`). -/
def supportedByArg : VersionArg → Except VErr Features
  | .text s => supportedByText s
  | .version v => supportedByVersion v
  | .unreleased =>
    match Features.supportedBy .unreleased with
    | some fs => .ok fs
    | none => .error .lookup

end V8.Caches
