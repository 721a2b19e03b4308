import Verif.Model.Text

/-!
# Versions, features, RegExp flags, error names, `loads` options and the step chain

Models parts of `src/v8serialize/constants.py`, `encode.py`, `decode.py` and
`jstypes/jsregexp.py`.
-/

namespace V8

/-- A V8 version: the release numbers of a `packaging.version.Version`, or
`SymbolicVersion.Unreleased` (constants.py:437-450).
Simplification: versions of any other form and version texts are in `Model/Versions`, which agrees
with this model on release numbers (`C71_release`). -/
inductive Ver where
  | rel (parts : List Nat)
  | unreleased
  deriving DecidableEq, Repr

/-- `packaging` drops trailing zero components before comparing releases. -/
def stripZeros : List Nat → List Nat
  | [] => []
  | a :: t =>
    match stripZeros t with
    | [] => if a = 0 then [] else [a]
    | b :: u => a :: b :: u

/-- Python's `<` on tuples of ints. -/
def tupleLt : List Nat → List Nat → Bool
  | _, [] => false
  | [], _ :: _ => true
  | a :: t, b :: u => if a = b then tupleLt t u else decide (a < b)

/-- `a < b`: `Version.__lt__`, and constants.py:443-448 for `Unreleased` (greater than every
version; not less than itself). -/
def Ver.lt : Ver → Ver → Bool
  | .rel a, .rel b => tupleLt (stripZeros a) (stripZeros b)
  | .rel _, .unreleased => true
  | .unreleased, _ => false

/-- `a <= b`: `Version.__le__`, and `functools.total_ordering`'s `self < other or self == other`
(or, reflected, `not (other < self)`) for `Unreleased`. -/
def Ver.le : Ver → Ver → Bool
  | .rel a, .rel b => !tupleLt (stripZeros b) (stripZeros a)
  | .rel _, .unreleased => true
  | .unreleased, .rel _ => false
  | .unreleased, .unreleased => true

/-- The optional features, constants.py:488-560. -/
inductive Feature where
  | regExpUnicodeSets
  | resizableArrayBuffers
  | circularErrorCause
  | float16Array
  deriving DecidableEq, Repr

/-- Iteration order of the flag class. -/
def Feature.all : List Feature :=
  [.regExpUnicodeSets, .resizableArrayBuffers, .circularErrorCause, .float16Array]

/-- `first_v8_version`, constants.py:494-550 -/
def Feature.first : Feature → Ver
  | .regExpUnicodeSets => .rel [10, 7, 123]
  | .resizableArrayBuffers => .rel [11, 0, 193]
  | .circularErrorCause => .rel [12, 1, 109]
  | .float16Array => .unreleased

/-- `MaxCompatibility.first_v8_version`, constants.py:488 -/
def maxCompatVersion : Ver := .rel [10, 0, 29]

/-- A value of the flag type `SerializationFeature`: the set of features whose bit is set. -/
structure Features where
  regExpUnicodeSets : Bool
  resizableArrayBuffers : Bool
  circularErrorCause : Bool
  float16Array : Bool
  deriving DecidableEq, Repr

namespace Features

/-- `MaxCompatibility`: no features. -/
def none : Features := ⟨false, false, false, false⟩

/-- `feature in features`. -/
def has (fs : Features) : Feature → Bool
  | .regExpUnicodeSets => fs.regExpUnicodeSets
  | .resizableArrayBuffers => fs.resizableArrayBuffers
  | .circularErrorCause => fs.circularErrorCause
  | .float16Array => fs.float16Array

/-- `features | feature`. -/
def add (fs : Features) : Feature → Features
  | .regExpUnicodeSets => { fs with regExpUnicodeSets := true }
  | .resizableArrayBuffers => { fs with resizableArrayBuffers := true }
  | .circularErrorCause => { fs with circularErrorCause := true }
  | .float16Array => { fs with float16Array := true }

/-- `a | b`. -/
def union (a b : Features) : Features :=
  ⟨a.regExpUnicodeSets || b.regExpUnicodeSets, a.resizableArrayBuffers || b.resizableArrayBuffers,
   a.circularErrorCause || b.circularErrorCause, a.float16Array || b.float16Array⟩

/-- The loop of `supported_by`, constants.py:629-632 -/
def collect (v : Ver) : List Feature → Features → Features
  | [], fs => fs
  | f :: t, fs => collect v t (if f.first.le v then fs.add f else fs)

/-- `SerializationFeature.supported_by`, constants.py:598-633.  `none` is the LookupError. -/
def supportedBy (v : Ver) : Option Features :=
  if v.lt maxCompatVersion then Option.none
  else some (collect v Feature.all none)

end Features

/-- `Encoder.__init__`, encode.py:1164-1180: the features an encoder ends up with.
`none` is the LookupError of an old version. -/
def encoderFeatures (features : Option Features) (v8Version : Option Ver) : Option Features :=
  let base := features.elim Features.none id
  match v8Version with
  | Option.none => some base
  | some v => (Features.supportedBy v).map base.union

/-- Python's `max` of versions: keeps the first of equal ones. -/
def maxVer : Ver → List Ver → Ver
  | m, [] => m
  | m, v :: t => maxVer (if m.lt v then v else m) t

/-- `Encoder.first_v8_version`, encode.py:1182-1185.  `max()` of no versions is a ValueError. -/
def firstV8Version (fs : Features) : Except PyExc Ver :=
  match (Feature.all.filter fs.has).map Feature.first with
  | [] => .error .valueError
  | v :: t => .ok (maxVer v t)

/-! ## RegExp -/

/-- A `JSRegExp`, jstypes/jsregexp.py:15-35.  Flags are non-negative ints. -/
structure RegExp where
  source : Str
  flags : Nat
  deriving DecidableEq, Repr

/-- Bit of the `u` flag, constants.py:261 -/
def flagUnicode : Nat := 4
/-- Bit of the `v` flag, constants.py:262 -/
def flagUnicodeSets : Nat := 8

/-- `JSRegExp(source, JSRegExpFlag(flags))`: `JSRegExp.__post_init__`, jstypes/jsregexp.py:34-45, with
flags made from an int (decode.py:411). -/
def mkRegExp (source : Str) (flags : Nat) : Except PyExc RegExp :=
  if flagMember 0b111111111 flags ≠ .ok flags then .error .valueError
  else if flags.testBit flagUnicode && flags.testBit flagUnicodeSets then .error .valueError
  else .ok ⟨if source = [] then str "(?:)" else source, flags⟩

/-- `JSRegExpFlag.canonical`, constants.py:308-311 -/
def canonicalFlags (flags : Nat) : Nat := flags &&& 0b111111111

/-! ## Error names -/

/-- `SerializationErrorTag`, constants.py:352-380 -/
inductive ErrTag where
  | evalProto | rangeProto | referenceProto | syntaxProto | typeProto | uriProto
  | message | cause | stack | fin
  deriving DecidableEq, Repr

/-- The code of an error tag (`ord` of its letter). -/
def ErrTag.code : ErrTag → Nat
  | .evalProto => 69
  | .rangeProto => 82
  | .referenceProto => 70
  | .syntaxProto => 83
  | .typeProto => 84
  | .uriProto => 85
  | .message => 109
  | .cause => 99
  | .stack => 115
  | .fin => 46

/-- All error tags. -/
def ErrTag.all : List ErrTag :=
  [.evalProto, .rangeProto, .referenceProto, .syntaxProto, .typeProto, .uriProto,
   .message, .cause, .stack, .fin]

/-- `SerializationErrorTag(code)` when `code in SerializationErrorTag`. -/
def ErrTag.ofCode (c : Nat) : Option ErrTag := ErrTag.all.find? (fun t => t.code == c)

/-- `JSErrorName`, constants.py:383-396 -/
inductive ErrName where
  | evalError | rangeError | referenceError | syntaxError | typeError | uriError | error
  deriving DecidableEq, Repr

/-- Definition order of the enum. -/
def ErrName.all : List ErrName :=
  [.evalError, .rangeError, .referenceError, .syntaxError, .typeError, .uriError, .error]

/-- The value of the member (it is a `str`). -/
def ErrName.value : ErrName → Str
  | .evalError => str "EvalError"
  | .rangeError => str "RangeError"
  | .referenceError => str "ReferenceError"
  | .syntaxError => str "SyntaxError"
  | .typeError => str "TypeError"
  | .uriError => str "UriError"
  | .error => str "Error"

/-- `error_tag`, constants.py:386-392, 404-407 -/
def ErrName.tag : ErrName → Option ErrTag
  | .evalError => some .evalProto
  | .rangeError => some .rangeProto
  | .referenceError => some .referenceProto
  | .syntaxError => some .syntaxProto
  | .typeError => some .typeProto
  | .uriError => some .uriProto
  | .error => none

/-- `JSErrorName.for_error_name`, constants.py:410-425 -/
def ErrName.forName (s : Str) : ErrName :=
  match ErrName.all.find? (fun n => n.value == s) with
  | some n => n
  | none => .error

/-- `JSErrorName.for_error_tag`, constants.py:427-434 -/
def ErrName.forTag (t : ErrTag) : ErrName :=
  match ErrName.all.find? (fun n => n.tag == some t) with
  | some n => n
  | none => .error

/-! ## `loads` options -/

/-- Which options of `loads` are set; `nodejs` is the value given.  `others`: any of jsmap_type,
jsset_type, js_object_type, js_array_type, js_constants, js_error_builder, default_timezone
is not None. -/
structure LoadsOpts where
  decodeSteps : Bool
  nodejs : Option Bool
  jsmapType : Bool
  jssetType : Bool
  jsObjectType : Bool
  jsArrayType : Bool
  jsConstants : Bool
  hostObjectDeserializer : Bool
  jsErrorBuilder : Bool
  defaultTimezone : Bool
  deriving DecidableEq, Repr

/-- What reads host objects. -/
inductive HostHandler where
  | none | nodejs | custom
  deriving DecidableEq, Repr

/-- What `loads` decodes with. -/
inductive LoadsPlan where
  | steps
  | tagReader (host : HostHandler)
  deriving DecidableEq, Repr

/-- The option checks of `loads`, decode.py:1662-1701 -/
def loadsPlan (o : LoadsOpts) : Except PyExc LoadsPlan :=
  if o.decodeSteps then
    if !(o.nodejs.isNone && !o.jsmapType && !o.jssetType && !o.jsObjectType && !o.jsArrayType
        && !o.jsConstants && !o.hostObjectDeserializer && !o.jsErrorBuilder
        && !o.defaultTimezone) then .error .typeError
    else .ok .steps
  else if o.nodejs = some true && o.hostObjectDeserializer then .error .typeError
  else if !o.hostObjectDeserializer && (o.nodejs = some true || o.nodejs.isNone) then
    .ok (.tagReader .nodejs)
  else .ok (.tagReader (if o.hostObjectDeserializer then .custom else .none))

/-! ## Step chain -/

/-- `__encode_object_with_step` / `__decode_tag_with_step`, encode.py:817-826 and
decode.py:1074-1083: step `i` gets the value and a `next` that runs the chain from `i + 1`; past the
last step the unhandled error is raised.  `α` is the value (or tag), `ρ` the (stateful, possibly
failing) outcome.  A step is a function of the value and of `next`.  `encode_object` /
`decode_object` run the chain from step 0 (encode.py:834, decode.py:1088). -/
def chainFrom {α ρ : Type} (unhandled : α → ρ) (steps : List (α → (α → ρ) → ρ)) (i : Nat) (a : α) : ρ :=
  if h : i < steps.length then steps[i] a (fun b => chainFrom unhandled steps (i + 1) b)
  else unhandled a
termination_by steps.length - i

end V8
