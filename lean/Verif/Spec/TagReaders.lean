import Verif.Model.TagReaders

/-!
# Specification: which reader a registry has for a tag
-/

namespace V8.Spec

/-- The number of registries made by a history. -/
def registriesMade {F : Type} : List (RegEvent F) → Nat
  | [] => 0
  | .new _ :: h => registriesMade h + 1
  | .reader _ :: h => registriesMade h + 1
  | .register .. :: h => registriesMade h
  | .registerAll .. :: h => registriesMade h

/-- The reader that registry `r` has for a tag, from what happened, the latest event first.  The latest event about
the registry and the tag decides: registering gives the function registered; registering all of another registry, or
creating the registry from another one, gives the reader that the other one had at that time, if it had one; a TagReader
has its own readers for other tags. -/
def readerInEffect {F : Type} (builtin : Tag → Option F) : List (RegEvent F) → Nat → Tag → Option F
  | [], _, _ => none
  | .new entries :: h, r, t =>
    if r = registriesMade h then entries.bind (fun e => readerInEffect builtin h e t)
    else readerInEffect builtin h r t
  | .register r' tags f :: h, r, t =>
    if r = r' ∧ r' < registriesMade h ∧ t ∈ tags then some f else readerInEffect builtin h r t
  | .registerAll r' other :: h, r, t =>
    if r = r' ∧ r' < registriesMade h then (readerInEffect builtin h other t).or (readerInEffect builtin h r t)
    else readerInEffect builtin h r t
  | .reader tagReaders :: h, r, t =>
    if r = registriesMade h then (tagReaders.bind (fun e => readerInEffect builtin h e t)).or (builtin t)
    else readerInEffect builtin h r t

/-- Readers for the given tags that do nothing but raise an exception. -/
def raising (tags : List Tag) (e : DErr) : Registry ReaderFn := tags.map (fun t => (t, fun _ _ => RM.fail e))

/-- A decode step that raises an exception for the given tags and leaves the others to the next step. -/
def raisingStep (tags : List Tag) (e : DErr) : DecStep := fun _ t next => if t ∈ tags then RM.fail e else next t

/-- `loads(data, decode_steps=[step, TagReader()])`; `depth` bounds the nesting. -/
def loadsAfter (env : DEnv) (step : DecStep) (depth : Nat) (data : Bytes) : Except DErr (Val × DS) :=
  match readHeader data 0 with
  | .error e => .error e
  | .ok (version, p) => decodeNext (decodeWith [step, tagReader env] depth) data (DS.start p version)

/-- The tags that `loads` turns into a value when it meets them where a value starts. -/
def valueTags : List Tag :=
  [.kTheHole, .kUndefined, .kNull, .kTrue, .kFalse, .kInt32, .kUint32, .kDouble, .kBigInt, .kUtf8String, .kOneByteString,
   .kTwoByteString, .kObjectReference, .kBeginJSObject, .kBeginSparseJSArray, .kBeginDenseJSArray, .kDate, .kTrueObject,
   .kFalseObject, .kNumberObject, .kBigIntObject, .kStringObject, .kRegExp, .kBeginJSMap, .kBeginJSSet, .kArrayBuffer,
   .kResizableArrayBuffer, .kArrayBufferTransfer, .kSharedArrayBuffer, .kSharedObject, .kHostObject, .kError]

end V8.Spec
