import Verif.Model.Decode

/-!
# Registries of tag readers

Models `TagReaderRegistry` (`src/v8serialize/decode.py:870-913`), the registry of a `TagReader`
(`TagReader.__init__`, `register_tag_readers` and `decode`, decode.py:1191-1240) and decoding with
readers of one's own.

Simplification: a reader is given `decode_object` for nested values and the tag; it reads the stream
and makes objects as the built-in ones do (`RM`).
-/

namespace V8

/-- `TagReaderRegistry._index`, decode.py:878; `F` are the reader functions. -/
abbrev Registry (F : Type) := Dict Tag F

namespace Registry
variable {F : Type}

/-- `register(tag, tag_reader)`, decode.py:889-901: one tag, or those of a TagConstraint (in the order of
`sorted`, which makes no difference to `match`). -/
def register (r : Registry F) : List Tag → F → Registry F
  | [], _ => r
  | t :: ts, f => register (Dict.set r t f) ts f

/-- `register_all(registry)`, decode.py:903-909 -/
def registerAll (r : Registry F) : Registry F → Registry F
  | [] => r
  | (t, f) :: other => registerAll (Dict.set r t f) other

/-- `match(tag)`, decode.py:911-913 -/
def find (r : Registry F) (t : Tag) : Option F := Dict.get r t

end Registry

/-! ## Registries as objects -/

/-- What is done with registries; they are numbered in the order of their creation.
* `new entries`: `TagReaderRegistry(entries)`, decode.py:880-884;
* `register r tags f`, `registerAll r other`: the methods of registry `r`;
* `reader tagReaders`: `TagReader(tag_readers)`, which makes a registry of its own, decode.py:1190-1193. -/
inductive RegEvent (F : Type) where
  | new (entries : Option Nat)
  | register (r : Nat) (tags : List Tag) (f : F)
  | registerAll (r other : Nat)
  | reader (tagReaders : Option Nat)

/-- The entries of a registry that may not be given. -/
def regEntries {F : Type} (s : List (Registry F)) : Option Nat → Registry F
  | none => []
  | some r =>
    match s[r]? with
    | some reg => reg
    | none => []

/-- One event, on the registries that exist; `builtin` are the readers that `register_tag_readers` registers. -/
def regStep {F : Type} (builtin : Registry F) (s : List (Registry F)) : RegEvent F → List (Registry F)
  | .new entries => s ++ [Registry.registerAll [] (regEntries s entries)]
  | .register r tags f =>
    match s[r]? with
    | some reg => s.set r (reg.register tags f)
    | none => s
  | .registerAll r other =>
    match s[r]? with
    | some reg => s.set r (reg.registerAll (regEntries s (some other)))
    | none => s
  | .reader tagReaders =>
    s ++ [Registry.registerAll (Registry.registerAll [] builtin) (regEntries s tagReaders)]

/-- A sequence of events. -/
def regRun {F : Type} (builtin : Registry F) : List (Registry F) → List (RegEvent F) → List (Registry F)
  | s, [] => s
  | s, e :: t => regRun builtin (regStep builtin s e) t

/-! ## Decoding with a registry -/

/-- `TagReaderFn`, decode.py:853-867: `rec` is `ctx.decode_object(tag=..)`. -/
abbrev ReaderFn := (Tag → RM Val) → Tag → RM Val

/-- `read_stream(f)`, decode.py:925-941 -/
def readStream {α : Type} (val : α → Val) (f : Rd α) : ReaderFn := fun _ _ => do
  let x ← RM.lift f
  return val x

/-- `deserialize_constant` with the default constants, decode.py:1182-1188, 1242-1243 -/
def constantReader : ReaderFn := fun _ t =>
  match t with
  | .kTheHole => return .hole
  | .kUndefined => return .undef
  | .kNull => return .null
  | .kTrue => return .bool true
  | .kFalse => return .bool false
  | _ => RM.fail (.py .keyError)

/-- The registrations of `register_tag_readers`, decode.py:1203-1230, in order. -/
def builtinRegistrations (env : DEnv) : List (List Tag × ReaderFn) :=
  [([.kDouble], readStream .float readDouble),
   ([.kOneByteString], readStream .str readStringOneByte),
   ([.kTwoByteString], readStream .str readStringTwoByte),
   ([.kUtf8String], readStream .str readStringUtf8),
   ([.kBigInt], readStream .int readBigint),
   ([.kInt32], readStream .int readInt32),
   ([.kUint32], readStream (fun n : Nat => .int n) readUint32),
   (jsConstantTags, constantReader),
   ([.kRegExp], fun rec _ => decodeRegExp rec),
   ([.kBeginJSMap], fun rec _ => decodeJSMap rec),
   ([.kBeginJSSet], fun rec _ => decodeJSSet rec),
   ([.kObjectReference], fun _ _ => decodeReference),
   ([.kBeginJSObject], fun rec _ => decodeJSObject env rec),
   ([.kBeginDenseJSArray], fun rec _ => decodeDenseArray env rec),
   ([.kBeginSparseJSArray], fun rec _ => decodeSparseArray env rec),
   (jsArrayBufferTags, fun _ t => decodeArrayBuffer t),
   ([.kArrayBufferView], fun _ _ => RM.fail .decode),
   (jsPrimitiveObjectTags, fun _ t => decodePrimObj t),
   ([.kError], fun rec _ => decodeError rec),
   ([.kDate], fun _ _ => decodeDate env),
   ([.kSharedObject], fun _ _ => decodeSharedRef),
   ([.kWasmModuleTransfer], fun _ _ => RM.fail .decode),
   ([.kWasmMemoryTransfer], fun _ _ => RM.fail .decode),
   ([.kHostObject], fun _ _ => decodeHostObject env)]

/-- `register_tag_readers(registry)`, decode.py:1195-1230 -/
def builtinReaders (env : DEnv) : Registry ReaderFn :=
  (builtinRegistrations env).foldl (fun r e => Registry.register r e.1 e.2) []

/-- `TagReader(tag_readers=user).tag_readers`, decode.py:1190-1193 -/
def readerRegistry (env : DEnv) (user : Registry ReaderFn) : Registry ReaderFn :=
  Registry.registerAll (builtinReaders env) user

/-- `TagReader.decode`, decode.py:1234-1240, with a registry. -/
def registryStep (reg : Registry ReaderFn) : DecStep := fun rec t next =>
  match reg.find t with
  | none => next t
  | some f => f rec t

/-- `loads(data, decode_steps=[TagReader(tag_readers=user)])`, decode.py:1480-1504.  `depth` bounds the nesting: readers
of one's own need not consume data. -/
def loadsUsing (env : DEnv) (user : Registry ReaderFn) (depth : Nat) (data : Bytes) : Except DErr (Val × DS) :=
  match readHeader data 0 with
  | .error e => .error e
  | .ok (version, p) => decodeNext (decodeWith [registryStep (readerRegistry env user)] depth) data (DS.start p version)

end V8
