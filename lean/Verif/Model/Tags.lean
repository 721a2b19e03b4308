import Verif.Model.Bytes
/-!
# Tags

`SerializationTag` and the tag constraints of constants.py, and reading a tag.
-/

namespace V8

/-- `SerializationTag` (constants.py 63-199). -/
inductive Tag where
  | kVersion
  | kPadding
  | kVerifyObjectCount
  | kTheHole
  | kUndefined
  | kNull
  | kTrue
  | kFalse
  | kInt32
  | kUint32
  | kDouble
  | kBigInt
  | kUtf8String
  | kOneByteString
  | kTwoByteString
  | kObjectReference
  | kBeginJSObject
  | kEndJSObject
  | kBeginSparseJSArray
  | kEndSparseJSArray
  | kBeginDenseJSArray
  | kEndDenseJSArray
  | kDate
  | kTrueObject
  | kFalseObject
  | kNumberObject
  | kBigIntObject
  | kStringObject
  | kRegExp
  | kBeginJSMap
  | kEndJSMap
  | kBeginJSSet
  | kEndJSSet
  | kArrayBuffer
  | kResizableArrayBuffer
  | kArrayBufferTransfer
  | kArrayBufferView
  | kSharedArrayBuffer
  | kSharedObject
  | kWasmModuleTransfer
  | kHostObject
  | kWasmMemoryTransfer
  | kError
  | kLegacyReservedMessagePort
  | kLegacyReservedBlob
  | kLegacyReservedBlobIndex
  | kLegacyReservedFile
  | kLegacyReservedFileIndex
  | kLegacyReservedDOMFileSystem
  | kLegacyReservedFileList
  | kLegacyReservedFileListIndex
  | kLegacyReservedImageData
  | kLegacyReservedImageBitmap
  | kLegacyReservedImageBitmapTransfer
  | kLegacyReservedOffscreenCanvas
  | kLegacyReservedCryptoKey
  | kLegacyReservedRTCCertificate
  deriving DecidableEq, Repr

/-- The tag's byte (constants.py 77-199). -/
def Tag.byte : Tag → UInt8
  | .kVersion => 0xff
  | .kPadding => 0x00
  | .kVerifyObjectCount => 0x3f
  | .kTheHole => 0x2d
  | .kUndefined => 0x5f
  | .kNull => 0x30
  | .kTrue => 0x54
  | .kFalse => 0x46
  | .kInt32 => 0x49
  | .kUint32 => 0x55
  | .kDouble => 0x4e
  | .kBigInt => 0x5a
  | .kUtf8String => 0x53
  | .kOneByteString => 0x22
  | .kTwoByteString => 0x63
  | .kObjectReference => 0x5e
  | .kBeginJSObject => 0x6f
  | .kEndJSObject => 0x7b
  | .kBeginSparseJSArray => 0x61
  | .kEndSparseJSArray => 0x40
  | .kBeginDenseJSArray => 0x41
  | .kEndDenseJSArray => 0x24
  | .kDate => 0x44
  | .kTrueObject => 0x79
  | .kFalseObject => 0x78
  | .kNumberObject => 0x6e
  | .kBigIntObject => 0x7a
  | .kStringObject => 0x73
  | .kRegExp => 0x52
  | .kBeginJSMap => 0x3b
  | .kEndJSMap => 0x3a
  | .kBeginJSSet => 0x27
  | .kEndJSSet => 0x2c
  | .kArrayBuffer => 0x42
  | .kResizableArrayBuffer => 0x7e
  | .kArrayBufferTransfer => 0x74
  | .kArrayBufferView => 0x56
  | .kSharedArrayBuffer => 0x75
  | .kSharedObject => 0x70
  | .kWasmModuleTransfer => 0x77
  | .kHostObject => 0x5c
  | .kWasmMemoryTransfer => 0x6d
  | .kError => 0x72
  | .kLegacyReservedMessagePort => 0x4d
  | .kLegacyReservedBlob => 0x62
  | .kLegacyReservedBlobIndex => 0x69
  | .kLegacyReservedFile => 0x66
  | .kLegacyReservedFileIndex => 0x65
  | .kLegacyReservedDOMFileSystem => 0x64
  | .kLegacyReservedFileList => 0x6c
  | .kLegacyReservedFileListIndex => 0x4c
  | .kLegacyReservedImageData => 0x23
  | .kLegacyReservedImageBitmap => 0x67
  | .kLegacyReservedImageBitmapTransfer => 0x47
  | .kLegacyReservedOffscreenCanvas => 0x48
  | .kLegacyReservedCryptoKey => 0x4b
  | .kLegacyReservedRTCCertificate => 0x6b

/-- `SerializationTag(value)` / `value in SerializationTag`: the tag with this byte. -/
def Tag.ofByte (b : UInt8) : Option Tag :=
  match b.toNat with
  | 0x00 => some .kPadding
  | 0x22 => some .kOneByteString
  | 0x23 => some .kLegacyReservedImageData
  | 0x24 => some .kEndDenseJSArray
  | 0x27 => some .kBeginJSSet
  | 0x2c => some .kEndJSSet
  | 0x2d => some .kTheHole
  | 0x30 => some .kNull
  | 0x3a => some .kEndJSMap
  | 0x3b => some .kBeginJSMap
  | 0x3f => some .kVerifyObjectCount
  | 0x40 => some .kEndSparseJSArray
  | 0x41 => some .kBeginDenseJSArray
  | 0x42 => some .kArrayBuffer
  | 0x44 => some .kDate
  | 0x46 => some .kFalse
  | 0x47 => some .kLegacyReservedImageBitmapTransfer
  | 0x48 => some .kLegacyReservedOffscreenCanvas
  | 0x49 => some .kInt32
  | 0x4b => some .kLegacyReservedCryptoKey
  | 0x4c => some .kLegacyReservedFileListIndex
  | 0x4d => some .kLegacyReservedMessagePort
  | 0x4e => some .kDouble
  | 0x52 => some .kRegExp
  | 0x53 => some .kUtf8String
  | 0x54 => some .kTrue
  | 0x55 => some .kUint32
  | 0x56 => some .kArrayBufferView
  | 0x5a => some .kBigInt
  | 0x5c => some .kHostObject
  | 0x5e => some .kObjectReference
  | 0x5f => some .kUndefined
  | 0x61 => some .kBeginSparseJSArray
  | 0x62 => some .kLegacyReservedBlob
  | 0x63 => some .kTwoByteString
  | 0x64 => some .kLegacyReservedDOMFileSystem
  | 0x65 => some .kLegacyReservedFileIndex
  | 0x66 => some .kLegacyReservedFile
  | 0x67 => some .kLegacyReservedImageBitmap
  | 0x69 => some .kLegacyReservedBlobIndex
  | 0x6b => some .kLegacyReservedRTCCertificate
  | 0x6c => some .kLegacyReservedFileList
  | 0x6d => some .kWasmMemoryTransfer
  | 0x6e => some .kNumberObject
  | 0x6f => some .kBeginJSObject
  | 0x70 => some .kSharedObject
  | 0x72 => some .kError
  | 0x73 => some .kStringObject
  | 0x74 => some .kArrayBufferTransfer
  | 0x75 => some .kSharedArrayBuffer
  | 0x77 => some .kWasmModuleTransfer
  | 0x78 => some .kFalseObject
  | 0x79 => some .kTrueObject
  | 0x7a => some .kBigIntObject
  | 0x7b => some .kEndJSObject
  | 0x7e => some .kResizableArrayBuffer
  | 0xff => some .kVersion
  | _ => none

/-- A `TagConstraint` (constants.py 649-668): its set of allowed tags. -/
abbrev TagConstraint := List Tag

/-- `JS_OBJECT_KEY_TAGS` (constants.py 682-696) -/
def jsObjectKeyTags : TagConstraint :=
  [.kInt32, .kDouble, .kUint32, .kNumberObject, .kOneByteString, .kTwoByteString, .kUtf8String,
   .kStringObject]

/-- `JS_CONSTANT_TAGS` (constants.py 710-721) -/
def jsConstantTags : TagConstraint := [.kTheHole, .kUndefined, .kNull, .kTrue, .kFalse]

/-- `JS_ARRAY_BUFFER_TAGS` (constants.py 752-762) -/
def jsArrayBufferTags : TagConstraint :=
  [.kArrayBuffer, .kResizableArrayBuffer, .kSharedArrayBuffer, .kArrayBufferTransfer]

/-- `JS_PRIMITIVE_OBJECT_TAGS` (constants.py 772-783) -/
def jsPrimitiveObjectTags : TagConstraint :=
  [.kTrueObject, .kFalseObject, .kNumberObject, .kBigIntObject, .kStringObject]

/-- `JS_STRING_TAGS` (constants.py 792-802) -/
def jsStringTags : TagConstraint := [.kUtf8String, .kOneByteString, .kTwoByteString, .kStringObject]

/-! ## Reading tags -/

/-- `peak_tag` (decode.py 182-197): None at the end of the data or when the byte is
no tag. `eof` is `pos == len(data)`, so beyond the end `data[pos]` raises
IndexError. -/
def peakTag : Rd (Option Tag) := fun d p =>
  if p = d.length then .ok (none, p)
  else match d[p]? with
    | some b => .ok (Tag.ofByte b, p)
    | none => .error (.py .indexError)

/-- The loop of `read_padding` (decode.py 256-261) over the bytes left. -/
def readPaddingLoop : Bytes → Nat → Except DErr (Unit × Nat)
  | [], _ => .error .decode
  | b :: bs, p => if b ≠ 0 then .ok ((), p) else readPaddingLoop bs (p + 1)

/-- `read_padding` (decode.py 256-261). -/
def readPadding : Rd Unit := fun d p => readPaddingLoop (d.drop p) p

/-- The padding branch of `read_tag` (decode.py 227-230). -/
def skipPadding (value : UInt8) : Rd UInt8 :=
  if value = Tag.kPadding.byte then do
    advance 1
    readPadding
    byteHere
  else pure value

/-- `read_tag` (decode.py 210-254). The `tag` argument (None, one tag, or a
constraint) is the predicate of acceptable tags; whichever way the check fails,
the same exception is thrown. `consume=False` leaves the position on the tag. -/
def readTag (accept : Tag → Bool) (consume : Bool := true) : Rd Tag := do
  ensureCapacity 1
  let value ← byteHere
  let value ← skipPadding value
  match Tag.ofByte value with
  | some t =>
    if accept t then do
      advance (if consume then 1 else 0)
      return t
    else throwD
  | none => throwD

/-- `read_tag()` without a wanted tag -/
def readAnyTag : Rd Tag := readTag (fun _ => true)

/-- `read_tag(tag=t)` -/
def readThisTag (t : Tag) : Rd Tag := readTag (· == t)

/-- `read_tag(tag=constraint)` -/
def readTagIn (c : TagConstraint) (consume : Bool := true) : Rd Tag := readTag (c.contains ·) consume

end V8
