import Verif.Model.Encode

/-!
# Specification: well-formed messages

The grammar of the values in a message, in terms of bytes.  `fs` are the features that the message may
use.  Numbers, lengths and counts are varints (`writeVarint`, characterised by C01 and C02), texts are
UTF-8 or Latin-1 (`utf8Encode` and `latin1Encode`, characterised by C08).
-/

namespace V8.Spec

/-- A text with its length in bytes. -/
inductive WireText : Bytes → Prop
  | mk (s : Str) (bs : Bytes) (h : utf8Encode s = some bs) : WireText (writeVarint bs.length ++ bs)

/-- What may be the key of a property: a number or a string. -/
inductive WireKey : Bytes → Prop
  | int32 (n : Nat) : WireKey (0x49 :: writeVarint n)
  | uint32 (n : Nat) (h : n < 2 ^ 32) : WireKey (0x55 :: writeVarint n)
  | double (bs : Bytes) (h : bs.length = 8) : WireKey (0x4e :: bs)
  | utf8 (text : Bytes) (h : WireText text) : WireKey (0x53 :: text)
  | latin1 (s : Str) (bs : Bytes) (h : latin1Encode s = some bs) : WireKey (0x22 :: (writeVarint bs.length ++ bs))

/-- A sign and length, and the magnitude of a BigInt. -/
inductive WireBig : Bytes → Prop
  | mk (sign : Nat) (bs : Bytes) (h : sign ≤ 1) : WireBig (writeVarint (2 * bs.length + sign) ++ bs)

/-- The letter and the text of a field of an Error, if there is one. -/
inductive WireField (letter : Nat) : Bytes → Prop
  | none : WireField letter []
  | some (text : Bytes) (h : WireText text) : WireField letter (writeVarint letter ++ 0x53 :: text)

/-- The letter for the kind of an Error, if there is one. -/
inductive WireKind : Bytes → Prop
  | none : WireKind []
  | some (letter : Nat) (h : letter ∈ [69, 82, 70, 83, 84, 85]) : WireKind (writeVarint letter)

/-- One value. -/
inductive Wire (fs : Features) : Bytes → Prop
  /-- hole, undefined, null, true, false -/
  | constant (c : UInt8) (h : c ∈ [0x2d, 0x5f, 0x30, 0x54, 0x46]) : Wire fs [c]
  | primitive (b : Bytes) (h : WireKey b) : Wire fs b
  | bigint (b : Bytes) (h : WireBig b) : Wire fs (0x5a :: b)
  | reference (n : Nat) : Wire fs (0x5e :: writeVarint n)
  | date (bs : Bytes) (h : bs.length = 8) : Wire fs (0x44 :: bs)
  | trueObject : Wire fs [0x79]
  | falseObject : Wire fs [0x78]
  | numberObject (bs : Bytes) (h : bs.length = 8) : Wire fs (0x6e :: bs)
  | bigintObject (b : Bytes) (h : WireBig b) : Wire fs (0x7a :: b)
  | stringObject (text : Bytes) (h : WireText text) : Wire fs (0x73 :: text)
  | regexp (text : Bytes) (h : WireText text) (flags : Nat) (hf : flags < 2 ^ 9) :
      Wire fs (0x52 :: 0x53 :: (text ++ writeVarint flags))
  | error (kind message stack : Bytes) (hk : WireKind kind) (hm : WireField 109 message) (hs : WireField 115 stack) :
      Wire fs (0x72 :: (kind ++ message ++ stack ++ [46]))
  | errorCause (kind message stack cause : Bytes) (hk : WireKind kind) (hm : WireField 109 message)
      (hs : WireField 115 stack) (hc : Wire fs cause) : Wire fs (0x72 :: (kind ++ message ++ stack ++ 99 :: (cause ++ [46])))
  | map (es : List (Bytes × Bytes)) (hk : ∀ e ∈ es, Wire fs e.1) (hv : ∀ e ∈ es, Wire fs e.2) :
      Wire fs (0x3b :: (es.flatMap (fun e => e.1 ++ e.2) ++ 0x3a :: writeVarint (2 * es.length)))
  | set (ms : List Bytes) (h : ∀ m ∈ ms, Wire fs m) : Wire fs (0x27 :: (ms.flatten ++ 0x2c :: writeVarint ms.length))
  | object (ps : List (Bytes × Bytes)) (hk : ∀ p ∈ ps, WireKey p.1) (hv : ∀ p ∈ ps, Wire fs p.2) :
      Wire fs (0x6f :: (ps.flatMap (fun e => e.1 ++ e.2) ++ 0x7b :: writeVarint ps.length))
  | dense (els : List Bytes) (h : ∀ e ∈ els, Wire fs e) (ps : List (Bytes × Bytes)) (hk : ∀ p ∈ ps, WireKey p.1)
      (hv : ∀ p ∈ ps, Wire fs p.2) :
      Wire fs (0x41 :: (writeVarint els.length ++ els.flatten ++ ps.flatMap (fun e => e.1 ++ e.2) ++
        0x24 :: (writeVarint ps.length ++ writeVarint els.length)))
  | sparse (length : Nat) (hl : length < 2 ^ 32) (ps : List (Bytes × Bytes)) (hk : ∀ p ∈ ps, WireKey p.1)
      (hv : ∀ p ∈ ps, Wire fs p.2) :
      Wire fs (0x61 :: (writeVarint length ++ ps.flatMap (fun e => e.1 ++ e.2) ++
        0x40 :: (writeVarint ps.length ++ writeVarint length)))
  | buffer (data : Bytes) (h : data.length < 2 ^ 32) : Wire fs (0x42 :: (writeVarint data.length ++ data))
  | resizable (hf : fs.resizableArrayBuffers = true) (max : Nat) (hm : max < 2 ^ 32) (data : Bytes) (h : data.length ≤ max) :
      Wire fs (0x7e :: (writeVarint data.length ++ writeVarint max ++ data))
  | shared (n : Nat) : Wire fs (0x75 :: writeVarint n)
  | transfer (n : Nat) : Wire fs (0x74 :: writeVarint n)
  /-- A buffer (or a reference to one) and a view of it; 104 is the letter of Float16Array. -/
  | view (buffer : Bytes) (hb : Wire fs buffer) (kind : Nat) (hf : kind = 104 → fs.float16Array = true)
      (offset length flags : Nat) (hfl : flags < 4) :
      Wire fs (buffer ++ 0x56 :: (writeVarint kind ++ writeVarint offset ++ writeVarint length ++ writeVarint flags))
  | sharedObject (n : Nat) (h : n < 2 ^ 32) : Wire fs (0x70 :: writeVarint n)

end V8.Spec
