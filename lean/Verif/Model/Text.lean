import Verif.Model.Prim
/-!
# Text codecs and string wire forms

Python `str` is a list of code points (`Nat`, below 0x110000). The codecs are
CPython's strict `latin1`, `utf-8` and `utf-16-le` codecs (the standard library is
not part of the repository; these definitions are its specification here).
-/

namespace V8

/-- A Python `str`: its code points. -/
abbrev Str := List Nat

/-- the str of an ASCII Lean string literal -/
def str (s : String) : Str := s.toList.map Char.toNat

def isSurrogate (c : Nat) : Bool := 0xD800 ≤ c && c ≤ 0xDFFF

/-- a code point that Unicode encodings can represent -/
def isScalar (c : Nat) : Bool := c < 0x110000 && !isSurrogate c

/-- a code point a Python str can hold -/
def isCodePoint (c : Nat) : Bool := c < 0x110000

/-! ## latin1 -/

/-- `value.encode("latin1")`; `none` is UnicodeEncodeError. -/
def latin1Encode (s : Str) : Option Bytes :=
  s.mapM fun c => if c < 256 then some (UInt8.ofNat c) else none

/-- `codecs.decode(data, "latin1")` -/
def latin1Decode (bs : Bytes) : Str := bs.map UInt8.toNat

/-! ## UTF-8 -/

/-- the UTF-8 bytes of one code point -/
def utf8Char (c : Nat) : Bytes :=
  if c < 0x80 then [UInt8.ofNat c]
  else if c < 0x800 then [UInt8.ofNat (0xC0 + c / 64), UInt8.ofNat (0x80 + c % 64)]
  else if c < 0x10000 then
    [UInt8.ofNat (0xE0 + c / 4096), UInt8.ofNat (0x80 + c / 64 % 64), UInt8.ofNat (0x80 + c % 64)]
  else
    [UInt8.ofNat (0xF0 + c / 262144), UInt8.ofNat (0x80 + c / 4096 % 64),
     UInt8.ofNat (0x80 + c / 64 % 64), UInt8.ofNat (0x80 + c % 64)]

/-- `value.encode("utf-8")`; `none` is UnicodeEncodeError (surrogates). -/
def utf8Encode : Str → Option Bytes
  | [] => some []
  | c :: s => if isScalar c then (utf8Encode s).map (utf8Char c ++ ·) else none

def isCont (b : UInt8) : Bool := 0x80 ≤ b.toNat && b.toNat ≤ 0xBF

/-- `codecs.decode(data, "utf-8")`; `none` is UnicodeDecodeError: bad start byte,
bad or missing continuation byte, overlong form, surrogate, above 0x10FFFF. -/
def utf8Decode : Bytes → Option Str
  | [] => some []
  | b0 :: r0 =>
    let x := b0.toNat
    if x < 0x80 then (utf8Decode r0).map (x :: ·)
    else if x < 0xC0 then none
    else match r0 with
      | [] => none
      | b1 :: r1 =>
        if !isCont b1 then none
        else if x < 0xE0 then
          let c := (x - 0xC0) * 64 + (b1.toNat - 0x80)
          if c < 0x80 then none else (utf8Decode r1).map (c :: ·)
        else match r1 with
          | [] => none
          | b2 :: r2 =>
            if !isCont b2 then none
            else if x < 0xF0 then
              let c := (x - 0xE0) * 4096 + (b1.toNat - 0x80) * 64 + (b2.toNat - 0x80)
              if c < 0x800 || isSurrogate c then none else (utf8Decode r2).map (c :: ·)
            else match r2 with
              | [] => none
              | b3 :: r3 =>
                if !isCont b3 then none
                else if x < 0xF8 then
                  let c := (x - 0xF0) * 262144 + (b1.toNat - 0x80) * 4096 +
                    (b2.toNat - 0x80) * 64 + (b3.toNat - 0x80)
                  if c < 0x10000 || 0x110000 ≤ c then none else (utf8Decode r3).map (c :: ·)
                else none

/-! ## UTF-16-LE -/

/-- a 16-bit code unit, low byte first -/
def unitLE (u : Nat) : Bytes := [UInt8.ofNat (u % 256), UInt8.ofNat (u / 256)]

/-- the UTF-16-LE bytes of one code point -/
def utf16Char (c : Nat) : Bytes :=
  if c < 0x10000 then unitLE c
  else unitLE (0xD800 + (c - 0x10000) / 1024) ++ unitLE (0xDC00 + (c - 0x10000) % 1024)

/-- `value.encode("utf-16-le")`; `none` is UnicodeEncodeError (surrogates). -/
def utf16Encode : Str → Option Bytes
  | [] => some []
  | c :: s => if isScalar c then (utf16Encode s).map (utf16Char c ++ ·) else none

/-- `codecs.decode(data, "utf-16-le")`; `none` is UnicodeDecodeError: odd length,
lone or swapped surrogates. -/
def utf16Decode : Bytes → Option Str
  | [] => some []
  | [_] => none
  | b0 :: b1 :: r =>
    let u := b0.toNat + 256 * b1.toNat
    if !isSurrogate u then (utf16Decode r).map (u :: ·)
    else if 0xDC00 ≤ u then none
    else match r with
      | b2 :: b3 :: r' =>
        let v := b2.toNat + 256 * b3.toNat
        if 0xDC00 ≤ v && v ≤ 0xDFFF then
          (utf16Decode r').map ((0x10000 + (u - 0xD800) * 1024 + (v - 0xDC00)) :: ·)
        else none
      | _ => none

/-! ## Wire forms (length varint and bytes; the tag is handled by the caller) -/

/-- `write_string_onebyte(value, tag=None)` (encode.py 258-275). -/
def writeStringOneByte (s : Str) : Except EErr Bytes :=
  match latin1Encode s with
  | none => .error (.py .valueError)
  | some bs => .ok (writeVarint bs.length ++ bs)

/-- `write_string_utf8(value, tag=None)` (encode.py 295-311). UnicodeEncodeError is
a subclass of ValueError. -/
def writeStringUtf8 (s : Str) : Except EErr Bytes :=
  match utf8Encode s with
  | none => .error (.py .valueError)
  | some bs => .ok (writeVarint bs.length ++ bs)

/-- `write_string_twobyte(value)` (encode.py 277-293) on a stream holding `pos`
bytes: returns everything that is added behind them. With a tag, a padding byte
(0) is inserted before the tag when the characters would start at an odd offset. -/
def writeStringTwoByte (pos : Nat) (tag : Option UInt8) (s : Str) : Except EErr Bytes :=
  match utf16Encode s with
  | none => .error (.py .valueError)
  | some bs =>
    let head := tag.toList ++ writeVarint bs.length
    let head := if tag.isSome && (pos + head.length) % 2 = 1 then 0 :: head else head
    .ok (head ++ bs)

/-- `read_string_onebyte()` (decode.py 316-326). -/
def readStringOneByte : Rd Str := do
  let length ← readVarint
  ensureCapacity length
  let bs ← readBytes length
  return latin1Decode bs

/-- `read_string_twobyte()` (decode.py 328-338). -/
def readStringTwoByte : Rd Str := do
  let length ← readVarint
  let bs ← readBytes length
  match utf16Decode bs with
  | some s => return s
  | none => throwD

/-- `read_string_utf8()` (decode.py 340-350). -/
def readStringUtf8 : Rd Str := do
  let length ← readVarint
  let bs ← readBytes length
  match utf8Decode bs with
  | some s => return s
  | none => throwD

end V8
