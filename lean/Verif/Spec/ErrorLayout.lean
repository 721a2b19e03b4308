import Verif.Model.Decode

/-!
# Specification: the two layouts of an Error in a message

V8 used to write the stack of an Error behind its cause, and writes it before the cause now.  A text is in
UTF-8, Latin-1 or UTF-16, each with a tag of its own.
-/

namespace V8.Spec

/-- The bytes are an encoding of the text. -/
inductive TextEnc : Bytes → Str → Prop
  | utf8 (s : Str) (bs : Bytes) (h : utf8Encode s = some bs) : TextEnc (0x53 :: (writeVarint bs.length ++ bs)) s
  | latin1 (s : Str) (bs : Bytes) (h : latin1Encode s = some bs) : TextEnc (0x22 :: (writeVarint bs.length ++ bs)) s
  | utf16 (s : Str) (bs : Bytes) (h : utf16Encode s = some bs) : TextEnc (0x63 :: (writeVarint bs.length ++ bs)) s

/-- The bytes are the letter for the name of an error, none for `Error` itself. -/
inductive KindEnc : Bytes → Str → Prop
  | error : KindEnc [] (str "Error")
  | eval : KindEnc [69] (str "EvalError")
  | range : KindEnc [82] (str "RangeError")
  | reference : KindEnc [70] (str "ReferenceError")
  | syntax : KindEnc [83] (str "SyntaxError")
  | type : KindEnc [84] (str "TypeError")
  | uri : KindEnc [85] (str "UriError")

/-- The bytes are the message field, which a decoded error without one has as the empty text. -/
inductive MessageEnc : Bytes → Str → Prop
  | missing : MessageEnc [] []
  | text (b : Bytes) (s : Str) (h : TextEnc b s) : MessageEnc (109 :: b) s

/-- The stack before the cause. -/
def newLayout (kind message stack cause : Bytes) : Bytes :=
  kind ++ message ++ 115 :: (stack ++ 99 :: (cause ++ [46]))

/-- The stack behind the cause. -/
def oldLayout (kind message stack cause : Bytes) : Bytes :=
  kind ++ message ++ 99 :: (cause ++ 115 :: (stack ++ [46]))

end V8.Spec
