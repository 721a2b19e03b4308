import Verif.Model.Decode
import Verif.Spec.JSCollections

/-!
# Specification: the messages that can be read, and what they mean

A grammar of messages as relations between the bytes in front of the reader, what they stand for, and the
bytes behind it.  There are no positions, no fuel, no exceptions and no monad here: a message is read if and
only if there is a derivation.

Used from the model: the names of the tags (`Tag`, `ErrTag`, `ViewTag`: constants.py) with their bytes; texts
as the encoders of UTF-8, Latin-1 and UTF-16 define them (C08); and, for the properties of an object, the
assignment `obj[key] = value` with the key it is made under (`JSObj.setitem`: C13 and C14; `normaliseKey`:
C22).
-/

namespace V8.Spec.Lang

/-- What has been made so far: the objects, and what the object numbers 0, 1, 2, … of the message stand
for. -/
structure World where
  numbered : List Val
  heap : Heap

/-- Nothing. -/
def World.nothing : World := ⟨[], []⟩

/-- A new object, which gets no number. -/
def World.add (w : World) (n : Node) : World := ⟨w.numbered, w.heap ++ [n]⟩

/-- The next object number. -/
def World.number (w : World) (v : Val) : World := ⟨w.numbered ++ [v], w.heap⟩

/-- The object that is made next. -/
def World.next (w : World) : Val := .obj w.heap.length

/-- A new object with the next object number. -/
def World.make (w : World) (n : Node) : World := (w.add n).number w.next

/-- The contents of an object. -/
def World.fill (w : World) (v : Val) (n : Node) : World :=
  match v with
  | .obj i => ⟨w.numbered, w.heap.set i n⟩
  | _ => w

/-- The first bytes of the left string stand for a value; the right string is what follows them. -/
abbrev Form (α : Type) := Bytes → α → Bytes → Prop

/-- The same when objects are made. -/
abbrev Step (α : Type) := World → Bytes → α → World → Bytes → Prop

/-! ## Numbers, data, texts -/

/-- A number in groups of seven bits, the lowest first; all bytes but the last one have the highest bit set.
There may be leading zeros. -/
inductive Varint : Bytes → Nat → Prop
  | last (b : UInt8) (h : b.toNat < 128) : Varint [b] b.toNat
  | more (b : UInt8) (bs : Bytes) (n : Nat) (h : 128 ≤ b.toNat) (hn : Varint bs n) :
      Varint (b :: bs) (b.toNat - 128 + 128 * n)

/-- A number of any size. -/
def Number : Form Nat := fun i n r => ∃ bs, Varint bs n ∧ i = bs ++ r

/-- A number of 32 bits, in at most five bytes. -/
def Number32 : Form Nat := fun i n r => ∃ bs, Varint bs n ∧ bs.length ≤ 5 ∧ n < 2 ^ 32 ∧ i = bs ++ r

/-- `k` bytes. -/
def Data (k : Nat) : Form Bytes := fun i bs r => bs.length = k ∧ i = bs ++ r

/-- Bytes after their number. -/
def Counted : Form Bytes := fun i bs r => ∃ m, Number i bs.length m ∧ Data bs.length m bs r

/-- A signed number: even numbers stand for 0, 1, 2, …, odd ones for -1, -2, -3, … -/
def Signed32 : Form Int := fun i n r => ∃ u, Number32 i u r ∧ (u = 2 * n ∨ u = -2 * n - 1)

/-- An IEEE double, lowest byte first. -/
def Double : Form F64 := fun i x r => ∃ bs, Data 8 i bs r ∧ x = UInt64.ofNat (fromLE bs)

/-- Sign bit and number of bytes (30 bits of it are used), then the magnitude, lowest byte first. -/
def Big : Form Int := fun i n r => ∃ f m bs, Number i f m ∧ Data (f / 2 % 2 ^ 30) m bs r ∧
  n = if f % 2 = 1 then -(fromLE bs : Int) else (fromLE bs : Int)

/-- A text in UTF-8, … -/
def Utf8 : Form Str := fun i s r => ∃ bs, Counted i bs r ∧ utf8Encode s = some bs

/-- … in Latin-1, … -/
def Latin1 : Form Str := fun i s r => ∃ bs, Counted i bs r ∧ latin1Encode s = some bs

/-- … in UTF-16. -/
def Utf16 : Form Str := fun i s r => ∃ bs, Counted i bs r ∧ utf16Encode s = some bs

/-! ## Tags -/

/-- A tag, after any number of zero bytes. -/
def TagAt : Form Tag := fun i t r => ∃ k, t.byte ≠ 0 ∧ i = List.replicate k 0 ++ t.byte :: r

/-- A value: a tag and what belongs to it.  `R` says what may follow the tags. -/
def Item (R : Tag → Step Val) (ok : Tag → Prop) : Step Val := fun w i v w' r =>
  ∃ t m, TagAt i t m ∧ ok t ∧ R t w m v w' r

/-- Any tag. -/
def anyTag : Tag → Prop := fun _ => True

/-- A text in one of the three encodings, or a wrapped one. -/
def textTag : Tag → Prop := fun t => t ∈ [.kUtf8String, .kOneByteString, .kTwoByteString, .kStringObject]

/-- A number or text, or a wrapped one: what a property key may be. -/
def keyTag : Tag → Prop := fun t => textTag t ∨ t ∈ [.kInt32, .kUint32, .kDouble, .kNumberObject]

/-- Values one after the other. -/
inductive Items (R : Tag → Step Val) : Step (List Val)
  | nil (w : World) (i : Bytes) : Items R w i [] w i
  | cons {w w1 w2 : World} {i m r : Bytes} {v : Val} {vs : List Val} (h : Item R anyTag w i v w1 m)
      (t : Items R w1 m vs w2 r) : Items R w i (v :: vs) w2 r

/-- Pairs of values one after the other; `ok` are the tags that the first ones may have. -/
inductive Entries (R : Tag → Step Val) (ok : Tag → Prop) : Step (List (Val × Val))
  | nil (w : World) (i : Bytes) : Entries R ok w i [] w i
  | cons {w w1 w2 w3 : World} {i m1 m2 r : Bytes} {k v : Val} {es : List (Val × Val)} (hk : Item R ok w i k w1 m1)
      (hv : Item R anyTag w1 m1 v w2 m2) (t : Entries R ok w2 m2 es w3 r) : Entries R ok w i ((k, v) :: es) w3 r

/-- An end tag and a count. -/
def EndAt (t : Tag) (n : Nat) : Bytes → Bytes → Prop := fun i r => ∃ m, TagAt i t m ∧ Number m n r

/-! ## Map, Set -/

/-- The entries of a Map after all pairs have been stored in it. -/
def mapOf (es : List (Val × Val)) : List (Val × Val) := es.foldl (fun l e => mapStore e.1 e.2 l) []

/-- The members of a Set after all values have been added to it. -/
def setOf (vs : List Val) : List Val := vs.foldl (fun l v => setStore v l) []

/-- A Map; the number at its end counts keys and values.  Some ints cannot be keys. -/
def MapBody (R : Tag → Step Val) : Step Val := fun w i v w' r =>
  ∃ es w1 m, Entries R anyTag (w.make (.jsmap [])) i es w1 m ∧ EndAt .kEndJSMap (2 * es.length) m r ∧
    (∀ e ∈ es, ¬ TooBig e.1) ∧ v = w.next ∧ w' = w1.fill w.next (.jsmap (mapOf es))

/-- A Set. -/
def SetBody (R : Tag → Step Val) : Step Val := fun w i v w' r =>
  ∃ vs w1 m, Items R (w.make (.jsset [])) i vs w1 m ∧ EndAt .kEndJSSet vs.length m r ∧
    (∀ x ∈ vs, ¬ TooBig x) ∧ v = w.next ∧ w' = w1.fill w.next (.jsset (setOf vs))

/-! ## Objects, arrays -/

/-- The key that a value is: a number or a text. -/
inductive IsKey : Val → RawKey → Prop
  | int (n : Int) : IsKey (.int n) (.int n)
  | float (x : F64) : IsKey (.float x) (.float x)
  | str (s : Str) : IsKey (.str s) (.str s)

/-- `obj[key] = value` for all pairs, one after the other. -/
inductive Assigned (floatStr : F64 → Str) : JSObj Val → List (Val × Val) → JSObj Val → Prop
  | nil (o : JSObj Val) : Assigned floatStr o [] o
  | cons {o o1 o2 : JSObj Val} {k v : Val} {raw : RawKey} {key : PKey} {es : List (Val × Val)} (hk : IsKey k raw)
      (hn : normaliseKey floatStr raw = .ok key) (hs : o.setitem key v.toElem = (o1, none))
      (t : Assigned floatStr o1 es o2) : Assigned floatStr o ((k, v) :: es) o2

/-- The properties of an object, up to its end tag and their number. -/
def Props (env : DEnv) (R : Tag → Step Val) (fin : Tag) (o : JSObj Val) : Step (JSObj Val) := fun w i o' w' r =>
  ∃ es m, Entries R keyTag w i es w' m ∧ EndAt fin es.length m r ∧ Assigned env.py.floatStr o es o'

/-- An object. -/
def ObjectBody (env : DEnv) (R : Tag → Step Val) : Step Val := fun w i v w' r =>
  ∃ o w1, Props env R .kEndJSObject .empty (w.make (.jsobj .empty)) i o w1 r ∧ v = w.next ∧
    w' = w1.fill w.next (.jsobj o)

/-- Values with the indexes they have from `k` on. -/
def indexed (k : Nat) : List Val → List (Val × Val)
  | [] => []
  | v :: vs => (.int k, v) :: indexed (k + 1) vs

/-- A dense array: length, elements, other properties, and again the length. -/
def DenseBody (env : DEnv) (R : Tag → Step Val) : Step Val := fun w i v w' r =>
  ∃ vs o1 o2 w1 w2 m1 m2 m3, Number i vs.length m1 ∧ Items R (w.make (.jsarr .empty)) m1 vs w1 m2 ∧
    Assigned env.py.floatStr .empty (indexed 0 vs) o1 ∧ Props env R .kEndDenseJSArray o1 w1 m2 o2 w2 m3 ∧
    Number m3 vs.length r ∧ v = w.next ∧ w' = w2.fill w.next (.jsarr o2)

/-- A sparse array: length, properties, and again the length.  The length is set by making the last element
a hole. -/
def SparseBody (env : DEnv) (R : Tag → Step Val) : Step Val := fun w i v w' r =>
  ∃ (n : Nat) (o1 o2 : JSObj Val) (w2 : World) (m1 m3 : Bytes), Number i n m1 ∧
    Assigned env.py.floatStr .empty (if n = 0 then [] else [(.int (n - 1 : Nat), .hole)]) o1 ∧
    Props env R .kEndSparseJSArray o1 (w.make (.jsarr .empty)) m1 o2 w2 m3 ∧
    Number m3 n r ∧ v = w.next ∧ w' = w2.fill w.next (.jsarr o2)

/-! ## Small objects -/

/-- A wrapped primitive: the wrapper is made, but its number stands for the value. -/
def Wrapped (F : Form PrimObj) : Step Val := fun w i v w' r =>
  ∃ p, F i p r ∧ v = p.value ∧ w' = (w.add (.primObj p)).number p.value

/-- A date. -/
def DateBody (env : DEnv) : Step Val := fun w i v w' r =>
  ∃ ms d, Double i ms r ∧ env.py.msDate ms = .ok d ∧ v = w.next ∧ w' = w.make (.date d)

/-- A regular expression: source and flags.  Not all ints are flags, and the flags `u` and `v` exclude each
other.  It is made after its source. -/
def RegExpBody (R : Tag → Step Val) : Step Val := fun w i v w' r =>
  ∃ source flags w1 m, Item R textTag w i (.str source) w1 m ∧ Number m flags r ∧
    flagMember 0b111111111 flags = .ok flags ∧ ¬ (flags.testBit 4 = true ∧ flags.testBit 8 = true) ∧
    v = w1.next ∧ w' = w1.make (.regexp ⟨if source = [] then str "(?:)" else source, flags⟩)

/-- A reference to an object that other threads share. -/
def SharedObject : Step Val := fun w i v w' r =>
  ∃ n, Number32 i n r ∧ v = w.next ∧ w' = w.make (.sharedRef n)

/-! ## Errors -/

/-- A letter: `E` `R` `F` `S` `T` `U` for the kinds, `m` `s` `c` for the fields, `.` for the end. -/
def Letter (t : ErrTag) : Bytes → Bytes → Prop := fun i r => Number i t.code r

/-- The kind of an error, `Error` without a letter. -/
inductive Kind : Form Str
  | error (i : Bytes) : Kind i (str "Error") i
  | eval {i r : Bytes} (h : Letter .evalProto i r) : Kind i (str "EvalError") r
  | range {i r : Bytes} (h : Letter .rangeProto i r) : Kind i (str "RangeError") r
  | reference {i r : Bytes} (h : Letter .referenceProto i r) : Kind i (str "ReferenceError") r
  | syntax {i r : Bytes} (h : Letter .syntaxProto i r) : Kind i (str "SyntaxError") r
  | type {i r : Bytes} (h : Letter .typeProto i r) : Kind i (str "TypeError") r
  | uri {i r : Bytes} (h : Letter .uriProto i r) : Kind i (str "UriError") r

/-- A field that may be missing. -/
inductive Field (R : Tag → Step Val) (ok : Tag → Prop) (letter : ErrTag) : Step (Option Val)
  | missing (w : World) (i : Bytes) : Field R ok letter w i none w i
  | given {w w' : World} {i m r : Bytes} {v : Val} (h : Letter letter i m) (hv : Item R ok w m v w' r) :
      Field R ok letter w i (some v) w' r

/-- The text of a field, if it is one. -/
inductive Text : Option Val → Option Str → Prop
  | missing : Text none none
  | given (s : Str) : Text (some (.str s)) (some s)

/-- An error: kind, message, stack and cause.  The stack may also stand behind the cause, if there is one.
The error is made before its cause. -/
def ErrorBody (R : Tag → Step Val) : Step Val := fun w i v w' r =>
  ∃ name message early cause late m' e' l' w1 w2 w3 w4 i1 i2 i3 i4 i5,
    Kind i name i1 ∧ Field R textTag .message w i1 message w1 i2 ∧ Field R textTag .stack w1 i2 early w2 i3 ∧
    Field R anyTag .cause (w2.make (.error name (some (m'.getD [])) e' .null)) i3 cause w3 i4 ∧
    Field R textTag .stack w3 i4 late w4 i5 ∧ Letter .fin i5 r ∧
    Text message m' ∧ Text early e' ∧ Text late l' ∧ (late ≠ none → early = none ∧ cause ≠ none) ∧
    v = w2.next ∧ w' = w4.fill w2.next (.error name (some (m'.getD [])) (e'.or l') (cause.getD .null))

/-! ## Buffers and views -/

/-- The contents of a buffer: `none` if they are elsewhere (shared or transferred). -/
def contents (h : Heap) (v : Val) : Option Bytes :=
  match v with
  | .obj i => match h[i]? with
    | some (.abuf b) => some (b.data.take b.max)
    | _ => none
  | _ => none

/-- The buffer's size can change. -/
def growable (h : Heap) (v : Val) : Prop := ∃ i b, v = .obj i ∧ h[i]? = some (.abuf b) ∧ b.resizable = true

/-- The value is a buffer. -/
def IsBuffer (h : Heap) (v : Val) : Prop :=
  ∃ i n, v = .obj i ∧ h[i]? = some n ∧ ((∃ b, n = .abuf b) ∨ (∃ k, n = .sharedBuf k) ∨ (∃ k, n = .transferBuf k))

/-- A view of items of `size` bytes from byte `offset` on fits: whole items, within the contents.  Without
a length it reaches to the end, which must be a whole number of items away from the start unless the size can
change. -/
def Fits (size offset : Nat) (length : Option Nat) (h : Heap) (buffer : Val) : Prop :=
  size ∣ offset ∧ (∀ n, length = some n → size ∣ n) ∧
  ∀ b, contents h buffer = some b → offset + length.getD 0 ≤ b.length ∧
    (length = none → growable h buffer ∨ size ∣ b.length)

/-- The flags of a view, from version 14 on. -/
def ViewFlags (version : Nat) : Form Nat := fun i n r =>
  if version ≥ 14 then Number i n r ∧ flagMember 3 n = .ok n else n = 0 ∧ r = i

/-- A view of a buffer: kind, offset, length, flags.  If the first flag is set, the view reaches to the end
of the buffer, whatever the length says. -/
def ViewForm (version : Nat) (buffer : Val) : Step Val := fun w i v w' r =>
  ∃ (kind : ViewTag) (offset length flags : Nat) (m1 m2 m3 m4 : Bytes), i = Tag.kArrayBufferView.byte :: m1 ∧
    Number m1 kind.code m2 ∧ Number32 m2 offset m3 ∧ Number32 m3 length m4 ∧ ViewFlags version m4 flags r ∧
    Fits kind.size offset (if flags % 2 = 1 then none else some length) w.heap buffer ∧
    v = w.next ∧
    w' = w.make (.view buffer ⟨kind, offset / kind.size, if flags % 2 = 1 then none else some (length / kind.size)⟩)

/-- What follows a buffer is a view of it, or something else. -/
inductive ViewOpt (version : Nat) (buffer : Val) : Step Val
  | none (w : World) (i : Bytes) (h : i.head? ≠ some Tag.kArrayBufferView.byte) : ViewOpt version buffer w i buffer w i
  | view {w w' : World} {i r : Bytes} {v : Val} (h : ViewForm version buffer w i v w' r) : ViewOpt version buffer w i v w' r

/-- A buffer of fixed size. -/
def FixedBody (version : Nat) : Step Val := fun w i v w' r =>
  ∃ bs m1 m2, Number32 i bs.length m1 ∧ Data bs.length m1 bs m2 ∧
    ViewOpt version w.next (w.make (.abuf ⟨bs, bs.length, false⟩)) m2 v w' r

/-- A buffer whose size can change, with its greatest size. -/
def ResizableBody (version : Nat) : Step Val := fun w i v w' r =>
  ∃ bs max m1 m2 m3, Number32 i bs.length m1 ∧ Number32 m1 max m2 ∧ bs.length ≤ max ∧ Data bs.length m2 bs m3 ∧
    ViewOpt version w.next (w.make (.abuf ⟨bs, max, true⟩)) m3 v w' r

/-- A shared or transferred buffer: its id.  It gets no number. -/
def ElsewhereBody (version : Nat) (node : Int → Node) : Step Val := fun w i v w' r =>
  ∃ n m, Number32 i n m ∧ ViewOpt version w.next (w.add (node n)) m v w' r

/-- A reference to an object; if it is a buffer, a view of it may follow. -/
def ReferenceBody (version : Nat) : Step Val := fun w i v w' r =>
  ∃ (n : Nat) (m : Bytes) (x : Val), Number i n m ∧ w.numbered[n]? = some x ∧
    ((IsBuffer w.heap x ∧ ViewOpt version x w m v w' r) ∨ (¬ IsBuffer w.heap x ∧ v = x ∧ w' = w ∧ r = m))

/-- The kinds of views that Node.js writes, by their number. -/
def nodeKinds : List ViewTag :=
  [.int8, .uint8, .uint8Clamped, .int16, .uint16, .int32, .uint32, .float32, .float64, .dataView, .uint8, .bigInt64,
   .bigUint64]

/-- A view that Node.js wrote: kind, number of bytes, bytes.  Neither the view nor its buffer get a number. -/
def NodeBody : Step Val := fun w i v w' r =>
  ∃ (code : Nat) (kind : ViewTag) (bs : Bytes) (m1 m2 : Bytes), Number32 i code m1 ∧ nodeKinds[code]? = some kind ∧
    Number32 m1 bs.length m2 ∧ Data bs.length m2 bs r ∧
    v = (w.add (.abuf ⟨bs, bs.length, false⟩)).next ∧
    w' = (w.add (.abuf ⟨bs, bs.length, false⟩)).add (.view w.next ⟨kind, 0, Option.none⟩)

/-! ## Values -/

/-- A form that makes no objects. -/
def Plain {α : Type} (F : Form α) (val : α → Val) : Step Val := fun w i v w' r => ∃ a, F i a r ∧ v = val a ∧ w' = w

/-- No bytes at all. -/
def Nothing : Form Unit := fun i _ r => r = i

/-- A form for the argument of a constructor. -/
def Arg {α : Type} (F : Form α) (con : α → PrimObj) : Form PrimObj := fun i p r => ∃ a, F i a r ∧ p = con a

/-- What may follow each tag, and what it means. -/
def Body (env : DEnv) (version : Nat) (R : Tag → Step Val) : Tag → Step Val
  | .kTheHole => Plain Nothing fun _ => .hole
  | .kUndefined => Plain Nothing fun _ => .undef
  | .kNull => Plain Nothing fun _ => .null
  | .kTrue => Plain Nothing fun _ => .bool true
  | .kFalse => Plain Nothing fun _ => .bool false
  | .kInt32 => Plain Signed32 .int
  | .kUint32 => Plain Number32 fun n => .int n
  | .kDouble => Plain Double .float
  | .kBigInt => Plain Big .int
  | .kUtf8String => Plain Utf8 .str
  | .kOneByteString => Plain Latin1 .str
  | .kTwoByteString => Plain Utf16 .str
  | .kTrueObject => Wrapped (Arg Nothing fun _ => .bool true)
  | .kFalseObject => Wrapped (Arg Nothing fun _ => .bool false)
  | .kNumberObject => Wrapped (Arg Double .float)
  | .kBigIntObject => Wrapped (Arg Big .bigint)
  | .kStringObject => Wrapped (Arg Utf8 .str)
  | .kDate => DateBody env
  | .kRegExp => RegExpBody R
  | .kError => ErrorBody R
  | .kBeginJSMap => MapBody R
  | .kBeginJSSet => SetBody R
  | .kBeginJSObject => ObjectBody env R
  | .kBeginDenseJSArray => DenseBody env R
  | .kBeginSparseJSArray => SparseBody env R
  | .kObjectReference => ReferenceBody version
  | .kArrayBuffer => FixedBody version
  | .kResizableArrayBuffer => ResizableBody version
  | .kSharedArrayBuffer => ElsewhereBody version .sharedBuf
  | .kArrayBufferTransfer => ElsewhereBody version .transferBuf
  | .kSharedObject => SharedObject
  | .kHostObject => if env.nodejs then NodeBody else fun _ _ _ _ _ => False
  | _ => fun _ _ _ _ _ => False

/-- The same for values that are nested less than `n` deep. -/
def BodyAt (env : DEnv) (version : Nat) : Nat → Tag → Step Val
  | 0 => fun _ _ _ _ _ _ => False
  | n + 1 => Body env version (BodyAt env version n)

/-- A message: the header with the version, and a value.  Bytes may follow. -/
def Message (env : DEnv) (data : Bytes) (v : Val) (w : World) : Prop :=
  ∃ version m1 m2 rest depth, TagAt data .kVersion m1 ∧ Number m1 version m2 ∧ 13 ≤ version ∧ version ≤ 15 ∧
    Item (BodyAt env version depth) anyTag .nothing m2 v w rest

end V8.Spec.Lang
