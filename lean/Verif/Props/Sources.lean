import Verif.Proofs.Sources

/-!
# The kinds of binary data that `loads` takes (C93)

What `loads` returns should depend on the bytes of the data only.  It does for data of unsigned bytes; arrays and memoryviews
of other item types are read item by item.
-/

namespace V8.Props

open V8 V8.Source V8.Spec.Sources

/-- The numbers of an array with two unsigned bytes for each item: `array("H", numbers)`. -/
def exampleShorts (l : List Nat) : Src := ⟨false, true, l.map (toLE 2)⟩

/-- **C93** (partial: unsigned bytes next to each other)  Data of this kind is like the bytes object with the same bytes, and
every reader does with it what it does with the bytes: the same result, position and exception.  Missing: other item types and
spaced items, for which it is false (`C93_signed`, `C93_wide_accepted`, `C93_wide_double`, `C93_strided_fails`). -/
theorem C93_bytes_partial (s : Src) (h : ByteLike s) :
    s = ofBytes (bytesOf s) ∧
      (∀ accept consume, Same s (Source.readTag accept consume) (V8.readTag accept consume)) ∧
      (∀ m, Same s (Source.readVarint m) (V8.readVarint m)) ∧ Same s Source.readHeader V8.readHeader ∧
      Same s Source.readInt32 V8.readInt32 ∧ Same s Source.readUint32 V8.readUint32 ∧ Same s Source.readDouble V8.readDouble ∧
      Same s Source.readStringOneByte V8.readStringOneByte ∧ Same s Source.readStringTwoByte V8.readStringTwoByte ∧
      Same s Source.readStringUtf8 V8.readStringUtf8 ∧ Same s Source.readBigint V8.readBigint ∧ Same s readBuffer bytesBuffer := by
  have hi := h.1
  have ho := onePerItem_of_byteItems hi
  have hd : false = true ∨ s.dense = true := .inr h.2
  refine ⟨?_, fun _ _ p => (Rel.tag ho _ _).same p, fun _ p => (Rel.varint ho _).same p, fun p => (Rel.header ho).same p,
    fun p => (Rel.int32 ho).same p, fun p => (Rel.uint32 ho).same p, fun p => (Rel.double hi hd).same p,
    fun p => (Rel.oneByte hi hd).same p, fun p => (Rel.twoByte hi hd).same p, fun p => (Rel.utf8 hi hd).same p,
    fun p => (Rel.bigint hi).same p, fun p => (Rel.buffer hi).same p⟩
  have hc := cells_eq hi
  have hs := h.1.1
  have he := h.2
  calc s = ⟨s.signed, s.dense, s.cells⟩ := rfl
    _ = ofBytes (bytesOf s) := by rw [hs, he, hc]; rfl

example : ByteLike (ofBytes [0xFF, 0x0F, 0x22, 2, 0x68, 0x69]) ∧
    Source.readStringOneByte (ofBytes [0xFF, 0x0F, 0x22, 2, 0x68, 0x69]) 3 = .ok ([0x68, 0x69], 6) := by
  refine ⟨⟨⟨rfl, by decide⟩, rfl⟩, by decide +kernel⟩

/-- **C93**  Which data the stream gets.  Objects of a type that `is_readable_binary` does not know are read by their bytes,
whatever their items are, if these lie next to each other; objects of a known type are taken as they are. -/
theorem C93_stream (d : Data) :
    (d.readable = true → stream d = .ok d.src) ∧
      (d.readable = false → d.src.dense = true → ∃ s, stream d = .ok s ∧ ByteLike s ∧ bytesOf s = bytesOf d.src) := by
  constructor
  · intro h
    unfold stream
    rw [if_pos h]
  · intro h hd
    unfold stream
    rw [if_neg (by rw [h]; decide)]
    by_cases hb : (!d.src.signed && d.src.cells.all (·.length == 1)) = true
    · rw [if_pos hb]
      simp only [Bool.and_eq_true, Bool.not_eq_true', List.all_eq_true, beq_iff_eq] at hb
      exact ⟨_, rfl, ⟨⟨hb.1, hb.2⟩, hd⟩, rfl⟩
    · rw [if_neg hb, if_pos (by rw [hd]; rfl)]
      refine ⟨_, rfl, ⟨⟨rfl, ?_⟩, rfl⟩, flatten_singles _⟩
      intro c hc
      obtain ⟨x, _, rfl⟩ := List.mem_map.1 hc
      rfl

example : stream ⟨false, exampleShorts [0x0FFF, 0x5F]⟩ = .ok (ofBytes [0xFF, 0x0F, 0x5F, 0]) ∧
    stream ⟨true, exampleShorts [0x0FFF, 0x5F]⟩ = .ok (exampleShorts [0x0FFF, 0x5F]) := by decide +kernel

/-- **C93**  A memoryview of unsigned bytes that do not lie next to each other (`memoryview(b)[::2]`): tags, numbers other
than doubles and array buffers are read as from its bytes; strings and doubles too, or the reader raises BufferError.  Nothing
is read wrongly. -/
theorem C93_strided (s : Src) (h : ByteItems s) :
    (∀ accept consume, Same s (Source.readTag accept consume) (V8.readTag accept consume)) ∧
      (∀ m, Same s (Source.readVarint m) (V8.readVarint m)) ∧ Same s Source.readHeader V8.readHeader ∧
      Same s Source.readInt32 V8.readInt32 ∧ Same s Source.readUint32 V8.readUint32 ∧ Same s Source.readBigint V8.readBigint ∧
      Same s readBuffer bytesBuffer ∧ Honest s Source.readDouble V8.readDouble ∧
      Honest s Source.readStringOneByte V8.readStringOneByte ∧ Honest s Source.readStringTwoByte V8.readStringTwoByte ∧
      Honest s Source.readStringUtf8 V8.readStringUtf8 := by
  have ho := onePerItem_of_byteItems h
  exact ⟨fun _ _ p => (Rel.tag ho _ _).same p, fun _ p => (Rel.varint ho _).same p, fun p => (Rel.header ho).same p,
    fun p => (Rel.int32 ho).same p, fun p => (Rel.uint32 ho).same p, fun p => (Rel.bigint h).same p,
    fun p => (Rel.buffer h).same p, (Rel.double h (.inl rfl)).honest, (Rel.oneByte h (.inl rfl)).honest,
    (Rel.twoByte h (.inl rfl)).honest, (Rel.utf8 h (.inl rfl)).honest⟩

/-- **C93**  The BufferError happens: for a string that is there in full, and for the empty string. -/
theorem C93_strided_fails : ∃ s, ByteItems s ∧ V8.readStringOneByte (bytesOf s) 0 = .ok ([0x68, 0x69], 3) ∧
    Source.readStringOneByte s 0 = .error .bufferError ∧ V8.readStringOneByte (bytesOf s) 3 = .ok ([], 4) ∧
    Source.readStringOneByte s 3 = .error .bufferError :=
  ⟨⟨false, false, [[2], [0x68], [0x69], [0]]⟩, ⟨rfl, by decide⟩, by decide +kernel⟩

/-- **C93**  The one exception is a string of exactly one byte, which CPython counts as contiguous. -/
example : Source.readStringOneByte ⟨false, false, [[1], [0x68], [0x69]]⟩ 0 = .ok ([0x68], 2) := by decide +kernel

/-- **C93**  Signed bytes (`array("b")`, `memoryview(…).cast("b")`): no header is found in them at any position, so every
stream is refused. -/
theorem C93_signed (s : Src) (hs : s.signed = true) (hw : Width 1 s) (p : Nat) : ∃ e, Source.readHeader s p = .error e := by
  cases h : Source.readHeader s p with
  | error e => exact ⟨e, rfl⟩
  | ok r =>
    have := signed_small hs hw _ (readHeader_version h)
    omega

example : (⟨true, true, [[0xFF], [0x0F], [0x5F]]⟩ : Src).items = [-1, 15, 95] ∧
    Source.readHeader ⟨true, true, [[0xFF], [0x0F], [0x5F]]⟩ 0 = .error (.base .decode) ∧
    V8.readHeader [0xFF, 0x0F, 0x5F] 0 = .ok (15, 2) := by decide +kernel

/-- **C93**  Varints are read from signed bytes as from the bytes: it is the tags that are not found. -/
theorem C93_signed_varint (s : Src) (hs : s.signed = true) (hw : Width 1 s) (m : Option Nat) :
    Same s (Source.readVarint m) (V8.readVarint m) := fun p => varint_signed hs hw m p

example : (⟨true, true, [[0xAC], [2]]⟩ : Src).items = [-84, 2] ∧
    Source.readVarint none ⟨true, true, [[0xAC], [2]]⟩ 0 = .ok (300, 2) := by decide +kernel

/-- **C93**  Data of wider items that holds one byte of `b` in each: tags, varints, the header and 32-bit integers are read as
if the data were `b`, which is not what its bytes are. -/
theorem C93_items (b : Bytes) (s : Src) (h : OnePerItem b s) (p : Nat) :
    (∀ accept consume, Source.readTag accept consume s p = lift (V8.readTag accept consume b p)) ∧
      (∀ m, Source.readVarint m s p = lift (V8.readVarint m b p)) ∧ Source.readHeader s p = lift (V8.readHeader b p) ∧
      Source.readInt32 s p = lift (V8.readInt32 b p) ∧ Source.readUint32 s p = lift (V8.readUint32 b p) :=
  ⟨fun _ _ => (Rel.tag h _ _).same p, fun _ => (Rel.varint h _).same p, (Rel.header h).same p, (Rel.int32 h).same p,
    (Rel.uint32 h).same p⟩

example : OnePerItem [0xFF, 0x0F, 0x49, 4] (exampleShorts [0xFF, 0x0F, 0x49, 4]) ∧
    Source.readInt32 (exampleShorts [0xFF, 0x0F, 0x49, 4]) 3 = .ok (2, 4) := by
  refine ⟨by unfold OnePerItem; decide +kernel, by decide +kernel⟩

/-- **C93**  So an array of wider items can be accepted though its bytes are no stream, and refused though they are. -/
theorem C93_wide_accepted :
    (∃ s, Width 2 s ∧ Source.readHeader s 0 = .ok (15, 2) ∧ V8.readHeader (bytesOf s) 0 = .error .decode) ∧
      (∃ s, Width 2 s ∧ Source.readHeader s 0 = .error (.base .decode) ∧ V8.readHeader (bytesOf s) 0 = .ok (15, 2)) := by
  refine ⟨⟨exampleShorts [0xFF, 0x0F, 0x5F], by unfold Width; decide +kernel, by decide +kernel, ?_⟩,
    ⟨exampleShorts [0x0FFF, 0x5F], by unfold Width; decide +kernel, by decide +kernel, by decide +kernel⟩⟩
  decide +kernel

/-- **C93**  A double in such an array: the eight items after the tag are the bytes of 1.0, and what is returned is another
number.  The place is counted in items and used as a number of bytes. -/
theorem C93_wide_double :
    let b : Bytes := [0xFF, 0x0F, 0x4E, 0, 0, 0, 0, 0, 0, 0xF0, 0x3F]
    let s := exampleShorts (b.map (·.toNat))
    OnePerItem b s ∧ V8.readDouble b 3 = .ok (0x3FF0000000000000, 11) ∧
      Source.readDouble s 3 = .ok (0x4E00, 11) := by
  refine ⟨by unfold OnePerItem; decide +kernel, by decide +kernel, by decide +kernel⟩

/-- **C93**  A string from items of `w` bytes has `w` characters for every item that its length counts: for `w ≥ 2` it is never
the string that was written, unless it is empty. -/
theorem C93_wide_text (s : Src) (w : Nat) (hw : Width w s) (p q : Nat) (t : Str) (h : Source.readStringOneByte s p = .ok (t, q)) :
    ∃ n p', Source.readVarint none s p = .ok (n, p') ∧ q = p' + n ∧ t.length = w * n := by
  unfold Source.readStringOneByte at h
  simp only [Bind.bind, Rx.bind] at h
  cases hv : Source.readVarint none s p with
  | error e => rw [hv] at h; cases h
  | ok y =>
    rw [hv] at h
    dsimp only at h
    unfold Source.ensureCapacity at h
    by_cases hp : y.2 + y.1 > s.count
    · rw [if_pos hp] at h
      cases h
    · rw [if_neg hp] at h
      dsimp only at h
      refine ⟨y.1, y.2, rfl, ?_⟩
      have hm := bind_slice (s := s) y.1 (x := readMemory y.1) rfl y.2
      rw [hm] at h
      unfold Source.ensureCapacity at h
      rw [if_neg hp] at h
      dsimp only at h
      unfold Src.memory at h
      by_cases hd : ((s.slice y.2 y.1).dense || (s.slice y.2 y.1).cells.length == 1) = true
      · rw [if_pos hd] at h
        have h' : Except.ok (latin1Decode (s.slice y.2 y.1).cells.flatten, y.2 + y.1) = Except.ok (ε := XErr) (t, q) := h
        injection h' with h'
        injection h' with ht hq
        refine ⟨hq.symm, ?_⟩
        rw [← ht, latin1Decode_len]
        exact slice_length hw (by omega)
      · rw [if_neg hd] at h
        cases h

example : Source.readStringOneByte (exampleShorts [0xFF, 0x0F, 0x22, 2, 0x68, 0x69]) 3 = .ok ([0x68, 0, 0x69, 0], 6) := by
  decide +kernel

/-- **C93**  An array buffer from items of `w` bytes has `w` times the bytes that its length says. -/
theorem C93_wide_buffer (s : Src) (w : Nat) (hw : Width w s) (p q : Nat) (t : Bytes) (h : readBuffer s p = .ok (t, q)) :
    ∃ n p', Source.readUint32 s p = .ok (n, p') ∧ q = p' + n ∧ t.length = w * n := by
  unfold readBuffer at h
  simp only [Bind.bind, Rx.bind] at h
  cases hv : Source.readUint32 s p with
  | error e => rw [hv] at h; cases h
  | ok y =>
    rw [hv] at h
    dsimp only at h
    unfold Source.ensureCapacity at h
    by_cases hp : y.2 + y.1 > s.count
    · rw [if_pos hp] at h
      cases h
    · rw [if_neg hp] at h
      dsimp only at h
      refine ⟨y.1, y.2, rfl, ?_⟩
      have hs : readSlice y.1 s y.2 = .ok (s.slice y.2 y.1, y.2 + y.1) := by
        simp only [readSlice, Bind.bind, Rx.bind, Source.ensureCapacity, if_neg hp]
      rw [hs] at h
      have h' : Except.ok ((s.slice y.2 y.1).copy, y.2 + y.1) = Except.ok (ε := XErr) (t, q) := h
      injection h' with h'
      injection h' with ht hq
      refine ⟨hq.symm, ?_⟩
      rw [← ht]
      exact slice_length hw (by omega)

example : readBuffer (exampleShorts [3, 1, 2, 3]) 0 = .ok ([1, 0, 2, 0, 3, 0], 4) := by decide +kernel

end V8.Props
