import Verif.Proofs.Text
import Verif.Proofs.Tags
/-!
# C08-C10, and the tag part of C39: strings, alignment, header, tags
-/

namespace V8.Props

/-! ## C08 -/

/-- no code point of the string is a surrogate -/
def NoSurrogates (s : Str) : Prop := ∀ c ∈ s, ¬ (0xD800 ≤ c ∧ c ≤ 0xDFFF)
/-- `s` is a Python str -/
def IsStr (s : Str) : Prop := ∀ c ∈ s, c < 0x110000

theorem all_isScalar_iff {s : Str} (hs : IsStr s) : s.all isScalar = true ↔ NoSurrogates s := by
  simp only [List.all_eq_true, isScalar_iff]
  exact ⟨fun h c hc => (h c hc).2, fun h c hc => ⟨hs c hc, h c hc⟩⟩

/-- C08 (UTF-8): a str is written exactly when it has no surrogates, and then reads
back as itself. -/
theorem C08_utf8_round_trip (s : Str) (hs : IsStr s) :
    (NoSurrogates s → ∃ bs, writeStringUtf8 s = .ok bs ∧ ∀ pre suf : Bytes,
      readStringUtf8 (pre ++ bs ++ suf) pre.length = .ok (s, (pre ++ bs).length)) ∧
    (¬ NoSurrogates s → writeStringUtf8 s = .error (.py .valueError)) := by
  have he := utf8Encode_isSome s
  constructor
  · intro h
    rw [(all_isScalar_iff hs).2 h] at he
    obtain ⟨t, ht⟩ := Option.isSome_iff_exists.1 he
    have hw : writeStringUtf8 s = .ok (writeVarint t.length ++ t) := by simp [writeStringUtf8, ht]
    refine ⟨_, hw, fun pre suf => ?_⟩
    rw [readStringUtf8_reads hw pre suf]
    simp
  · intro h
    have : s.all isScalar = false := by
      rw [← all_isScalar_iff hs] at h; simpa using h
    rw [this] at he
    have hn : utf8Encode s = none := by simpa using he
    simp [writeStringUtf8, hn]

/-- C08 (two-byte): the same for UTF-16, for a string written with its tag on a
stream already holding `pre`: reading the tag and the string gives it back. -/
theorem C08_twobyte_round_trip (s : Str) (hs : IsStr s) (pre : Bytes) :
    (NoSurrogates s → ∃ bs, writeStringTwoByte pre.length (some Tag.kTwoByteString.byte) s = .ok bs ∧
      ∀ suf : Bytes, ((do let _ ← readThisTag .kTwoByteString; readStringTwoByte) : Rd Str)
        (pre ++ bs ++ suf) pre.length = .ok (s, (pre ++ bs).length)) ∧
    (¬ NoSurrogates s → ∀ tag, writeStringTwoByte pre.length tag s = .error (.py .valueError)) := by
  have he := utf16Encode_isSome s
  constructor
  · intro h
    rw [(all_isScalar_iff hs).2 h] at he
    obtain ⟨t, ht⟩ := Option.isSome_iff_exists.1 he
    have hrd := readStringTwoByte_reads ht
    unfold writeStringTwoByte
    simp only [ht, Option.toList_some, Option.isSome_some, Bool.true_and]
    refine ⟨_, rfl, fun suf => ?_⟩
    split
    · have h1 : Reads (readThisTag .kTwoByteString) (List.replicate 1 0 ++ [Tag.kTwoByteString.byte])
          .kTwoByteString := readTag_reads_padded (by rfl) (by decide) 1
      have h2 := Reads.bind (f := fun _ => readStringTwoByte) h1 hrd pre suf
      simp only [List.replicate_one, List.length_append, List.append_assoc, List.cons_append,
        List.nil_append] at h2 ⊢
      exact h2
    · have h1 : Reads (readThisTag .kTwoByteString) [Tag.kTwoByteString.byte]
          .kTwoByteString := readThisTag_reads (by decide)
      have h2 := Reads.bind (f := fun _ => readStringTwoByte) h1 hrd pre suf
      simp only [List.length_append, List.append_assoc, List.cons_append,
        List.nil_append] at h2 ⊢
      exact h2
  · intro h tag
    have : s.all isScalar = false := by
      rw [← all_isScalar_iff hs] at h; simpa using h
    rw [this] at he
    have hn : utf16Encode s = none := by simpa using he
    simp [writeStringTwoByte, hn]

/-- C08 (one-byte): written exactly when all code points are at most U+00FF, and
then reads back as itself. -/
theorem C08_onebyte_round_trip (s : Str) :
    ((∀ c ∈ s, c ≤ 0xFF) → ∃ bs, writeStringOneByte s = .ok bs ∧ ∀ pre suf : Bytes,
      readStringOneByte (pre ++ bs ++ suf) pre.length = .ok (s, (pre ++ bs).length)) ∧
    (¬ (∀ c ∈ s, c ≤ 0xFF) → writeStringOneByte s = .error (.py .valueError)) := by
  have he := latin1Encode_isSome s
  have hiff : s.all (· < 256) = true ↔ ∀ c ∈ s, c ≤ 0xFF := by
    simp only [List.all_eq_true, decide_eq_true_eq]
    exact ⟨fun h c hc => by have := h c hc; omega, fun h c hc => by have := h c hc; omega⟩
  constructor
  · intro h
    rw [hiff.2 h] at he
    obtain ⟨t, ht⟩ := Option.isSome_iff_exists.1 he
    have hw : writeStringOneByte s = .ok (writeVarint t.length ++ t) := by simp [writeStringOneByte, ht]
    refine ⟨_, hw, fun pre suf => ?_⟩
    rw [readStringOneByte_reads hw pre suf]
    simp
  · intro h
    have : s.all (· < 256) = false := by
      rw [← hiff] at h; simpa using h
    rw [this] at he
    have hn : latin1Encode s = none := by simpa using he
    simp [writeStringOneByte, hn]

/-- C08: bytes accepted as UTF-8 are exactly the encoding of the result: no overlong
forms, no surrogates, nothing above U+10FFFF. -/
theorem C08_utf8_strict (bs : Bytes) (s : Str) (h : utf8Decode bs = some s) :
    utf8Encode s = some bs ∧ IsStr s ∧ NoSurrogates s := by
  have he := utf8Encode_decode h
  have ha := utf8Encode_isSome s
  rw [he] at ha
  have hall : ∀ c ∈ s, isScalar c = true := by simpa using ha.symm
  exact ⟨he, fun c hc => (isScalar_iff.1 (hall c hc)).1, fun c hc => (isScalar_iff.1 (hall c hc)).2⟩

/-- C08: the same for UTF-16-LE. -/
theorem C08_utf16_strict (bs : Bytes) (s : Str) (h : utf16Decode bs = some s) :
    utf16Encode s = some bs ∧ IsStr s ∧ NoSurrogates s := by
  have he := utf16Encode_decode h
  have ha := utf16Encode_isSome s
  rw [he] at ha
  have hall : ∀ c ∈ s, isScalar c = true := by simpa using ha.symm
  exact ⟨he, fun c hc => (isScalar_iff.1 (hall c hc)).1, fun c hc => (isScalar_iff.1 (hall c hc)).2⟩

/-- C08: text bytes that are not valid make the readers raise DecodeV8SerializeError. -/
theorem C08_invalid_rejected (bs pre suf : Bytes) :
    (utf8Decode bs = none → readStringUtf8 (pre ++ (writeVarint bs.length ++ bs) ++ suf) pre.length
      = .error .decode) ∧
    (utf16Decode bs = none → readStringTwoByte (pre ++ (writeVarint bs.length ++ bs) ++ suf) pre.length
      = .error .decode) := by
  have h1 := readVarint_reads bs.length pre (bs ++ suf)
  have h2 := readBytes_reads bs (pre ++ writeVarint bs.length) suf
  simp only [List.length_append, List.append_assoc] at h1 h2 ⊢
  constructor
  · intro h
    unfold readStringUtf8
    rw [Rd.bind_ok h1, Rd.bind_ok h2]
    simp [h]
  · intro h
    unfold readStringTwoByte
    rw [Rd.bind_ok h1, Rd.bind_ok h2]
    simp [h]

/-- "aé€😀" in all forms; an overlong "/" and an encoded surrogate are rejected -/
example : writeStringUtf8 [0x61, 0xe9, 0x20ac, 0x1f600]
      = .ok (writeVarint 10 ++ [0x61, 0xc3, 0xa9, 0xe2, 0x82, 0xac, 0xf0, 0x9f, 0x98, 0x80]) ∧
    utf16Encode [0x61, 0x1f600] = some [0x61, 0x00, 0x3d, 0xd8, 0x00, 0xde] ∧
    utf8Decode [0xc0, 0xaf] = none ∧ utf8Decode [0xed, 0xa0, 0x80] = none ∧
    utf16Decode [0x00, 0xdc, 0x00, 0xd8] = none ∧ utf16Decode [0x41] = none := by
  refine ⟨?_, by decide, by decide, by decide, by decide, by decide⟩
  have : utf8Encode [0x61, 0xe9, 0x20ac, 0x1f600]
      = some [0x61, 0xc3, 0xa9, 0xe2, 0x82, 0xac, 0xf0, 0x9f, 0x98, 0x80] := by decide
  simp only [writeStringUtf8, this]; rfl

/-! ## C09 -/

/-- C09: with a tag, the character bytes of a two-byte string start at an even
offset of the whole stream, whatever the stream holds already. -/
theorem C09_twobyte_aligned (pre : Bytes) (tag : UInt8) (s : Str) (bs : Bytes)
    (h : writeStringTwoByte pre.length (some tag) s = .ok bs) :
    ∃ head chars, utf16Encode s = some chars ∧ bs = head ++ chars ∧ (pre ++ head).length % 2 = 0 ∧
      (head = tag :: writeVarint chars.length ∨ head = 0 :: tag :: writeVarint chars.length) := by
  unfold writeStringTwoByte at h
  cases hs : utf16Encode s with
  | none => simp [hs] at h
  | some t =>
    simp only [hs, Option.toList_some, Option.isSome_some, Bool.true_and, Except.ok.injEq] at h
    subst h
    refine ⟨_, t, rfl, rfl, ?_, ?_⟩
    · split
      · rename_i h1
        simp only [decide_eq_true_eq, List.length_append, List.length_cons, List.length_nil] at h1 ⊢
        omega
      · rename_i h1
        simp only [decide_eq_true_eq, List.length_append, List.length_cons, List.length_nil] at h1 ⊢
        omega
    · split
      · right; rfl
      · left; rfl

/-- both parities occur: an even prefix needs no padding, an odd one does -/
example : writeStringTwoByte 2 (some 0x63) [0x20ac] = .ok ([0x63] ++ writeVarint 2 ++ [0xac, 0x20]) ∧
    writeStringTwoByte 3 (some 0x63) [0x20ac] = .ok ([0, 0x63] ++ writeVarint 2 ++ [0xac, 0x20]) := by
  have h1 : utf16Encode [0x20ac] = some [0xac, 0x20] := by decide
  have h2 : writeVarint 2 = [2] := by rw [writeVarint, if_pos (by decide)]; rfl
  simp only [writeStringTwoByte, h1, List.length_cons, List.length_nil, h2]
  exact ⟨by rfl, by rfl⟩

/-! ## C10 -/

/-- C10: the header written is `FF 0F`, and is read as version 15. -/
theorem C10_header_written (suf : Bytes) :
    writeHeader = [0xff, 0x0f] ∧ readHeader (writeHeader ++ suf) 0 = .ok (15, 2) := by
  have h : writeHeader = [0xff, 0x0f] := by
    unfold writeHeader kLatestVersion; rw [writeVarint, if_pos (by decide)]; rfl
  refine ⟨h, ?_⟩
  have := readHeader_reads [] suf
  simpa [h] using this

theorem readPaddingLoop_ok {bs : Bytes} {p p' : Nat} (h : readPaddingLoop bs p = .ok ((), p')) :
    ∃ k b r, bs = List.replicate k 0 ++ b :: r ∧ b ≠ 0 ∧ p' = p + k := by
  induction bs generalizing p with
  | nil => simp [readPaddingLoop] at h
  | cons b bs ih =>
    simp only [readPaddingLoop] at h
    split at h
    · rename_i hb
      simp at h
      exact ⟨0, b, bs, by simp, hb, by omega⟩
    · rename_i hb
      obtain ⟨k, c, r, h1, h2, h3⟩ := ih h
      refine ⟨k + 1, c, r, ?_, h2, by omega⟩
      rw [h1, List.replicate_succ]
      simp at hb
      simp [hb]

/-- what `read_tag` accepts: any number of zero bytes and then an acceptable tag -/
theorem readTag_ok {accept : Tag → Bool} {d : Bytes} {p p' : Nat} {t : Tag}
    (h : readTag accept true d p = .ok (t, p')) :
    ∃ k r, d.drop p = List.replicate k 0 ++ t.byte :: r ∧ accept t = true ∧ t ≠ .kPadding ∧
      p' = p + k + 1 ∧ p' ≤ d.length := by
  unfold readTag at h
  obtain ⟨_, p1, h1, hA⟩ := Rd.bind_eq_ok h
  clear h
  simp only [ensureCapacity] at h1
  split at h1
  · simp at h1
  rename_i hcap
  simp only [Except.ok.injEq, Prod.mk.injEq, true_and] at h1
  subst h1
  obtain ⟨v, p2, h2, hB⟩ := Rd.bind_eq_ok hA
  clear hA
  have hv : d[p]? = some v ∧ p2 = p := by
    simp only [byteHere] at h2
    split at h2
    · simp at h2; rename_i hb; rw [hb, h2.1]; exact ⟨rfl, h2.2.symm⟩
    · simp at h2
  obtain ⟨hv, rfl⟩ := hv
  have hdrop : d.drop p2 = v :: d.drop (p2 + 1) := by
    have := List.getElem?_eq_some_iff.1 hv
    obtain ⟨hlt, hget⟩ := this
    rw [List.drop_eq_getElem_cons hlt, hget]
  obtain ⟨w, p3, h3, h⟩ := Rd.bind_eq_ok hB
  clear hB
  -- the byte looked at is `w`, behind `k` zeros
  have hw : ∃ k r, d.drop p2 = List.replicate k 0 ++ w :: r ∧ p3 = p2 + k ∧ w ≠ 0 := by
    unfold skipPadding at h3
    split at h3
    · rename_i hz
      obtain ⟨_, p4, h4, h3⟩ := Rd.bind_eq_ok h3
      obtain ⟨_, p5, h5, h3⟩ := Rd.bind_eq_ok h3
      simp only [advance, Except.ok.injEq, Prod.mk.injEq, true_and] at h4
      subst h4
      obtain ⟨k, b, r, hr, hb, hp⟩ := readPaddingLoop_ok h5
      subst hp
      have hw : w = b ∧ p3 = p2 + 1 + k := by
        simp only [byteHere] at h3
        have : d[p2 + 1 + k]? = some b := by
          rw [← List.getElem?_drop, hr, List.getElem?_append_right (by simp)]
          simp
        rw [this] at h3
        simp at h3
        exact ⟨h3.1.symm, h3.2.symm⟩
      obtain ⟨rfl, rfl⟩ := hw
      refine ⟨k + 1, r, ?_, by omega, hb⟩
      have : v = 0 := hz
      rw [hdrop, hr, this, List.replicate_succ]; rfl
    · rename_i hz
      simp only [Rd.pure_apply, Except.ok.injEq, Prod.mk.injEq] at h3
      obtain ⟨rfl, rfl⟩ := h3
      exact ⟨0, _, by simpa using hdrop, by omega, hz⟩
  obtain ⟨k, r, hr, rfl, hw0⟩ := hw
  cases ht : Tag.ofByte w with
  | none => simp [ht] at h
  | some t' =>
    simp only [ht] at h
    by_cases hacc : accept t' = true
    · simp only [hacc, if_true] at h
      obtain ⟨_, p4, h4, h⟩ := Rd.bind_eq_ok h
      simp only [advance, Except.ok.injEq, Prod.mk.injEq, true_and, Rd.pure_apply] at h4 h
      obtain ⟨rfl, rfl⟩ := h
      have hbyte := Tag.byte_of_ofByte ht
      refine ⟨k, r, by rw [hbyte]; exact hr, hacc, ?_, by omega, ?_⟩
      · intro hp; subst hp; exact hw0 hbyte.symm
      · have := congrArg List.length hr
        simp at this; omega
    · simp [hacc] at h

/-- C10: a header is accepted only if the data starts, after optional padding, with
`FF` and a varint 13, 14 or 15. -/
theorem C10_header_rejected (data : Bytes) (v pos' : Nat) (h : readHeader data 0 = .ok (v, pos')) :
    (v = 13 ∨ v = 14 ∨ v = 15) ∧
    ∃ k rest, data = List.replicate k 0 ++ 0xff :: rest ∧
      readVarint none data (k + 1) = .ok (v, pos') := by
  unfold readHeader at h
  obtain ⟨t, p1, h1, h⟩ := Rd.bind_eq_ok h
  obtain ⟨k, r, hd, hacc, _, hp, _⟩ := readTag_ok h1
  obtain ⟨w, p2, h2, h⟩ := Rd.bind_eq_ok h
  have ht : t = .kVersion := by simpa using hacc
  subst ht
  split at h
  · simp at h
  · rename_i hv
    simp at h hv
    obtain ⟨rfl, rfl⟩ := h
    unfold kLatestVersion at hv
    refine ⟨by omega, k, r, by simpa [Tag.byte] using hd, ?_⟩
    have : p1 = k + 1 := by omega
    rw [← this]; exact h2

/-- versions 12 and 16 and a missing marker are rejected, 13 is accepted -/
example : readHeader [0xff, 0x0c] 0 = .error .decode ∧ readHeader [0xff, 0x10] 0 = .error .decode ∧
    readHeader [0x0f, 0xff] 0 = .error .decode ∧ readHeader [0xff, 0x0d, 0x30] 0 = .ok (13, 2) := by
  decide +kernel

/-! ## C39 (tags) -/

/-- C39: any number of padding bytes before a tag is skipped. -/
theorem C39_padding_skipped (t : Tag) (ht : t ≠ .kPadding) (k : Nat) (pre suf : Bytes) :
    readAnyTag (pre ++ List.replicate k 0 ++ [t.byte] ++ suf) pre.length
      = .ok (t, pre.length + k + 1) := by
  have := readTag_reads_padded (accept := fun _ => true) rfl ht k pre suf
  simp only [List.append_assoc, List.length_append, List.length_replicate] at this ⊢
  exact this

/-- C39: a byte that is not a tag at all is rejected wherever a tag is expected. -/
theorem C39_unknown_byte_rejected (b : UInt8) (hb : ∀ t : Tag, t.byte ≠ b) (accept : Tag → Bool)
    (pre suf : Bytes) :
    readTag accept true (pre ++ [b] ++ suf) pre.length = .error .decode := by
  have hn : Tag.ofByte b = none := by
    cases ho : Tag.ofByte b with
    | none => rfl
    | some t => exact absurd (Tag.byte_of_ofByte ho) (hb t)
  have h0 : b ≠ 0 := fun h => hb .kPadding h.symm
  unfold readTag
  have hcap : ensureCapacity 1 (pre ++ [b] ++ suf) pre.length = .ok ((), pre.length) := by
    simp [ensureCapacity]
  have hget : (pre ++ [b] ++ suf)[pre.length]? = some b := by simp
  rw [Rd.bind_ok hcap, Rd.bind_ok (byteHere_at hget), Rd.bind_ok (a := b) (p' := pre.length) (by
    unfold skipPadding; rw [if_neg (by exact h0)]; rfl)]
  simp [hn]

example : readAnyTag [0, 0, 0x54] 0 = .ok (.kTrue, 3) ∧ (∀ t : Tag, t.byte ≠ 0x01) ∧
    readAnyTag [0x01] 0 = .error .decode := by
  refine ⟨by decide, fun t => by cases t <;> decide, by decide⟩

end V8.Props
