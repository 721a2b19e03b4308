import Verif.Model.Text
import Verif.Proofs.Prim
/-! Helper lemmas about the text codecs. -/

namespace V8

theorem ofNat_toNat_lt {n : Nat} (h : n < 256) : (UInt8.ofNat n).toNat = n := by
  simp; omega

theorem isScalar_iff {c : Nat} : isScalar c = true ↔ c < 0x110000 ∧ ¬ (0xD800 ≤ c ∧ c ≤ 0xDFFF) := by
  simp [isScalar, isSurrogate]; omega

/-! ## UTF-8 -/

theorem utf8Decode_char {c : Nat} (h : isScalar c = true) (r : Bytes) :
    utf8Decode (utf8Char c ++ r) = (utf8Decode r).map (c :: ·) := by
  rw [isScalar_iff] at h
  unfold utf8Char
  split
  · rename_i h1
    rw [List.cons_append, List.nil_append, utf8Decode.eq_def]
    simp only [ofNat_toNat_lt (show c < 256 by omega), if_pos h1]
  split
  · rename_i h0 h1
    have e1 : (UInt8.ofNat (0xC0 + c / 64)).toNat = 0xC0 + c / 64 := ofNat_toNat_lt (by omega)
    have e2 : (UInt8.ofNat (0x80 + c % 64)).toNat = 0x80 + c % 64 := ofNat_toNat_lt (by omega)
    have hc : isCont (UInt8.ofNat (0x80 + c % 64)) = true := by
      simp only [isCont, e2]; simp; omega
    simp only [List.cons_append, List.nil_append]
    rw [utf8Decode.eq_def]
    simp only [e1, e2, hc]
    rw [if_neg (by omega), if_neg (by omega), if_neg (by simp), if_pos (by omega)]
    have : (192 + c / 64 - 192) * 64 + (128 + c % 64 - 128) = c := by omega
    rw [this, if_neg h0]
  split
  · rename_i h00 h0 h1
    have e1 : (UInt8.ofNat (0xE0 + c / 4096)).toNat = 0xE0 + c / 4096 := ofNat_toNat_lt (by omega)
    have e2 : (UInt8.ofNat (0x80 + c / 64 % 64)).toNat = 0x80 + c / 64 % 64 := ofNat_toNat_lt (by omega)
    have e3 : (UInt8.ofNat (0x80 + c % 64)).toNat = 0x80 + c % 64 := ofNat_toNat_lt (by omega)
    have hc2 : isCont (UInt8.ofNat (0x80 + c / 64 % 64)) = true := by
      simp only [isCont, e2]; simp; omega
    have hc3 : isCont (UInt8.ofNat (0x80 + c % 64)) = true := by
      simp only [isCont, e3]; simp; omega
    simp only [List.cons_append, List.nil_append]
    rw [utf8Decode.eq_def]
    simp only [e1, e2, e3, hc2, hc3]
    rw [if_neg (by omega), if_neg (by omega), if_neg (by simp), if_neg (by omega), if_neg (by simp),
      if_pos (by omega)]
    have : (224 + c / 4096 - 224) * 4096 + (128 + c / 64 % 64 - 128) * 64 + (128 + c % 64 - 128) = c := by
      omega
    rw [this, if_neg (by simp [isSurrogate]; omega)]
  · rename_i h00 h0 h1
    have e1 : (UInt8.ofNat (0xF0 + c / 262144)).toNat = 0xF0 + c / 262144 := ofNat_toNat_lt (by omega)
    have e2 : (UInt8.ofNat (0x80 + c / 4096 % 64)).toNat = 0x80 + c / 4096 % 64 := ofNat_toNat_lt (by omega)
    have e3 : (UInt8.ofNat (0x80 + c / 64 % 64)).toNat = 0x80 + c / 64 % 64 := ofNat_toNat_lt (by omega)
    have e4 : (UInt8.ofNat (0x80 + c % 64)).toNat = 0x80 + c % 64 := ofNat_toNat_lt (by omega)
    have hc2 : isCont (UInt8.ofNat (0x80 + c / 4096 % 64)) = true := by
      simp only [isCont, e2]; simp; omega
    have hc3 : isCont (UInt8.ofNat (0x80 + c / 64 % 64)) = true := by
      simp only [isCont, e3]; simp; omega
    have hc4 : isCont (UInt8.ofNat (0x80 + c % 64)) = true := by
      simp only [isCont, e4]; simp; omega
    simp only [List.cons_append, List.nil_append]
    rw [utf8Decode.eq_def]
    simp only [e1, e2, e3, e4, hc2, hc3, hc4]
    rw [if_neg (by omega), if_neg (by omega), if_neg (by simp), if_neg (by omega), if_neg (by simp),
      if_neg (by omega), if_neg (by simp), if_pos (by omega)]
    have : (240 + c / 262144 - 240) * 262144 + (128 + c / 4096 % 64 - 128) * 4096 +
        (128 + c / 64 % 64 - 128) * 64 + (128 + c % 64 - 128) = c := by
      omega
    rw [this, if_neg (by simp; omega)]

theorem utf8Decode_encode {s : Str} {bs : Bytes} (h : utf8Encode s = some bs) : utf8Decode bs = some s := by
  induction s generalizing bs with
  | nil => simp [utf8Encode] at h; subst h; simp [utf8Decode]
  | cons c s ih =>
    simp only [utf8Encode] at h
    split at h
    · rename_i hc
      simp only [Option.map_eq_some_iff] at h
      obtain ⟨t, ht, rfl⟩ := h
      rw [utf8Decode_char hc, ih ht]; rfl
    · simp at h

theorem uint8_eq {b : UInt8} {n : Nat} (h : b.toNat = n) : UInt8.ofNat n = b := by
  subst h; simp

theorem utf8Encode_decode_aux (n : Nat) : ∀ (bs : Bytes) (s : Str), bs.length ≤ n →
    utf8Decode bs = some s → utf8Encode s = some bs := by
  induction n with
  | zero =>
    intro bs s hl h
    have : bs = [] := List.eq_nil_of_length_eq_zero (by omega)
    subst this
    simp [utf8Decode] at h; subst h; rfl
  | succ n ih =>
    intro bs s hl h
    cases bs with
    | nil => simp [utf8Decode] at h; subst h; rfl
    | cons b0 r0 =>
      have hb0 := b0.toNat_lt
      simp only [List.length_cons] at hl
      rw [utf8Decode.eq_def] at h
      simp only at h
      split at h
      · rename_i h1
        simp only [Option.map_eq_some_iff] at h
        obtain ⟨t, ht, rfl⟩ := h
        have := ih r0 t (by omega) ht
        simp only [utf8Encode, this]
        rw [if_pos (isScalar_iff.2 (by omega))]
        simp only [utf8Char, if_pos h1, Option.map_some, uint8_eq rfl]
        rfl
      split at h
      · simp at h
      rename_i h1 h2
      cases r0 with
      | nil => simp at h
      | cons b1 r1 =>
        have hb1 := b1.toNat_lt
        simp only [List.length_cons] at hl
        simp only at h
        split at h
        · simp at h
        rename_i hc1
        simp only [isCont, Bool.not_eq_true', Bool.and_eq_false_iff, decide_eq_false_iff_not] at hc1
        split at h
        · rename_i h3
          split at h
          · simp at h
          rename_i h4
          simp only [Option.map_eq_some_iff] at h
          obtain ⟨t, ht, rfl⟩ := h
          have := ih r1 t (by omega) ht
          simp only [utf8Encode, this]
          rw [if_pos (isScalar_iff.2 (by omega))]
          simp only [utf8Char]
          rw [if_neg h4, if_pos (by omega)]
          simp only [Option.map_some, List.cons_append, List.nil_append]
          rw [uint8_eq (b := b0) (by omega), uint8_eq (b := b1) (by omega)]
        rename_i h3
        cases r1 with
        | nil => simp at h
        | cons b2 r2 =>
          have hb2 := b2.toNat_lt
          simp only [List.length_cons] at hl
          simp only at h
          split at h
          · simp at h
          rename_i hc2
          simp only [isCont, Bool.not_eq_true', Bool.and_eq_false_iff, decide_eq_false_iff_not] at hc2
          split at h
          · rename_i h4
            split at h
            · simp at h
            rename_i h5
            simp only [isSurrogate, Bool.or_eq_true, decide_eq_true_eq, Bool.and_eq_true] at h5
            simp only [Option.map_eq_some_iff] at h
            obtain ⟨t, ht, rfl⟩ := h
            have := ih r2 t (by omega) ht
            simp only [utf8Encode, this]
            rw [if_pos (isScalar_iff.2 (by omega))]
            simp only [utf8Char]
            rw [if_neg (by omega), if_neg (by omega), if_pos (by omega)]
            simp only [Option.map_some, List.cons_append, List.nil_append]
            rw [uint8_eq (b := b0) (by omega), uint8_eq (b := b1) (by omega), uint8_eq (b := b2) (by omega)]
          rename_i h4
          cases r2 with
          | nil => simp at h
          | cons b3 r3 =>
            have hb3 := b3.toNat_lt
            simp only [List.length_cons] at hl
            simp only at h
            split at h
            · simp at h
            rename_i hc3
            simp only [isCont, Bool.not_eq_true', Bool.and_eq_false_iff, decide_eq_false_iff_not] at hc3
            split at h
            · rename_i h5
              split at h
              · simp at h
              rename_i h6
              simp only [Bool.or_eq_true, decide_eq_true_eq] at h6
              simp only [Option.map_eq_some_iff] at h
              obtain ⟨t, ht, rfl⟩ := h
              have := ih r3 t (by omega) ht
              simp only [utf8Encode, this]
              rw [if_pos (isScalar_iff.2 (by omega))]
              simp only [utf8Char]
              rw [if_neg (by omega), if_neg (by omega), if_neg (by omega)]
              simp only [Option.map_some, List.cons_append, List.nil_append]
              rw [uint8_eq (b := b0) (by omega), uint8_eq (b := b1) (by omega),
                uint8_eq (b := b2) (by omega), uint8_eq (b := b3) (by omega)]
            · simp at h

theorem utf8Encode_decode {bs : Bytes} {s : Str} (h : utf8Decode bs = some s) : utf8Encode s = some bs :=
  utf8Encode_decode_aux bs.length bs s (Nat.le_refl _) h

theorem utf8Encode_isSome (s : Str) : (utf8Encode s).isSome = s.all isScalar := by
  induction s with
  | nil => rfl
  | cons c s ih =>
    simp only [utf8Encode, List.all_cons]
    split <;> simp_all

/-! ## UTF-16 -/

theorem utf16Decode_char {c : Nat} (h : isScalar c = true) (r : Bytes) :
    utf16Decode (utf16Char c ++ r) = (utf16Decode r).map (c :: ·) := by
  rw [isScalar_iff] at h
  unfold utf16Char unitLE
  split
  · rename_i h1
    have e1 : (UInt8.ofNat (c % 256)).toNat = c % 256 := ofNat_toNat_lt (by omega)
    have e2 : (UInt8.ofNat (c / 256)).toNat = c / 256 := ofNat_toNat_lt (by omega)
    have e3 : c % 256 + 256 * (c / 256) = c := by omega
    simp only [List.cons_append, List.nil_append]
    rw [utf16Decode.eq_def]
    simp only [e1, e2, e3]
    rw [if_pos (by simp [isSurrogate]; omega)]
  · rename_i h1
    generalize hu : 0xD800 + (c - 0x10000) / 1024 = u
    generalize hv : 0xDC00 + (c - 0x10000) % 1024 = v
    have e1 : (UInt8.ofNat (u % 256)).toNat = u % 256 := ofNat_toNat_lt (by omega)
    have e2 : (UInt8.ofNat (u / 256)).toNat = u / 256 := ofNat_toNat_lt (by omega)
    have e3 : (UInt8.ofNat (v % 256)).toNat = v % 256 := ofNat_toNat_lt (by omega)
    have e4 : (UInt8.ofNat (v / 256)).toNat = v / 256 := ofNat_toNat_lt (by omega)
    have e5 : u % 256 + 256 * (u / 256) = u := by omega
    have e6 : v % 256 + 256 * (v / 256) = v := by omega
    simp only [List.cons_append, List.nil_append]
    rw [utf16Decode.eq_def]
    simp only [e1, e2, e3, e4, e5, e6]
    rw [if_neg (by simp [isSurrogate]; omega), if_neg (by omega), if_pos (by simp; omega)]
    have : 65536 + (u - 55296) * 1024 + (v - 56320) = c := by omega
    rw [this]

theorem utf16Decode_encode {s : Str} {bs : Bytes} (h : utf16Encode s = some bs) : utf16Decode bs = some s := by
  induction s generalizing bs with
  | nil => simp [utf16Encode] at h; subst h; simp [utf16Decode]
  | cons c s ih =>
    simp only [utf16Encode] at h
    split at h
    · rename_i hc
      simp only [Option.map_eq_some_iff] at h
      obtain ⟨t, ht, rfl⟩ := h
      rw [utf16Decode_char hc, ih ht]; rfl
    · simp at h

theorem utf16Encode_decode_aux (n : Nat) : ∀ (bs : Bytes) (s : Str), bs.length ≤ n →
    utf16Decode bs = some s → utf16Encode s = some bs := by
  induction n with
  | zero =>
    intro bs s hl h
    have : bs = [] := List.eq_nil_of_length_eq_zero (by omega)
    subst this
    simp [utf16Decode] at h; subst h; rfl
  | succ n ih =>
    intro bs s hl h
    match bs, h, hl with
    | [], h, _ => simp [utf16Decode] at h; subst h; rfl
    | [_], h, _ => simp [utf16Decode] at h
    | b0 :: b1 :: r, h, hl =>
      have hb0 := b0.toNat_lt
      have hb1 := b1.toNat_lt
      simp only [List.length_cons] at hl
      rw [utf16Decode.eq_def] at h
      simp only at h
      generalize hu : b0.toNat + 256 * b1.toNat = u at h
      split at h
      · rename_i h1
        simp only [isSurrogate, Bool.not_eq_true', Bool.and_eq_false_iff, decide_eq_false_iff_not] at h1
        simp only [Option.map_eq_some_iff] at h
        obtain ⟨t, ht, rfl⟩ := h
        have := ih r t (by omega) ht
        simp only [utf16Encode, this]
        rw [if_pos (isScalar_iff.2 (by omega))]
        simp only [utf16Char, unitLE]
        rw [if_pos (by omega), uint8_eq (b := b0) (by omega), uint8_eq (b := b1) (by omega)]
        rfl
      rename_i h1
      simp only [isSurrogate, Bool.not_eq_true', Bool.and_eq_false_iff, decide_eq_false_iff_not] at h1
      split at h
      · simp at h
      rename_i h2
      match r, h, hl with
      | [], h, _ => simp at h
      | [_], h, _ => simp at h
      | b2 :: b3 :: r', h, hl =>
        have hb2 := b2.toNat_lt
        have hb3 := b3.toNat_lt
        simp only [List.length_cons] at hl
        simp only at h
        generalize hv : b2.toNat + 256 * b3.toNat = v at h
        split at h
        · rename_i h3
          simp only [Bool.and_eq_true, decide_eq_true_eq] at h3
          simp only [Option.map_eq_some_iff] at h
          obtain ⟨t, ht, rfl⟩ := h
          have := ih r' t (by omega) ht
          simp only [utf16Encode, this]
          rw [if_pos (isScalar_iff.2 (by omega))]
          simp only [utf16Char, unitLE]
          rw [if_neg (by omega), uint8_eq (b := b0) (by omega), uint8_eq (b := b1) (by omega),
            uint8_eq (b := b2) (by omega), uint8_eq (b := b3) (by omega)]
          rfl
        · simp at h

theorem utf16Encode_decode {bs : Bytes} {s : Str} (h : utf16Decode bs = some s) : utf16Encode s = some bs :=
  utf16Encode_decode_aux bs.length bs s (Nat.le_refl _) h

theorem utf16Encode_isSome (s : Str) : (utf16Encode s).isSome = s.all isScalar := by
  induction s with
  | nil => rfl
  | cons c s ih =>
    simp only [utf16Encode, List.all_cons]
    split <;> simp_all

/-- all UTF-16 encodings have an even number of bytes -/
theorem utf16Encode_even {s : Str} {bs : Bytes} (h : utf16Encode s = some bs) : bs.length % 2 = 0 := by
  induction s generalizing bs with
  | nil => simp [utf16Encode] at h; subst h; rfl
  | cons c s ih =>
    simp only [utf16Encode] at h
    split at h
    · simp only [Option.map_eq_some_iff] at h
      obtain ⟨t, ht, rfl⟩ := h
      have := ih ht
      simp only [utf16Char, unitLE, List.length_append]
      split <;> simp <;> omega
    · simp at h

/-! ## latin1 -/

theorem latin1Decode_encode {s : Str} {bs : Bytes} (h : latin1Encode s = some bs) : latin1Decode bs = s := by
  unfold latin1Encode at h
  induction s generalizing bs with
  | nil => simp at h; subst h; rfl
  | cons c s ih =>
    simp only [List.mapM_cons, Option.bind_eq_bind, Option.pure_def] at h
    split at h
    · rename_i hc
      simp only [Option.bind_some, Option.bind_eq_some_iff, Option.some.injEq] at h
      obtain ⟨t, ht, rfl⟩ := h
      simp only [latin1Decode, List.map_cons, ofNat_toNat_lt hc]
      rw [← ih ht]; rfl
    · simp at h

theorem latin1Encode_isSome (s : Str) : (latin1Encode s).isSome = s.all (· < 256) := by
  unfold latin1Encode
  induction s with
  | nil => rfl
  | cons c s ih =>
    simp only [List.mapM_cons, Option.bind_eq_bind, Option.pure_def, List.all_cons]
    split
    · rename_i hc
      rw [← ih]
      simp only [Option.bind_some, hc, decide_true, Bool.true_and]
      cases List.mapM (fun c => if c < 256 then some (UInt8.ofNat c) else none) s <;> rfl
    · rename_i hc; simp [hc]

theorem latin1Encode_decode (bs : Bytes) : latin1Encode (latin1Decode bs) = some bs := by
  unfold latin1Encode latin1Decode
  induction bs with
  | nil => rfl
  | cons b bs ih =>
    have := b.toNat_lt
    simp only [List.map_cons, List.mapM_cons, Option.bind_eq_bind, Option.pure_def]
    rw [if_pos (by omega), ih]
    simp

/-! ## string readers -/

theorem readStringUtf8_reads {s : Str} {bs : Bytes} (h : writeStringUtf8 s = .ok bs) :
    Reads readStringUtf8 bs s := by
  unfold writeStringUtf8 at h
  cases hs : utf8Encode s with
  | none => simp [hs] at h
  | some t =>
    simp [hs] at h; subst h
    unfold readStringUtf8
    refine Reads.bind (readVarint_reads _) ?_
    refine Reads.bind0 (readBytes_reads t) ?_
    simp only [utf8Decode_encode hs]; exact Reads.pure s

theorem readStringOneByte_reads {s : Str} {bs : Bytes} (h : writeStringOneByte s = .ok bs) :
    Reads readStringOneByte bs s := by
  unfold writeStringOneByte at h
  cases hs : latin1Encode s with
  | none => simp [hs] at h
  | some t =>
    simp [hs] at h; subst h
    unfold readStringOneByte
    refine Reads.bind (readVarint_reads _) ?_
    intro pre suf
    rw [Rd.bind_ok (Reads.ensure t pre suf)]
    have := (readBytes_reads t).map (g := latin1Decode) pre suf
    rw [latin1Decode_encode hs] at this
    exact this

theorem readStringTwoByte_reads {s : Str} {t : Bytes} (hs : utf16Encode s = some t) :
    Reads readStringTwoByte (writeVarint t.length ++ t) s := by
  unfold readStringTwoByte
  refine Reads.bind (readVarint_reads _) ?_
  refine Reads.bind0 (readBytes_reads t) ?_
  simp only [utf16Decode_encode hs]; exact Reads.pure s

end V8
