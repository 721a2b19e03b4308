import Verif.Proofs.Prim
/-!
# C01-C05, C07: primitive wire forms

Each theorem is stated with the data around the value written explicitly:
`pre` is what is already in the stream, `suf` whatever follows.
-/

namespace V8.Props

/-! ## C01 -/

/-- C01: what `write_varint` appends, `read_varint` reads back, stopping exactly
behind it. -/
theorem C01_varint_round_trip (n : Nat) (pre suf : Bytes) :
    readVarint none (pre ++ writeVarint n ++ suf) pre.length
      = .ok (n, (pre ++ writeVarint n).length) := by
  rw [readVarint_reads n pre suf, List.length_append]

/-- the same with the 32-bit limit used for lengths and 32-bit numbers -/
theorem C01_varint32_round_trip (n : Nat) (h : n < 2 ^ 32) (pre suf : Bytes) :
    readVarint (some 32) (pre ++ writeVarint n ++ suf) pre.length
      = .ok (n, (pre ++ writeVarint n).length) := by
  rw [readVarint32_reads n h pre suf, List.length_append]

/-- negative numbers are refused with ValueError, all others are written -/
theorem C01_varint_negative (n : Int) :
    writeVarintInt n = (if n < 0 then .error (.py .valueError) else .ok (writeVarint n.toNat)) := rfl

example : writeVarint 300 = [0xac, 0x02] ∧
    readVarint none ([1, 2] ++ writeVarint 300 ++ [7]) 2 = .ok (300, 4) := by
  have h : writeVarint 300 = [0xac, 0x02] := by
    rw [writeVarint, if_neg (by decide), writeVarint, if_pos (by decide)]; decide
  exact ⟨h, by rw [h]; rfl⟩

/-! ## C02 -/

/-- C02: no encoding is a prefix of another one; in particular two different
integers never have the same encoding. -/
theorem C02_varint_prefix_free (m n : Nat) (suf : Bytes) (h : writeVarint n = writeVarint m ++ suf) :
    m = n ∧ suf = [] := by
  have h1 := C01_varint_round_trip m [] suf
  have h2 := C01_varint_round_trip n [] []
  simp only [List.nil_append, List.append_nil, List.length_nil] at h1 h2
  rw [h, h1] at h2
  simp only [Except.ok.injEq, Prod.mk.injEq, List.length_append] at h2
  refine ⟨h2.1, List.eq_nil_of_length_eq_zero (by omega)⟩

theorem C02_varint_injective (m n : Nat) (h : writeVarint n = writeVarint m) : m = n :=
  (C02_varint_prefix_free m n [] (by simpa using h)).1

theorem readVarintLoop_bound {bs : Bytes} {off acc pos v p' : Nat} (ha : acc < 2 ^ off)
    (h : readVarintLoop none bs off acc pos = .ok (v, p')) :
    pos < p' ∧ v < 2 ^ (off + 7 * (p' - pos)) := by
  induction bs generalizing off acc pos with
  | nil => simp [readVarintLoop] at h
  | cons b bs ih =>
    have hb : acc + b.toNat % 128 * 2 ^ off < 2 ^ (off + 7) := by
      rw [Nat.pow_add]
      have : b.toNat % 128 * 2 ^ off ≤ 127 * 2 ^ off := Nat.mul_le_mul_right _ (by omega)
      omega
    simp only [readVarintLoop] at h
    split at h
    · simp only [Except.ok.injEq, Prod.mk.injEq] at h
      obtain ⟨h1, h2⟩ := h
      subst h1 h2
      refine ⟨by omega, ?_⟩
      have : off + 7 * (pos + 1 - pos) = off + 7 := by omega
      rw [this]; exact hb
    · have := ih hb h
      refine ⟨by omega, ?_⟩
      have e : off + 7 + 7 * (p' - (pos + 1)) = off + 7 * (p' - pos) := by omega
      rw [← e]; exact this.2

/-- C02: the encoding written is a shortest one: any bytes that `read_varint`
reads as `n` are at least as long. -/
theorem C02_varint_shortest (data : Bytes) (pos n pos' : Nat)
    (h : readVarint none data pos = .ok (n, pos')) : (writeVarint n).length ≤ pos' - pos := by
  unfold readVarint at h
  have hb := readVarintLoop_bound (by simp) h
  obtain ⟨k, hk⟩ : ∃ k, pos' - pos = k + 1 := ⟨pos' - pos - 1, by omega⟩
  rw [hk] at hb ⊢
  exact writeVarint_length_le k n (by simpa using hb.2)

/-- a longer, non-minimal encoding of 1 that the reader does accept -/
example : readVarint none [0x81, 0x80, 0x00] 0 = .ok (1, 3) ∧ (writeVarint 1).length = 1 :=
  ⟨by rfl, by rw [writeVarint, if_pos (by decide)]; rfl⟩

/-! ## C03 -/

/-- C03: zigzag maps every integer to a natural number, `_decode_zigzag` inverts it ... -/
theorem C03_zigzag_left_inverse (n : Int) :
    0 ≤ encodeZigzag n ∧ decodeZigzag (encodeZigzag n).toNat = n :=
  ⟨encodeZigzag_nonneg n, decode_encodeZigzag n⟩

/-- ... and every natural number is hit. -/
theorem C03_zigzag_right_inverse (k : Nat) : encodeZigzag (decodeZigzag k) = k :=
  encode_decodeZigzag k

/-- C03: the code is `2n` for `n ≥ 0` and `2|n| - 1` for `n < 0`. -/
theorem C03_zigzag_code (n : Int) :
    (0 ≤ n → encodeZigzag n = 2 * n) ∧ (n < 0 → encodeZigzag n = -2 * n - 1) := by
  unfold encodeZigzag; constructor <;> intro h <;> split <;> omega

/-- C03 on the stream: `read_zigzag` after `write_zigzag` -/
theorem C03_zigzag_round_trip (n : Int) (pre suf : Bytes) : ∃ bs, writeZigzag n = .ok bs ∧
    readZigzag none (pre ++ bs ++ suf) pre.length = .ok (n, (pre ++ bs).length) := by
  refine ⟨_, writeZigzag_ok n, ?_⟩
  have := (readVarint_reads (encodeZigzag n).toNat).map (g := decodeZigzag) pre suf
  rw [decode_encodeZigzag] at this
  rw [List.length_append]
  exact this

example : encodeZigzag (-2) = 3 ∧ encodeZigzag (-1) = 1 ∧ encodeZigzag 1 = 2 ∧
    decodeZigzag 4294967295 = -2147483648 := by decide

/-! ## C04 -/

/-- C04: `write_int32` accepts exactly −2^31 … 2^31−1 (nothing is written otherwise)
and the value reads back. -/
theorem C04_int32_round_trip (n : Int) :
    ((-2147483648 ≤ n ∧ n ≤ 2147483647) → ∃ bs, writeInt32 n = .ok bs ∧ ∀ pre suf,
        readInt32 (pre ++ bs ++ suf) pre.length = .ok (n, (pre ++ bs).length)) ∧
    (¬ (-2147483648 ≤ n ∧ n ≤ 2147483647) → writeInt32 n = .error (.py .valueError)) := by
  constructor
  · intro h
    have hr : inInt32 n = true := by simp [inInt32]; omega
    refine ⟨_, writeInt32_ok hr, fun pre suf => ?_⟩
    rw [readInt32_reads hr pre suf, List.length_append]
  · intro h
    have hr : inInt32 n = false := by simp [inInt32]; omega
    simp [writeInt32, hr]

/-- C04: `write_uint32` accepts exactly 0 … 2^32−1 and the value reads back. -/
theorem C04_uint32_round_trip (n : Int) :
    ((0 ≤ n ∧ n ≤ 4294967295) → ∃ bs, writeUint32 n = .ok bs ∧ ∀ pre suf,
        readUint32 (pre ++ bs ++ suf) pre.length = .ok (n.toNat, (pre ++ bs).length)) ∧
    (¬ (0 ≤ n ∧ n ≤ 4294967295) → writeUint32 n = .error (.py .valueError)) := by
  constructor
  · intro h
    obtain ⟨m, rfl⟩ : ∃ m : Nat, n = m := ⟨n.toNat, by omega⟩
    have hr : m < 2 ^ 32 := by omega
    refine ⟨_, writeUint32_ok hr, fun pre suf => ?_⟩
    rw [Int.toNat_natCast, readUint32_reads hr pre suf, List.length_append]
  · intro h
    have hr : inUint32 n = false := by simp [inUint32]; omega
    simp [writeUint32, hr]

theorem readVarintLoop_error {mb : Option Nat} {bs : Bytes} {off acc pos : Nat} {e : DErr}
    (h : readVarintLoop mb bs off acc pos = .error e) : e = .decode := by
  induction bs generalizing off acc pos with
  | nil => simp [readVarintLoop] at h; exact h.symm
  | cons b bs ih =>
    simp only [readVarintLoop] at h
    split at h
    · simp at h
    · cases mb with
      | none => exact ih h
      | some m => simp only at h; split at h
                  · simp at h; exact h.symm
                  · exact ih h

/-- C04: on every input whatsoever `read_int32` returns an int32 and moves forward
inside the data, or raises DecodeV8SerializeError. -/
theorem C04_read_int32_total (data : Bytes) (pos : Nat) :
    (∃ n pos', readInt32 data pos = .ok (n, pos') ∧ -2147483648 ≤ n ∧ n ≤ 2147483647 ∧
      pos < pos' ∧ pos' ≤ data.length) ∨ readInt32 data pos = .error .decode := by
  unfold readInt32 readZigzag
  cases hv : readVarint (some 32) data pos with
  | error e =>
    right
    rw [Rd.bind_error (Rd.bind_error hv), readVarintLoop_error hv]
  | ok r =>
    obtain ⟨v, p'⟩ := r
    rw [Rd.bind_ok (Rd.bind_ok hv)]
    by_cases hr : inInt32 (decodeZigzag v) = true
    · left
      refine ⟨decodeZigzag v, p', by simp [hr], ?_⟩
      have := readVarintLoop_pos hv
      simp at this
      simp [inInt32] at hr
      omega
    · right; simp [hr]

/-- C04: the same for `read_uint32`. -/
theorem C04_read_uint32_total (data : Bytes) (pos : Nat) :
    (∃ n pos', readUint32 data pos = .ok (n, pos') ∧ n ≤ 4294967295 ∧
      pos < pos' ∧ pos' ≤ data.length) ∨ readUint32 data pos = .error .decode := by
  unfold readUint32
  cases hv : readVarint (some 32) data pos with
  | error e => right; rw [Rd.bind_error hv, readVarintLoop_error hv]
  | ok r =>
    obtain ⟨v, p'⟩ := r
    rw [Rd.bind_ok hv]
    by_cases hr : inUint32 v = true
    · left
      refine ⟨v, p', by simp [hr], ?_⟩
      have := readVarintLoop_pos hv
      simp at this
      simp [inUint32] at hr
      omega
    · right; simp [hr]

theorem readVarintLoop_bits {m off acc pos v p' : Nat} {bs : Bytes}
    (h : readVarintLoop (some m) bs off acc pos = .ok (v, p')) : p' = pos + 1 ∨ off + 7 * (p' - pos - 1) < m := by
  induction bs generalizing off acc pos with
  | nil => simp [readVarintLoop] at h
  | cons b bs ih =>
    simp only [readVarintLoop] at h
    split at h
    · simp only [Except.ok.injEq, Prod.mk.injEq] at h
      exact .inl h.2.symm
    · split at h
      · simp at h
      · have hp := readVarintLoop_pos h
        rcases ih h with h1 | h1 <;> right <;> omega

/-- C04: an int32 or uint32 takes at most five bytes; longer runs of continuation bytes are refused. -/
theorem C04_at_most_five_bytes (data : Bytes) (pos pos' : Nat) :
    (∀ n, readUint32 data pos = .ok (n, pos') → pos' ≤ pos + 5) ∧
    (∀ n, readInt32 data pos = .ok (n, pos') → pos' ≤ pos + 5) := by
  have key : ∀ v p, readVarint (some 32) data pos = .ok (v, p) → p ≤ pos + 5 := by
    intro v p hv
    rcases readVarintLoop_bits hv with h | h <;> omega
  constructor
  · intro n h
    unfold readUint32 at h
    cases hv : readVarint (some 32) data pos with
    | error e => rw [Rd.bind_error hv] at h; cases h
    | ok r =>
      obtain ⟨v, p⟩ := r
      rw [Rd.bind_ok hv] at h
      split at h
      · cases h; exact key _ _ hv
      · cases h
  · intro n h
    unfold readInt32 readZigzag at h
    cases hv : readVarint (some 32) data pos with
    | error e => rw [Rd.bind_error (Rd.bind_error hv)] at h; cases h
    | ok r =>
      obtain ⟨v, p⟩ := r
      rw [Rd.bind_ok (Rd.bind_ok hv)] at h
      by_cases hr : inInt32 (decodeZigzag v) = true
      · simp only [hr, if_true] at h; cases h; exact key _ _ hv
      · simp only [hr] at h; cases h

/-- five bytes whose value is above 2^32 are rejected, six continuation bytes too -/
example : readUint32 [0xff, 0xff, 0xff, 0xff, 0x7f] 0 = .error .decode ∧
    readUint32 [0xff, 0xff, 0xff, 0xff, 0x0f] 0 = .ok (4294967295, 5) ∧
    readUint32 [0x80, 0x80, 0x80, 0x80, 0x80, 0x00] 0 = .error .decode ∧
    readInt32 [0xff, 0xff, 0xff, 0xff, 0x0f] 0 = .ok (-2147483648, 5) :=
  by decide +kernel

/-! ## C05 -/

/-- C05: every int `write_bigint` accepts is read back unchanged. -/
theorem C05_bigint_round_trip (n : Int) (bs : Bytes) (h : writeBigint n = .ok bs) (pre suf : Bytes) :
    readBigint (pre ++ bs ++ suf) pre.length = .ok (n, (pre ++ bs).length) := by
  rw [readBigint_reads h pre suf, List.length_append]

theorem bitLength_le_iff (n k : Nat) : bitLength n ≤ k ↔ n < 2 ^ k := by
  unfold bitLength
  split
  · rename_i h; subst h; simp; exact Nat.pow_pos (by omega)
  · rename_i h
    rw [← Nat.log2_lt h]; omega

/-- Number of magnitude bits that fit: 2^30 − 1 bytes, one bit reserved. -/
def bigintMaxBits : Nat := 8589934583

/-- C05: `write_bigint` accepts exactly the ints whose magnitude has at most
8·(2^30 − 1) − 1 bits and refuses all others with ValueError. -/
theorem C05_bigint_limit (n : Int) :
    (n.natAbs < 2 ^ bigintMaxBits → ∃ bs, writeBigint n = .ok bs) ∧
    (¬ n.natAbs < 2 ^ bigintMaxBits → writeBigint n = .error (.py .valueError)) := by
  rw [← bitLength_le_iff]
  unfold writeBigint
  simp only
  have h : ¬ bitLength ((bitLength n.natAbs + 8) / 8) > 30 ↔ bitLength n.natAbs ≤ bigintMaxBits := by
    rw [Nat.not_lt, bitLength_le_iff]
    unfold bigintMaxBits
    omega
  constructor
  · intro hb
    rw [if_neg (h.2 hb)]
    exact ⟨_, rfl⟩
  · intro hb
    rw [if_pos (by have := mt h.1 hb; omega)]

example : ∃ bs, writeBigint (-12345678901234567890123) = .ok bs ∧
    readBigint ([9] ++ bs ++ [1]) 1 = .ok (-12345678901234567890123, (([9] : Bytes) ++ bs).length) := by
  obtain ⟨bs, h⟩ := (C05_bigint_limit (-12345678901234567890123)).1 (by
    rw [← bitLength_le_iff]; decide +kernel)
  exact ⟨bs, h, C05_bigint_round_trip _ bs h [9] [1]⟩

/-! ## C07 -/

/-- C07: a double is read back with the same 64 bits. -/
theorem C07_double_round_trip (v : F64) (pre suf : Bytes) :
    readDouble (pre ++ writeDouble v ++ suf) pre.length = .ok (v, pre.length + 8) := by
  rw [readDouble_reads v pre suf]; simp [writeDouble]

/-- a NaN with payload, and −0.0 -/
example : readDouble (writeDouble 0x7ff800000000beef) 0 = .ok (0x7ff800000000beef, 8) ∧
    readDouble (writeDouble 0x8000000000000000) 0 = .ok (0x8000000000000000, 8) := by decide +kernel

end V8.Props
