import Verif.Model.Prim
/-! Helper lemmas about primitive readers and writers. -/

namespace V8

/-- `r` reads exactly `bs` (wherever it stands) and returns `a`. -/
def Reads {α : Type} (r : Rd α) (bs : Bytes) (a : α) : Prop :=
  ∀ pre suf : Bytes, r (pre ++ bs ++ suf) pre.length = .ok (a, pre.length + bs.length)

theorem Rd.bind_ok {α β : Type} {x : Rd α} {f : α → Rd β} {d p a p'}
    (h : x d p = .ok (a, p')) : (x >>= f) d p = f a d p' := by
  show Rd.bind x f d p = _
  simp [Rd.bind, h]

theorem Rd.bind_error {α β : Type} {x : Rd α} {f : α → Rd β} {d p e}
    (h : x d p = .error e) : (x >>= f) d p = .error e := by
  show Rd.bind x f d p = _
  simp [Rd.bind, h]

theorem Rd.bind_eq_ok {α β : Type} {x : Rd α} {f : α → Rd β} {d p r}
    (h : (x >>= f) d p = .ok r) : ∃ a p', x d p = .ok (a, p') ∧ f a d p' = .ok r := by
  change Rd.bind x f d p = _ at h
  unfold Rd.bind at h
  split at h
  · exact ⟨_, _, by assumption, h⟩
  · simp at h

@[simp] theorem Rd.pure_apply {α : Type} (a : α) (d p) : (Pure.pure a : Rd α) d p = .ok (a, p) := rfl
@[simp] theorem Rd.fail_apply {α : Type} (e : DErr) (d p) : (Rd.fail e : Rd α) d p = .error e := rfl
@[simp] theorem throwD_apply {α : Type} (d p) : (throwD : Rd α) d p = .error .decode := rfl

theorem Reads.pure {α : Type} (a : α) : Reads (Pure.pure a : Rd α) [] a := by
  intro pre suf; simp

theorem Reads.bind {α β : Type} {x : Rd α} {f : α → Rd β} {b1 b2 a b}
    (h1 : Reads x b1 a) (h2 : Reads (f a) b2 b) : Reads (x >>= f) (b1 ++ b2) b := by
  intro pre suf
  have e1 := h1 pre (b2 ++ suf)
  have e2 := h2 (pre ++ b1) suf
  have hd : pre ++ (b1 ++ b2) ++ suf = pre ++ b1 ++ (b2 ++ suf) := by simp
  have hd2 : pre ++ b1 ++ b2 ++ suf = pre ++ b1 ++ (b2 ++ suf) := by simp
  rw [hd, Rd.bind_ok e1]
  rw [hd2] at e2
  simp only [List.length_append] at e2 ⊢
  rw [e2]
  simp [Nat.add_assoc]

theorem Reads.map {α β : Type} {x : Rd α} {b1 a} {g : α → β}
    (h1 : Reads x b1 a) : Reads (x >>= fun v => Pure.pure (g v)) b1 (g a) := by
  have := Reads.bind (f := fun v => (Pure.pure (g v) : Rd β)) h1 (Reads.pure (g a))
  simpa using this

theorem Reads.bind0 {α β : Type} {x : Rd α} {f : α → Rd β} {b1 a b}
    (h1 : Reads x b1 a) (h2 : Reads (f a) [] b) : Reads (x >>= f) b1 b := by
  have := Reads.bind h1 h2
  simpa using this

/-- used to read the bytes at a position when the data is described by its suffix -/
theorem Reads.at {α : Type} {r : Rd α} {bs a} (h : Reads r bs a) {d : Bytes} {p : Nat} {suf : Bytes}
    (hp : p ≤ d.length) (hd : d.drop p = bs ++ suf) : r d p = .ok (a, p + bs.length) := by
  have h1 := h (d.take p) suf
  have h2 : d.take p ++ bs ++ suf = d := by
    rw [List.append_assoc, ← hd, List.take_append_drop]
  have h3 : (d.take p).length = p := by simp [hp]
  rw [h2, h3] at h1
  exact h1

/-! ## little-endian digits -/

@[simp] theorem toLE_length (k n : Nat) : (toLE k n).length = k := by
  induction k generalizing n with
  | zero => rfl
  | succ k ih => simp [toLE, ih]

theorem fromLE_toLE (k n : Nat) (h : n < 256 ^ k) : fromLE (toLE k n) = n := by
  induction k generalizing n with
  | zero => simp at h; simp [toLE, fromLE, h]
  | succ k ih =>
    have : n / 256 < 256 ^ k := by
      rw [Nat.div_lt_iff_lt_mul (by omega)]; rw [Nat.pow_succ] at h; exact h
    simp only [toLE, fromLE, ih _ this]
    have : (UInt8.ofNat (n % 256)).toNat = n % 256 := by
      simp
    omega

theorem fromLE_lt (bs : Bytes) : fromLE bs < 256 ^ bs.length := by
  induction bs with
  | nil => simp [fromLE]
  | cons b bs ih =>
    simp only [fromLE, List.length_cons, Nat.pow_succ]
    have := b.toNat_lt
    omega

theorem toLE_fromLE (bs : Bytes) : toLE bs.length (fromLE bs) = bs := by
  induction bs with
  | nil => rfl
  | cons b bs ih =>
    have hb := b.toNat_lt
    simp only [List.length_cons, toLE, fromLE]
    have h1 : (b.toNat + 256 * fromLE bs) % 256 = b.toNat := by omega
    have h2 : (b.toNat + 256 * fromLE bs) / 256 = fromLE bs := by omega
    rw [h1, h2, ih]
    simp

theorem lt_pow_bitLength (n : Nat) : n < 2 ^ bitLength n := by
  unfold bitLength
  split
  · simp_all
  · exact Nat.lt_log2_self

/-! ## Numbers in messages -/

theorem lt_ten_pow {n : Nat} (h : n < 2 ^ 64) : n < 10 ^ maxStrDigits :=
  Nat.lt_of_lt_of_le (Nat.lt_of_lt_of_le h (by decide : 2 ^ 64 ≤ 10 ^ 20))
    (Nat.pow_le_pow_right (by decide) (by decide : 20 ≤ maxStrDigits))

theorem throwFmt_of_lt {n : Nat} (h : n < 10 ^ maxStrDigits) : throwFmt n = .decode := by
  unfold throwFmt
  exact if_pos h

theorem throwFmt_small {n : Nat} (h : n < 2 ^ 64) : throwFmt n = .decode := throwFmt_of_lt (lt_ten_pow h)

theorem throwFmt_cases (n : Nat) :
    throwFmt n = .decode ∨ throwFmt n = .py .valueError ∧ 10 ^ maxStrDigits ≤ n := by
  unfold throwFmt
  by_cases h : n < 10 ^ maxStrDigits
  · exact .inl (if_pos h)
  · exact .inr ⟨if_neg h, Nat.le_of_not_lt h⟩

theorem flagMember_ok {known n m : Nat} (h : flagMember known n = .ok m) : m = n := by
  unfold flagMember at h
  split at h
  · cases h
  · cases h; rfl

theorem flagMember_error {known n : Nat} {e : PyExc} (h : flagMember known n = .error e) :
    e = .valueError ∧ 10 ^ maxStrDigits ≤ n := by
  unfold flagMember at h
  by_cases hc : n &&& known ≠ 0 ∧ 10 ^ maxStrDigits ≤ n - (n &&& known)
  · rw [if_pos hc] at h
    cases h
    exact ⟨rfl, Nat.le_trans hc.2 (Nat.sub_le _ _)⟩
  · rw [if_neg hc] at h
    cases h

theorem flagMember_of_lt {known n : Nat} (h : n < 10 ^ maxStrDigits) : flagMember known n = .ok n := by
  cases hf : flagMember known n with
  | ok m => rw [flagMember_ok hf]
  | error e => exact absurd h (Nat.not_lt.mpr (flagMember_error hf).2)

theorem flagMember_small {known n : Nat} (h : n < 2 ^ 64) : flagMember known n = .ok n :=
  flagMember_of_lt (lt_ten_pow h)

/-! ## readBytes -/

theorem Reads.ensure (bs : Bytes) : ∀ pre suf : Bytes,
    ensureCapacity bs.length (pre ++ bs ++ suf) pre.length = .ok ((), pre.length) := by
  intro pre suf
  simp [ensureCapacity]

theorem readBytes_reads (bs : Bytes) : Reads (readBytes bs.length) bs bs := by
  intro pre suf
  unfold readBytes
  rw [Rd.bind_ok (Reads.ensure bs pre suf)]
  simp [takeHere]

theorem readBytes_reads' {n : Nat} {bs : Bytes} (h : bs.length = n) : Reads (readBytes n) bs bs := by
  subst h; exact readBytes_reads bs

/-! ## varint -/

theorem readVarintLoop_write (n : Nat) : ∀ (suf : Bytes) (offset acc pos : Nat),
    readVarintLoop none (writeVarint n ++ suf) offset acc pos
      = .ok (acc + n * 2 ^ offset, pos + (writeVarint n).length) := by
  induction n using Nat.strongRecOn with
  | _ n ih =>
    intro suf offset acc pos
    rw [writeVarint]
    split
    · rename_i h
      have hn : n < 128 := by omega
      have h1 : n % 128 = n := by omega
      have h2 : (UInt8.ofNat n).toNat = n := by simp; omega
      simp [readVarintLoop, h1, h2]
    · rename_i h
      have hlt : n / 128 < n := by omega
      have h2 : (UInt8.ofNat (n % 128 + 128)).toNat = n % 128 + 128 := by simp; omega
      simp only [List.cons_append, readVarintLoop, h2]
      have h3 : (n % 128 + 128) % 128 = n % 128 := by omega
      rw [h3, if_neg (by omega), ih _ hlt]
      simp only [List.length_cons, Except.ok.injEq, Prod.mk.injEq]
      constructor
      · have : n = 128 * (n / 128) + n % 128 := by omega
        have hp : (2:Nat) ^ (offset + 7) = 2 ^ offset * 128 := by rw [Nat.pow_add]
        rw [hp]
        generalize n / 128 = q at *
        generalize n % 128 = r at *
        subst this
        generalize 2 ^ offset = t
        rw [Nat.add_mul, Nat.add_assoc]
        have : q * (t * 128) = 128 * q * t := by
          rw [Nat.mul_comm t 128, ← Nat.mul_assoc, Nat.mul_comm q 128]
        omega
      · omega

theorem readVarint_reads (n : Nat) : Reads (readVarint none) (writeVarint n) n := by
  intro pre suf
  unfold readVarint
  have : (pre ++ writeVarint n ++ suf).drop pre.length = writeVarint n ++ suf := by simp
  rw [this, readVarintLoop_write]
  simp

theorem writeVarint_length_pos (n : Nat) : 0 < (writeVarint n).length := by
  rw [writeVarint]; split <;> simp

/-- a value below `2^(7 k)` needs at most `k` bytes -/
theorem writeVarint_length_le (k n : Nat) (h : n < 2 ^ (7 * (k + 1))) :
    (writeVarint n).length ≤ k + 1 := by
  induction k generalizing n with
  | zero =>
    rw [writeVarint, if_pos (by omega)]; simp
  | succ k ih =>
    rw [writeVarint]
    split
    · simp
    · have : n / 128 < 2 ^ (7 * (k + 1)) := by
        rw [Nat.div_lt_iff_lt_mul (by omega)]
        have e : 7 * (k + 1 + 1) = 7 * (k + 1) + 7 := by omega
        rw [e, Nat.pow_add] at h
        exact h
      have := ih _ this
      simp; omega

theorem readVarintLoop_write_max (m : Nat) (n : Nat) : ∀ (suf : Bytes) (offset acc pos : Nat),
    offset + 7 * ((writeVarint n).length - 1) < m →
    readVarintLoop (some m) (writeVarint n ++ suf) offset acc pos
      = .ok (acc + n * 2 ^ offset, pos + (writeVarint n).length) := by
  induction n using Nat.strongRecOn with
  | _ n ih =>
    intro suf offset acc pos hm
    rw [writeVarint] at hm ⊢
    split at hm
    · rename_i h
      rw [if_pos h]
      have hn : n < 128 := by omega
      have h1 : n % 128 = n := by omega
      have h2 : (UInt8.ofNat n).toNat = n := by simp; omega
      simp [readVarintLoop, h1, h2]
    · rename_i h
      rw [if_neg h]
      have hlt : n / 128 < n := by omega
      have h2 : (UInt8.ofNat (n % 128 + 128)).toNat = n % 128 + 128 := by simp; omega
      simp only [List.cons_append, readVarintLoop, h2]
      have h3 : (n % 128 + 128) % 128 = n % 128 := by omega
      have hl := writeVarint_length_pos (n / 128)
      simp only [List.length_cons] at hm
      rw [h3, if_neg (by omega), if_neg (by omega), ih _ hlt _ _ _ _ (by omega)]
      simp only [List.length_cons, Except.ok.injEq, Prod.mk.injEq]
      constructor
      · have : n = 128 * (n / 128) + n % 128 := by omega
        have hp : (2:Nat) ^ (offset + 7) = 2 ^ offset * 128 := by rw [Nat.pow_add]
        rw [hp]
        generalize n / 128 = q at *
        generalize n % 128 = r at *
        subst this
        generalize 2 ^ offset = t
        rw [Nat.add_mul, Nat.add_assoc]
        have : q * (t * 128) = 128 * q * t := by
          rw [Nat.mul_comm t 128, ← Nat.mul_assoc, Nat.mul_comm q 128]
        omega
      · omega

theorem readVarint32_reads (n : Nat) (h : n < 2 ^ 32) : Reads (readVarint (some 32)) (writeVarint n) n := by
  intro pre suf
  unfold readVarint
  have : (pre ++ writeVarint n ++ suf).drop pre.length = writeVarint n ++ suf := by simp
  have hl := writeVarint_length_le 4 n (by omega)
  rw [this, readVarintLoop_write_max _ _ _ _ _ _ (by omega)]
  simp

/-- the loop returns a position inside the data, after at least one byte -/
theorem readVarintLoop_pos {mb : Option Nat} {bs : Bytes} {off acc pos v p' : Nat}
    (h : readVarintLoop mb bs off acc pos = .ok (v, p')) : pos < p' ∧ p' ≤ pos + bs.length := by
  induction bs generalizing off acc pos with
  | nil => simp [readVarintLoop] at h
  | cons b bs ih =>
    simp only [readVarintLoop] at h
    split at h
    · simp at h; simp only [List.length_cons]; omega
    · cases mb with
      | none => simp only at h; have := ih h; simp only [List.length_cons]; omega
      | some m =>
        simp only at h
        split at h
        · simp at h
        · have := ih h; simp only [List.length_cons]; omega

/-! ## zigzag -/

theorem encodeZigzag_nonneg (n : Int) : 0 ≤ encodeZigzag n := by
  unfold encodeZigzag; split <;> omega

theorem decode_encodeZigzag (n : Int) : decodeZigzag (encodeZigzag n).toNat = n := by
  unfold encodeZigzag decodeZigzag
  split <;> split <;> omega

theorem encode_decodeZigzag (n : Nat) : encodeZigzag (decodeZigzag n) = n := by
  unfold encodeZigzag decodeZigzag
  split <;> split <;> omega

theorem writeZigzag_ok (n : Int) : writeZigzag n = .ok (writeVarint (encodeZigzag n).toNat) := by
  unfold writeZigzag writeVarintInt
  rw [if_neg (by have := encodeZigzag_nonneg n; omega)]

/-! ## int32 / uint32 -/

theorem writeInt32_ok {n : Int} (h : inInt32 n = true) :
    writeInt32 n = .ok (writeVarint (encodeZigzag n).toNat) := by
  simp [writeInt32, h, writeZigzag_ok]

theorem encodeZigzag_int32 {n : Int} (h : inInt32 n = true) : (encodeZigzag n).toNat < 2 ^ 32 := by
  simp [inInt32] at h
  unfold encodeZigzag
  split <;> omega

theorem readInt32_reads {n : Int} (h : inInt32 n = true) :
    Reads readInt32 (writeVarint (encodeZigzag n).toNat) n := by
  unfold readInt32 readZigzag
  have h1 := (readVarint32_reads _ (encodeZigzag_int32 h)).map (g := decodeZigzag)
  rw [decode_encodeZigzag] at h1
  have := Reads.bind (f := fun v => (if inInt32 v then Pure.pure v else throwD : Rd Int)) h1
    (b := n) (b2 := []) (by simp only [h, if_true]; exact Reads.pure n)
  simpa using this

theorem writeUint32_ok {n : Nat} (h : n < 2 ^ 32) : writeUint32 n = .ok (writeVarint n) := by
  have : inUint32 n = true := by simp [inUint32]; omega
  simp [writeUint32, this, writeVarintInt]

theorem readUint32_reads {n : Nat} (h : n < 2 ^ 32) : Reads readUint32 (writeVarint n) n := by
  unfold readUint32
  have h1 := readVarint32_reads n h
  have hr : inUint32 n = true := by simp [inUint32]; omega
  have := Reads.bind (f := fun (v : Nat) => (if inUint32 v then Pure.pure v else throwD : Rd Nat)) h1
    (b := n) (b2 := []) (by simp only [hr, if_true]; exact Reads.pure n)
  simpa using this

/-! ## bigint -/

/-- the byte length chosen by `write_bigint` holds the value -/
theorem bigint_digits_fit (n : Nat) : n < 256 ^ ((bitLength n + 8) / 8) := by
  have h := lt_pow_bitLength n
  have : (256:Nat) ^ ((bitLength n + 8) / 8) = 2 ^ (8 * ((bitLength n + 8) / 8)) := by
    rw [Nat.pow_mul]
  rw [this]
  exact Nat.lt_of_lt_of_le h (Nat.pow_le_pow_right (by omega) (by omega))

theorem readBigint_reads {n : Int} {bs : Bytes} (h : writeBigint n = .ok bs) :
    Reads readBigint bs n := by
  unfold writeBigint at h
  simp only at h
  split at h
  · simp at h
  · rename_i hb
    simp only [Except.ok.injEq] at h
    subst h
    unfold readBigint
    generalize hbl : (bitLength n.natAbs + 8) / 8 = bl at *
    have hbl30 : bl < 2 ^ 30 :=
      Nat.lt_of_lt_of_le (lt_pow_bitLength bl) (Nat.pow_le_pow_right (by omega) (by omega))
    refine Reads.bind (readVarint_reads _) ?_
    have hcount : (bl * 2 + (if n < 0 then 1 else 0)) / 2 % 2 ^ 30 = bl := by
      split <;> omega
    simp only [hcount]
    have hd := fromLE_toLE bl n.natAbs (by rw [← hbl]; exact bigint_digits_fit _)
    have key := Reads.bind (f := fun bs => (if (bl * 2 + (if n < 0 then 1 else 0)) % 2 ≠ 0 then
      Pure.pure (-(fromLE bs : Int)) else Pure.pure (fromLE bs : Int) : Rd Int))
      (readBytes_reads' (toLE_length bl n.natAbs)) (b := n) (b2 := []) (by
        simp only [hd]
        by_cases hn : n < 0
        · simp only [hn, if_true]
          rw [if_pos (by omega)]
          have : -(n.natAbs : Int) = n := by omega
          rw [this]; exact Reads.pure n
        · simp only [hn, if_false]
          rw [if_neg (by omega)]
          have : (n.natAbs : Int) = n := by omega
          rw [this]; exact Reads.pure n)
    simpa using key

/-! ## double -/

theorem readDouble_reads (v : F64) : Reads readDouble (writeDouble v) v := by
  intro pre suf
  unfold readDouble
  have he := Reads.ensure (writeDouble v) pre suf
  have hlen : (writeDouble v).length = 8 := by simp [writeDouble]
  rw [hlen] at he
  rw [Rd.bind_ok he]
  have h2 := (readBytes_reads' hlen).map (g := fun bs => UInt64.ofNat (fromLE bs)) pre suf
  have : UInt64.ofNat (fromLE (writeDouble v)) = v := by
    unfold writeDouble
    rw [fromLE_toLE 8 _ v.toNat_lt]
    simp
  rw [this] at h2
  exact h2

end V8
