import Verif.Model.Header
import Verif.Proofs.Prim
/-! Helper lemmas about tags. -/

namespace V8

@[simp] theorem Tag.ofByte_byte (t : Tag) : Tag.ofByte t.byte = some t := by
  cases t <;> rfl

theorem Tag.byte_of_ofByte {b : UInt8} {t : Tag} (h : Tag.ofByte b = some t) : t.byte = b := by
  unfold Tag.ofByte at h
  split at h <;> first
    | (rename_i hb
       simp only [Option.some.injEq] at h
       subst h
       apply UInt8.toNat_inj.1
       rw [hb]
       rfl)
    | simp at h

theorem Tag.byte_injective {t u : Tag} (h : t.byte = u.byte) : t = u := by
  have := Tag.ofByte_byte t
  rw [h, Tag.ofByte_byte] at this
  simpa using this.symm

theorem Tag.byte_ne_zero {t : Tag} (h : t ≠ .kPadding) : t.byte ≠ 0 := by
  intro hb
  exact h (Tag.byte_injective hb)

theorem byteHere_at {d : Bytes} {p : Nat} {b : UInt8} (h : d[p]? = some b) : byteHere d p = .ok (b, p) := by
  simp [byteHere, h]

theorem readPaddingLoop_replicate (k : Nat) (b : UInt8) (hb : b ≠ 0) (suf : Bytes) (p : Nat) :
    readPaddingLoop (List.replicate k 0 ++ b :: suf) p = .ok ((), p + k) := by
  induction k generalizing p with
  | zero => simp [readPaddingLoop, hb]
  | succ k ih =>
    simp only [List.replicate_succ, List.cons_append, readPaddingLoop]
    rw [if_neg (by simp), ih]
    simp; omega

/-- `read_tag` skips any amount of padding before an acceptable tag. -/
theorem readTag_reads_padded {accept : Tag → Bool} {t : Tag} (ha : accept t = true)
    (ht : t ≠ .kPadding) (k : Nat) :
    Reads (readTag accept) (List.replicate k 0 ++ [t.byte]) t := by
  have hb := Tag.byte_ne_zero ht
  intro pre suf
  unfold readTag
  have hcap : ensureCapacity 1 (pre ++ (List.replicate k 0 ++ [t.byte]) ++ suf) pre.length
      = .ok ((), pre.length) := by
    simp [ensureCapacity]
  rw [Rd.bind_ok hcap]
  cases k with
  | zero =>
    have h0 : (pre ++ (List.replicate 0 0 ++ [t.byte]) ++ suf)[pre.length]? = some t.byte := by
      simp
    rw [Rd.bind_ok (byteHere_at h0)]
    rw [Rd.bind_ok (a := t.byte) (p' := pre.length) (by
      unfold skipPadding; rw [if_neg (by exact hb)]; rfl)]
    simp only [Tag.ofByte_byte, ha, if_true]
    rw [Rd.bind_ok (show advance 1 _ _ = _ from rfl)]
    simp
  | succ k =>
    have h0 : (pre ++ (List.replicate (k + 1) 0 ++ [t.byte]) ++ suf)[pre.length]? = some 0 := by
      simp [List.replicate_succ]
    have h1 : (pre ++ (List.replicate (k + 1) 0 ++ [t.byte]) ++ suf)[pre.length + 1 + k]? = some t.byte := by
      have : (pre ++ (List.replicate (k + 1) 0 ++ [t.byte]) ++ suf) =
        (pre ++ List.replicate (k + 1) 0) ++ (t.byte :: suf) := by simp
      rw [this, List.getElem?_append_right (by simp; omega)]
      simp
      have : pre.length + 1 + k - (pre.length + (k + 1)) = 0 := by omega
      rw [this]; rfl
    rw [Rd.bind_ok (byteHere_at h0)]
    have hdrop : (pre ++ (List.replicate (k + 1) 0 ++ [t.byte]) ++ suf).drop (pre.length + 1)
        = List.replicate k 0 ++ t.byte :: suf := by
      have : (pre ++ (List.replicate (k + 1) 0 ++ [t.byte]) ++ suf) =
        (pre ++ [0]) ++ (List.replicate k 0 ++ t.byte :: suf) := by simp [List.replicate_succ]
      rw [this]
      have hl : pre.length + 1 = (pre ++ [(0 : UInt8)]).length := by simp
      rw [hl, List.drop_left]
    have hpad : readPadding (pre ++ (List.replicate (k + 1) 0 ++ [t.byte]) ++ suf) (pre.length + 1)
        = .ok ((), pre.length + 1 + k) := by
      unfold readPadding
      rw [hdrop, readPaddingLoop_replicate k _ hb]
    rw [Rd.bind_ok (a := t.byte) (p' := pre.length + 1 + k) (by
      unfold skipPadding
      rw [if_pos (by rfl), Rd.bind_ok (show advance 1 _ _ = _ from rfl), Rd.bind_ok hpad]
      exact byteHere_at h1)]
    simp only [Tag.ofByte_byte, ha, if_true]
    rw [Rd.bind_ok (show advance 1 _ _ = _ from rfl)]
    simp; omega

theorem readTag_reads {accept : Tag → Bool} {t : Tag} (ha : accept t = true)
    (ht : t ≠ .kPadding) : Reads (readTag accept) [t.byte] t := by
  have := readTag_reads_padded ha ht 0
  simpa using this

theorem readAnyTag_reads {t : Tag} (ht : t ≠ .kPadding) : Reads readAnyTag [t.byte] t :=
  readTag_reads rfl ht

theorem readThisTag_reads {t : Tag} (ht : t ≠ .kPadding) : Reads (readThisTag t) [t.byte] t :=
  readTag_reads (by simp) ht

theorem readHeader_reads : Reads readHeader writeHeader 15 := by
  unfold readHeader writeHeader
  refine Reads.bind (b1 := [Tag.kVersion.byte]) (readThisTag_reads (by simp)) ?_
  refine Reads.bind0 (readVarint_reads _) ?_
  simp only [kLatestVersion]
  exact Reads.pure 15

end V8
