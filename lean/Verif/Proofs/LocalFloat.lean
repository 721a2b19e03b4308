import Verif.Proofs.DateTime
import Verif.Proofs.LocalTime

/-!
# Lemmas on the arithmetic of dates without a time zone, and of whole seconds
-/

namespace V8

theorem doubleOf_exact (neg : Bool) (num den m : Nat) (hd : 0 < den) (hm : m < 2 ^ 53) (h : num = m * den) :
    fExp (doubleOf neg num den).toNat ≠ 2047 ∧ fSign (doubleOf neg num den).toNat = neg ∧
    fMag (doubleOf neg num den).toNat = m * 2 ^ 1074 := by
  have hd' : (0 : ℚ) < den := by exact_mod_cast hd
  have hb : (num : ℚ) / den < 2 ^ 53 := by
    rw [h, Nat.cast_mul, mul_div_assoc, div_self (ne_of_gt hd'), mul_one]
    exact_mod_cast hm
  obtain ⟨hinf, _⟩ := round64_spec num den 53 hd (by omega) hb
  obtain ⟨h1, h2, h3⟩ := fields_of (doubleOf neg num den) neg (b64.round num den) hinf
    (by rw [doubleOf_toNat, Nat.min_eq_left (Nat.le_of_lt hinf)])
  refine ⟨h1, h2, ?_⟩
  rw [h3]
  exact b64.mag_round_exact num den 1074 m hd hm (by rw [h]; show m * den * 2 ^ 1074 = _; ring)

theorem magQ_whole {x : F64} {m : Nat} (h : fMag x.toNat = m * 2 ^ 1074) : magQ x = m := by
  unfold magQ
  rw [h, Nat.cast_mul, unit_cast, mul_div_assoc, div_self (by positivity), mul_one]

/-- A whole number of seconds goes through milliseconds unharmed. -/
theorem whole_seconds {x : F64} {s : Int} (h1 : minSec < s) (h2 : s < endSec) (hx : fExp x.toNat ≠ 2047)
    (hs : fSign x.toNat = decide (s < 0)) (hm : fMag x.toNat = s.natAbs * 2 ^ 1074) :
    fval (fmulNat x 1000) = .fin (s * 1000 * 2 ^ 1074) ∧
      fromTimestamp (fdivNat (fmulNat x 1000) 1000) = .ok (s * 10 ^ 6) := by
  unfold minSec at h1
  unfold endSec at h2
  have hn : s.natAbs < 253402300800 := by omega
  have hmul : fExp (fmulNat x 1000).toNat ≠ 2047 ∧ fSign (fmulNat x 1000).toNat = decide (s < 0) ∧
      fMag (fmulNat x 1000).toNat = s.natAbs * 1000 * 2 ^ 1074 := by
    unfold fmulNat
    rw [if_neg hx, hs, hm]
    exact doubleOf_exact _ _ _ (s.natAbs * 1000) (Nat.two_pow_pos _) (by omega) (by ring)
  obtain ⟨a1, a2, a3⟩ := hmul
  have hdiv : fExp (fdivNat (fmulNat x 1000) 1000).toNat ≠ 2047 ∧
      fSign (fdivNat (fmulNat x 1000) 1000).toNat = decide (s < 0) ∧
      fMag (fdivNat (fmulNat x 1000) 1000).toNat = s.natAbs * 2 ^ 1074 := by
    rw [fdivNat, if_neg a1, a2, a3]
    exact doubleOf_exact _ _ _ s.natAbs (Nat.mul_pos (Nat.two_pow_pos _) (by omega)) (by omega) (by ring)
  obtain ⟨b1, b2, b3⟩ := hdiv
  constructor
  · unfold fval
    rw [if_neg a1, a2, a3]
    congr 1
    have hc : ((s.natAbs * 1000 * 2 ^ 1074 : Nat) : Int) = (s.natAbs : Int) * 1000 * 2 ^ 1074 := by
      rw [Nat.cast_mul, Nat.cast_mul, Nat.cast_pow]; rfl
    rw [hc]
    by_cases hu : s < 0
    · simp only [hu, decide_true, if_true]
      rw [show (s.natAbs : Int) = -s by omega]
      ring
    · simp only [hu, decide_false, Bool.false_eq_true, if_false]
      rw [show (s.natAbs : Int) = s by omega]
  · have hq := magQ_whole b3
    obtain ⟨n, c1, c2⟩ := fromTimestamp_err _ b1 (by
      rw [b2, hq]
      by_cases hu : s < 0
      · simp only [hu, decide_true, if_true]
        have : s.natAbs * 10 ^ 6 ≤ 62135596800000000 - 1 := by omega
        have h' : ((s.natAbs * 10 ^ 6 : Nat) : ℚ) ≤ ((62135596800000000 - 1 : Nat) : ℚ) := by exact_mod_cast this
        norm_num at h' ⊢
        linarith
      · simp only [hu, decide_false, Bool.false_eq_true, if_false]
        have : s.natAbs * 10 ^ 6 ≤ 253402300800000000 - 2 := by omega
        have h' : ((s.natAbs * 10 ^ 6 : Nat) : ℚ) ≤ ((253402300800000000 - 2 : Nat) : ℚ) := by exact_mod_cast this
        norm_num at h' ⊢
        linarith)
    rw [hq, abs_le] at c2
    have e1 : (n : ℚ) < ((s.natAbs * 10 ^ 6 + 1 : Nat) : ℚ) := by push_cast; norm_num at c2 ⊢; linarith [c2.2]
    have e2 : ((s.natAbs * 10 ^ 6 : Nat) : ℚ) < ((n + 1 : Nat) : ℚ) := by push_cast; norm_num at c2 ⊢; linarith [c2.1]
    have e1' : n < s.natAbs * 10 ^ 6 + 1 := by exact_mod_cast e1
    have e2' : s.natAbs * 10 ^ 6 < n + 1 := by exact_mod_cast e2
    rw [c1, b2]
    congr 1
    by_cases hu : s < 0
    · simp only [hu, decide_true, if_true]; omega
    · simp only [hu, decide_false, Bool.false_eq_true, if_false]; omega

/-- A timestamp close to `us` microseconds, near 1970, goes through milliseconds unharmed. -/
theorem near_back {x : F64} {us : Int} (h : us.natAbs < 2 ^ 31 * 10 ^ 6) (a1 : fExp x.toNat ≠ 2047)
    (a2 : fSign x.toNat = decide (us < 0)) (a3 : |magQ x - (us.natAbs : ℚ) / 10 ^ 6| ≤ 1 / 2 ^ 23 + 1 / 2 ^ 54) :
    fromTimestamp (fdivNat (fmulNat x 1000) 1000) = .ok us := by
  have hn : ((us.natAbs : Nat) : ℚ) / 10 ^ 6 ≤ 2 ^ 31 - 1 / 10 ^ 6 := by
    rw [div_le_iff₀ (by norm_num)]
    have : ((us.natAbs : Nat) : ℚ) + 1 ≤ 2 ^ 31 * 10 ^ 6 := by exact_mod_cast h
    linarith
  have ha0 := magQ_nonneg x
  obtain ⟨t, ht⟩ : ∃ t : ℚ, ((us.natAbs : Nat) : ℚ) / 10 ^ 6 = t := ⟨_, rfl⟩
  rw [ht] at a3 hn
  rw [abs_le] at a3
  have hb1 : magQ x * (1000 : Nat) < 2 ^ 41 := by
    push_cast
    norm_num at a3 hn ⊢
    linarith [a3.2]
  obtain ⟨b1, b2, b3⟩ := fmulNat_spec x 1000 41 a1 (by omega) hb1
  push_cast at b3
  rw [abs_le] at b3
  have hc1 : magQ (fmulNat x 1000) / (1000 : Nat) < 2 ^ 31 := by
    push_cast
    rw [div_lt_iff₀ (by norm_num)]
    norm_num at a3 b3 hn ⊢
    linarith [a3.2, b3.2]
  obtain ⟨c1, c2, c3⟩ := fdivNat_spec (fmulNat x 1000) 1000 31 (by omega) b1 (by omega) hc1
  push_cast at c3
  rw [abs_le] at c3
  rw [fromTimestamp_near _ us.natAbs c1 (by omega) ?_, c2, b2, a2]
  · congr 1
    by_cases hu : us < 0
    · simp only [hu, decide_true, if_true]; omega
    · simp only [hu, decide_false, Bool.false_eq_true, if_false]; omega
  · have hu : ((us.natAbs : Nat) : ℚ) = t * 10 ^ 6 := by rw [← ht]; field_simp
    rw [hu, abs_lt]
    norm_num at a3 b3 c3 ⊢
    constructor <;> linarith [a3.1, a3.2, b3.1, b3.2, c3.1, c3.2]

theorem sum_sign {s : Int} {D M m : Nat} (h1 : M < D) (h2 : m < 10 ^ 6) :
    decide (s * (D : Int) + M < 0) = decide (s * 10 ^ 6 + m < 0) := by
  congr 1
  apply propext
  by_cases h0 : s < 0
  · have h1 : s * (D : Int) ≤ (-1) * D := Int.mul_le_mul_of_nonneg_right (by omega) (by omega)
    constructor <;> intro _ <;> omega
  · have h1 : 0 ≤ s * (D : Int) := Int.mul_nonneg (by omega) (by omega)
    constructor <;> intro _ <;> omega

theorem sec_sign (s : Int) : decide (s * 10 ^ 6 < 0) = decide (s < 0) := by
  congr 1
  apply propext
  omega

theorem natAbs_div {s : Int} {D M : Nat} (hD : 0 < D) :
    (((s * (D : Int) + M).natAbs : Nat) : ℚ) / D = |(s : ℚ) + (M : ℚ) / D| := by
  have hDq : (0 : ℚ) < D := by exact_mod_cast hD
  have e : (((s * (D : Int) + M).natAbs : Nat) : ℚ) = |((s * (D : Int) + M : Int) : ℚ)| := by
    rw [← Int.cast_abs, Int.abs_eq_natAbs, Int.cast_natCast]
  rw [e, show (D : ℚ) = |(D : ℚ)| from (abs_of_pos hDq).symm, ← abs_div, abs_of_pos hDq]
  congr 1
  push_cast
  field_simp

/-- `s + microsecond / 1e6` near 1970. -/
theorem faddInt_near {s : Int} {m : Nat} (hm : m < 10 ^ 6) (hs : s.natAbs < 2 ^ 31) :
    ∃ x, faddInt s (doubleOf false m (10 ^ 6)) = x ∧ fExp x.toNat ≠ 2047 ∧
      fSign x.toNat = decide (s * 10 ^ 6 + m < 0) ∧
      |magQ x - ((s * 10 ^ 6 + m).natAbs : ℚ) / 10 ^ 6| ≤ 1 / 2 ^ 23 + 1 / 2 ^ 54 := by
  refine ⟨_, rfl, ?_⟩
  have hm' : (m : ℚ) ≤ 10 ^ 6 - 1 := by
    have : ((m + 1 : Nat) : ℚ) ≤ ((10 ^ 6 : Nat) : ℚ) := by exact_mod_cast hm
    push_cast at this
    linarith
  have hb : (m : ℚ) / ((10 ^ 6 : Nat) : ℚ) < 2 ^ 0 := by
    rw [div_lt_iff₀ (by norm_num)]; push_cast; linarith
  obtain ⟨y1, y2, y3⟩ := doubleOf_spec false m (10 ^ 6) 0 (by norm_num) (by omega) hb
  obtain ⟨y, hy⟩ : ∃ y, doubleOf false m (10 ^ 6) = y := ⟨_, rfl⟩
  rw [hy] at y1 y2 y3 ⊢
  obtain ⟨M, hM⟩ : ∃ M, fMag y.toNat = M := ⟨_, rfl⟩
  have hyq : magQ y = (M : ℚ) / 2 ^ 1074 := by unfold magQ; rw [hM]
  have hq0 := magQ_nonneg y
  obtain ⟨D, hD⟩ : ∃ D : Nat, 2 ^ 1074 = D := ⟨_, rfl⟩
  have hDp : 0 < D := by rw [← hD]; exact Nat.two_pow_pos _
  have hDq : (0 : ℚ) < D := by exact_mod_cast hDp
  have hyq' : magQ y = (M : ℚ) / D := by rw [hyq, ← hD, unit_cast]
  rw [hyq', abs_le] at y3
  push_cast at y3
  have hlt : (M : ℚ) / D < 1 := by
    have : (m : ℚ) / 10 ^ 6 ≤ 1 - 1 / 10 ^ 6 := by rw [div_le_iff₀ (by norm_num)]; linarith
    norm_num at y3 this ⊢
    linarith [y3.2]
  have hlt' : M < D := by rw [div_lt_one hDq] at hlt; exact_mod_cast hlt
  unfold faddInt
  rw [hM, hD]
  -- the sum and its sign
  have hsg := sum_sign (s := s) hlt' hm
  simp only
  rw [hsg]
  have habs := natAbs_div (s := s) (M := M) hDp
  have habs2 := natAbs_div (s := s) (D := 10 ^ 6) (M := m) (by norm_num)
  rw [show (((10 ^ 6 : Nat) : Int)) = 10 ^ 6 from rfl, show (((10 ^ 6 : Nat) : ℚ)) = 10 ^ 6 by norm_num] at habs2
  have hsq : |(s : ℚ)| ≤ 2 ^ 31 - 1 := by
    have e : |(s : ℚ)| = ((s.natAbs : Nat) : ℚ) := by
      rw [← Int.cast_abs, Int.abs_eq_natAbs, Int.cast_natCast]
    rw [e]
    have : ((s.natAbs + 1 : Nat) : ℚ) ≤ ((2 ^ 31 : Nat) : ℚ) := by exact_mod_cast hs
    push_cast at this
    linarith
  have hbd : |(s : ℚ) + (M : ℚ) / D| < 2 ^ 31 := by
    have h1 := abs_add_le (s : ℚ) ((M : ℚ) / D)
    rw [abs_of_nonneg (by rw [← hyq']; exact hq0 : (0 : ℚ) ≤ (M : ℚ) / D)] at h1
    linarith
  obtain ⟨x1, x2, x3⟩ := doubleOf_spec (decide (s * 10 ^ 6 + m < 0)) (s * (D : Int) + M).natAbs D 31 hDp (by omega)
    (by rw [habs]; exact hbd)
  refine ⟨x1, x2, ?_⟩
  rw [habs] at x3
  rw [habs2]
  have h5 : |(|(s : ℚ) + (M : ℚ) / D| - |(s : ℚ) + (m : ℚ) / 10 ^ 6|)| ≤ 1 / 2 ^ 54 := by
    refine le_trans (abs_abs_sub_abs_le_abs_sub _ _) ?_
    rw [abs_le]
    norm_num at y3 ⊢
    constructor <;> linarith [y3.1, y3.2]
  rw [abs_le] at x3 h5 ⊢
  norm_num at x3 h5 ⊢
  constructor <;> linarith [x3.1, x3.2, h5.1, h5.2]

/-- Whole seconds: the sum is exact. -/
theorem faddInt_whole {s : Int} (hs : s.natAbs < 2 ^ 53) :
    ∃ x, faddInt s (doubleOf false 0 (10 ^ 6)) = x ∧ fExp x.toNat ≠ 2047 ∧ fSign x.toNat = decide (s < 0) ∧
      fMag x.toNat = s.natAbs * 2 ^ 1074 := by
  refine ⟨_, rfl, ?_⟩
  obtain ⟨_, _, y3⟩ := doubleOf_exact false 0 (10 ^ 6) 0 (by norm_num) (by norm_num) (by norm_num)
  unfold faddInt
  rw [y3, Nat.zero_mul]
  obtain ⟨D, hD⟩ : ∃ D : Nat, 2 ^ 1074 = D := ⟨_, rfl⟩
  have hDp : 0 < D := by rw [← hD]; exact Nat.two_pow_pos _
  rw [hD]
  simp only [Nat.cast_zero, Int.add_zero]
  have hsg := sum_sign (s := s) (m := 0) hDp (by norm_num)
  simp only [Nat.cast_zero, Int.add_zero] at hsg
  rw [sec_sign] at hsg
  rw [hsg]
  have := doubleOf_exact (decide (s < 0)) (s * (D : Int)).natAbs D s.natAbs hDp hs (by rw [Int.natAbs_mul]; rfl)
  rw [hD] at this
  exact this

theorem fromTimestampLocal_of {loc : Clock} {x : F64} {us : Int} (h : fromTimestamp x = .ok us) :
    fromTimestampLocal loc x = localDate loc us := by
  unfold fromTimestamp at h
  unfold fromTimestampLocal
  split at h
  · cases h
  · cases h
  · split at h
    · cases h
    · split at h
      · cases h
        rename_i hf h1 _
        rw [hf]
        show (if _ then _ else _) = _
        rw [if_neg h1]
      · cases h

theorem NaiveDate.ofCode_code (d : NaiveDate) : NaiveDate.ofCode d.code = d := by
  obtain ⟨w, f⟩ := d
  unfold NaiveDate.ofCode NaiveDate.code
  cases f
  · simp only [Bool.false_eq_true, if_false]
    congr 1
    · omega
    · rw [decide_eq_false_iff_not]; omega
  · simp only [if_true]
    congr 1
    · omega
    · rw [decide_eq_true_eq]; omega

end V8
