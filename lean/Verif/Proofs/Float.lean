import Verif.Model.Float
import Mathlib.Algebra.Order.Field.Rat
import Mathlib.Tactic.Linarith
import Mathlib.Tactic.Ring
import Mathlib.Tactic.NormNum
import Mathlib.Tactic.Positivity
import Mathlib.Tactic.FieldSimp
import Mathlib.Tactic.GCongr

/-!
# Lemmas on rounding
-/

namespace V8

/-- `rne` is within half of the fraction, from below or from above. -/
theorem rne_le (num den : Nat) (hd : 0 < den) : 2 * (rne num den * den) ≤ 2 * num + den := by
  have h := Nat.div_add_mod num den
  have hm : den * (num / den) = num / den * den := Nat.mul_comm _ _
  unfold rne
  split
  · omega
  · split
    · rw [Nat.add_mul]; omega
    · split
      · omega
      · rw [Nat.add_mul]; omega

theorem rne_ge (num den : Nat) (hd : 0 < den) : 2 * num ≤ 2 * (rne num den * den) + den := by
  have h := Nat.div_add_mod num den
  have hl := Nat.mod_lt num hd
  have hm : den * (num / den) = num / den * den := Nat.mul_comm _ _
  unfold rne
  split
  · omega
  · split
    · rw [Nat.add_mul]; omega
    · split
      · omega
      · rw [Nat.add_mul]; omega

/-- A tie goes to the even number. -/
theorem rne_tie_even (num den : Nat) (hd : 0 < den)
    (h : 2 * (rne num den * den) = 2 * num + den ∨ 2 * (rne num den * den) + den = 2 * num) : rne num den % 2 = 0 := by
  have hh := Nat.div_add_mod num den
  have hl := Nat.mod_lt num hd
  have hm : den * (num / den) = num / den * den := Nat.mul_comm _ _
  unfold rne at h ⊢
  split
  · rw [if_pos ‹_›] at h; omega
  · rw [if_neg ‹_›] at h
    split
    · rw [if_pos ‹_›, Nat.add_mul] at h; omega
    · rw [if_neg ‹_›] at h
      split
      · assumption
      · omega

theorem rne_exact (q den : Nat) (hd : 0 < den) : rne (q * den) den = q := by
  unfold rne
  rw [Nat.mul_mod_left, Nat.mul_div_cancel _ hd, if_pos (by omega)]

theorem rne_lt {num den k : Nat} (hd : 0 < den) (h : num < den * k) : rne num den ≤ k := by
  have hq : num / den < k := Nat.div_lt_of_lt_mul h
  unfold rne
  split
  · omega
  · split
    · omega
    · split <;> omega

theorem rne_le_of_le {num den k : Nat} (hd : 0 < den) (h : den * k ≤ num) : k ≤ rne num den := by
  have hq : k ≤ num / den := (Nat.le_div_iff_mul_le hd).2 (by rw [Nat.mul_comm]; exact h)
  unfold rne
  split
  · omega
  · split
    · omega
    · split <;> omega

namespace Fmt
variable (F : Fmt)

/-- The number that is rounded lies below the next power of two. -/
theorem lt_step (num den : Nat) (hd : 0 < den) : num * 2 ^ F.unit < den * 2 ^ F.step num den * 2 ^ (F.frac + 1) := by
  have h1 : num * 2 ^ F.unit / den < 2 ^ (Nat.log2 (num * 2 ^ F.unit / den) + 1) := Nat.lt_log2_self
  have h2 : num * 2 ^ F.unit / den < 2 ^ (F.step num den + (F.frac + 1)) :=
    lt_of_lt_of_le h1 (Nat.pow_le_pow_right (by omega) (by unfold step; omega))
  have h3 := (Nat.div_lt_iff_lt_mul hd).1 h2
  rw [Nat.mul_assoc, ← Nat.pow_add, Nat.mul_comm den]
  exact h3

/-- ... and not below the power of two before, unless the spacing is the smallest. -/
theorem step_le (num den : Nat) (hd : 0 < den) (hs : 0 < F.step num den) :
    den * 2 ^ F.step num den * 2 ^ F.frac ≤ num * 2 ^ F.unit := by
  have hs' : F.frac < Nat.log2 (num * 2 ^ F.unit / den) := by unfold step at hs; omega
  have h0 : num * 2 ^ F.unit / den ≠ 0 := by
    intro h; rw [h] at hs'; simp at hs'
  have h1 : 2 ^ (F.step num den + F.frac) ≤ num * 2 ^ F.unit / den := by
    rw [show F.step num den + F.frac = Nat.log2 (num * 2 ^ F.unit / den) by unfold step; omega]
    exact Nat.log2_self_le h0
  have h3 := (Nat.le_div_iff_mul_le hd).1 h1
  rw [Nat.mul_assoc, ← Nat.pow_add, Nat.mul_comm den]
  exact h3

/-- The bits in front of the exponent that rounding gives. -/
def mant (num den : Nat) : Nat := rne (num * 2 ^ F.unit) (den * 2 ^ F.step num den)

theorem mant_le (num den : Nat) (hd : 0 < den) : F.mant num den ≤ 2 ^ (F.frac + 1) :=
  rne_lt (Nat.mul_pos hd (by positivity)) (F.lt_step num den hd)

theorem le_mant (num den : Nat) (hd : 0 < den) (hs : 0 < F.step num den) : 2 ^ F.frac ≤ F.mant num den :=
  rne_le_of_le (Nat.mul_pos hd (by positivity)) (F.step_le num den hd hs)

/-- The value of a pattern given by exponent and mantissa. -/
theorem mag_mk (e m : Nat) (h1 : m ≤ 2 ^ (F.frac + 1)) (h2 : 0 < e → 2 ^ F.frac ≤ m) :
    F.mag (e * 2 ^ F.frac + m) = m * 2 ^ e := by
  have hp : 0 < 2 ^ F.frac := by positivity
  rw [Nat.pow_succ] at h1
  unfold mag
  by_cases h3 : m < 2 ^ F.frac
  · have he : e = 0 := by by_contra h; have := h2 (by omega); omega
    subst he
    rw [Nat.zero_mul, Nat.zero_add, Nat.div_eq_of_lt h3, if_pos rfl, Nat.mod_eq_of_lt h3, pow_zero, Nat.mul_one]
  · by_cases h4 : m < 2 ^ F.frac * 2
    · have hd : (e * 2 ^ F.frac + m) / 2 ^ F.frac = e + 1 := by
        rw [Nat.add_comm, Nat.add_mul_div_right _ _ hp,
          show m / 2 ^ F.frac = 1 from Nat.div_eq_of_lt_le (by omega) (by omega)]
        omega
      have hm : (e * 2 ^ F.frac + m) % 2 ^ F.frac = m - 2 ^ F.frac := by
        rw [Nat.add_comm, Nat.add_mul_mod_self_right, Nat.mod_eq_sub_mod (by omega), Nat.mod_eq_of_lt (by omega)]
      rw [hd, hm, if_neg (by omega)]
      congr 1
      omega
    · have hm2 : m = 2 * 2 ^ F.frac := by omega
      subst hm2
      rw [← Nat.add_mul, Nat.mul_div_cancel _ hp, Nat.mul_mod_left, if_neg (by omega),
        show e + 2 - 1 = e + 1 by omega, pow_succ]
      ring

theorem mag_round (num den : Nat) (hd : 0 < den) : F.mag (F.round num den) = F.mant num den * 2 ^ F.step num den :=
  F.mag_mk _ _ (F.mant_le num den hd) (F.le_mant num den hd)

/-- The spacing of the numbers below `2^k` units. -/
theorem step_bound {num den k : Nat} (hd : 0 < den) (hk : F.frac + 1 ≤ k) (h : num * 2 ^ F.unit < den * 2 ^ k) :
    F.step num den ≤ k - (F.frac + 1) := by
  by_contra hc
  have hs := F.step_le num den hd (by omega)
  rw [Nat.mul_assoc, ← Nat.pow_add] at hs
  have h2 : den * 2 ^ k ≤ den * 2 ^ (F.step num den + F.frac) :=
    Nat.mul_le_mul_left _ (Nat.pow_le_pow_right (by omega) (by omega))
  omega

/-- The spacing of the numbers from `2^k` units on. -/
theorem le_step {num den k : Nat} (hd : 0 < den) (h : den * 2 ^ k ≤ num * 2 ^ F.unit) : k ≤ F.step num den + F.frac := by
  have h1 := F.lt_step num den hd
  rw [Nat.mul_assoc, ← Nat.pow_add] at h1
  have h2 : den * 2 ^ k < den * 2 ^ (F.step num den + (F.frac + 1)) := lt_of_le_of_lt h h1
  have h3 := (Nat.pow_lt_pow_iff_right (by omega : 1 < 2)).1 (Nat.lt_of_mul_lt_mul_left h2)
  omega

theorem mant_err (num den : Nat) (hd : 0 < den) :
    2 * (F.mant num den * (den * 2 ^ F.step num den)) ≤ 2 * (num * 2 ^ F.unit) + den * 2 ^ F.step num den ∧
    2 * (num * 2 ^ F.unit) ≤ 2 * (F.mant num den * (den * 2 ^ F.step num den)) + den * 2 ^ F.step num den :=
  ⟨rne_le _ _ (Nat.mul_pos hd (by positivity)), rne_ge _ _ (Nat.mul_pos hd (by positivity))⟩

/-- Rounding a number below `2^k` units is off by at most half of the spacing there. -/
theorem round_err {num den k : Nat} (hd : 0 < den) (hk : F.frac + 1 ≤ k) (h : num * 2 ^ F.unit < den * 2 ^ k) :
    |(F.mag (F.round num den) : ℚ) / 2 ^ F.unit - num / den| ≤ 2 ^ (k - (F.frac + 1)) / 2 / 2 ^ F.unit := by
  obtain ⟨h1, h2⟩ := F.mant_err num den hd
  have hb := F.step_bound hd hk h
  rw [F.mag_round num den hd]
  generalize F.mant num den = m at h1 h2 ⊢
  generalize F.step num den = e at h1 h2 hb ⊢
  have hd' : (0 : ℚ) < den := by exact_mod_cast hd
  have hu : (0 : ℚ) < 2 ^ F.unit := by positivity
  have he : (2 : ℚ) ^ e ≤ 2 ^ (k - (F.frac + 1)) := pow_le_pow_right₀ (by norm_num) hb
  have h1' : (2 : ℚ) * (m * (den * 2 ^ e)) ≤ 2 * (num * 2 ^ F.unit) + den * 2 ^ e := by exact_mod_cast h1
  have h2' : (2 : ℚ) * (num * 2 ^ F.unit) ≤ 2 * (m * (den * 2 ^ e)) + den * 2 ^ e := by exact_mod_cast h2
  have hx : ((m * 2 ^ e : Nat) : ℚ) / 2 ^ F.unit - num / den = (m * (den * 2 ^ e) - num * 2 ^ F.unit) / (den * 2 ^ F.unit) := by
    push_cast
    field_simp
  have ha : |(m : ℚ) * (den * 2 ^ e) - num * 2 ^ F.unit| ≤ den * 2 ^ e / 2 :=
    abs_le.2 ⟨by linarith, by linarith⟩
  rw [hx, abs_div, abs_of_pos (mul_pos hd' hu), div_le_div_iff₀ (mul_pos hd' hu) hu]
  calc |(m : ℚ) * (den * 2 ^ e) - num * 2 ^ F.unit| * 2 ^ F.unit ≤ den * 2 ^ e / 2 * 2 ^ F.unit :=
        mul_le_mul_of_nonneg_right ha hu.le
    _ ≤ den * 2 ^ (k - (F.frac + 1)) / 2 * 2 ^ F.unit := by gcongr
    _ = _ := by ring

/-- What the format represents is not changed. -/
theorem round_exact (num den e m : Nat) (hd : 0 < den) (h1 : m ≤ 2 ^ (F.frac + 1)) (h2 : 0 < e → 2 ^ F.frac ≤ m)
    (h : num * 2 ^ F.unit = m * 2 ^ e * den) : F.round num den = e * 2 ^ F.frac + m := by
  have hq : num * 2 ^ F.unit / den = m * 2 ^ e := by rw [h, Nat.mul_div_cancel _ hd]
  have key : ∀ e m, m < 2 ^ (F.frac + 1) → (0 < e → 2 ^ F.frac ≤ m) → num * 2 ^ F.unit = m * 2 ^ e * den →
      num * 2 ^ F.unit / den = m * 2 ^ e → F.round num den = e * 2 ^ F.frac + m := by
    intro e m h1 h2 h hq
    have hs : F.step num den = e := by
      unfold step
      rw [hq]
      by_cases he : 0 < e
      · have h3 := h2 he
        have h0 : m * 2 ^ e ≠ 0 := by have : 0 < 2 ^ F.frac := by positivity
                                      have : 0 < 2 ^ e := by positivity
                                      exact Nat.mul_ne_zero (by omega) (by omega)
        have : Nat.log2 (m * 2 ^ e) = F.frac + e := by
          rw [Nat.log2_eq_iff h0, Nat.pow_add, show F.frac + e + 1 = (F.frac + 1) + e by omega, Nat.pow_add _ _ e]
          exact ⟨Nat.mul_le_mul_right _ h3, Nat.mul_lt_mul_of_pos_right h1 (by positivity)⟩
        omega
      · have he : e = 0 := by omega
        subst he
        rw [pow_zero, Nat.mul_one]
        by_cases h0 : m = 0
        · subst h0; simp
        · have := (Nat.log2_lt h0).2 h1
          omega
    unfold round
    rw [hs, h, Nat.mul_assoc m, Nat.mul_comm (2 ^ e) den, rne_exact _ _ (Nat.mul_pos hd (by positivity))]
  by_cases hm : m < 2 ^ (F.frac + 1)
  · exact key e m hm h2 h hq
  · have hm : m = 2 ^ F.frac * 2 := by rw [Nat.pow_succ] at h1 hm; omega
    have h3 : m * 2 ^ e = 2 ^ F.frac * 2 ^ (e + 1) := by rw [hm, Nat.pow_succ]; ring
    rw [h3] at h hq
    rw [key (e + 1) (2 ^ F.frac) (Nat.pow_lt_pow_right (by omega) (by omega)) (fun _ => Nat.le_refl _) h hq, hm]
    ring

theorem round_lt_inf {num den k : Nat} (hd : 0 < den) (hk : F.frac + 1 ≤ k) (h : num * 2 ^ F.unit < den * 2 ^ k)
    (ht : k - (F.frac + 1) + 2 < F.top) : F.round num den < F.inf := by
  have hb := F.step_bound hd hk h
  have hm := F.mant_le num den hd
  show F.step num den * 2 ^ F.frac + F.mant num den < F.top * 2 ^ F.frac
  have h1 : (F.step num den + 2) * 2 ^ F.frac < F.top * 2 ^ F.frac :=
    Nat.mul_lt_mul_of_pos_right (by omega) (by positivity)
  rw [Nat.pow_succ] at hm
  rw [Nat.add_mul] at h1
  omega

end Fmt

/-! ### Doubles -/

theorem b64_inf : b64.inf = 2047 * 2 ^ 52 := rfl

theorem fMag_eq (n : Nat) (h : n < 2 ^ 63) : fMag n = b64.mag n := by
  have he : fExp n = n / 2 ^ 52 := by unfold fExp; omega
  unfold fMag Fmt.mag fFrac
  rw [he]
  rfl

theorem doubleOf_toNat (neg : Bool) (num den : Nat) :
    (doubleOf neg num den).toNat = (if neg then 2 ^ 63 else 0) + min (b64.round num den) b64.inf := by
  unfold doubleOf
  have : min (b64.round num den) b64.inf ≤ 2047 * 2 ^ 52 := Nat.min_le_right _ _
  rw [UInt64.toNat_ofNat']
  apply Nat.mod_eq_of_lt
  cases neg <;> simp <;> omega

/-- The fields of a double with a magnitude below infinity. -/
theorem fields_of (x : F64) (neg : Bool) (n : Nat) (hn : n < b64.inf) (hx : x.toNat = (if neg then 2 ^ 63 else 0) + n) :
    fExp x.toNat ≠ 2047 ∧ fSign x.toNat = neg ∧ fMag x.toNat = b64.mag n := by
  rw [b64_inf] at hn
  have hn' : n < 2 ^ 63 := by omega
  have hm : fMag x.toNat = fMag n := by
    have h1 : fExp x.toNat = fExp n := by rw [hx]; unfold fExp; cases neg <;> simp; omega
    have h2 : fFrac x.toNat = fFrac n := by rw [hx]; unfold fFrac; cases neg <;> simp; omega
    unfold fMag
    rw [h1, h2]
  refine ⟨?_, ?_, by rw [hm, fMag_eq n hn']⟩
  · rw [hx]; unfold fExp; cases neg <;> simp <;> omega
  · rw [hx]; unfold fSign; cases neg <;> simp <;> omega

theorem fval_of (x : F64) (neg : Bool) (n : Nat) (hn : n < b64.inf) (hx : x.toNat = (if neg then 2 ^ 63 else 0) + n) :
    fval x = .fin (if neg then -(b64.mag n : Int) else b64.mag n) := by
  obtain ⟨h1, h2, h3⟩ := fields_of x neg n hn hx
  unfold fval
  rw [if_neg h1, h2, h3]

end V8
