import Verif.Model.DateTime
import Verif.Proofs.FloatConv

/-!
# Lemmas on dates: error bounds of the arithmetic
-/

namespace V8

/-- The magnitude of a finite double. -/
def magQ (x : F64) : ℚ := (fMag x.toNat : ℚ) / 2 ^ 1074

theorem magQ_nonneg (x : F64) : 0 ≤ magQ x := by unfold magQ; positivity

theorem round64_spec (num den j : Nat) (hd : 0 < den) (hj : j ≤ 900) (h : (num : ℚ) / den < 2 ^ j) :
    b64.round num den < b64.inf ∧ |(b64.mag (b64.round num den) : ℚ) / 2 ^ 1074 - num / den| ≤ 2 ^ j / 2 ^ 54 := by
  have hd' : (0 : ℚ) < den := by exact_mod_cast hd
  have hN : num * 2 ^ b64.unit < den * 2 ^ (1074 + j) := by
    rw [div_lt_iff₀ hd'] at h
    have : num < 2 ^ j * den := by exact_mod_cast h
    show num * 2 ^ 1074 < den * 2 ^ (1074 + j)
    calc num * 2 ^ 1074 < 2 ^ j * den * 2 ^ 1074 := Nat.mul_lt_mul_of_pos_right this (Nat.two_pow_pos _)
      _ = den * 2 ^ (1074 + j) := by rw [Nat.pow_add]; ring
  have hk : b64.frac + 1 ≤ 1074 + j := by show 52 + 1 ≤ 1074 + j; omega
  refine ⟨b64.round_lt_inf hd hk hN (by show 1074 + j - (52 + 1) + 2 < 2047; omega), ?_⟩
  refine le_trans (b64.round_err hd hk hN) (le_of_eq ?_)
  show (2 : ℚ) ^ (1074 + j - (52 + 1)) / 2 / 2 ^ 1074 = 2 ^ j / 2 ^ 54
  rw [show 1074 + j - (52 + 1) = 1021 + j by omega, show 1074 = 1021 + 53 by rfl, pow_add, pow_add]
  have : (0 : ℚ) < 2 ^ 1021 := by positivity
  field_simp

/-- Rounding a fraction below `2^j`: sign, and error of half a spacing. -/
theorem doubleOf_spec (neg : Bool) (num den j : Nat) (hd : 0 < den) (hj : j ≤ 900) (h : (num : ℚ) / den < 2 ^ j) :
    fExp (doubleOf neg num den).toNat ≠ 2047 ∧ fSign (doubleOf neg num den).toNat = neg ∧
    |magQ (doubleOf neg num den) - num / den| ≤ 2 ^ j / 2 ^ 54 := by
  obtain ⟨hinf, he⟩ := round64_spec num den j hd hj h
  obtain ⟨h1, h2, h3⟩ := fields_of (doubleOf neg num den) neg (b64.round num den) hinf
    (by rw [doubleOf_toNat, Nat.min_eq_left (Nat.le_of_lt hinf)])
  refine ⟨h1, h2, ?_⟩
  unfold magQ
  rw [h3]
  exact he

/-- From `2^j` on, doubles are multiples of `2^(j-52)`. -/
theorem doubleOf_multiple (neg : Bool) (num den j i : Nat) (hd : 0 < den) (hj : j ≤ 52) (hi : i ≤ 900)
    (h : (2 : ℚ) ^ j ≤ (num : ℚ) / den) (h' : (num : ℚ) / den < 2 ^ i) :
    ∃ m : Nat, magQ (doubleOf neg num den) = m / 2 ^ (52 - j) := by
  obtain ⟨hinf, _⟩ := round64_spec num den i hd hi h'
  obtain ⟨_, _, h3⟩ := fields_of (doubleOf neg num den) neg (b64.round num den) hinf
    (by rw [doubleOf_toNat, Nat.min_eq_left (Nat.le_of_lt hinf)])
  have hd' : (0 : ℚ) < den := by exact_mod_cast hd
  have hN : den * 2 ^ (1074 + j) ≤ num * 2 ^ b64.unit := by
    rw [le_div_iff₀ hd'] at h
    have : 2 ^ j * den ≤ num := by exact_mod_cast h
    show den * 2 ^ (1074 + j) ≤ num * 2 ^ 1074
    calc den * 2 ^ (1074 + j) = 2 ^ j * den * 2 ^ 1074 := by rw [Nat.pow_add]; ring
      _ ≤ num * 2 ^ 1074 := Nat.mul_le_mul_right _ this
  have hs : 1074 + j ≤ b64.step num den + 52 := b64.le_step hd hN
  unfold magQ
  rw [h3, b64.mag_round _ _ hd]
  refine ⟨b64.mant num den * 2 ^ (b64.step num den - (1022 + j)), ?_⟩
  rw [show b64.step num den = (b64.step num den - (1022 + j)) + (1022 + j) by omega]
  generalize b64.mant num den = m
  rw [Nat.add_sub_cancel]
  generalize b64.step num den - (1022 + j) = e
  have e1 : (2 : ℚ) ^ 1074 = 2 ^ (1022 + j) * 2 ^ (52 - j) := by rw [← pow_add]; congr 1; omega
  rw [e1, Nat.pow_add]
  push_cast
  have : (0 : ℚ) < 2 ^ (1022 + j) := by positivity
  have : (0 : ℚ) < 2 ^ (52 - j) := by positivity
  field_simp

theorem fmulNat_spec (x : F64) (c j : Nat) (hx : fExp x.toNat ≠ 2047) (hj : j ≤ 900) (h : magQ x * c < 2 ^ j) :
    fExp (fmulNat x c).toNat ≠ 2047 ∧ fSign (fmulNat x c).toNat = fSign x.toNat ∧
    |magQ (fmulNat x c) - magQ x * c| ≤ 2 ^ j / 2 ^ 54 := by
  have he : ((fMag x.toNat * c : Nat) : ℚ) / (2 ^ 1074 : Nat) = magQ x * c := by
    unfold magQ; push_cast; ring
  unfold fmulNat
  rw [if_neg hx, ← he]
  rw [← he] at h
  exact doubleOf_spec _ _ _ j (Nat.two_pow_pos _) hj h

theorem fdivNat_spec (x : F64) (c j : Nat) (hc : 0 < c) (hx : fExp x.toNat ≠ 2047) (hj : j ≤ 900)
    (h : magQ x / c < 2 ^ j) :
    fExp (fdivNat x c).toNat ≠ 2047 ∧ fSign (fdivNat x c).toNat = fSign x.toNat ∧
    |magQ (fdivNat x c) - magQ x / c| ≤ 2 ^ j / 2 ^ 54 := by
  have he : ((fMag x.toNat : Nat) : ℚ) / (2 ^ 1074 * c : Nat) = magQ x / c := by
    unfold magQ; push_cast; field_simp
  unfold fdivNat
  rw [if_neg hx, ← he]
  rw [← he] at h
  exact doubleOf_spec _ _ _ j (Nat.mul_pos (Nat.two_pow_pos _) hc) hj h

theorem fmulNat_multiple (x : F64) (c j i : Nat) (hx : fExp x.toNat ≠ 2047) (hj : j ≤ 52) (hi : i ≤ 900)
    (h : 2 ^ j ≤ magQ x * c) (h' : magQ x * c < 2 ^ i) : ∃ m : Nat, magQ (fmulNat x c) = m / 2 ^ (52 - j) := by
  have he : ((fMag x.toNat * c : Nat) : ℚ) / (2 ^ 1074 : Nat) = magQ x * c := by
    unfold magQ; push_cast; ring
  unfold fmulNat
  rw [if_neg hx]
  rw [← he] at h h'
  exact doubleOf_multiple _ _ _ j i (Nat.two_pow_pos _) hj hi h h'

/-- The nearest integer. -/
theorem rne_near (P D : Nat) (T : Int) (hD : 0 < D) (h : |(P : ℚ) / D - T| < 1 / 2) : (rne P D : Int) = T := by
  have h1 := rne_le P D hD
  have h2 := rne_ge P D hD
  have hD' : (0 : ℚ) < D := by exact_mod_cast hD
  have h1' : (2 : ℚ) * (rne P D * D) ≤ 2 * P + D := by exact_mod_cast h1
  have h2' : (2 : ℚ) * P ≤ 2 * (rne P D * D) + D := by exact_mod_cast h2
  have h3 : (rne P D : ℚ) - P / D ≤ 1 / 2 := by
    rw [sub_le_iff_le_add, ← mul_le_mul_iff_left₀ hD']
    field_simp
    linarith
  have h4 : (P : ℚ) / D - rne P D ≤ 1 / 2 := by
    rw [sub_le_iff_le_add, ← mul_le_mul_iff_left₀ hD']
    field_simp
    linarith
  rw [abs_lt] at h
  have h5 : ((rne P D : Int) : ℚ) < (T : ℚ) + 1 := by push_cast; linarith
  have h6 : (T : ℚ) < ((rne P D : Int) : ℚ) + 1 := by push_cast; linarith
  have h5' : (rne P D : Int) < T + 1 := by exact_mod_cast h5
  have h6' : T < (rne P D : Int) + 1 := by exact_mod_cast h6
  omega

theorem toMicros_near (D M n : Nat) (neg : Bool) (hDp : 0 < D)
    (hround : ∀ p, p < D → |(b64.mag (b64.round (p * 10 ^ 6) D) : ℚ) / D - ((p * 10 ^ 6 : Nat) : ℚ) / D| ≤ 1 / 2 ^ 34)
    (h : |(M : ℚ) / D * 10 ^ 6 - n| < 1 / 2 - 1 / 2 ^ 34) :
    toMicros D (if neg then -(M : Int) else M) = (if neg then -(n : Int) else n) ∧
      ∃ w : Nat, (if neg then -(M : Int) else M).tdiv D = (if neg then -(w : Int) else w) ∧ w * 10 ^ 6 ≤ n + 10 ^ 6 := by
  have hDq' : (0 : ℚ) < D := by exact_mod_cast hDp
  have hMd := Nat.div_add_mod M D
  have hMl := Nat.mod_lt M hDp
  obtain ⟨w, hw⟩ : ∃ w, M / D = w := ⟨_, rfl⟩
  obtain ⟨p, hp⟩ : ∃ p, M % D = p := ⟨_, rfl⟩
  rw [hw, hp] at hMd
  rw [hp] at hMl
  have he := hround p hMl
  obtain ⟨P, hP⟩ : ∃ P, b64.mag (b64.round (p * 10 ^ 6) D) = P := ⟨_, rfl⟩
  rw [hP] at he
  have hMq : (M : ℚ) / D * 10 ^ 6 = w * 10 ^ 6 + ((p * 10 ^ 6 : Nat) : ℚ) / D := by
    rw [← hMd]
    push_cast
    field_simp
    ring
  have hnear : |(P : ℚ) / D - ((n : Int) - (w : Int) * 10 ^ 6 : Int)| < 1 / 2 := by
    rw [hMq] at h
    push_cast at h he ⊢
    rw [abs_lt] at h ⊢
    rw [abs_le] at he
    constructor <;> linarith [h.1, h.2, he.1, he.2]
  have hr := rne_near P D _ hDp hnear
  have hpz : p = 0 → rne P D = 0 := by
    intro h0
    have hz := rne_exact 0 D hDp
    rw [Nat.zero_mul] at hz
    have h1 : b64.mag (b64.round (0 * 10 ^ 6) D) = 0 := by
      rw [b64.mag_round _ _ hDp]
      have : b64.mant (0 * 10 ^ 6) D = 0 := by
        unfold Fmt.mant
        have h2 := rne_exact 0 (D * 2 ^ b64.step (0 * 10 ^ 6) D) (Nat.mul_pos hDp (Nat.two_pow_pos _))
        rw [Nat.zero_mul] at h2
        rw [Nat.zero_mul (10 ^ 6), Nat.zero_mul (2 ^ b64.unit)]
        rwa [Nat.zero_mul] at h2
      rw [this, Nat.zero_mul]
    rw [← hP, h0, h1, hz]
  have hwb : w * 10 ^ 6 ≤ n + 10 ^ 6 := by
    have hpq : (p : ℚ) * 10 ^ 6 / D < 10 ^ 6 := by
      rw [div_lt_iff₀ hDq']
      have : p * 10 ^ 6 < 10 ^ 6 * D := by omega
      exact_mod_cast this
    rw [hMq, abs_lt] at h
    have h0 : (0 : ℚ) ≤ ((p * 10 ^ 6 : Nat) : ℚ) / D := by positivity
    have : (w : ℚ) * 10 ^ 6 < n + 10 ^ 6 := by
      have : (1 : ℚ) / 2 - 1 / 2 ^ 34 < 10 ^ 6 := by norm_num
      linarith [h.2]
    have : w * 10 ^ 6 < n + 10 ^ 6 := by exact_mod_cast this
    omega
  unfold toMicros
  cases neg with
  | false =>
    simp only [Bool.false_eq_true, if_false]
    have e1 : (M : Int).tdiv D = w := by rw [Int.tdiv_eq_ediv_of_nonneg (by omega)]; exact_mod_cast hw
    have e2 : (M : Int).tmod D = p := by rw [Int.tmod_eq_emod_of_nonneg (by omega)]; exact_mod_cast hp
    rw [e1, e2, Int.natAbs_natCast, hP, if_neg (by omega : ¬ (p : Int) < 0)]
    exact ⟨by omega, w, rfl, hwb⟩
  | true =>
    simp only [if_true]
    have e1 : (-(M : Int)).tdiv D = -w := by
      rw [Int.neg_tdiv, Int.tdiv_eq_ediv_of_nonneg (by omega)]; congr 1; exact_mod_cast hw
    have e2 : (-(M : Int)).tmod D = -p := by
      rw [Int.neg_tmod, Int.tmod_eq_emod_of_nonneg (by omega)]; congr 1; exact_mod_cast hp
    rw [e1, e2, Int.natAbs_neg, Int.natAbs_natCast, hP]
    have e3 : (if (-(p : Int)) < 0 then -(rne P D : Int) else (rne P D : Int)) = -(rne P D : Int) := by
      by_cases h0 : p = 0
      · rw [hpz h0]; simp
      · rw [if_pos (by omega)]
    rw [e3]
    exact ⟨by omega, w, rfl, hwb⟩

theorem unit_cast : ((2 ^ 1074 : Nat) : ℚ) = 2 ^ 1074 := by
  rw [Nat.cast_pow, Nat.cast_ofNat]

/-- `fromtimestamp` of a float near `n` microseconds. -/
theorem fromTimestamp_near (x : F64) (n : Nat) (hx : fExp x.toNat ≠ 2047) (hn : n < 2 ^ 33 * 10 ^ 6)
    (h : |magQ x * 10 ^ 6 - n| < 1 / 2 - 1 / 2 ^ 34) :
    fromTimestamp x = .ok (if fSign x.toNat then -(n : Int) else n) := by
  have hf : fval x = .fin (if fSign x.toNat then -(fMag x.toNat : Int) else fMag x.toNat) := by
    unfold fval; rw [if_neg hx]
  unfold magQ at h
  rw [← unit_cast] at h
  obtain ⟨h1, w, h2, h3⟩ := toMicros_near (2 ^ 1074) (fMag x.toNat) n (fSign x.toNat) (Nat.two_pow_pos _) (fun p hp => by
    have hb : ((p * 10 ^ 6 : Nat) : ℚ) / ((2 ^ 1074 : Nat) : ℚ) < 2 ^ 20 := by
      rw [div_lt_iff₀ (by rw [unit_cast]; positivity)]
      have : p * 10 ^ 6 < 2 ^ 20 * 2 ^ 1074 := by
        generalize 2 ^ 1074 = D at hp
        omega
      exact_mod_cast this
    have := (round64_spec (p * 10 ^ 6) (2 ^ 1074) 20 (Nat.two_pow_pos _) (by omega) hb).2
    rw [← unit_cast] at this
    refine le_trans this (le_of_eq (by norm_num))) h
  unfold fromTimestamp
  rw [hf]
  show (if _ then _ else _) = _
  rw [h1, h2]
  have hw : w < 2 ^ 34 := by omega
  rw [if_neg (by cases fSign x.toNat <;> simp <;> omega),
    if_pos (by unfold minDate endDate; cases fSign x.toNat <;> simp <;> omega)]

/-- The microseconds of any float, with an error of little more than half of one. -/
theorem toMicros_err (D M : Nat) (neg : Bool) (hDp : 0 < D)
    (hround : ∀ p, p < D → |(b64.mag (b64.round (p * 10 ^ 6) D) : ℚ) / D - ((p * 10 ^ 6 : Nat) : ℚ) / D| ≤ 1 / 2 ^ 34) :
    ∃ n w : Nat, toMicros D (if neg then -(M : Int) else M) = (if neg then -(n : Int) else n) ∧
      (if neg then -(M : Int) else M).tdiv D = (if neg then -(w : Int) else w) ∧ (w : ℚ) ≤ M / D ∧
      |(n : ℚ) - M / D * 10 ^ 6| ≤ 1 / 2 + 1 / 2 ^ 34 := by
  have hDq' : (0 : ℚ) < D := by exact_mod_cast hDp
  have hMd := Nat.div_add_mod M D
  have hMl := Nat.mod_lt M hDp
  obtain ⟨w, hw⟩ : ∃ w, M / D = w := ⟨_, rfl⟩
  obtain ⟨p, hp⟩ : ∃ p, M % D = p := ⟨_, rfl⟩
  rw [hw, hp] at hMd
  rw [hp] at hMl
  have he := hround p hMl
  obtain ⟨P, hP⟩ : ∃ P, b64.mag (b64.round (p * 10 ^ 6) D) = P := ⟨_, rfl⟩
  rw [hP] at he
  have hMq : (M : ℚ) / D * 10 ^ 6 = w * 10 ^ 6 + ((p * 10 ^ 6 : Nat) : ℚ) / D := by
    rw [← hMd]
    push_cast
    field_simp
    ring
  have hpz : p = 0 → rne P D = 0 := by
    intro h0
    have hz := rne_exact 0 D hDp
    rw [Nat.zero_mul] at hz
    have h1 : b64.mag (b64.round (0 * 10 ^ 6) D) = 0 := by
      have := b64.mag_round_exact (0 * 10 ^ 6) D 0 0 hDp (Nat.two_pow_pos _) (by simp)
      simpa using this
    rw [← hP, h0, h1, hz]
  have h1 := rne_le P D hDp
  have h2 := rne_ge P D hDp
  have h1' : (2 : ℚ) * (rne P D * D) ≤ 2 * P + D := by exact_mod_cast h1
  have h2' : (2 : ℚ) * P ≤ 2 * (rne P D * D) + D := by exact_mod_cast h2
  have h3 : (rne P D : ℚ) - P / D ≤ 1 / 2 := by
    rw [sub_le_iff_le_add, ← mul_le_mul_iff_left₀ hDq']
    field_simp
    linarith
  have h4 : (P : ℚ) / D - rne P D ≤ 1 / 2 := by
    rw [sub_le_iff_le_add, ← mul_le_mul_iff_left₀ hDq']
    field_simp
    linarith
  refine ⟨w * 10 ^ 6 + rne P D, w, ?_, ?_, ?_, ?_⟩
  · unfold toMicros
    cases neg with
    | false =>
      simp only [Bool.false_eq_true, if_false]
      have e1 : (M : Int).tdiv D = w := by rw [Int.tdiv_eq_ediv_of_nonneg (by omega)]; exact_mod_cast hw
      have e2 : (M : Int).tmod D = p := by rw [Int.tmod_eq_emod_of_nonneg (by omega)]; exact_mod_cast hp
      rw [e1, e2, Int.natAbs_natCast, hP, if_neg (by omega : ¬ (p : Int) < 0)]
      push_cast
      rfl
    | true =>
      simp only [if_true]
      have e1 : (-(M : Int)).tdiv D = -w := by
        rw [Int.neg_tdiv, Int.tdiv_eq_ediv_of_nonneg (by omega)]; congr 1; exact_mod_cast hw
      have e2 : (-(M : Int)).tmod D = -p := by
        rw [Int.neg_tmod, Int.tmod_eq_emod_of_nonneg (by omega)]; congr 1; exact_mod_cast hp
      rw [e1, e2, Int.natAbs_neg, Int.natAbs_natCast, hP]
      have e3 : (if (-(p : Int)) < 0 then -(rne P D : Int) else (rne P D : Int)) = -(rne P D : Int) := by
        by_cases h0 : p = 0
        · rw [hpz h0]; simp
        · rw [if_pos (by omega)]
      rw [e3]
      push_cast
      ring
  · cases neg with
    | false =>
      simp only [Bool.false_eq_true, if_false]
      rw [Int.tdiv_eq_ediv_of_nonneg (by omega)]; exact_mod_cast hw
    | true =>
      simp only [if_true]
      rw [Int.neg_tdiv, Int.tdiv_eq_ediv_of_nonneg (by omega)]; congr 1; exact_mod_cast hw
  · rw [le_div_iff₀ hDq']
    have : w * D ≤ M := by rw [Nat.mul_comm]; omega
    exact_mod_cast this
  · rw [hMq]
    push_cast at he ⊢
    rw [abs_le] at he ⊢
    constructor <;> linarith [he.1, he.2]

/-- `fromtimestamp` of any float whose time is at least a microsecond inside the years 1 to 9999. -/
theorem fromTimestamp_err (x : F64) (hx : fExp x.toNat ≠ 2047)
    (hr : if fSign x.toNat then magQ x * 10 ^ 6 ≤ 62135596800000000 - 1 else magQ x * 10 ^ 6 ≤ 253402300800000000 - 2) :
    ∃ n : Nat, fromTimestamp x = .ok (if fSign x.toNat then -(n : Int) else n) ∧
      |(n : ℚ) - magQ x * 10 ^ 6| ≤ 1 / 2 + 1 / 2 ^ 34 := by
  have hf : fval x = .fin (if fSign x.toNat then -(fMag x.toNat : Int) else fMag x.toNat) := by
    unfold fval; rw [if_neg hx]
  obtain ⟨n, w, h1, h2, h3, h4⟩ := toMicros_err (2 ^ 1074) (fMag x.toNat) (fSign x.toNat) (Nat.two_pow_pos _) (fun p hp => by
    have hb : ((p * 10 ^ 6 : Nat) : ℚ) / ((2 ^ 1074 : Nat) : ℚ) < 2 ^ 20 := by
      rw [div_lt_iff₀ (by rw [unit_cast]; positivity)]
      have : p * 10 ^ 6 < 2 ^ 20 * 2 ^ 1074 := by
        generalize 2 ^ 1074 = D at hp
        omega
      exact_mod_cast this
    have := (round64_spec (p * 10 ^ 6) (2 ^ 1074) 20 (Nat.two_pow_pos _) (by omega) hb).2
    rw [← unit_cast] at this
    refine le_trans this (le_of_eq (by norm_num)))
  rw [unit_cast] at h3 h4
  have hm : (fMag x.toNat : ℚ) / 2 ^ 1074 = magQ x := rfl
  rw [hm] at h3 h4
  refine ⟨n, ?_, h4⟩
  unfold fromTimestamp
  rw [hf]
  show (if _ then _ else _) = _
  rw [h1, h2]
  rw [abs_le] at h4
  generalize magQ x = q at *
  have hq : q * 10 ^ 6 ≤ 253402300800000000 - 2 := by
    cases hs : fSign x.toNat with
    | true => rw [hs] at hr; simp only [if_true] at hr; linarith
    | false => rw [hs] at hr; simpa using hr
  have hw : w < 2 ^ 63 := by
    have : (w : ℚ) < 9223372036854775808 := by linarith
    have : w < 9223372036854775808 := by exact_mod_cast this
    omega
  rw [if_neg (by cases fSign x.toNat <;> simp <;> omega)]
  rw [if_pos]
  unfold minDate endDate
  cases hs : fSign x.toNat with
  | true =>
    rw [hs] at hr; simp only [if_true] at hr ⊢
    have h5 : (n : ℚ) < 62135596800000000 := by norm_num at h4 hr; linarith [h4.2]
    have h5' : n < 62135596800000000 := by exact_mod_cast h5
    omega
  | false =>
    simp only [Bool.false_eq_true, if_false]
    have h5 : (n : ℚ) < 253402300800000000 := by norm_num at h4 hq; linarith [h4.2]
    have h5' : n < 253402300800000000 := by exact_mod_cast h5
    omega

end V8
