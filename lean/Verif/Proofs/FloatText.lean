import Verif.Model.FloatText
import Verif.Proofs.FloatConv
import Verif.Proofs.Keys
import Mathlib.Data.Nat.Log
import Mathlib.Data.Nat.Digits.Lemmas

/-!
# Lemmas on the text of floats
-/

namespace V8

open V8.Spec

theorem rne_mono {num den num' den' : Nat} (hd : 0 < den) (hd' : 0 < den') (h : num * den' ≤ num' * den) :
    rne num den ≤ rne num' den' := by
  by_contra hc
  have hc : rne num' den' + 1 ≤ rne num den := by omega
  have h1 := rne_le num den hd
  have h2 := rne_ge num' den' hd'
  have ht := rne_tie_even num den hd
  have ht' := rne_tie_even num' den' hd'
  generalize rne num den = r at *
  generalize rne num' den' = r' at *
  have a1 : 2 * (r * den) * den' ≤ (2 * num + den) * den' := Nat.mul_le_mul_right _ h1
  have a2 : 2 * num' * den ≤ (2 * (r' * den') + den') * den := Nat.mul_le_mul_right _ h2
  have a3 : (r' + 1) * (den * den') ≤ r * (den * den') := Nat.mul_le_mul_right _ hc
  have e1 : 2 * (r * den) * den' = 2 * (r * (den * den')) := by ring
  have e2 : (2 * num + den) * den' = 2 * (num * den') + den * den' := by ring
  have e3 : 2 * num' * den = 2 * (num' * den) := by ring
  have e4 : (2 * (r' * den') + den') * den = 2 * (r' * (den * den')) + den * den' := by ring
  have e5 : (r' + 1) * (den * den') = r' * (den * den') + den * den' := by ring
  have hD : 0 < den * den' := Nat.mul_pos hd hd'
  have hr : r * (den * den') = (r' + 1) * (den * den') := by omega
  have hr' : r = r' + 1 := Nat.eq_of_mul_eq_mul_right hD hr
  have t1 : 2 * (r * den) = 2 * num + den := by
    apply Nat.eq_of_mul_eq_mul_right hd'
    omega
  have t2 : 2 * (r' * den') + den' = 2 * num' := by
    apply Nat.eq_of_mul_eq_mul_right hd
    omega
  have := ht (Or.inl t1)
  have := ht' (Or.inr t2)
  omega

namespace Fmt
variable (F : Fmt)

/-- A greater number is not rounded to a smaller one. -/
theorem round_mono {num den num' den' : Nat} (hd : 0 < den) (hd' : 0 < den') (h : num * den' ≤ num' * den) :
    F.round num den ≤ F.round num' den' := by
  have hs : num * 2 ^ F.unit / den ≤ num' * 2 ^ F.unit / den' := by
    rw [Nat.le_div_iff_mul_le hd']
    apply Nat.le_of_mul_le_mul_right _ hd
    calc num * 2 ^ F.unit / den * den' * den = num * 2 ^ F.unit / den * den * den' := by ring
      _ ≤ num * 2 ^ F.unit * den' := Nat.mul_le_mul_right _ (Nat.div_mul_le_self _ _)
      _ = num * den' * 2 ^ F.unit := by ring
      _ ≤ num' * den * 2 ^ F.unit := Nat.mul_le_mul_right _ h
      _ = num' * 2 ^ F.unit * den := by ring
  have hst : F.step num den ≤ F.step num' den' := by
    unfold step
    have : Nat.log2 (num * 2 ^ F.unit / den) ≤ Nat.log2 (num' * 2 ^ F.unit / den') := by
      rw [Nat.log2_eq_log_two, Nat.log2_eq_log_two]
      exact Nat.log_mono_right hs
    omega
  rcases Nat.lt_or_eq_of_le hst with hlt | heq
  · have h1 := F.mant_le num den hd
    have h2 := F.le_mant num' den' hd' (by omega)
    show F.step num den * 2 ^ F.frac + F.mant num den ≤ F.step num' den' * 2 ^ F.frac + F.mant num' den'
    have h3 : (F.step num den + 1) * 2 ^ F.frac ≤ F.step num' den' * 2 ^ F.frac := Nat.mul_le_mul_right _ hlt
    rw [Nat.add_mul] at h3
    rw [Nat.pow_succ] at h1
    omega
  · unfold round
    rw [← heq]
    apply Nat.add_le_add_left
    apply rne_mono (Nat.mul_pos hd (by positivity)) (Nat.mul_pos hd' (by positivity))
    calc num * 2 ^ F.unit * (den' * 2 ^ F.step num den) = num * den' * (2 ^ F.unit * 2 ^ F.step num den) := by ring
      _ ≤ num' * den * (2 ^ F.unit * 2 ^ F.step num den) := Nat.mul_le_mul_right _ h
      _ = _ := by ring

theorem round_mag (n : Nat) : F.round (F.mag n) (2 ^ F.unit) = n := by
  obtain ⟨e, m, g1, g2, g3, g4, _⟩ := F.split_pattern n
  rw [round_exact F (F.mag n) (2 ^ F.unit) e m (by positivity) (by omega) g4 (by rw [g2]), ← g1]

theorem mag_le_iff (n n' : Nat) : F.mag n ≤ F.mag n' ↔ n ≤ n' := by
  have key : ∀ n n', F.mag n ≤ F.mag n' → n ≤ n' := by
    intro n n' h
    have := F.round_mono (num := F.mag n) (num' := F.mag n') (den := 2 ^ F.unit) (den' := 2 ^ F.unit) (by positivity) (by positivity)
      (Nat.mul_le_mul_right _ h)
    rwa [F.round_mag, F.round_mag] at this
  refine ⟨key n n', fun h => ?_⟩
  by_contra hc
  have h1 := key n' n (by omega)
  have : n = n' := by omega
  rw [this] at hc
  omega

end Fmt

/-! ### Decimals -/

theorem decimal_den_pos (e : Int) : 0 < 10 ^ (-e).toNat := by positivity

/-- The fraction that `decimal` rounds. -/
theorem decimal_value (s : Nat) (e : Int) :
    ((s * 10 ^ e.toNat : Nat) : ℚ) / ((10 ^ (-e).toNat : Nat) : ℚ) = s * (10 : ℚ) ^ e := by
  push_cast
  rcases le_total 0 e with h | h
  · obtain ⟨j, rfl⟩ := Int.eq_ofNat_of_zero_le h
    simp
  · obtain ⟨j, hj⟩ := Int.eq_ofNat_of_zero_le (show 0 ≤ -e by omega)
    have he : e = -(j : Int) := by omega
    subst he
    simp [zpow_neg, div_eq_mul_inv]

theorem decimal_mono {s s' : Nat} {e e' : Int} (h : (s : ℚ) * (10 : ℚ) ^ e ≤ s' * (10 : ℚ) ^ e') :
    decimal s e ≤ decimal s' e' := by
  unfold decimal
  apply Fmt.round_mono _ (decimal_den_pos e) (decimal_den_pos e')
  rw [← decimal_value, ← decimal_value, div_le_div_iff₀ (by exact_mod_cast decimal_den_pos e) (by exact_mod_cast decimal_den_pos e')] at h
  exact_mod_cast h

theorem decimal_congr {s s' : Nat} {e e' : Int} (h : (s : ℚ) * (10 : ℚ) ^ e = s' * (10 : ℚ) ^ e') :
    decimal s e = decimal s' e' :=
  Nat.le_antisymm (decimal_mono h.le) (decimal_mono h.ge)

theorem decimal_exact' {s M U : Nat} {e : Int} (h : (s : ℚ) * (10 : ℚ) ^ e = (M : ℚ) / 2 ^ U) :
    decimal s e = b64.round M (2 ^ U) := by
  have hv := decimal_value s e
  rw [h] at hv
  have hp : (0 : ℚ) < ((10 ^ (-e).toNat : Nat) : ℚ) := by exact_mod_cast decimal_den_pos e
  have hp2 : (0 : ℚ) < 2 ^ U := by positivity
  rw [div_eq_div_iff hp.ne' hp2.ne'] at hv
  have hv' : s * 10 ^ e.toNat * 2 ^ U = M * 10 ^ (-e).toNat := by exact_mod_cast hv
  apply Nat.le_antisymm
  · exact b64.round_mono (decimal_den_pos e) (Nat.two_pow_pos _) hv'.le
  · exact b64.round_mono (Nat.two_pow_pos _) (decimal_den_pos e) hv'.ge

/-- The decimal that is exactly a double reads as it. -/
theorem decimal_exact {s m : Nat} {e : Int} (h : (s : ℚ) * (10 : ℚ) ^ e = (b64.mag m : ℚ) / 2 ^ b64.unit) : decimal s e = m := by
  rw [decimal_exact' h, b64.round_mag]

theorem five_two (M U : Nat) : ((M * 5 ^ U : Nat) : ℚ) * (10 : ℚ) ^ (-(U : Int)) = (M : ℚ) / 2 ^ U := by
  rw [zpow_neg, ← div_eq_mul_inv, zpow_natCast, show (10 : ℚ) = 2 * 5 by norm_num, mul_pow]
  push_cast
  rw [mul_div_mul_right _ _ (by positivity)]

/-- A number with `k` digits after `0.` and the exponent `n`. -/
theorem shortest_bounds {m k s : Nat} {n : Int} (h : Shortest m k s n) :
    (10 : ℚ) ^ (n - 1) ≤ s * (10 : ℚ) ^ (n - k) ∧ s * (10 : ℚ) ^ (n - k) < (10 : ℚ) ^ n := by
  have h1 : ((10 ^ (k - 1) : Nat) : ℚ) ≤ s := by exact_mod_cast h.lo
  have h2 : (s : ℚ) < ((10 ^ k : Nat) : ℚ) := by exact_mod_cast h.hi
  have hp : (0 : ℚ) < (10 : ℚ) ^ (n - k) := zpow_pos (by norm_num) _
  push_cast at h1 h2
  rw [← zpow_natCast] at h1 h2
  have hk := h.pos
  constructor
  · have e : n - 1 = ((k - 1 : Nat) : Int) + (n - k) := by omega
    rw [e, zpow_add₀ (by norm_num)]
    exact mul_le_mul_of_nonneg_right h1 hp.le
  · have e : n = (k : Int) + (n - k) := by omega
    conv_rhs => rw [e]
    rw [zpow_add₀ (by norm_num)]
    exact mul_lt_mul_of_pos_right h2 hp

/-- From which power of ten on a double has how many digits before the point. -/
theorem shortest_threshold {m k s : Nat} {n : Int} (h : Shortest m k s n) (j : Int)
    (hj : decimal 9 (j - 1) < decimal 1 j) : j + 1 ≤ n ↔ decimal 1 j ≤ m := by
  obtain ⟨hb1, hb2⟩ := shortest_bounds h
  have h10 : (1 : ℚ) ≤ 10 := by norm_num
  constructor
  · intro hn
    rw [← h.reads]
    apply decimal_mono
    rw [Nat.cast_one, one_mul]
    exact (zpow_le_zpow_right₀ h10 (by omega)).trans hb1
  · intro hm
    by_contra hn
    have hle : m ≤ decimal 1 j := by
      rw [← h.reads]
      apply decimal_mono
      rw [Nat.cast_one, one_mul]
      exact hb2.le.trans (zpow_le_zpow_right₀ h10 (by omega))
    have heq : decimal 1 j = m := by omega
    have hk : k = 1 := by
      have := h.least 1 1 (j + 1) (by omega) (by simp) (by simp) (by rw [← heq]; congr 1; push_cast; omega)
      have := h.pos
      omega
    subst hk
    have hs : s ≤ 9 := by have := h.hi; omega
    have : m ≤ decimal 9 (j - 1) := by
      rw [← h.reads]
      apply decimal_mono
      have hs' : (s : ℚ) ≤ ((9 : Nat) : ℚ) := by exact_mod_cast hs
      apply mul_le_mul hs' (zpow_le_zpow_right₀ h10 (by push_cast; omega)) (zpow_pos (by norm_num) _).le (by norm_num)
    omega

/-- There are shortest digits for every double. -/
theorem shortest_exists (m : Nat) (h0 : 0 < m) : ∃ d : Digits, Shortest m d.k d.s d.n := by
  classical
  let P : Nat → Prop := fun k => ∃ (s : Nat) (n : Int), 1 ≤ k ∧ 10 ^ (k - 1) ≤ s ∧ s < 10 ^ k ∧ decimal s (n - k) = m
  have hex : ∃ k, P k := by
    have hmag : 0 < b64.mag m := by
      by_contra hc
      have : b64.mag m = b64.mag 0 := by rw [show b64.mag 0 = 0 from rfl]; omega
      have := b64.mag_inj _ _ this
      omega
    obtain ⟨s, hs⟩ : ∃ s, s = b64.mag m * 5 ^ b64.unit := ⟨_, rfl⟩
    have hs0 : 0 < s := by rw [hs]; exact Nat.mul_pos hmag (Nat.pow_pos (by omega))
    refine ⟨Nat.log 10 s + 1, s, ((Nat.log 10 s + 1 : Nat) : Int) - b64.unit, by omega, ?_, Nat.lt_pow_succ_log_self (by omega) _, ?_⟩
    · rw [Nat.add_sub_cancel]
      exact Nat.pow_log_le_self _ (by omega)
    · apply decimal_exact
      rw [show ((Nat.log 10 s + 1 : Nat) : Int) - b64.unit - ((Nat.log 10 s + 1 : Nat) : Int) = -(b64.unit : Int) by omega, hs]
      exact five_two _ _
  obtain ⟨s, n, h1, h2, h3, h4⟩ := Nat.find_spec hex
  refine ⟨⟨Nat.find hex, s, n⟩, h1, h2, h3, h4, ?_⟩
  intro k' s' n' g1 g2 g3 g4
  exact Nat.find_min' hex ⟨s', n', g1, g2, g3, g4⟩

end V8
