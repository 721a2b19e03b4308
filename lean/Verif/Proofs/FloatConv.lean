import Verif.Proofs.Float
import Verif.Spec.Float

/-!
# Conversions between formats
-/

namespace V8
open Spec

namespace Fmt
variable (F : Fmt)

/-- What needs no rounding keeps its value. -/
theorem mag_round_exact (num den e m : Nat) (hd : 0 < den) (h1 : m < 2 ^ (F.frac + 1))
    (h : num * 2 ^ F.unit = m * 2 ^ e * den) : F.mag (F.round num den) = m * 2 ^ e := by
  have hs : F.step num den ≤ e := by
    have := F.step_bound (num := num) (den := den) (k := F.frac + 1 + e) hd (by omega) (by
      rw [h, Nat.pow_add, Nat.mul_comm den]
      exact Nat.mul_lt_mul_of_pos_right (Nat.mul_lt_mul_of_pos_right h1 (by positivity)) hd)
    omega
  rw [F.mag_round num den hd]
  have he : 2 ^ e = 2 ^ (e - F.step num den) * 2 ^ F.step num den := by rw [← Nat.pow_add]; congr 1; omega
  have hm : F.mant num den = m * 2 ^ (e - F.step num den) := by
    unfold mant
    rw [h, he, ← Nat.mul_assoc, Nat.mul_assoc _ _ den, Nat.mul_comm _ den]
    exact rne_exact _ _ (Nat.mul_pos hd (by positivity))
  rw [hm, Nat.mul_assoc, ← he]

/-- Exponent and mantissa of a pattern. -/
theorem split_pattern (n : Nat) : ∃ e m, n = e * 2 ^ F.frac + m ∧ F.mag n = m * 2 ^ e ∧ m < 2 ^ (F.frac + 1) ∧
    (0 < e → 2 ^ F.frac ≤ m) ∧ e = n / 2 ^ F.frac - 1 := by
  have hp : 0 < 2 ^ F.frac := by positivity
  have hr := Nat.mod_lt n hp
  have hd := Nat.div_add_mod n (2 ^ F.frac)
  rw [Nat.mul_comm] at hd
  by_cases h0 : n / 2 ^ F.frac = 0
  · refine ⟨0, n % 2 ^ F.frac, ?_, ?_, ?_, ?_, by rw [h0]⟩
    · rw [h0] at hd; omega
    · unfold mag; rw [if_pos h0]; simp
    · rw [Nat.pow_succ]; omega
    · omega
  · refine ⟨n / 2 ^ F.frac - 1, 2 ^ F.frac + n % 2 ^ F.frac, ?_, ?_, ?_, fun _ => Nat.le_add_right _ _, rfl⟩
    · obtain ⟨k, hk⟩ : ∃ k, n / 2 ^ F.frac = k + 1 := ⟨n / 2 ^ F.frac - 1, (Nat.succ_pred h0).symm⟩
      rw [hk, Nat.add_mul] at hd
      rw [hk, show k + 1 - 1 = k by omega]
      omega
    · unfold mag; rw [if_neg h0]
    · rw [Nat.pow_succ]; omega

/-- The format has `e` exponent bits and `f` fraction bits. -/
structure Is (e f : Nat) : Prop where
  frac : F.frac = f
  top : F.top + 1 = 2 ^ e
  unit : F.unit + 2 = 2 ^ (e - 1) + f
  bias : 2 ≤ 2 ^ (e - 1)
  fpos : 0 < f

theorem b64_is : b64.Is 11 52 := ⟨rfl, rfl, rfl, by decide, by decide⟩
theorem b32_is : b32.Is 8 23 := ⟨rfl, rfl, rfl, by decide, by decide⟩
theorem b16_is : b16.Is 5 10 := ⟨rfl, rfl, rfl, by decide, by decide⟩

variable {F}

/-- The fields of a pattern with sign. -/
theorem Is.fields {e f : Nat} (_ : F.Is e f) (neg : Bool) (n : Nat) (hn : n < 2 ^ (e + f)) :
    (((if neg then 2 ^ (e + f) else 0) + n) / 2 ^ (e + f) % 2 = 1 ↔ neg = true) ∧
    ((if neg then 2 ^ (e + f) else 0) + n) / 2 ^ f % 2 ^ e = n / 2 ^ f ∧
    ((if neg then 2 ^ (e + f) else 0) + n) % 2 ^ f = n % 2 ^ f := by
  have hp : 0 < 2 ^ f := by positivity
  have hp' : 0 < 2 ^ (e + f) := by positivity
  have hq : n / 2 ^ f < 2 ^ e := by
    rw [Nat.div_lt_iff_lt_mul hp, ← Nat.pow_add]; exact hn
  cases neg with
  | false =>
    simp only [Bool.false_eq_true, if_false, Nat.zero_add, iff_false]
    refine ⟨?_, Nat.mod_eq_of_lt hq, trivial⟩
    rw [Nat.div_eq_of_lt hn]; omega
  | true =>
    simp only [if_true]
    refine ⟨?_, ?_, ?_⟩
    · rw [Nat.add_div_left _ hp', Nat.div_eq_of_lt hn]; simp
    · rw [Nat.pow_add, Nat.mul_comm, Nat.add_comm, Nat.add_mul_div_left _ _ hp, Nat.add_mod_right, Nat.mod_eq_of_lt hq]
    · rw [Nat.pow_add, Nat.mul_comm, Nat.add_comm, Nat.add_mul_mod_self_left]

theorem Is.inf_lt {e f : Nat} (h : F.Is e f) : F.inf + 2 ^ f = 2 ^ (e + f) := by
  unfold inf
  rw [h.frac, Nat.pow_add, ← h.top, Nat.add_mul]; omega

/-- The number of a pattern. -/
def signed (neg : Bool) (q : ℚ) : ℚ := if neg then -q else q

theorem Is.ieee_number {e f : Nat} (h : F.Is e f) (neg : Bool) (n : Nat) (hn : n < F.inf) :
    ieee e f ((if neg then 2 ^ (e + f) else 0) + n) = .number neg (signed neg ((F.mag n : ℚ) / 2 ^ F.unit)) := by
  have hi := h.inf_lt
  have hp : 0 < 2 ^ f := by positivity
  obtain ⟨h1, h2, h3⟩ := h.fields neg n (by omega)
  have hq : n / 2 ^ f < F.top := by
    rw [Nat.div_lt_iff_lt_mul hp, ← h.frac]; exact hn
  have hb := h.bias
  have hu : ((F.unit : Int)) = (2 ^ (e - 1) - 1) + f - 1 := by
    have := h.unit
    have h2 : ((2 ^ (e - 1) : Nat) : Int) = 2 ^ (e - 1) := by norm_cast
    omega
  have ht : ¬ n / 2 ^ f = 2 ^ e - 1 := by have := h.top; omega
  have hneg : (decide (((if neg then 2 ^ (e + f) else 0) + n) / 2 ^ (e + f) % 2 = 1)) = neg := by
    cases neg with
    | true => exact decide_eq_true (h1.2 rfl)
    | false => exact decide_eq_false (fun hc => Bool.false_ne_true (h1.1 hc))
  unfold ieee
  simp only [h2, h3, if_neg ht, hneg]
  simp only [h1]
  have hsg : ∀ q : ℚ, (if neg = true then (-1 : ℚ) else 1) * q = signed neg q := by
    intro q; unfold signed; cases neg <;> simp
  rw [hsg, hsg]
  have hu' : ((2 : ℚ) ^ F.unit) = 2 ^ ((2 ^ (e - 1) - 1 : Int) + f - 1) := by
    rw [← hu, zpow_natCast]
  by_cases h0 : n / 2 ^ f = 0
  · rw [if_pos h0]
    congr 2
    unfold mag
    rw [h.frac, if_pos h0, hu']
    rw [show (2 ^ (e - 1) - 1 : Int) + f - 1 = (f : Int) - (1 - (2 ^ (e - 1) - 1)) by omega,
      zpow_sub₀ (by norm_num) (f : Int), zpow_natCast]
    have : (2 : ℚ) ^ (1 - (2 ^ (e - 1) - 1 : Int)) ≠ 0 := zpow_ne_zero _ (by norm_num)
    field_simp
  · rw [if_neg h0]
    congr 2
    unfold mag
    rw [h.frac, if_neg h0, hu']
    obtain ⟨k, hk⟩ : ∃ k, n / 2 ^ f = k + 1 := ⟨n / 2 ^ f - 1, by omega⟩
    rw [hk]
    rw [show ((k + 1 : Nat) : Int) - (2 ^ (e - 1) - 1) = (k : Int) - ((2 ^ (e - 1) - 1 : Int) - 1) by push_cast; omega,
      show (2 ^ (e - 1) - 1 : Int) + f - 1 = (f : Int) + ((2 ^ (e - 1) - 1 : Int) - 1) by omega,
      zpow_sub₀ (by norm_num), zpow_add₀ (by norm_num), zpow_natCast, zpow_natCast]
    have : (2 : ℚ) ^ ((2 ^ (e - 1) - 1 : Int) - 1) ≠ 0 := zpow_ne_zero _ (by norm_num)
    push_cast
    field_simp

theorem Is.ieee_inf {e f : Nat} (h : F.Is e f) (neg : Bool) :
    ieee e f ((if neg then 2 ^ (e + f) else 0) + F.inf) = .infinity neg := by
  have hi := h.inf_lt
  have hp : 0 < 2 ^ f := by positivity
  obtain ⟨h1, h2, h3⟩ := h.fields neg F.inf (by omega)
  have hq : F.inf / 2 ^ f = F.top := by unfold inf; rw [h.frac, Nat.mul_div_cancel _ hp]
  have hr : F.inf % 2 ^ f = 0 := by unfold inf; rw [h.frac, Nat.mul_mod_left]
  have hneg : (decide (((if neg then 2 ^ (e + f) else 0) + F.inf) / 2 ^ (e + f) % 2 = 1)) = neg := by
    cases neg with
    | true => exact decide_eq_true (h1.2 rfl)
    | false => exact decide_eq_false (fun hc => Bool.false_ne_true (h1.1 hc))
  unfold ieee
  simp only [h2, h3, hq, hr, hneg]
  rw [if_pos (by have := h.top; omega), if_pos trivial]

theorem Is.ieee_nan {e f : Nat} (h : F.Is e f) (neg : Bool) (k : Nat) (h0 : 0 < k) (hk : k < 2 ^ f) :
    ieee e f ((if neg then 2 ^ (e + f) else 0) + (F.inf + k)) = .nan := by
  have hi := h.inf_lt
  have hp : 0 < 2 ^ f := by positivity
  obtain ⟨h1, h2, h3⟩ := h.fields neg (F.inf + k) (by omega)
  have hq : (F.inf + k) / 2 ^ f = F.top := by
    unfold inf
    rw [h.frac, Nat.add_comm, Nat.add_mul_div_right _ _ hp, Nat.div_eq_of_lt hk]; omega
  have hr : (F.inf + k) % 2 ^ f = k := by
    unfold inf
    rw [h.frac, Nat.add_comm, Nat.add_mul_mod_self_right, Nat.mod_eq_of_lt hk]
  unfold ieee
  simp only [h2, h3, hq, hr]
  rw [if_pos (by have := h.top; omega), if_neg (by omega)]

/-- Every pattern is a sign and a magnitude. -/
theorem Is.split_sign {e f : Nat} (_ : F.Is e f) (bits : Nat) (hb : bits < 2 ^ (1 + e + f)) :
    bits = (if decide (2 ^ (e + f) ≤ bits) then 2 ^ (e + f) else 0) + bits % 2 ^ (e + f) ∧ bits % 2 ^ (e + f) < 2 ^ (e + f) := by
  have hp : 0 < 2 ^ (e + f) := by positivity
  rw [Nat.add_assoc, Nat.pow_add] at hb
  refine ⟨?_, Nat.mod_lt _ hp⟩
  by_cases h : 2 ^ (e + f) ≤ bits
  · rw [decide_eq_true h, if_pos rfl, Nat.mod_eq_sub_mod h, Nat.mod_eq_of_lt (by omega)]; omega
  · rw [decide_eq_false h, if_neg (by simp), Nat.mod_eq_of_lt (by omega)]; omega

/-! ### Nearest -/

theorem rne_nearest (N D j : Nat) (hD : 0 < D) :
    |(rne N D : Int) * D - N| ≤ |(j : Int) * D - N| ∧
    (|(rne N D : Int) * D - N| = |(j : Int) * D - N| → j ≠ rne N D → rne N D % 2 = 0) := by
  have h1 := rne_le N D hD
  have h2 := rne_ge N D hD
  have h3 := rne_tie_even N D hD
  generalize rne N D = m at h1 h2 h3 ⊢
  have h1' : 2 * ((m : Int) * D) ≤ 2 * N + D := by exact_mod_cast h1
  have h2' : 2 * (N : Int) ≤ 2 * (m * D) + D := by exact_mod_cast h2
  by_cases hj : j = m
  · subst hj; exact ⟨le_refl _, fun _ hc => absurd rfl hc⟩
  have key : ((j : Int) * D ≥ m * D + D) ∨ ((j : Int) * D + D ≤ m * D) := by
    rcases Nat.lt_or_gt_of_ne hj with h | h
    · right
      have : (j + 1) * D ≤ m * D := Nat.mul_le_mul_right _ h
      rw [Nat.add_mul] at this
      have : ((j * D + 1 * D : Nat) : Int) ≤ (m * D : Nat) := by exact_mod_cast this
      push_cast at this; linarith
    · left
      have : (m + 1) * D ≤ j * D := Nat.mul_le_mul_right _ h
      rw [Nat.add_mul] at this
      have : ((m * D + 1 * D : Nat) : Int) ≤ (j * D : Nat) := by exact_mod_cast this
      push_cast at this; linarith
  have hm' : ((m * D : Nat) : Int) = (m : Int) * D := by push_cast; rfl
  have hD' : (0 : Int) < D := by exact_mod_cast hD
  generalize (j : Int) * D = a at key ⊢
  rw [← hm'] at *
  generalize m * D = b at *
  refine ⟨?_, fun heq _ => h3 ?_⟩
  · rcases abs_cases (a - (N : Int)) with ⟨e1, _⟩ | ⟨e1, _⟩ <;> rcases abs_cases ((b : Int) - N) with ⟨e2, _⟩ | ⟨e2, _⟩ <;>
      omega
  · rcases abs_cases (a - (N : Int)) with ⟨e1, _⟩ | ⟨e1, _⟩ <;> rcases abs_cases ((b : Int) - N) with ⟨e2, _⟩ | ⟨e2, _⟩ <;>
      omega

/-- No pattern is nearer than the one rounding gives; ties are even. -/
theorem round_nearest (num den n' : Nat) (hd : 0 < den) (hf : 0 < F.frac) :
    |(F.mag (F.round num den) : Int) * den - (num * 2 ^ F.unit : Nat)| ≤ |(F.mag n' : Int) * den - (num * 2 ^ F.unit : Nat)| ∧
    (|(F.mag (F.round num den) : Int) * den - (num * 2 ^ F.unit : Nat)| = |(F.mag n' : Int) * den - (num * 2 ^ F.unit : Nat)| →
      F.mag n' ≠ F.mag (F.round num den) → F.round num den % 2 = 0) := by
  have hpar : F.round num den % 2 = F.mant num den % 2 := by
    show (F.step num den * 2 ^ F.frac + F.mant num den) % 2 = _
    obtain ⟨k, hk⟩ : ∃ k, F.frac = k + 1 := ⟨F.frac - 1, by omega⟩
    rw [hk, Nat.pow_succ, ← Nat.mul_assoc]
    omega
  rw [F.mag_round num den hd, hpar]
  have hD : 0 < den * 2 ^ F.step num den := Nat.mul_pos hd (by positivity)
  have hl := F.step_le num den hd
  obtain ⟨e, m, _, hm, hm1, _, _⟩ := F.split_pattern n'
  rw [hm]
  have hx : ∀ j s : Nat, ((j * 2 ^ s : Nat) : Int) * den = (j : Int) * (den * 2 ^ s : Nat) := by
    intro j s; push_cast; ring
  by_cases he : F.step num den ≤ e
  · have hj : m * 2 ^ e = m * 2 ^ (e - F.step num den) * 2 ^ F.step num den := by
      rw [Nat.mul_assoc, ← Nat.pow_add]; congr 2; omega
    rw [hj, hx, hx]
    obtain ⟨a, b⟩ := rne_nearest (num * 2 ^ F.unit) (den * 2 ^ F.step num den) (m * 2 ^ (e - F.step num den)) hD
    exact ⟨a, fun h hne => b h (fun hc => hne (by rw [hc]; rfl))⟩
  · have hle := hl (by omega)
    obtain ⟨a, _⟩ := rne_nearest (num * 2 ^ F.unit) (den * 2 ^ F.step num den) (2 ^ F.frac) hD
    have hlt : m * 2 ^ e * den < 2 ^ F.frac * (den * 2 ^ F.step num den) := by
      have h1 : m * 2 ^ e < 2 ^ (F.frac + 1) * 2 ^ e := Nat.mul_lt_mul_of_pos_right hm1 (by positivity)
      rw [← Nat.pow_add] at h1
      have h2 : 2 ^ (F.frac + 1 + e) ≤ 2 ^ (F.frac + F.step num den) := Nat.pow_le_pow_right (by omega) (by omega)
      have h3 : m * 2 ^ e * den < 2 ^ (F.frac + F.step num den) * den := Nat.mul_lt_mul_of_pos_right (by omega) hd
      rw [Nat.pow_add] at h3
      calc _ < _ := h3
        _ = _ := by ring
    rw [hx]
    have hmm : F.mant num den = rne (num * 2 ^ F.unit) (den * 2 ^ F.step num den) := rfl
    rw [hmm]
    have hle' : 2 ^ F.frac * (den * 2 ^ F.step num den) ≤ num * 2 ^ F.unit := by
      rw [Nat.mul_comm]; exact hle
    generalize den * 2 ^ F.step num den = D at *
    generalize num * 2 ^ F.unit = N at *
    have ha : |((2 ^ F.frac : Nat) : Int) * D - N| < |((m * 2 ^ e : Nat) : Int) * den - N| := by
      have e1 : ((2 ^ F.frac : Nat) : Int) * D = (2 ^ F.frac * D : Nat) := by push_cast; rfl
      have e2 : ((m * 2 ^ e : Nat) : Int) * den = (m * 2 ^ e * den : Nat) := by push_cast; rfl
      rw [e1, e2]
      generalize 2 ^ F.frac * D = x at *
      generalize m * 2 ^ e * den = y at *
      rw [abs_of_nonpos (by omega), abs_of_nonpos (by omega)]
      omega
    exact ⟨by omega, fun h => by omega⟩

/-- Rounding gives no number exactly from half a step above the greatest number on. -/
theorem inf_le_round (num den : Nat) (hd : 0 < den) (ht : 3 ≤ F.top) :
    F.inf ≤ F.round num den ↔ den * ((2 ^ (F.frac + 2) - 1) * 2 ^ (F.top - 3)) ≤ num * 2 ^ F.unit := by
  have hr : F.round num den = F.step num den * 2 ^ F.frac + F.mant num den := rfl
  have hD : 0 < den * 2 ^ F.step num den := Nat.mul_pos hd (by positivity)
  have hp : 0 < 2 ^ F.frac := by positivity
  have hm := F.mant_le num den hd
  obtain ⟨g1, g2⟩ := F.mant_err num den hd
  have hp2 : 2 ^ (F.frac + 2) = 4 * 2 ^ F.frac := by rw [Nat.pow_add]; ring
  have hp1 : 2 ^ (F.frac + 1) = 2 * 2 ^ F.frac := by rw [Nat.pow_add]; ring
  have hT : F.step num den = F.top - 2 → 2 * (den * ((2 ^ (F.frac + 2) - 1) * 2 ^ (F.top - 3))) =
      den * 2 ^ F.step num den * (2 ^ (F.frac + 2) - 1) := by
    intro hs
    rw [hs, show F.top - 2 = F.top - 3 + 1 by omega, Nat.pow_succ]; ring
  rw [hr]
  unfold inf
  constructor
  · intro h
    by_contra hc
    have hb : F.step num den ≤ F.top - 2 := by
      have := F.step_bound (num := num) (den := den) (k := F.frac + 1 + (F.top - 2)) hd (by omega) (by
        have h2 : (2 ^ (F.frac + 2) - 1) * 2 ^ (F.top - 3) ≤ 2 ^ (F.frac + 1 + (F.top - 2)) := by
          calc _ ≤ 2 ^ (F.frac + 2) * 2 ^ (F.top - 3) := Nat.mul_le_mul_right _ (by omega)
            _ = _ := by rw [← Nat.pow_add]; congr 1; omega
        have := Nat.mul_le_mul_left den h2
        omega)
      omega
    by_cases hs : F.step num den = F.top - 2
    · have hT := hT hs
      have hge : 2 * 2 ^ F.frac ≤ F.mant num den := by
        rw [hs] at h
        obtain ⟨k, hk⟩ : ∃ k, F.top = k + 2 := ⟨F.top - 2, by omega⟩
        rw [hk, show k + 2 - 2 = k by omega, Nat.add_mul] at h
        omega
      have h5 : 2 * 2 ^ F.frac * (den * 2 ^ F.step num den) ≤ F.mant num den * (den * 2 ^ F.step num den) :=
        Nat.mul_le_mul_right _ hge
      have h6 : den * 2 ^ F.step num den * (2 ^ (F.frac + 2) - 1) + den * 2 ^ F.step num den =
          2 * (2 * 2 ^ F.frac * (den * 2 ^ F.step num den)) := by
        rw [hp2]
        obtain ⟨q, hq⟩ : ∃ q, 4 * 2 ^ F.frac = q + 1 := ⟨4 * 2 ^ F.frac - 1, by omega⟩
        have : 2 * (2 * 2 ^ F.frac * (den * 2 ^ F.step num den)) = (4 * 2 ^ F.frac) * (den * 2 ^ F.step num den) := by ring
        rw [this, hq]
        simp only [Nat.add_sub_cancel]; ring
      omega
    · have : (F.step num den + 2) * 2 ^ F.frac < F.top * 2 ^ F.frac := Nat.mul_lt_mul_of_pos_right (by omega) hp
      rw [Nat.add_mul] at this
      omega
  · intro h
    have hb : F.top - 2 ≤ F.step num den := by
      have := F.le_step (num := num) (den := den) (k := F.frac + (F.top - 2)) hd (by
        have h2 : 2 ^ (F.frac + (F.top - 2)) ≤ (2 ^ (F.frac + 2) - 1) * 2 ^ (F.top - 3) := by
          calc 2 ^ (F.frac + (F.top - 2)) = 2 ^ (F.frac + 1) * 2 ^ (F.top - 3) := by
                rw [← Nat.pow_add]; congr 1; omega
            _ ≤ _ := Nat.mul_le_mul_right _ (by omega)
        exact le_trans (Nat.mul_le_mul_left _ h2) h)
      omega
    by_cases hs : F.step num den = F.top - 2
    · have hT := hT hs
      have hge : 2 * 2 ^ F.frac ≤ F.mant num den := by
        by_contra hc
        have h5 : F.mant num den * (den * 2 ^ F.step num den) ≤ (2 * 2 ^ F.frac - 1) * (den * 2 ^ F.step num den) :=
          Nat.mul_le_mul_right _ (by omega)
        obtain ⟨q, hq⟩ : ∃ q, 2 ^ F.frac = q + 1 := ⟨2 ^ F.frac - 1, by omega⟩
        have h6 : den * 2 ^ F.step num den * (2 ^ (F.frac + 2) - 1) =
            2 * ((2 * 2 ^ F.frac - 1) * (den * 2 ^ F.step num den)) + den * 2 ^ F.step num den := by
          rw [hp2, hq, show 4 * (q + 1) - 1 = 4 * q + 3 by omega, show 2 * (q + 1) - 1 = 2 * q + 1 by omega]
          ring
        have htie : 2 * (F.mant num den * (den * 2 ^ F.step num den)) + den * 2 ^ F.step num den = 2 * (num * 2 ^ F.unit) := by
          omega
        have heven : F.mant num den % 2 = 0 := rne_tie_even _ _ hD (Or.inr htie)
        have h7 : F.mant num den * (den * 2 ^ F.step num den) = (2 * 2 ^ F.frac - 1) * (den * 2 ^ F.step num den) := by omega
        have h8 := Nat.eq_of_mul_eq_mul_right hD h7
        omega
      rw [hs]
      obtain ⟨k, hk⟩ : ∃ k, F.top = k + 2 := ⟨F.top - 2, by omega⟩
      rw [hk, show k + 2 - 2 = k by omega, Nat.add_mul]
      omega
    · have h1 := F.le_mant num den hd (by omega)
      obtain ⟨k, hk⟩ : ∃ k, F.top = k + 1 := ⟨F.top - 1, by omega⟩
      have : k * 2 ^ F.frac ≤ F.step num den * 2 ^ F.frac := Nat.mul_le_mul_right _ (by omega)
      rw [hk, Nat.add_mul]
      omega

/-! ### Unpacking -/

theorem unpack_eq {e f : Nat} (h : F.Is e f) (keep neg : Bool) (n : Nat) (hn : n < 2 ^ (e + f)) :
    F.unpack keep ((if neg then 2 ^ (e + f) else 0) + n) =
      (if n < F.inf then doubleOf neg (F.mag n) (2 ^ F.unit)
      else if n = F.inf then UInt64.ofNat ((if neg then 2 ^ 63 else 0) + b64.inf)
      else UInt64.ofNat ((if neg then 2 ^ 63 else 0) + b64.inf + 2 ^ 51 +
        if keep then (n - F.inf) % 2 ^ (F.frac - 1) * 2 ^ (52 - F.frac) else 0)) := by
  have hw : (F.top + 1) * 2 ^ F.frac = 2 ^ (e + f) := by rw [h.top, h.frac, Nat.pow_add]
  have h1 : decide (2 ^ (e + f) ≤ (if neg then 2 ^ (e + f) else 0) + n) = neg := by
    cases neg with
    | true => exact decide_eq_true (by simp)
    | false => exact decide_eq_false (by simp; omega)
  have h2 : ((if neg then 2 ^ (e + f) else 0) + n) % 2 ^ (e + f) = n := by
    cases neg <;> simp [Nat.mod_eq_of_lt hn]
  unfold unpack
  simp only [hw, h1, h2]

/-- A narrow number as a double, not rounded. -/
theorem unpack_number {e f : Nat} (h : F.Is e f) (hf : f < 52) (hs : F.top ≤ 2 ^ 9) (n : Nat) (hn : n < F.inf) :
    b64.round (F.mag n) (2 ^ F.unit) < b64.inf ∧
    b64.mag (b64.round (F.mag n) (2 ^ F.unit)) * 2 ^ F.unit = F.mag n * 2 ^ 1074 := by
  obtain ⟨e', m, h1, h2, h3, h4, h5⟩ := F.split_pattern n
  have hp : 0 < 2 ^ F.frac := by positivity
  have hq : n / 2 ^ F.frac < F.top := by rw [Nat.div_lt_iff_lt_mul hp]; exact hn
  have hu : F.unit ≤ 1074 := by
    have h6 := h.unit
    have h7 := h.top
    have h8 : 2 ^ e = 2 ^ (e - 1) * 2 := by
      rw [← Nat.pow_succ]; congr 1
      have := h.bias
      by_contra hc
      have : e = 0 := by omega
      subst this
      simp at *
    omega
  have hm53 : m < 2 ^ 53 := lt_of_lt_of_le h3 (Nat.pow_le_pow_right (by omega) (by rw [h.frac]; omega))
  have hpu : 2 ^ 1074 = 2 ^ (1074 - F.unit) * 2 ^ F.unit := by rw [← Nat.pow_add]; congr 1; omega
  have heq : F.mag n * 2 ^ 1074 = m * 2 ^ (e' + (1074 - F.unit)) * 2 ^ F.unit := by
    rw [h2, hpu, Nat.pow_add]; ring
  constructor
  · refine round_lt_inf b64 (k := 53 + (e' + (1074 - F.unit))) (by positivity) ?_ ?_ ?_
    · show 52 + 1 ≤ _; omega
    · show F.mag n * 2 ^ 1074 < _
      rw [heq, Nat.mul_comm (2 ^ F.unit), Nat.pow_add 2 53]
      exact Nat.mul_lt_mul_of_pos_right (Nat.mul_lt_mul_of_pos_right hm53 (by positivity)) (by positivity)
    · show _ - (52 + 1) + 2 < 2047
      omega
  · rw [mag_round_exact b64 (F.mag n) (2 ^ F.unit) (e' + (1074 - F.unit)) m (by positivity) hm53 heq, ← heq]

theorem toNat_sign (neg : Bool) (n : Nat) (hn : n < 2 ^ 63) :
    (UInt64.ofNat ((if neg then 2 ^ 63 else 0) + n)).toNat = (if neg then 2 ^ 63 else 0) + n := by
  rw [UInt64.toNat_ofNat']
  apply Nat.mod_eq_of_lt
  cases neg <;> simp <;> omega

/-- Reading a narrow number keeps its meaning. -/
theorem unpack_meaning {e f : Nat} (h : F.Is e f) (hf : f < 52) (hs : F.top ≤ 2 ^ 9) (keep : Bool) (bits : Nat)
    (hb : bits < 2 ^ (1 + e + f)) : binary64 (F.unpack keep bits) = ieee e f bits := by
  obtain ⟨h1, h2⟩ := h.split_sign bits hb
  generalize decide (2 ^ (e + f) ≤ bits) = neg at h1
  generalize bits % 2 ^ (e + f) = n at h1 h2
  subst h1
  rw [unpack_eq h keep neg n h2]
  have hi := h.inf_lt
  by_cases hn : n < F.inf
  · rw [if_pos hn, h.ieee_number neg n hn]
    obtain ⟨a, b⟩ := unpack_number h hf hs n hn
    have hx := doubleOf_toNat neg (F.mag n) (2 ^ F.unit)
    rw [Nat.min_eq_left (by omega)] at hx
    unfold binary64
    rw [hx]
    have := b64_is.ieee_number neg _ a
    refine this.trans ?_
    congr 2
    rw [div_eq_div_iff (by positivity) (by positivity)]
    exact_mod_cast b
  · rw [if_neg hn]
    by_cases hn' : n = F.inf
    · rw [if_pos hn', hn', h.ieee_inf neg]
      unfold binary64
      rw [toNat_sign neg _ (by decide)]
      exact b64_is.ieee_inf neg
    · rw [if_neg hn']
      obtain ⟨k, rfl⟩ : ∃ k, n = F.inf + k := ⟨n - F.inf, by omega⟩
      rw [h.ieee_nan neg k (by omega) (by omega)]
      unfold binary64
      have hpl : (if keep then (F.inf + k - F.inf) % 2 ^ (F.frac - 1) * 2 ^ (52 - F.frac) else 0) < 2 ^ 51 := by
        cases keep with
        | false => simp
        | true =>
          rw [if_pos rfl]
          calc _ < 2 ^ (F.frac - 1) * 2 ^ (52 - F.frac) :=
                Nat.mul_lt_mul_of_pos_right (Nat.mod_lt _ (by positivity)) (by positivity)
            _ = 2 ^ 51 := by
                rw [← Nat.pow_add]; congr 1; have := h.frac; have := h.fpos; omega
      generalize (if keep then (F.inf + k - F.inf) % 2 ^ (F.frac - 1) * 2 ^ (52 - F.frac) else 0) = q at hpl
      rw [show ∀ a b c d : Nat, a + b + c + d = a + (b + (c + d)) from fun _ _ _ _ => by omega]
      rw [toNat_sign neg _ (by rw [b64_inf]; omega)]
      exact b64_is.ieee_nan neg _ (by omega) (by omega)

/-! ### Packing -/

/-- The meaning of a double from its fields. -/
theorem binary64_eq (x : F64) :
    binary64 x = if fExp x.toNat = 2047 then (if fFrac x.toNat = 0 then .infinity (fSign x.toNat) else .nan)
      else .number (fSign x.toNat) (signed (fSign x.toNat) ((fMag x.toNat : ℚ) / 2 ^ 1074)) := by
  have hx : x.toNat < 2 ^ 64 := x.toNat_lt
  obtain ⟨h1, h2⟩ := b64_is.split_sign x.toNat hx
  have hs : decide (2 ^ (11 + 52) ≤ x.toNat) = fSign x.toNat := by
    unfold fSign
    rw [Bool.eq_iff_iff, decide_eq_true_iff, beq_iff_eq]
    omega
  rw [hs] at h1
  generalize fSign x.toNat = neg at h1 ⊢
  generalize x.toNat % 2 ^ (11 + 52) = n at h1 h2
  unfold binary64
  rw [h1]
  have he : fExp ((if neg = true then 2 ^ (11 + 52) else 0) + n) = n / 2 ^ 52 := by
    unfold fExp; cases neg <;> simp <;> omega
  have hf : fFrac ((if neg = true then 2 ^ (11 + 52) else 0) + n) = n % 2 ^ 52 := by
    unfold fFrac; cases neg <;> simp; omega
  have hm : fMag ((if neg = true then 2 ^ (11 + 52) else 0) + n) = b64.mag n := by
    unfold fMag; rw [he, hf]; rfl
  rw [he, hf, hm]
  by_cases ht : n / 2 ^ 52 = 2047
  · rw [if_pos ht]
    by_cases hr : n % 2 ^ 52 = 0
    · rw [if_pos hr]
      have hn : n = b64.inf := by rw [b64_inf]; omega
      rw [hn]
      exact b64_is.ieee_inf neg
    · rw [if_neg hr]
      obtain ⟨k, rfl⟩ : ∃ k, n = b64.inf + k := ⟨n - b64.inf, by rw [b64_inf]; omega⟩
      rw [b64_inf] at ht hr h2
      exact b64_is.ieee_nan neg k (by omega) (by omega)
  · rw [if_neg ht]
    exact b64_is.ieee_number neg n (by rw [b64_inf]; omega)

theorem signed_abs_sub (neg : Bool) (a q : ℚ) : |signed neg a - signed neg q| = |a - q| := by
  cases neg
  · rfl
  · show |-a - -q| = _
    rw [show -a - -q = -(a - q) by ring, abs_neg]

theorem signed_inj {neg : Bool} {a b : ℚ} (h : signed neg a = signed neg b) : a = b := by
  cases neg
  · exact h
  · exact neg_inj.1 h

/-- Being nearest, from the magnitudes alone. -/
theorem nearest_of {e f : Nat} (h : F.Is e f) (neg : Bool) (num den : Nat) (hd : 0 < den)
    (hn : F.round num den < F.inf) :
    IsNearest (ieee e f) (1 + e + f) neg (signed neg (num / den)) ((if neg then 2 ^ (e + f) else 0) + F.round num den) := by
  have hi := h.inf_lt
  have hp : 0 < 2 ^ f := by positivity
  have hpar : ((if neg then 2 ^ (e + f) else 0) + F.round num den) % 2 = F.round num den % 2 := by
    obtain ⟨k, hk⟩ : ∃ k, f = k + 1 := ⟨f - 1, by have := h.fpos; omega⟩
    cases neg <;> simp [hk, ← Nat.add_assoc, Nat.pow_succ]
  refine ⟨?_, _, h.ieee_number neg _ hn, ?_⟩
  · rw [Nat.add_assoc, Nat.pow_add 2 1]
    cases neg <;> simp only [Bool.false_eq_true, if_false, if_true] <;> omega
  intro b' hb' s' r' hr'
  obtain ⟨g1, g2⟩ := h.split_sign b' hb'
  generalize decide (2 ^ (e + f) ≤ b') = neg' at g1
  generalize b' % 2 ^ (e + f) = n' at g1 g2
  subst g1
  have hn' : n' < F.inf := by
    by_contra hc
    by_cases hc' : n' = F.inf
    · rw [hc', h.ieee_inf] at hr'; cases hr'
    · obtain ⟨k, rfl⟩ : ∃ k, n' = F.inf + k := ⟨n' - F.inf, by omega⟩
      rw [h.ieee_nan _ k (by omega) (by omega)] at hr'; cases hr'
  rw [h.ieee_number neg' n' hn'] at hr'
  injection hr' with _ hr'
  subst hr'
  rw [hpar, signed_abs_sub]
  obtain ⟨k1, k2⟩ := round_nearest (F := F) num den n' hd (by rw [h.frac]; exact h.fpos)
  obtain ⟨z1, _⟩ := round_nearest (F := F) num den 0 hd (by rw [h.frac]; exact h.fpos)
  have hmag0 : F.mag 0 = 0 := by unfold mag; simp
  rw [hmag0] at z1
  -- distances as integers
  have hdq : (0 : ℚ) < den * 2 ^ F.unit := by have : (0 : ℚ) < den := by exact_mod_cast hd
                                              positivity
  have conv : ∀ m : Nat, |(m : ℚ) / 2 ^ F.unit - num / den| =
      ((|(m : Int) * den - (num * 2 ^ F.unit : Nat)| : Int) : ℚ) / (den * 2 ^ F.unit) := by
    intro m
    have hd' : (den : ℚ) ≠ 0 := by exact_mod_cast (Nat.pos_iff_ne_zero.1 hd)
    have : (m : ℚ) / 2 ^ F.unit - num / den = (((m : Int) * den - (num * 2 ^ F.unit : Nat) : Int) : ℚ) / (den * 2 ^ F.unit) := by
      push_cast
      field_simp
    rw [this, abs_div, abs_of_pos hdq, Int.cast_abs]
  have c1 := conv (F.mag (F.round num den))
  have c2 := conv (F.mag n')
  have c0 := conv 0
  -- the distance to the same sign
  have le1 : |(F.mag (F.round num den) : ℚ) / 2 ^ F.unit - num / den| ≤ |(F.mag n' : ℚ) / 2 ^ F.unit - num / den| := by
    rw [c1, c2]
    exact div_le_div_of_nonneg_right (by exact_mod_cast k1) hdq.le
  have eq1 : |(F.mag (F.round num den) : ℚ) / 2 ^ F.unit - num / den| = |(F.mag n' : ℚ) / 2 ^ F.unit - num / den| →
      F.mag n' ≠ F.mag (F.round num den) → F.round num den % 2 = 0 := by
    intro he hne
    rw [c1, c2, div_left_inj' hdq.ne'] at he
    exact k2 (by exact_mod_cast he) hne
  have le0 : |(F.mag (F.round num den) : ℚ) / 2 ^ F.unit - num / den| ≤ |((0 : Nat) : ℚ) / 2 ^ F.unit - num / den| := by
    rw [c1, c0]
    exact div_le_div_of_nonneg_right (by exact_mod_cast z1) hdq.le
  have hr0 : (0 : ℚ) ≤ (F.mag (F.round num den) : ℚ) / 2 ^ F.unit := by positivity
  have hr0' : (0 : ℚ) ≤ (F.mag n' : ℚ) / 2 ^ F.unit := by positivity
  have hq0 : (0 : ℚ) ≤ (num : ℚ) / den := by positivity
  have hmeq : (F.mag n' : ℚ) / 2 ^ F.unit ≠ (F.mag (F.round num den) : ℚ) / 2 ^ F.unit →
      F.mag n' ≠ F.mag (F.round num den) := fun hne hc => hne (by rw [hc])
  generalize (F.mag (F.round num den) : ℚ) / 2 ^ F.unit = r at *
  generalize (F.mag n' : ℚ) / 2 ^ F.unit = r' at *
  generalize (num : ℚ) / den = q at *
  rw [Nat.cast_zero, zero_div, zero_sub, abs_neg, abs_of_nonneg hq0] at le0
  by_cases hs : neg' = neg
  · subst hs
    rw [signed_abs_sub]
    exact ⟨le1, fun he hne => eq1 he (hmeq fun hc => hne (by rw [hc]))⟩
  · have hopp : |signed neg' r' - signed neg q| = r' + q := by
      cases neg <;> cases neg' <;> simp at hs
      · show |-r' - q| = _
        rw [show -r' - q = -(r' + q) by ring, abs_neg, abs_of_nonneg (by linarith)]
      · show |r' - -q| = _
        rw [sub_neg_eq_add, abs_of_nonneg (by linarith)]
    rw [hopp]
    refine ⟨by linarith, fun he hne => ?_⟩
    have hr'0 : r' = 0 := by linarith
    subst hr'0
    by_cases hrr : r = 0
    · subst hrr
      exact absurd (by cases neg <;> cases neg' <;> simp [signed]) hne
    · refine eq1 ?_ (hmeq fun hc => hrr hc.symm)
      rw [he, zero_sub, abs_neg, abs_of_nonneg hq0, zero_add]

/-- Writing a double to a narrow format. -/
theorem pack_meaning {e f : Nat} (h : F.Is e f) (hf : f < 52) (hf1 : 1 < f) (ht : 3 ≤ F.top) (keep : Bool) (x : F64) :
    match binary64 x with
    | .nan => ∃ b < 2 ^ (1 + e + f), F.pack keep x = some b ∧ ieee e f b = .nan
    | .infinity s => ∃ b < 2 ^ (1 + e + f), F.pack keep x = some b ∧ ieee e f b = .infinity s
    | .number s q =>
      (|q| < ((2 ^ (F.frac + 2) - 1 : Nat) * 2 ^ (F.top - 3) : ℚ) / 2 ^ F.unit → ∃ b, F.pack keep x = some b ∧ IsNearest (ieee e f) (1 + e + f) s q b) ∧
      (((2 ^ (F.frac + 2) - 1 : Nat) * 2 ^ (F.top - 3) : ℚ) / 2 ^ F.unit ≤ |q| → F.pack keep x = none) := by
  have hw : (F.top + 1) * 2 ^ F.frac = 2 ^ (e + f) := by rw [h.top, h.frac, Nat.pow_add]
  have hi := h.inf_lt
  have hp : 0 < 2 ^ f := by positivity
  have hsz : 2 ^ (1 + e + f) = 2 ^ (e + f) + 2 ^ (e + f) := by rw [Nat.add_assoc, Nat.pow_add]; omega
  rw [binary64_eq x]
  by_cases hx : fExp x.toNat = 2047
  · rw [if_pos hx]
    by_cases hr : fFrac x.toNat = 0
    · rw [if_pos hr]
      refine ⟨(if fSign x.toNat then 2 ^ (e + f) else 0) + F.inf, ?_, ?_, h.ieee_inf _⟩
      · cases fSign x.toNat <;> simp <;> omega
      · unfold pack; simp only [hw, if_pos hx, if_pos hr]
    · rw [if_neg hr]
      have hpl : (if keep then fFrac x.toNat / 2 ^ (52 - F.frac) % 2 ^ (F.frac - 1) else 0) < 2 ^ (F.frac - 1) := by
        cases keep with
        | false => simp
        | true => rw [if_pos rfl]; exact Nat.mod_lt _ (by positivity)
      have hpf : 2 ^ f = 2 ^ (F.frac - 1) * 2 := by rw [← Nat.pow_succ]; congr 1; have := h.frac; omega
      have hp0 : 0 < 2 ^ (F.frac - 1) := by positivity
      refine ⟨(if fSign x.toNat then 2 ^ (e + f) else 0) + (F.inf + (2 ^ (F.frac - 1) +
        (if keep then fFrac x.toNat / 2 ^ (52 - F.frac) % 2 ^ (F.frac - 1) else 0))), ?_, ?_,
        h.ieee_nan _ _ (by omega) (by omega)⟩
      · cases fSign x.toNat <;> simp only [Bool.false_eq_true, if_false, if_true] <;> omega
      · unfold pack; simp only [hw, if_pos hx, if_neg hr]
        congr 1; omega
  · rw [if_neg hx]
    have hiff := inf_le_round (F := F) (fMag x.toNat) (2 ^ 1074) (Nat.two_pow_pos _) ht
    have habs : |signed (fSign x.toNat) ((fMag x.toNat : ℚ) / 2 ^ 1074)| = (fMag x.toNat : ℚ) / 2 ^ 1074 := by
      have : (0 : ℚ) ≤ (fMag x.toNat : ℚ) / 2 ^ 1074 := by positivity
      unfold signed
      cases fSign x.toNat
      · simp only [Bool.false_eq_true, if_false]; exact abs_of_nonneg this
      · simp only [if_true]; rw [abs_neg]; exact abs_of_nonneg this
    have hD : ((2 ^ 1074 : Nat) : ℚ) = 2 ^ 1074 := by rw [Nat.cast_pow, Nat.cast_ofNat]
    have hlim : ((2 ^ (F.frac + 2) - 1 : Nat) * 2 ^ (F.top - 3) : ℚ) / 2 ^ F.unit ≤ (fMag x.toNat : ℚ) / 2 ^ 1074 ↔
        2 ^ 1074 * ((2 ^ (F.frac + 2) - 1) * 2 ^ (F.top - 3)) ≤ fMag x.toNat * 2 ^ F.unit := by
      rw [div_le_div_iff₀ (by positivity) (by positivity), Nat.mul_comm (2 ^ 1074), ← hD]
      exact_mod_cast Iff.rfl
    refine ⟨fun hlt => ?_, fun hle => ?_⟩
    · rw [habs, ← not_le, hlim, ← hiff] at hlt
      refine ⟨(if fSign x.toNat then 2 ^ (e + f) else 0) + F.round (fMag x.toNat) (2 ^ 1074), ?_, ?_⟩
      · unfold pack; simp only [hw, if_neg hx]; rw [if_pos (by omega)]
      · have := nearest_of h (fSign x.toNat) (fMag x.toNat) (2 ^ 1074) (Nat.two_pow_pos _) (by omega)
        rw [hD] at this
        exact this
    · rw [habs, hlim, ← hiff] at hle
      unfold pack; simp only [if_neg hx]; rw [if_neg (by omega)]

/-- What was read from a narrow format is written back as the same pattern. -/
theorem pack_unpack {e f : Nat} (h : F.Is e f) (hf : f < 52) (hs : F.top ≤ 2 ^ 9) (keep : Bool) (bits : Nat)
    (hb : bits < 2 ^ (1 + e + f)) (hnan : ieee e f bits ≠ .nan) : F.pack keep (F.unpack keep bits) = some bits := by
  have hw : (F.top + 1) * 2 ^ F.frac = 2 ^ (e + f) := by rw [h.top, h.frac, Nat.pow_add]
  obtain ⟨h1, h2⟩ := h.split_sign bits hb
  generalize decide (2 ^ (e + f) ≤ bits) = neg at h1
  generalize bits % 2 ^ (e + f) = n at h1 h2
  subst h1
  have hi := h.inf_lt
  rw [unpack_eq h keep neg n h2]
  by_cases hn : n < F.inf
  · rw [if_pos hn]
    obtain ⟨a, b⟩ := unpack_number h hf hs n hn
    have hx := doubleOf_toNat neg (F.mag n) (2 ^ F.unit)
    rw [Nat.min_eq_left (by omega)] at hx
    obtain ⟨f1, f2, f3⟩ := fields_of _ neg _ a hx
    obtain ⟨e', m, g1, g2, g3, g4, _⟩ := F.split_pattern n
    have hround : F.round (fMag (doubleOf neg (F.mag n) (2 ^ F.unit)).toNat) (2 ^ 1074) = n := by
      rw [f3, round_exact F _ (2 ^ 1074) e' m (Nat.two_pow_pos _) (by omega) g4 (by rw [b, g2]), ← g1]
    unfold pack
    simp only [hw, if_neg f1, hround, if_pos hn, f2]
  · rw [if_neg hn]
    by_cases hn' : n = F.inf
    · rw [if_pos hn']
      have hx := toNat_sign neg b64.inf (by decide)
      have f1 : fExp (UInt64.ofNat ((if neg then 2 ^ 63 else 0) + b64.inf)).toNat = 2047 := by
        rw [hx, b64_inf]; cases neg <;> decide
      have f2 : fFrac (UInt64.ofNat ((if neg then 2 ^ 63 else 0) + b64.inf)).toNat = 0 := by
        rw [hx, b64_inf]; cases neg <;> decide
      have f3 : fSign (UInt64.ofNat ((if neg then 2 ^ 63 else 0) + b64.inf)).toNat = neg := by
        rw [hx, b64_inf]; cases neg <;> decide
      unfold pack
      simp only [hw, if_pos f1, if_pos f2, f3, hn']
    · exfalso
      obtain ⟨k, rfl⟩ : ∃ k, n = F.inf + k := ⟨n - F.inf, by omega⟩
      exact hnan (h.ieee_nan neg k (by omega) (by omega))

/-- Different magnitudes are different numbers. -/
theorem mag_inj (n n' : Nat) (h : F.mag n = F.mag n') : n = n' := by
  obtain ⟨e, m, g1, g2, g3, g4, _⟩ := F.split_pattern n
  obtain ⟨e', m', g1', g2', g3', g4', _⟩ := F.split_pattern n'
  have r1 := round_exact F (F.mag n) (2 ^ F.unit) e m (by positivity) (by omega) g4 (by rw [g2])
  have r2 := round_exact F (F.mag n') (2 ^ F.unit) e' m' (by positivity) (by omega) g4' (by rw [g2'])
  rw [← g1] at r1
  rw [← g1', ← h, r1] at r2
  exact r2

/-- Two patterns with the same meaning are equal, NaNs apart. -/
theorem Is.ieee_inj {e f : Nat} (h : F.Is e f) (b b' : Nat) (hb : b < 2 ^ (1 + e + f)) (hb' : b' < 2 ^ (1 + e + f))
    (heq : ieee e f b = ieee e f b') (hnan : ieee e f b ≠ .nan) : b = b' := by
  have hi := h.inf_lt
  obtain ⟨h1, h2⟩ := h.split_sign b hb
  obtain ⟨h1', h2'⟩ := h.split_sign b' hb'
  generalize decide (2 ^ (e + f) ≤ b) = s at h1
  generalize decide (2 ^ (e + f) ≤ b') = s' at h1'
  generalize b % 2 ^ (e + f) = n at h1 h2
  generalize b' % 2 ^ (e + f) = n' at h1' h2'
  subst h1 h1'
  have kind : ∀ (s : Bool) (n : Nat), n < 2 ^ (e + f) → n < F.inf ∨ n = F.inf ∨
      ieee e f ((if s then 2 ^ (e + f) else 0) + n) = .nan := by
    intro s n hn
    by_cases hc : n < F.inf
    · exact .inl hc
    · by_cases hc' : n = F.inf
      · exact .inr (.inl hc')
      · obtain ⟨k, rfl⟩ : ∃ k, n = F.inf + k := ⟨n - F.inf, by omega⟩
        exact .inr (.inr (h.ieee_nan s k (by omega) (by omega)))
  rcases kind s n h2 with g | g | g
  · rcases kind s' n' h2' with g' | g' | g'
    · rw [h.ieee_number s n g, h.ieee_number s' n' g'] at heq
      injection heq with e1 e2
      subst e1
      have e3 := signed_inj e2
      rw [div_left_inj' (by positivity)] at e3
      rw [F.mag_inj n n' (by exact_mod_cast e3)]
    · rw [h.ieee_number s n g, g', h.ieee_inf] at heq; cases heq
    · rw [h.ieee_number s n g, g'] at heq; cases heq
  · subst g
    rcases kind s' n' h2' with g' | g' | g'
    · rw [h.ieee_inf, h.ieee_number s' n' g'] at heq; cases heq
    · rw [g', h.ieee_inf, h.ieee_inf] at heq; injection heq with e1; rw [e1, g']
    · rw [h.ieee_inf, g'] at heq; cases heq
  · exact absurd g hnan

end Fmt

theorem binary64_inj (x y : F64) (h : binary64 x = binary64 y) (hnan : binary64 x ≠ .nan) : x = y :=
  UInt64.toNat_inj.1 (Fmt.b64_is.ieee_inj _ _ x.toNat_lt y.toNat_lt h hnan)

theorem floatOfInt_nearest (n : Int) :
    (((n.natAbs : ℚ) < 2 ^ 1024 - 2 ^ 970) → ∃ x, floatOfInt n = some x ∧
      IsNearest (ieee 11 52) 64 (decide (n < 0)) n x.toNat) ∧
    ((2 ^ 1024 - 2 ^ 970 ≤ (n.natAbs : ℚ)) → floatOfInt n = none) := by
  have hiff := Fmt.inf_le_round (F := b64) n.natAbs 1 Nat.one_pos (by decide)
  have hlim : b64.inf ≤ b64.round n.natAbs 1 ↔ (2 ^ 1024 - 2 ^ 970 : ℚ) ≤ (n.natAbs : ℚ) := by
    rw [hiff]
    have e1 : (2 ^ (b64.frac + 2) - 1) * 2 ^ (b64.top - 3) = (2 ^ 54 - 1) * 2 ^ 970 * 2 ^ b64.unit := by
      rw [show b64.frac + 2 = 54 from rfl, show b64.top - 3 = 970 + b64.unit from rfl, Nat.pow_add 2 970, Nat.mul_assoc]
    rw [e1, Nat.one_mul, Nat.mul_le_mul_right_iff (Nat.two_pow_pos _)]
    have e2 : ((((2 ^ 54 - 1) * 2 ^ 970 : Nat)) : ℚ) = 2 ^ 1024 - 2 ^ 970 := by
      have e3 : (2 : ℚ) ^ 1024 = 2 ^ 54 * 2 ^ 970 := by rw [← pow_add]
      rw [Nat.cast_mul, Nat.cast_pow (2 : Nat) 970, Nat.cast_ofNat, e3]
      generalize (2 : ℚ) ^ 970 = D
      have : ((2 ^ 54 - 1 : Nat) : ℚ) = 2 ^ 54 - 1 := by norm_num
      rw [this]
      ring
    rw [← e2, Nat.cast_le]
  refine ⟨fun h => ?_, fun h => ?_⟩
  · rw [← not_le, ← hlim] at h
    refine ⟨_, if_pos (by omega), ?_⟩
    rw [doubleOf_toNat, Nat.min_eq_left (by omega)]
    have := Fmt.nearest_of Fmt.b64_is (decide (n < 0)) n.natAbs 1 Nat.one_pos (by omega)
    have hs : Fmt.signed (decide (n < 0)) ((n.natAbs : ℚ) / (1 : Nat)) = n := by
      rw [Nat.cast_one, div_one, Nat.cast_natAbs]
      unfold Fmt.signed
      by_cases hn : n < 0
      · rw [decide_eq_true hn, if_pos rfl, abs_of_neg hn]; push_cast; ring
      · rw [decide_eq_false hn, if_neg (by simp), abs_of_nonneg (by omega)]
    rw [hs] at this
    exact this
  · rw [← hlim] at h
    exact if_neg (by omega)

end V8
