import Verif.Model.Num
import Mathlib.Tactic.Ring
import Mathlib.Tactic.Linarith
import Mathlib.Data.Nat.Log

namespace V8

theorem fval_doubleOfInt (n : Int) (h : n.natAbs ≤ 2 ^ 53 - 1) :
    fval (doubleOfInt n) = .fin (n * 2 ^ 1074) := by
  unfold doubleOfInt
  by_cases hm : n.natAbs = 0
  · have hn : n = 0 := by omega
    subst hn
    decide +kernel
  · simp only [hm, if_false]
    set m := n.natAbs with hmdef
    set e := Nat.log2 m with he
    have hle : 2 ^ e ≤ m := Nat.log2_self_le hm
    have hlt : m < 2 ^ (e + 1) := Nat.lt_log2_self
    have he52 : e ≤ 52 := by
      have : e < 53 := by
        rw [he, Nat.log2_lt hm]; omega
      omega
    have hA : 2 ^ 52 ≤ m * 2 ^ (52 - e) := by
      calc 2 ^ 52 = 2 ^ e * 2 ^ (52 - e) := by rw [← pow_add]; congr 1; omega
        _ ≤ _ := Nat.mul_le_mul_right _ hle
    have hB : m * 2 ^ (52 - e) < 2 ^ 53 := by
      calc m * 2 ^ (52 - e) < 2 ^ (e + 1) * 2 ^ (52 - e) :=
            Nat.mul_lt_mul_of_pos_right hlt (by positivity)
        _ = 2 ^ 53 := by rw [← pow_add]; congr 1; omega
    obtain ⟨f, hf⟩ : ∃ f, m * 2 ^ (52 - e) = 2 ^ 52 + f := ⟨_, (Nat.add_sub_cancel' hA).symm⟩
    have hf52 : f < 2 ^ 52 := by omega
    rw [hf, Nat.add_sub_cancel_left]
    set s : Nat := if n < 0 then 2 ^ 63 else 0 with hs
    have hN : s + (e + 1023) * 2 ^ 52 + f < 2 ^ 64 := by
      have : s ≤ 2 ^ 63 := by rw [hs]; split <;> omega
      have : (e + 1023) * 2 ^ 52 ≤ 1075 * 2 ^ 52 := Nat.mul_le_mul_right _ (by omega)
      omega
    have htoNat : (UInt64.ofNat (s + (e + 1023) * 2 ^ 52 + f)).toNat
        = s + (e + 1023) * 2 ^ 52 + f := by
      rw [UInt64.toNat_ofNat']; exact Nat.mod_eq_of_lt hN
    have hFrac : fFrac (s + (e + 1023) * 2 ^ 52 + f) = f := by
      unfold fFrac
      have : s = (if n < 0 then 2 ^ 11 else 0) * 2 ^ 52 := by rw [hs]; split <;> norm_num
      rw [this]; omega
    have hExp : fExp (s + (e + 1023) * 2 ^ 52 + f) = e + 1023 := by
      unfold fExp
      have : s = (if n < 0 then 2 ^ 11 else 0) * 2 ^ 52 := by rw [hs]; split <;> norm_num
      rw [this]; split <;> omega
    have hSign : fSign (s + (e + 1023) * 2 ^ 52 + f) = decide (n < 0) := by
      unfold fSign
      rw [hs]
      by_cases hneg : n < 0
      · simp only [hneg, if_true, decide_true]
        have : (2 ^ 63 + (e + 1023) * 2 ^ 52 + f) / 2 ^ 63 % 2 = 1 := by omega
        rw [this]; rfl
      · simp only [hneg, if_false, decide_false]
        have : (0 + (e + 1023) * 2 ^ 52 + f) / 2 ^ 63 % 2 = 0 := by omega
        rw [this]; rfl
    have hMag : fMag (s + (e + 1023) * 2 ^ 52 + f) = m * 2 ^ 1074 := by
      unfold fMag
      have h1 : 52 - e + (e + 1023 - 1) = 1074 := by omega
      rw [hExp, hFrac, if_neg (by omega), ← hf, mul_assoc, ← pow_add, h1]
    have hval : fval (UInt64.ofNat (s + (e + 1023) * 2 ^ 52 + f))
        = .fin (if decide (n < 0) = true then -((m * 2 ^ 1074 : Nat) : Int)
            else ((m * 2 ^ 1074 : Nat) : Int)) := by
      rw [← hMag, ← hSign]
      unfold fval
      rw [htoNat]
      exact if_neg (by rw [hExp]; omega)
    rw [hval]
    by_cases hneg : n < 0
    · simp only [hneg, decide_true, if_true]
      have : (m : Int) = -n := by omega
      rw [Int.natCast_mul, this, Int.neg_mul, Int.neg_neg]; rfl
    · simp only [hneg, decide_false]
      have : (m : Int) = n := by omega
      rw [Int.natCast_mul, this]; rfl

theorem fInt?_doubleOfInt (n : Int) (h : n.natAbs ≤ 2 ^ 53 - 1) :
    fInt? (doubleOfInt n) = some n := by
  unfold fInt?
  rw [fval_doubleOfInt n h]
  simp only
  rw [if_pos (Int.mul_emod_left _ _), Int.mul_ediv_cancel _ (by positivity)]

end V8
