import Verif.Proofs.Num

/-! Helper lemmas: a double other than zero is determined by its value. -/

namespace V8

theorem fMag_inj {m n : Nat} (h : fMag m = fMag n) : fExp m = fExp n ∧ fFrac m = fFrac n := by
  have hm : fFrac m < 2 ^ 52 := Nat.mod_lt _ (by positivity)
  have hn : fFrac n < 2 ^ 52 := Nat.mod_lt _ (by positivity)
  unfold fMag at h
  generalize fFrac m = a at *
  generalize fFrac n = b at *
  generalize fExp m = e at *
  generalize fExp n = k at *
  have big : ∀ (c j : Nat), 2 ^ 52 ≤ (2 ^ 52 + c) * 2 ^ j := fun c j =>
    le_trans (Nat.le_add_right _ c) (Nat.le_mul_of_pos_right _ (by positivity))
  have key : ∀ {a b e k : Nat}, a < 2 ^ 52 → e < k → (2 ^ 52 + a) * 2 ^ e = (2 ^ 52 + b) * 2 ^ k → False := by
    intro a b e k ha hek h
    obtain ⟨d, rfl⟩ : ∃ d, k = e + (d + 1) := ⟨k - e - 1, by omega⟩
    rw [pow_add, Nat.mul_comm (2 ^ e), ← Nat.mul_assoc] at h
    have h2 := Nat.eq_of_mul_eq_mul_right (by positivity) h
    have : (2 ^ 52 + b) * 2 ^ (d + 1) = 2 * ((2 ^ 52 + b) * 2 ^ d) := by rw [pow_succ]; ring
    have := big b d
    omega
  by_cases he : e = 0
  · by_cases hk : k = 0
    · rw [if_pos he, if_pos hk] at h; omega
    · rw [if_pos he, if_neg hk] at h
      have := big b (k - 1)
      omega
  · by_cases hk : k = 0
    · rw [if_neg he, if_pos hk] at h
      have := big a (e - 1)
      omega
    · rw [if_neg he, if_neg hk] at h
      rcases Nat.lt_trichotomy (e - 1) (k - 1) with h1 | h1 | h1
      · exact (key hm h1 h).elim
      · rw [h1] at h
        have := Nat.eq_of_mul_eq_mul_right (by positivity) h
        omega
      · exact (key hn h1 h.symm).elim

theorem fval_inj {x y : F64} {s : Int} (hx : fval x = .fin s) (hy : fval y = .fin s) (hs : s ≠ 0) : x = y := by
  have key : ∀ {z : F64}, fval z = .fin s → s = (if fSign z.toNat then -(fMag z.toNat : Int) else (fMag z.toNat : Int)) := by
    intro z hz
    unfold fval at hz
    simp only at hz
    split at hz
    · split at hz <;> cases hz
    · injection hz with hz; exact hz.symm
  have h1 := key hx
  have h2 := key hy
  have hsign : fSign x.toNat = fSign y.toNat ∧ fMag x.toNat = fMag y.toNat := by
    cases hsx : fSign x.toNat <;> cases hsy : fSign y.toNat <;> simp [hsx, hsy] at h1 h2 ⊢ <;> omega
  obtain ⟨h3, h4⟩ := fMag_inj hsign.2
  have h5 := hsign.1
  have hlx := x.toNat_lt
  have hly := y.toNat_lt
  apply UInt64.toNat_inj.1
  have h6 : x.toNat / 2 ^ 63 % 2 = y.toNat / 2 ^ 63 % 2 := by
    unfold fSign at h5
    have a1 : x.toNat / 2 ^ 63 % 2 < 2 := Nat.mod_lt _ (by omega)
    have a2 : y.toNat / 2 ^ 63 % 2 < 2 := Nat.mod_lt _ (by omega)
    by_cases b1 : x.toNat / 2 ^ 63 % 2 = 1
    · rw [b1] at h5 ⊢
      by_contra b2
      have : y.toNat / 2 ^ 63 % 2 = 0 := by omega
      rw [this] at h5
      cases h5
    · have b3 : x.toNat / 2 ^ 63 % 2 = 0 := by omega
      rw [b3] at h5 ⊢
      by_contra b2
      have : y.toNat / 2 ^ 63 % 2 = 1 := by omega
      rw [this] at h5
      cases h5
  unfold fExp at h3
  unfold fFrac at h4
  omega

theorem doubleOfInt_unique {x : F64} {n : Int} (hn : n.natAbs ≤ 2 ^ 53 - 1) (h0 : n ≠ 0) (h : fval x = .fin (n * 2 ^ 1074)) :
    x = doubleOfInt n :=
  fval_inj h (fval_doubleOfInt n hn) (Int.mul_ne_zero h0 (by positivity))

end V8
