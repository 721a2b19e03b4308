import Verif.Proofs.FloatText

/-!
# The text of integral and other doubles
-/

namespace V8

open V8.Spec

/-! ### Digits -/

theorem decDigits_len_eq {s k : Nat} (hk : 1 ≤ k) (h1 : 10 ^ (k - 1) ≤ s) (h2 : s < 10 ^ k) : (decDigits s).length = k := by
  have hs : 0 < s := Nat.lt_of_lt_of_le (by positivity) h1
  rw [decDigits, List.length_reverse, decDigitsRev_digits (s + 1) s (by omega) hs, List.length_map,
    Nat.length_digits 10 s (by omega) (by omega)]
  have : Nat.log 10 s = k - 1 := by
    rw [Nat.log_eq_iff (Or.inr ⟨by omega, by omega⟩)]
    exact ⟨h1, by rw [Nat.sub_add_cancel hk]; exact h2⟩
  omega

theorem decDigits_len_le {s k : Nat} (hk : 1 ≤ k) (h2 : s < 10 ^ k) : (decDigits s).length ≤ k := by
  rcases Nat.eq_zero_or_pos s with rfl | hs
  · exact hk
  · rw [decDigits, List.length_reverse, decDigitsRev_digits (s + 1) s (by omega) hs, List.length_map,
      Nat.length_digits 10 s (by omega) (by omega)]
    have := Nat.log_lt_of_lt_pow (by omega) h2
    omega

theorem decDigits_isDigit (s : Nat) : ∀ c ∈ decDigits s, isDigit c = true := by
  have := decDigits_digits s
  unfold isAsciiDecimal at this
  simp only [Bool.and_eq_true, List.all_eq_true] at this
  exact this.2

theorem decDigits_ne_nil (s : Nat) : decDigits s ≠ [] := by
  have := decDigits_digits s
  unfold isAsciiDecimal at this
  simp only [Bool.and_eq_true, Bool.not_eq_true', List.isEmpty_eq_false_iff] at this
  exact this.1

theorem zeros_all (j : Nat) : ∀ c ∈ zeros j, isDigit c = true := by
  intro c hc
  rw [List.eq_of_mem_replicate hc]
  rfl

theorem parseDec_foldl (t : Str) (a : Nat) :
    t.foldl (fun acc c => acc * 10 + (c - 48)) a = a * 10 ^ t.length + parseDec t := by
  unfold parseDec
  induction t generalizing a with
  | nil => simp
  | cons c t ih =>
    simp only [List.foldl_cons, List.length_cons]
    rw [ih (a * 10 + (c - 48)), ih (0 * 10 + (c - 48)), Nat.pow_succ]
    ring

theorem parseDec_append (t u : Str) : parseDec (t ++ u) = parseDec t * 10 ^ u.length + parseDec u := by
  conv_lhs => unfold parseDec
  rw [List.foldl_append, parseDec_foldl u]
  rfl

theorem parseDec_zeros (j : Nat) : parseDec (zeros j) = 0 := by
  unfold zeros
  induction j with
  | zero => rfl
  | succ j ih =>
    rw [List.replicate_succ, show (48 :: List.replicate j 48 : Str) = [48] ++ List.replicate j 48 from rfl, parseDec_append, ih]
    simp [parseDec]

theorem decDigits_mul (s j : Nat) (hs : 0 < s) : decDigits (s * 10 ^ j) = decDigits s ++ zeros j := by
  have hp : parseDec (decDigits s ++ zeros j) = s * 10 ^ j := by
    rw [parseDec_append, parseDec_decDigits, parseDec_zeros]
    simp [zeros]
  rw [← hp]
  apply decDigits_parseDec
  · unfold isAsciiDecimal
    simp only [Bool.and_eq_true, Bool.not_eq_true', List.isEmpty_eq_false_iff, List.all_eq_true, List.mem_append]
    refine ⟨by simp [decDigits_ne_nil], ?_⟩
    rintro c (hc | hc)
    · exact decDigits_isDigit s c hc
    · exact zeros_all j c hc
  · rintro ⟨h1, _⟩
    have hne := decDigits_ne_nil s
    have h2 : (decDigits s).head? = some 48 := by
      cases hd : decDigits s with
      | nil => exact absurd hd hne
      | cons c t => rw [hd] at h1; exact h1
    have := decDigits_no_leading_zero s h2
    have h3 := parseDec_decDigits s
    rw [this] at h3
    have : parseDec [48] = 0 := by decide
    omega

/-! ### Patterns -/

theorem decimal_le_of {s m : Nat} {e : Int} (h : (s : ℚ) * (10 : ℚ) ^ e ≤ (b64.mag m : ℚ) / 2 ^ b64.unit) : decimal s e ≤ m := by
  have h1 := b64.round_mag m
  rw [← h1]
  apply Fmt.round_mono _ (decimal_den_pos e) (Nat.two_pow_pos _)
  rw [← decimal_value, div_le_div_iff₀ (by exact_mod_cast decimal_den_pos e) (by positivity)] at h
  exact_mod_cast h

theorem le_decimal_of {s m : Nat} {e : Int} (h : (b64.mag m : ℚ) / 2 ^ b64.unit ≤ (s : ℚ) * (10 : ℚ) ^ e) : m ≤ decimal s e := by
  have h1 := b64.round_mag m
  rw [← h1]
  apply Fmt.round_mono _ (Nat.two_pow_pos _) (decimal_den_pos e)
  rw [← decimal_value, div_le_div_iff₀ (by positivity) (by exact_mod_cast decimal_den_pos e)] at h
  exact_mod_cast h

/-- Big doubles are integral. -/
theorem mag_integral {m : Nat} (h : 2 ^ 53 * 2 ^ b64.unit ≤ b64.mag m) : 2 ^ b64.unit ∣ b64.mag m := by
  obtain ⟨e, m', _, g2, g3, _, _⟩ := b64.split_pattern m
  rw [g2] at h ⊢
  have g3' : m' < 2 ^ 53 := g3
  have he : b64.unit ≤ e := by
    by_contra hc
    have : 2 ^ e ≤ 2 ^ b64.unit := Nat.pow_le_pow_right (by omega) (by omega)
    have h1 : m' * 2 ^ e ≤ m' * 2 ^ b64.unit := Nat.mul_le_mul_left _ this
    have h2 : m' * 2 ^ b64.unit < 2 ^ 53 * 2 ^ b64.unit := Nat.mul_lt_mul_of_pos_right g3' (Nat.two_pow_pos _)
    omega
  exact Dvd.dvd.mul_left (Nat.pow_dvd_pow _ he) _

/-- A natural number is read as an integral double, as itself below `2^53`. -/
theorem round_nat (v : Nat) : 2 ^ b64.unit ∣ b64.mag (b64.round v 1) ∧
    (v < 2 ^ 53 → b64.mag (b64.round v 1) = v * 2 ^ b64.unit) := by
  have hex : ∀ v, v < 2 ^ 53 → b64.mag (b64.round v 1) = v * 2 ^ b64.unit := fun v hv =>
    b64.mag_round_exact v 1 b64.unit v Nat.one_pos hv (by rw [Nat.mul_one])
  refine ⟨?_, hex v⟩
  by_cases hv : v < 2 ^ 53
  · rw [hex v hv]; exact Nat.dvd_mul_left _ _
  · apply mag_integral
    have h1 : b64.mag (b64.round (2 ^ 53) 1) = 2 ^ 52 * 2 ^ (b64.unit + 1) :=
      b64.mag_round_exact (2 ^ 53) 1 (b64.unit + 1) (2 ^ 52) Nat.one_pos (by decide) (by
        rw [Nat.mul_one, Nat.pow_succ 2 b64.unit, Nat.pow_succ 2 52]
        ring)
    have h2 : b64.mag (b64.round (2 ^ 53) 1) ≤ b64.mag (b64.round v 1) := by
      rw [b64.mag_le_iff]
      exact b64.round_mono Nat.one_pos Nat.one_pos (by omega)
    rw [h1] at h2
    refine le_trans (le_of_eq ?_) h2
    rw [Nat.pow_succ 2 b64.unit, Nat.pow_succ 2 52]
    ring

theorem decimal_nat (s j : Nat) : decimal s (j : Int) = b64.round (s * 10 ^ j) 1 := by
  unfold decimal
  rw [show (-(j : Int)).toNat = 0 by omega, Int.toNat_natCast, Nat.pow_zero]

/-! ### Integral doubles -/

/-- What the digits of an integral double are. -/
theorem shortest_int {m k s : Nat} {n : Int} (h : Shortest m k s n) {A : Nat} (hA : 0 < A) (hm : b64.mag m = A * 2 ^ b64.unit) :
    1 ≤ n ∧ (21 < n ↔ 10 ^ 21 ≤ A) ∧ (n < k → (s : ℚ) * (10 : ℚ) ^ (n - k) ≠ A) := by
  have hval : (b64.mag m : ℚ) / 2 ^ b64.unit = A := by
    rw [hm]; push_cast; rw [mul_div_cancel_right₀ _ (by positivity)]
  refine ⟨?_, ?_, ?_⟩
  · have := (shortest_threshold h 0 (by decide +kernel)).2 (by
      apply decimal_le_of
      rw [hval]
      have : (1 : ℚ) ≤ A := by exact_mod_cast hA
      simpa using this)
    omega
  · have h1 := shortest_threshold h 21 (by decide +kernel)
    have h2 : decimal 1 21 ≤ m ↔ 10 ^ 21 ≤ A := by
      rw [← b64.mag_le_iff, hm, show b64.mag (decimal 1 21) = 10 ^ 21 * 2 ^ b64.unit by decide +kernel]
      exact ⟨fun h => Nat.le_of_mul_le_mul_right h (Nat.two_pow_pos _), fun h => Nat.mul_le_mul_right _ h⟩
    rw [← h2, ← h1]
    omega
  · intro hnk he
    have hk := h.pos
    have hn : 1 ≤ n := by
      have := (shortest_threshold h 0 (by decide +kernel)).2 (by
        apply decimal_le_of
        rw [hval]
        have : (1 : ℚ) ≤ A := by exact_mod_cast hA
        simpa using this)
      omega
    obtain ⟨j, hj⟩ : ∃ j : Nat, (k : Int) - n = j + 1 := ⟨((k : Int) - n - 1).toNat, by omega⟩
    have he' : s = A * 10 ^ (j + 1) := by
      have e1 : n - (k : Int) = -((j + 1 : Nat) : Int) := by push_cast; omega
      rw [e1, zpow_neg, zpow_natCast, ← div_eq_mul_inv, div_eq_iff (by positivity)] at he
      exact_mod_cast he
    have hdiv : s = s / 10 * 10 := by
      have : 10 ∣ s := by rw [he', Nat.pow_succ]; exact ⟨A * 10 ^ j, by ring⟩
      omega
    obtain ⟨k', rfl⟩ : ∃ k', k = k' + 2 := ⟨k - 2, by omega⟩
    have := h.least (k' + 1) (s / 10) n (by omega) (by
      have := h.lo
      rw [show k' + 2 - 1 = k' + 1 by omega, Nat.pow_succ] at this
      rw [show k' + 1 - 1 = k' by omega]
      omega) (by
      have := h.hi
      rw [Nat.pow_succ] at this
      omega) (by
      rw [← h.reads]
      apply decimal_congr
      have e1 : n - ((k' + 1 : Nat) : Int) = (n - ((k' + 2 : Nat) : Int)) + 1 := by push_cast; ring
      rw [e1, zpow_add₀ (by norm_num), zpow_one]
      have : (s : ℚ) = ((s / 10 : Nat) : ℚ) * 10 := by exact_mod_cast hdiv
      rw [this]
      ring)
    omega

theorem withPoint_e (t : Str) (sg e : Str) : 101 ∈ withPoint t ++ str "e" ++ sg ++ e := by
  simp [str]

theorem not_digit_of_mem {t : Str} {c : Nat} (hc : c ∈ t) (hd : isDigit c = false) (A : Nat) : t ≠ decDigits A := by
  intro h
  rw [h] at hc
  rw [decDigits_isDigit A c hc] at hd
  cases hd

/-- JavaScript writes an integral double as an integer exactly below `1e21`, and it writes the same integer exactly if its
shortest digits are exact. -/
theorem jsDigits_int {m : Nat} (d : Digits) (h : Shortest m d.k d.s d.n) {A : Nat} (hA : 0 < A)
    (hm : b64.mag m = A * 2 ^ b64.unit) :
    jsDigits d = decDigits A ↔ A < 10 ^ 21 ∧ (d.s : ℚ) * (10 : ℚ) ^ (d.n - d.k) = A := by
  obtain ⟨h1, h2, h3⟩ := shortest_int h hA hm
  have hs : 0 < d.s := Nat.lt_of_lt_of_le (by positivity) h.lo
  unfold jsDigits
  simp only
  by_cases hc1 : (d.k : Int) ≤ d.n ∧ d.n ≤ 21
  · rw [if_pos hc1, ← decDigits_mul _ _ hs]
    have hlt : A < 10 ^ 21 := by
      have : ¬ 21 < d.n := by omega
      rw [h2] at this
      omega
    obtain ⟨j, hj⟩ : ∃ j : Nat, d.n - d.k = j := ⟨(d.n - d.k).toNat, by omega⟩
    rw [hj, Int.toNat_natCast, zpow_natCast]
    constructor
    · intro he
      have := decDigits_inj he
      exact ⟨hlt, by exact_mod_cast this⟩
    · rintro ⟨_, he⟩
      have : d.s * 10 ^ j = A := by exact_mod_cast he
      rw [this]
  · rw [if_neg hc1]
    by_cases hc2 : 0 < d.n ∧ d.n ≤ 21
    · rw [if_pos hc2]
      constructor
      · intro he
        exact absurd he (not_digit_of_mem (c := 46) (by simp) rfl A)
      · rintro ⟨_, he⟩
        exact absurd he (h3 (by omega))
    · rw [if_neg hc2, if_neg (by omega)]
      constructor
      · intro he
        exact absurd he (not_digit_of_mem (withPoint_e _ _ _) rfl A)
      · rintro ⟨hlt, _⟩
        have : 21 < d.n := by omega
        rw [h2] at this
        omega

/-- Below `2^53` the shortest digits are exact. -/
theorem shortest_safe {m k s : Nat} {n : Int} (h : Shortest m k s n) {A : Nat} (hA : 0 < A) (hm : b64.mag m = A * 2 ^ b64.unit)
    (hlt : A < 2 ^ 53) : (s : ℚ) * (10 : ℚ) ^ (n - k) = A := by
  obtain ⟨h1, -, -⟩ := shortest_int h hA hm
  have hval : (b64.mag m : ℚ) / 2 ^ b64.unit = A := by
    rw [hm]; push_cast; rw [mul_div_cancel_right₀ _ (by positivity)]
  have hread : ∀ (k' : Nat) (n' : Int) (s' : Nat), (s' : ℚ) * (10 : ℚ) ^ (n' - k') = A → decimal s' (n' - k') = m := by
    intro k' n' s' he
    exact decimal_exact (by rw [he, hval])
  -- the decimal is within half of the integer
  obtain ⟨hb1, hb2⟩ := shortest_bounds h
  have hv : (s : ℚ) * (10 : ℚ) ^ (n - k) < 2 ^ 53 := by
    by_contra hc
    push Not at hc
    have h5 : b64.round (2 ^ 53) 1 ≤ m := by
      rw [← h.reads]
      have := decimal_mono (s := 2 ^ 53) (e := (0 : Nat)) (s' := s) (e' := n - k) (by
        refine le_trans (le_of_eq ?_) hc
        norm_num)
      rw [decimal_nat] at this
      simpa using this
    have h6 : b64.mag (b64.round (2 ^ 53) 1) = 2 ^ 52 * 2 ^ (b64.unit + 1) :=
      b64.mag_round_exact (2 ^ 53) 1 (b64.unit + 1) (2 ^ 52) Nat.one_pos (by decide) (by
        rw [Nat.mul_one, Nat.pow_succ 2 b64.unit, Nat.pow_succ 2 52]
        ring)
    rw [← b64.mag_le_iff, h6, hm] at h5
    have h7 : 2 ^ 53 * 2 ^ b64.unit ≤ A * 2 ^ b64.unit := le_trans (le_of_eq (by
      rw [Nat.pow_succ 2 b64.unit, Nat.pow_succ 2 52]; ring)) h5
    have := Nat.le_of_mul_le_mul_right h7 (Nat.two_pow_pos _)
    omega
  have herr : |(A : ℚ) - (s : ℚ) * (10 : ℚ) ^ (n - k)| ≤ 1 / 2 := by
    have h8 : s * 10 ^ (n - k).toNat * 2 ^ b64.unit < 10 ^ (-(n - k)).toNat * 2 ^ (53 + b64.unit) := by
      rw [← decimal_value, div_lt_iff₀ (by exact_mod_cast decimal_den_pos _)] at hv
      have hv' : s * 10 ^ (n - k).toNat < 2 ^ 53 * 10 ^ (-(n - k)).toNat := by exact_mod_cast hv
      rw [Nat.pow_add, ← Nat.mul_assoc]
      apply Nat.mul_lt_mul_of_pos_right _ (Nat.two_pow_pos _)
      rw [Nat.mul_comm (10 ^ _)]
      exact hv'
    have h9 := b64.round_err (decimal_den_pos (n - k)) (k := 53 + b64.unit) (by show 53 ≤ 53 + _; omega) h8
    rw [show b64.round (s * 10 ^ (n - k).toNat) (10 ^ (-(n - k)).toNat) = m from h.reads, hval, decimal_value,
      show 53 + b64.unit - (b64.frac + 1) = b64.unit by show 53 + b64.unit - 53 = _; omega] at h9
    refine h9.trans (le_of_eq ?_)
    rw [div_right_comm, div_self (by positivity)]
  by_cases hkn : (k : Int) ≤ n
  · obtain ⟨j, hj⟩ : ∃ j : Nat, n - k = j := ⟨(n - k).toNat, by omega⟩
    rw [hj, zpow_natCast] at herr ⊢
    have e1 : |(A : Int) - ((s * 10 ^ j : Nat) : Int)| < 1 := by
      have : |((A : Int) : ℚ) - (((s * 10 ^ j : Nat) : Int) : ℚ)| < 1 := by
        push_cast
        exact lt_of_le_of_lt herr (by norm_num)
      exact_mod_cast this
    rw [abs_lt] at e1
    have e2 : A = s * 10 ^ j := by omega
    rw [e2]; push_cast; rfl
  · exfalso
    obtain ⟨j, hj⟩ : ∃ j : Nat, n = j := ⟨n.toNat, by omega⟩
    have hA10 : A ≤ 10 ^ j := by
      by_contra hc
      have hc : ((10 ^ j : Nat) : ℚ) + 1 ≤ A := by exact_mod_cast (by omega : 10 ^ j + 1 ≤ A)
      rw [hj, zpow_natCast] at hb2
      push_cast at hc
      rw [← hj] at hb2
      have := (abs_le.1 herr).2
      linarith
    rcases Nat.lt_or_eq_of_le hA10 with hlt10 | heq10
    · have g1 := Nat.pow_log_le_self 10 (Nat.pos_iff_ne_zero.1 hA)
      have g2 := Nat.lt_pow_succ_log_self (b := 10) (by omega) A
      have g3 : Nat.log 10 A < j := Nat.log_lt_of_lt_pow (by omega) hlt10
      have := h.least (Nat.log 10 A + 1) A ((Nat.log 10 A + 1 : Nat) : Int) (by omega) (by simpa using g1) g2
        (hread _ _ _ (by simp))
      omega
    · have := h.least 1 1 (j + 1) (by omega) (by simp) (by simp) (hread _ _ _ (by
        rw [heq10]; push_cast; simp))
      have := h.pos
      omega

end V8
