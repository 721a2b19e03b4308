import Verif.Proofs.FloatTextInt
import Verif.Model.FloatText
import Verif.Proofs.FloatConv

/-!
# Reading the text of a double, and doubles that are not integral
-/

namespace V8

open V8.Spec

/-! ### Reading -/

theorem takeWhile_ne {c : Nat} {t : Str} (h : c ∉ t) (u : Str) : (t ++ c :: u).takeWhile (· ≠ c) = t := by
  rw [List.takeWhile_append_of_pos (by
    intro a ha
    simp only [ne_eq, decide_eq_true_eq]
    rintro rfl
    exact h ha)]
  simp

theorem takeWhile_ne' {c : Nat} {t : Str} (h : c ∉ t) : t.takeWhile (· ≠ c) = t := by
  have := List.takeWhile_append_of_pos (p := fun a : Nat => decide (a ≠ c)) (l₁ := t) (l₂ := []) (by
    intro a ha
    simp only [ne_eq, decide_eq_true_eq]
    rintro rfl
    exact h ha)
  simpa using this

theorem after_ne {c : Nat} {t : Str} (h : c ∉ t) (u : Str) : after c (t ++ c :: u) = u := by
  unfold after
  rw [List.dropWhile_append_of_pos (by
    intro a ha
    simp only [ne_eq, decide_eq_true_eq]
    rintro rfl
    exact h ha)]
  simp

theorem after_ne' {c : Nat} {t : Str} (h : c ∉ t) : after c t = [] := by
  unfold after
  have := List.dropWhile_append_of_pos (p := fun a : Nat => decide (a ≠ c)) (l₁ := t) (l₂ := []) (by
    intro a ha
    simp only [ne_eq, decide_eq_true_eq]
    rintro rfl
    exact h ha)
  simp only [List.append_nil, List.dropWhile_nil] at this
  rw [this]
  rfl

theorem digits_not {t : Str} (h : ∀ c ∈ t, isDigit c = true) {c : Nat} (hc : isDigit c = false) : c ∉ t := by
  intro hm
  rw [h c hm] at hc
  cases hc

theorem readUnsigned_plain {w : Str} (hw : ∀ c ∈ w, isDigit c = true) : readUnsigned w = parseDec w := by
  unfold readUnsigned
  simp only
  rw [takeWhile_ne' (digits_not hw rfl), takeWhile_ne' (digits_not hw rfl), after_ne' (digits_not hw rfl),
    after_ne' (digits_not hw rfl)]
  simp [parseDec]

theorem readUnsigned_point {w f : Str} (hw : ∀ c ∈ w, isDigit c = true) (hf : ∀ c ∈ f, isDigit c = true) :
    readUnsigned (w ++ [46] ++ f) = parseDec (w ++ f) * (10 : ℚ) ^ (-(f.length : Int)) := by
  have h101 : (101 : Nat) ∉ w ++ [46] ++ f := by
    simp only [List.mem_append, List.mem_singleton, not_or]
    exact ⟨⟨digits_not hw rfl, by decide⟩, digits_not hf rfl⟩
  have h46 : w ++ [46] ++ f = w ++ 46 :: f := by simp
  unfold readUnsigned
  simp only
  rw [takeWhile_ne' h101, after_ne' h101, h46, takeWhile_ne (digits_not hw rfl), after_ne (digits_not hw rfl)]
  simp [parseDec]

theorem readUnsigned_exp {m e : Str} (hm : (101 : Nat) ∉ m) (neg : Bool) :
    readUnsigned (m ++ [101] ++ (if neg then [45] else [43]) ++ e) =
      readUnsigned m * (10 : ℚ) ^ (if neg then -(parseDec e : Int) else parseDec e) := by
  have h1 : m ++ [101] ++ (if neg then [45] else [43]) ++ e = m ++ 101 :: ((if neg then [45] else [43]) ++ e) := by simp
  rw [h1]
  unfold readUnsigned
  simp only
  rw [takeWhile_ne hm, after_ne hm, takeWhile_ne' hm, after_ne' hm]
  cases neg
  · simp [parseDec, zpow_sub₀]
    ring
  · simp [parseDec, zpow_sub₀]
    ring

theorem withPoint_digits {t : Str} (ht : ∀ c ∈ t, isDigit c = true) (hne : t ≠ []) :
    (101 : Nat) ∉ withPoint t ∧ readUnsigned (withPoint t) = parseDec t * (10 : ℚ) ^ (1 - (t.length : Int)) := by
  unfold withPoint
  have h1 : 1 ≤ t.length := by cases t with
    | nil => exact absurd rfl hne
    | cons _ _ => simp
  by_cases hl : t.length ≤ 1
  · rw [if_pos hl]
    refine ⟨digits_not ht rfl, ?_⟩
    rw [readUnsigned_plain ht, show t.length = 1 by omega]
    simp
  · rw [if_neg hl]
    have ha : ∀ c ∈ t.take 1, isDigit c = true := fun c hc => ht c (List.mem_of_mem_take hc)
    have hb : ∀ c ∈ t.drop 1, isDigit c = true := fun c hc => ht c (List.mem_of_mem_drop hc)
    refine ⟨?_, ?_⟩
    · simp only [List.mem_append, List.mem_singleton, not_or]
      exact ⟨⟨digits_not ha rfl, by decide⟩, digits_not hb rfl⟩
    · rw [readUnsigned_point ha hb, List.take_append_drop, List.length_drop]
      congr 2
      omega

theorem readUnsigned_zeros {j : Nat} {t : Str} (ht : ∀ c ∈ t, isDigit c = true) :
    readUnsigned (str "0." ++ zeros j ++ t) = parseDec t * (10 : ℚ) ^ (-(j : Int) - t.length) := by
  rw [show str "0." ++ zeros j ++ t = [48] ++ [46] ++ (zeros j ++ t) by
    rw [show str "0." = [48, 46] by decide]; simp]
  rw [readUnsigned_point (by decide) (by
    intro c hc
    rcases List.mem_append.1 hc with h | h
    · exact zeros_all j c h
    · exact ht c h)]
  rw [parseDec_append [48], parseDec_append (zeros j), parseDec_zeros]
  have h1 : parseDec [48] = 0 := by decide
  have h2 : (zeros j ++ t).length = j + t.length := by simp [zeros]
  rw [h1, h2, Nat.zero_mul, Nat.zero_mul, Nat.zero_add, Nat.zero_add]
  congr 2
  push_cast
  ring

theorem zeros_append_all {t : Str} (ht : ∀ c ∈ t, isDigit c = true) (j : Nat) : ∀ c ∈ t ++ zeros j, isDigit c = true := by
  intro c hc
  rcases List.mem_append.1 hc with h | h
  · exact ht c h
  · exact zeros_all j c h

/-- The number in the digits. -/
def Spec.Digits.value (d : Digits) : ℚ := (d.s : ℚ) * (10 : ℚ) ^ (d.n - d.k)

theorem pyExponent_eq (e : Int) : ∃ t, pyExponent e = (if decide (e < 0) then [45] else [43]) ++ t ∧ parseDec t = e.natAbs := by
  unfold pyExponent
  refine ⟨_, by
    by_cases h : e < 0
    · simp only [h, if_true, decide_true]; rfl
    · simp only [h, if_false, decide_false]; rfl, ?_⟩
  split
  · rw [show (48 :: decDigits e.natAbs : Str) = [48] ++ decDigits e.natAbs from rfl, parseDec_append, parseDec_decDigits]
    simp [parseDec]
  · exact parseDec_decDigits _

theorem exponent_sign (e : Int) : (if decide (e < 0) then -((e.natAbs : Nat) : Int) else (e.natAbs : Nat)) = e := by
  by_cases h : e < 0
  · simp only [h, decide_true, if_true]; omega
  · simp only [h, decide_false, Bool.false_eq_true, if_false]; omega

/-- Python's text of a positive number stands for its digits. -/
theorem readUnsigned_py (d : Digits) (hl : (decDigits d.s).length = d.k) : readUnsigned (pyDigits d) = d.value := by
  have hd := decDigits_isDigit d.s
  have hv : parseDec (decDigits d.s) = d.s := parseDec_decDigits d.s
  unfold pyDigits Spec.Digits.value
  simp only
  by_cases h1 : d.n ≤ -4 ∨ 16 < d.n
  · rw [if_pos h1]
    obtain ⟨t, ht, hp⟩ := pyExponent_eq (d.n - 1)
    obtain ⟨hw, hr⟩ := withPoint_digits hd (decDigits_ne_nil d.s)
    rw [ht, ← List.append_assoc, show str "e" = [101] by decide, readUnsigned_exp hw, hp, exponent_sign, hr, hv, hl, mul_assoc,
      ← zpow_add₀ (by norm_num)]
    congr 2
    omega
  · rw [if_neg h1]
    by_cases h2 : d.n ≤ 0
    · rw [if_pos h2, readUnsigned_zeros hd, hv, hl]
      congr 2
      omega
    · rw [if_neg h2]
      by_cases h3 : (d.k : Int) ≤ d.n
      · rw [if_pos h3, show str ".0" = [46] ++ [48] by decide, ← List.append_assoc,
          readUnsigned_point (zeros_append_all hd _) (by decide), parseDec_append, parseDec_append, hv, parseDec_zeros]
        obtain ⟨j, hj⟩ : ∃ j : Nat, d.n - d.k = j := ⟨(d.n - d.k).toNat, by omega⟩
        rw [hj]
        simp [zeros, parseDec]
      · rw [if_neg h3, readUnsigned_point (fun c hc => hd c (List.mem_of_mem_take hc))
          (fun c hc => hd c (List.mem_of_mem_drop hc)), List.take_append_drop, hv, List.length_drop, hl]
        congr 2
        omega

/-- JavaScript's text does too. -/
theorem readUnsigned_js (d : Digits) (hl : (decDigits d.s).length = d.k) : readUnsigned (jsDigits d) = d.value := by
  have hd := decDigits_isDigit d.s
  have hv : parseDec (decDigits d.s) = d.s := parseDec_decDigits d.s
  unfold jsDigits Spec.Digits.value
  simp only
  by_cases h1 : (d.k : Int) ≤ d.n ∧ d.n ≤ 21
  · rw [if_pos h1, readUnsigned_plain (zeros_append_all hd _), parseDec_append, hv, parseDec_zeros]
    obtain ⟨j, hj⟩ : ∃ j : Nat, d.n - d.k = j := ⟨(d.n - d.k).toNat, by omega⟩
    rw [hj]
    simp [zeros]
  · rw [if_neg h1]
    by_cases h2 : 0 < d.n ∧ d.n ≤ 21
    · rw [if_pos h2, readUnsigned_point (fun c hc => hd c (List.mem_of_mem_take hc))
          (fun c hc => hd c (List.mem_of_mem_drop hc)), List.take_append_drop, hv, List.length_drop, hl]
      congr 2
      omega
    · rw [if_neg h2]
      by_cases h3 : -6 < d.n ∧ d.n ≤ 0
      · rw [if_pos h3, readUnsigned_zeros hd, hv, hl]
        congr 2
        omega
      · rw [if_neg h3]
        obtain ⟨hw, hr⟩ := withPoint_digits hd (decDigits_ne_nil d.s)
        have hsg : (if d.n - 1 < 0 then str "-" else str "+") = if decide (d.n - 1 < 0) then [45] else [43] := by
          by_cases h : d.n - 1 < 0
          · simp only [h, if_true, decide_true]; rfl
          · simp only [h, if_false, decide_false]; rfl
        rw [hsg, show str "e" = [101] by decide, readUnsigned_exp hw, parseDec_decDigits, exponent_sign, hr, hv, hl, mul_assoc,
          ← zpow_add₀ (by norm_num)]
        congr 2
        omega

theorem decDigits_head (n : Nat) : (decDigits n).head? ≠ some 45 := by
  intro h
  have := decDigits_isDigit n 45 (List.mem_of_mem_head? h)
  cases this

theorem withPoint_head {t : Str} (hne : t ≠ []) (u : Str) : (withPoint t ++ u).head? = t.head? := by
  unfold withPoint
  cases t with
  | nil => exact absurd rfl hne
  | cons a t => split <;> simp

theorem pyDigits_head (d : Digits) : (pyDigits d).head? ≠ some 45 := by
  unfold pyDigits
  simp only
  have hne := decDigits_ne_nil d.s
  have hh := decDigits_head d.s
  split
  · rw [List.append_assoc, withPoint_head hne]; exact hh
  · split
    · rw [show str "0." = [48, 46] by decide]; simp
    · split
      · rw [List.append_assoc, List.head?_append_of_ne_nil _ hne]; exact hh
      · rename_i h2 _
        obtain ⟨j, hj⟩ : ∃ j, d.n.toNat = j + 1 := ⟨d.n.toNat - 1, by omega⟩
        rw [hj]
        cases hd : decDigits d.s with
        | nil => exact absurd hd hne
        | cons a t => rw [hd] at hh; simpa using hh

/-- The text of a number that is not integral has a point or an `e`; no text has another letter. -/
theorem pyDigits_chars (d : Digits) : (∀ c ∈ pyDigits d, isDigit c = true ∨ c = 46 ∨ c = 101 ∨ c = 45 ∨ c = 43) ∧
    (46 ∈ pyDigits d ∨ 101 ∈ pyDigits d) := by
  have hd := decDigits_isDigit d.s
  have hz := fun j => zeros_all j
  unfold pyDigits
  simp only
  split
  · refine ⟨?_, Or.inr (by simp [str])⟩
    intro c hc
    rw [List.mem_append, List.mem_append] at hc
    rcases hc with (hc | hc) | hc
    · unfold withPoint at hc
      split at hc
      · exact Or.inl (hd c hc)
      · rw [List.mem_append, List.mem_append] at hc
        rcases hc with (hc | hc) | hc
        · exact Or.inl (hd c (List.mem_of_mem_take hc))
        · exact Or.inr (Or.inl (List.mem_singleton.1 hc))
        · exact Or.inl (hd c (List.mem_of_mem_drop hc))
    · rw [show str "e" = [101] by decide, List.mem_singleton] at hc
      exact Or.inr (Or.inr (Or.inl hc))
    · unfold pyExponent at hc
      rw [List.mem_append] at hc
      rcases hc with hc | hc
      · split at hc
        · rw [show str "-" = [45] by decide, List.mem_singleton] at hc
          exact Or.inr (Or.inr (Or.inr (Or.inl hc)))
        · rw [show str "+" = [43] by decide, List.mem_singleton] at hc
          exact Or.inr (Or.inr (Or.inr (Or.inr hc)))
      · split at hc
        · rcases List.mem_cons.1 hc with rfl | hc
          · exact Or.inl rfl
          · exact Or.inl (decDigits_isDigit _ c hc)
        · exact Or.inl (decDigits_isDigit _ c hc)
  · split
    · rw [show str "0." = [48, 46] by decide]
      refine ⟨?_, Or.inl (by simp)⟩
      intro c hc
      rw [List.mem_append, List.mem_append] at hc
      rcases hc with (hc | hc) | hc
      · simp only [List.mem_cons, List.not_mem_nil, or_false] at hc
        rcases hc with rfl | rfl
        · exact Or.inl rfl
        · exact Or.inr (Or.inl rfl)
      · exact Or.inl (hz _ c hc)
      · exact Or.inl (hd c hc)
    · split
      · rw [show str ".0" = [46, 48] by decide]
        refine ⟨?_, Or.inl (by simp)⟩
        intro c hc
        rw [List.mem_append] at hc
        rcases hc with hc | hc
        · exact Or.inl (zeros_append_all hd _ c hc)
        · simp only [List.mem_cons, List.not_mem_nil, or_false] at hc
          rcases hc with rfl | rfl
          · exact Or.inr (Or.inl rfl)
          · exact Or.inl rfl
      · refine ⟨?_, Or.inl (by simp)⟩
        intro c hc
        rw [List.mem_append, List.mem_append] at hc
        rcases hc with (hc | hc) | hc
        · exact Or.inl (hd c (List.mem_of_mem_take hc))
        · exact Or.inr (Or.inl (List.mem_singleton.1 hc))
        · exact Or.inl (hd c (List.mem_of_mem_drop hc))

/-! ### Doubles that are not integral -/

theorem decimal_threshold {c p q m : Nat} (h1 : p ≤ q * b64.mag c) (h2 : q * b64.mag (c - 1) < p) :
    c ≤ m ↔ p ≤ q * b64.mag m := by
  constructor
  · intro h
    exact h1.trans (Nat.mul_le_mul_left _ ((b64.mag_le_iff _ _).2 h))
  · intro h
    by_contra hc
    have : b64.mag m ≤ b64.mag (c - 1) := (b64.mag_le_iff _ _).2 (by omega)
    have := Nat.mul_le_mul_left q this
    omega

theorem shortest_frac {m k s : Nat} {n : Int} (h : Shortest m k s n) (hm : ¬ 2 ^ b64.unit ∣ b64.mag m) :
    n < k ∧ n ≤ 16 ∧ (-3 ≤ n ↔ 2 ^ b64.unit ≤ 10 ^ 4 * b64.mag m) ∧ (-8 ≤ n ↔ 2 ^ b64.unit ≤ 10 ^ 9 * b64.mag m) := by
  refine ⟨?_, ?_, ?_, ?_⟩
  · by_contra hc
    obtain ⟨j, hj⟩ : ∃ j : Nat, n - k = j := ⟨(n - k).toNat, by omega⟩
    have := h.reads
    rw [hj, decimal_nat] at this
    apply hm
    rw [← this]
    exact (round_nat _).1
  · by_contra hc
    have := (shortest_threshold h 16 (by decide +kernel)).1 (by omega)
    rw [← b64.mag_le_iff, show b64.mag (decimal 1 16) = 10 ^ 16 * 2 ^ b64.unit by decide +kernel] at this
    exact hm (mag_integral (le_trans (Nat.mul_le_mul_right _ (by decide)) this))
  · rw [← decimal_threshold (c := decimal 1 (-4)) (by decide +kernel) (by decide +kernel),
      ← shortest_threshold h (-4) (by decide +kernel)]
    omega
  · rw [← decimal_threshold (c := decimal 1 (-9)) (by decide +kernel) (by decide +kernel),
      ← shortest_threshold h (-9) (by decide +kernel)]
    omega

theorem jsDigits_frac (d : Digits) (h1 : d.n < d.k) (h2 : d.n ≤ 16) : pyDigits d = jsDigits d ↔ -3 ≤ d.n ∨ d.n ≤ -9 := by
  have hd := decDigits_isDigit d.s
  have hz := fun j => zeros_all j
  unfold pyDigits jsDigits
  simp only
  rw [if_neg (show ¬ ((d.k : Int) ≤ d.n ∧ d.n ≤ 21) by omega)]
  by_cases c1 : 0 < d.n
  · rw [if_neg (by omega), if_neg (by omega), if_neg (by omega), if_pos (by omega)]
    exact ⟨fun _ => by omega, fun _ => rfl⟩
  · by_cases c2 : -4 < d.n
    · rw [if_neg (by omega), if_pos (by omega), if_neg (by omega), if_pos (by omega)]
      exact ⟨fun _ => by omega, fun _ => rfl⟩
    · rw [if_pos (by omega), if_neg (show ¬ (0 < d.n ∧ d.n ≤ 21) by omega)]
      by_cases c3 : -6 < d.n
      · rw [if_pos (by omega)]
        constructor
        · intro he
          exfalso
          have hin : (101 : Nat) ∈ withPoint (decDigits d.s) ++ str "e" ++ pyExponent (d.n - 1) := by simp [str]
          rw [he, show str "0." = [48, 46] by decide, List.mem_append, List.mem_append] at hin
          rcases hin with (hin | hin) | hin
          · revert hin; decide
          · exact digits_not (hz _) rfl hin
          · exact digits_not hd rfl hin
        · intro; omega
      · rw [if_neg (by omega), if_pos (show d.n - 1 < 0 by omega)]
        unfold pyExponent
        rw [if_pos (show d.n - 1 < 0 by omega)]
        by_cases c4 : (d.n - 1).natAbs < 10
        · rw [if_pos c4]
          constructor
          · intro he
            exfalso
            have := congrArg List.length he
            simp at this
          · intro; omega
        · rw [if_neg c4, ← List.append_assoc]
          exact ⟨fun _ => by omega, fun _ => rfl⟩

end V8
