import Verif.Proofs.FloatTextRead
import Verif.Proofs.DecodeObj
import Verif.Props.Keys

/-!
# C75: a number used as a property key names the property that JavaScript would name

`normaliseKey` with `pyFloatStr` for `str(float)`, against `Number::toString` of ECMA-262
(`Verif/Spec/NumberText.lean`).
-/

namespace V8.Props

open V8.Spec V8.Fmt

/-- A finite double from its pattern. -/
theorem finite_parts (x : F64) (neg : Bool) (q : ℚ) (hx : binary64 x = .number neg q) :
    x.toNat % 2 ^ 63 < b64.inf ∧ x.toNat = (if neg then 2 ^ 63 else 0) + x.toNat % 2 ^ 63 ∧
    ∃ z : Int, fval x = .fin z ∧ q = (z : ℚ) / 2 ^ b64.unit ∧
      z = (if neg then -(b64.mag (x.toNat % 2 ^ 63) : Int) else b64.mag (x.toNat % 2 ^ 63)) ∧
      q = signed neg ((b64.mag (x.toNat % 2 ^ 63) : ℚ) / 2 ^ b64.unit) := by
  rw [binary64_eq] at hx
  split at hx
  · split at hx <;> cases hx
  · rename_i he
    simp only [Ieee.number.injEq] at hx
    obtain ⟨hs, hq⟩ := hx
    have hlt : x.toNat < 2 ^ 64 := x.toNat_lt
    have hm : x.toNat % 2 ^ 63 < b64.inf := by
      rw [b64_inf]
      unfold fExp at he
      omega
    have hx : x.toNat = (if neg then 2 ^ 63 else 0) + x.toNat % 2 ^ 63 := by
      unfold fSign at hs
      cases neg
      · simp at hs ⊢; omega
      · simp at hs ⊢; omega
    obtain ⟨_, _, h3⟩ := fields_of x neg _ hm hx
    have hv := fval_of x neg _ hm hx
    rw [h3, hs] at hq
    refine ⟨hm, hx, _, hv, ?_, rfl, hq.symm⟩
    rw [← hq]
    show signed neg _ = (_ : ℚ) / 2 ^ 1074
    unfold signed
    cases neg
    · simp only [Bool.false_eq_true, if_false]; rw [Int.cast_natCast]
    · simp only [if_true]; rw [Int.cast_neg, Int.cast_natCast, neg_div]

theorem normaliseKey_float_ok (fs : F64 → Str) (x : F64) : ∃ p, normaliseKey fs (.float x) = .ok p := by
  cases h : normaliseKey fs (.float x) with
  | ok p => exact ⟨p, rfl⟩
  | error e => exact absurd trivial (normaliseKey_error h).2

/-- An integral double is taken to be the integer. -/
theorem integral_parts (x : F64) (neg : Bool) (N : Int) (hx : binary64 x = .number neg N) :
    fInt? x = some N ∧ fval x = .fin (N * 2 ^ b64.unit) ∧ b64.mag (x.toNat % 2 ^ 63) = N.natAbs * 2 ^ b64.unit ∧
      (N ≠ 0 → neg = decide (N < 0)) := by
  obtain ⟨_, _, z, hv, hq, hz, _⟩ := finite_parts x neg N hx
  have hzN : z = N * 2 ^ b64.unit := by
    rw [eq_div_iff (by positivity)] at hq
    exact_mod_cast hq.symm
  have hU : (0 : Int) < 2 ^ b64.unit := by positivity
  refine ⟨?_, by rw [hv, hzN], ?_, ?_⟩
  · unfold fInt?
    rw [hv]
    have hu : (1074 : Nat) = b64.unit := rfl
    simp only
    rw [hu, hzN, if_pos (Int.mul_emod_left _ _), Int.mul_ediv_cancel _ (ne_of_gt hU)]
  · have h1 : z.natAbs = b64.mag (x.toNat % 2 ^ 63) := by
      rw [hz]; cases neg <;> simp
    rw [← h1, hzN, Int.natAbs_mul, Int.natAbs_pow]
    rfl
  · intro hN
    by_cases hlt : N < 0
    · have : z < 0 := by rw [hzN]; exact Int.mul_neg_of_neg_of_pos hlt hU
      cases neg
      · exfalso; simp only [Bool.false_eq_true, if_false] at hz; omega
      · simp [hlt]
    · have : 0 < z := by rw [hzN]; exact Int.mul_pos (by omega) hU
      cases neg
      · simp [hlt]
      · exfalso; simp only [if_true] at hz; omega

theorem integer_key (fs : F64 → Str) (x : F64) (neg : Bool) (N : Int) (hx : binary64 x = .number neg N) :
    ∃ p, normaliseKey fs (.float x) = .ok p ∧ PKey.text p = decText N := by
  obtain ⟨p, hp⟩ := normaliseKey_float_ok fs x
  refine ⟨p, hp, ?_⟩
  simp only [normaliseKey] at hp
  rw [(integral_parts x neg N hx).1] at hp
  exact normaliseInt_text N p hp

/-- A double that is not integral goes through `str()`. -/
theorem frac_parts (fs : F64 → Str) (x : F64) (neg : Bool) (q : ℚ) (hx : binary64 x = .number neg q) (hq : ∀ N : Int, q ≠ N) :
    normaliseKey fs (.float x) = .ok (.name (fs x)) ∧ ¬ 2 ^ b64.unit ∣ b64.mag (x.toNat % 2 ^ 63) ∧
    ∃ z : Int, fval x = .fin z ∧ z ≠ 0 ∧ (z < 0 ↔ neg = true) := by
  obtain ⟨_, _, z, hv, hqz, hz, _⟩ := finite_parts x neg q hx
  have hU : (0 : Int) < 2 ^ b64.unit := by positivity
  have hnd : ¬ (2 : Int) ^ b64.unit ∣ z := by
    rintro ⟨N, hN⟩
    apply hq N
    rw [hqz, hN]
    push_cast
    rw [mul_div_cancel_left₀ _ (by positivity)]
  have hz0 : z ≠ 0 := by
    rintro rfl
    exact hnd ⟨0, by simp⟩
  have hmd : ¬ 2 ^ b64.unit ∣ b64.mag (x.toNat % 2 ^ 63) := by
    intro h
    apply hnd
    have h1 : ((2 ^ b64.unit : Nat) : Int) ∣ (b64.mag (x.toNat % 2 ^ 63) : Int) := Int.natCast_dvd_natCast.2 h
    rw [hz]
    push_cast at h1
    cases neg
    · exact h1
    · exact (Int.dvd_neg).2 h1
  refine ⟨?_, hmd, z, hv, hz0, ?_⟩
  · have hf : fInt? x = none := by
      unfold fInt?
      rw [hv]
      have hu : (1074 : Nat) = b64.unit := rfl
      simp only
      rw [hu, if_neg]
      intro h
      exact hnd (Int.dvd_of_emod_eq_zero h)
    simp only [normaliseKey, hf]
  · cases neg
    · simp only [Bool.false_eq_true, if_false] at hz
      simp only [Bool.false_eq_true, iff_false]
      omega
    · simp only [if_true] at hz
      simp only [iff_true]
      omega

theorem frac_pos (m : Nat) (h : ¬ 2 ^ b64.unit ∣ b64.mag m) : 0 < m := by
  rcases Nat.eq_zero_or_pos m with rfl | h0
  · exact absurd (show 2 ^ b64.unit ∣ b64.mag 0 by rw [show b64.mag 0 = 0 by decide]; exact Nat.dvd_zero _) h
  · exact h0

/-- The exact case of integers: the key is the text of the integer, in full; JavaScript's text is the same exactly if the
integer is 0, or is less than `1e21` and equal to its shortest digits. -/
theorem C75_integers (dg : Nat → Digits) (h : PicksShortest dg) (x : F64) (neg : Bool) (N : Int)
    (hx : binary64 x = .number neg N) :
    ∃ p, normaliseKey (pyFloatStr dg) (.float x) = .ok p ∧ PKey.text p = decText N ∧
      (PKey.text p = jsNumberText dg x ↔
        N = 0 ∨ (|N| < 10 ^ 21 ∧
          ((dg (x.toNat % 2 ^ 63)).s : ℚ) * (10 : ℚ) ^ ((dg (x.toNat % 2 ^ 63)).n - (dg (x.toNat % 2 ^ 63)).k) = |N|)) := by
  obtain ⟨p, hp, ht⟩ := integer_key (pyFloatStr dg) x neg N hx
  obtain ⟨_, hv, hmag, _⟩ := integral_parts x neg N hx
  obtain ⟨hm, _⟩ := finite_parts x neg N hx
  refine ⟨p, hp, ht, ?_⟩
  rw [ht, decText_eq]
  unfold jsNumberText
  rw [hv]
  simp only
  have hU : (0 : Int) < 2 ^ b64.unit := by positivity
  by_cases hN : N = 0
  · subst hN
    rw [if_neg (by omega), if_pos (Int.zero_mul _)]
    simp only [true_or, iff_true]
    decide
  · have hz : ¬ N * 2 ^ b64.unit = 0 := by
      intro h0
      rcases Int.mul_eq_zero.1 h0 with h0 | h0 <;> omega
    rw [if_neg hz]
    have hA : 0 < N.natAbs := Int.natAbs_pos.2 hN
    have hm0 : 0 < x.toNat % 2 ^ 63 := by
      rcases Nat.eq_zero_or_pos (x.toNat % 2 ^ 63) with h0 | h0
      · exfalso
        rw [h0, show b64.mag 0 = 0 by decide] at hmag
        have := Nat.mul_pos hA (Nat.two_pow_pos b64.unit)
        omega
      · exact h0
    have key := jsDigits_int (dg (x.toNat % 2 ^ 63)) (h _ hm0 hm) hA hmag
    have hcast : ((N.natAbs : Nat) : ℚ) = ((|N| : Int) : ℚ) := by
      rw [Int.abs_eq_natAbs, Int.cast_natCast]
    rw [hcast] at key
    have hneg : N * 2 ^ b64.unit < 0 ↔ N < 0 := by
      constructor
      · intro h0
        by_contra hc
        have : 0 ≤ N * 2 ^ b64.unit := Int.mul_nonneg (by omega) (by omega)
        omega
      · intro h0
        exact Int.mul_neg_of_neg_of_pos h0 hU
    have hlt : N.natAbs < 10 ^ 21 ↔ |N| < 10 ^ 21 := by
      rw [Int.abs_eq_natAbs]
      omega
    rw [hlt] at key
    simp only [hN, false_or]
    rw [← key]
    simp only [hneg]
    by_cases h0 : N < 0
    · rw [if_pos h0, if_pos h0, show str "-" = [45] by decide]
      simp [eq_comm]
    · rw [if_neg h0, if_neg h0]
      simp [eq_comm]

/-- The safe integers are among them: for them the key is always JavaScript's name.  (Not for the others: see
`C75_big_differs` and `C75_fractions`.) -/
theorem C75_safe_partial (dg : Nat → Digits) (h : PicksShortest dg) (x : F64) (neg : Bool) (N : Int)
    (hx : binary64 x = .number neg N) (hN : |N| < 2 ^ 53) :
    ∃ p, normaliseKey (pyFloatStr dg) (.float x) = .ok p ∧ PKey.text p = jsNumberText dg x := by
  obtain ⟨p, hp, _, he⟩ := C75_integers dg h x neg N hx
  refine ⟨p, hp, he.2 ?_⟩
  by_cases h0 : N = 0
  · exact Or.inl h0
  · right
    obtain ⟨_, hv, hmag, _⟩ := integral_parts x neg N hx
    obtain ⟨hm, _⟩ := finite_parts x neg N hx
    have hA : 0 < N.natAbs := Int.natAbs_pos.2 h0
    have hm0 : 0 < x.toNat % 2 ^ 63 := by
      rcases Nat.eq_zero_or_pos (x.toNat % 2 ^ 63) with h1 | h1
      · exfalso
        rw [h1, show b64.mag 0 = 0 by decide] at hmag
        have := Nat.mul_pos hA (Nat.two_pow_pos b64.unit)
        omega
      · exact h1
    have hlt : N.natAbs < 2 ^ 53 := by rw [Int.abs_eq_natAbs] at hN; omega
    refine ⟨lt_trans hN (by norm_num), ?_⟩
    rw [shortest_safe (h _ hm0 hm) hA hmag hlt, Int.abs_eq_natAbs, Int.cast_natCast]

/-- The exact case of numbers that are not integral: the key is JavaScript's name exactly from `1e-4` up and below `1e-9`;
between them JavaScript writes no exponent or one of a single digit, Python always one of two digits. -/
theorem C75_fractions (dg : Nat → Digits) (h : PicksShortest dg) (x : F64) (neg : Bool) (q : ℚ)
    (hx : binary64 x = .number neg q) (hq : ∀ N : Int, q ≠ N) :
    ∃ p, normaliseKey (pyFloatStr dg) (.float x) = .ok p ∧
      (PKey.text p = jsNumberText dg x ↔ 1 / 10 ^ 4 ≤ |q| ∨ |q| < 1 / 10 ^ 9) := by
  obtain ⟨hp, hmd, z, hv, hz0, hzn⟩ := frac_parts (pyFloatStr dg) x neg q hx hq
  obtain ⟨hm, _, _, _, _, _, hqs⟩ := finite_parts x neg q hx
  have hs := h _ (frac_pos _ hmd) hm
  obtain ⟨h1, h2, h3, h4⟩ := shortest_frac hs hmd
  refine ⟨_, hp, ?_⟩
  have key := jsDigits_frac (dg (x.toNat % 2 ^ 63)) h1 h2
  have habs : |q| = (b64.mag (x.toNat % 2 ^ 63) : ℚ) / 2 ^ b64.unit := by
    rw [hqs]
    have h0 : (0 : ℚ) ≤ (b64.mag (x.toNat % 2 ^ 63) : ℚ) / 2 ^ b64.unit := by positivity
    unfold signed
    cases neg
    · simp only [Bool.false_eq_true, if_false]; exact abs_of_nonneg h0
    · simp only [if_true]; rw [abs_neg]; exact abs_of_nonneg h0
  have e4 : 2 ^ b64.unit ≤ 10 ^ 4 * b64.mag (x.toNat % 2 ^ 63) ↔ 1 / 10 ^ 4 ≤ |q| := by
    rw [habs, div_le_div_iff₀ (by positivity) (by positivity), one_mul, mul_comm (_ : ℚ) ((10 : ℚ) ^ 4)]
    exact_mod_cast Iff.rfl
  have e9 : 2 ^ b64.unit ≤ 10 ^ 9 * b64.mag (x.toNat % 2 ^ 63) ↔ ¬ |q| < 1 / 10 ^ 9 := by
    rw [not_lt, habs, div_le_div_iff₀ (by positivity) (by positivity), one_mul, mul_comm (_ : ℚ) ((10 : ℚ) ^ 9)]
    exact_mod_cast Iff.rfl
  show pyFloatStr dg x = jsNumberText dg x ↔ _
  unfold pyFloatStr jsNumberText
  rw [hv]
  simp only [hz0, if_false]
  rw [List.append_right_inj, key, h3, e4]
  have h5 : (dg (x.toNat % 2 ^ 63)).n ≤ -9 ↔ ¬ -8 ≤ (dg (x.toNat % 2 ^ 63)).n := by omega
  rw [h5, h4, e9, not_not]

/-- NaN and the infinities never have JavaScript's name. -/
theorem C75_not_numbers (dg : Nat → Digits) (x : F64) (hx : ∀ neg q, binary64 x ≠ .number neg q) :
    ∃ p, normaliseKey (pyFloatStr dg) (.float x) = .ok p ∧ PKey.text p ≠ jsNumberText dg x := by
  have hb := binary64_eq x
  by_cases he : fExp x.toNat = 2047
  · have hf : fInt? x = none := by
      unfold fInt? fval
      simp only [he, if_true]
      split <;> simp_all
      split at * <;> simp_all
    refine ⟨.name (pyFloatStr dg x), ?_, ?_⟩
    · simp only [normaliseKey, hf]
    · show pyFloatStr dg x ≠ jsNumberText dg x
      unfold pyFloatStr jsNumberText fval
      simp only [he, if_true]
      by_cases hr : fFrac x.toNat = 0
      · rw [if_pos hr]
        simp only
        cases fSign x.toNat <;> decide
      · rw [if_neg hr]
        simp only
        decide
  · rw [if_neg he] at hb
    exact absurd hb (hx _ _)

/-- `Spec.decimal` is the double nearest to the decimal number, ties to even. -/
theorem C75_nearest (s : Nat) (e : Int) (h : decimal s e < b64.inf) :
    IsNearest (ieee 11 52) 64 false ((s : ℚ) * (10 : ℚ) ^ e) (decimal s e) := by
  have := b64.nearest_of b64_is false (s * 10 ^ e.toNat) (10 ^ (-e).toNat) (decimal_den_pos e) h
  simp only [signed, Bool.false_eq_true, if_false, Nat.zero_add, decimal_value] at this
  exact this

/-- There is such a choice of digits. -/
theorem C75_digits_exist : ∃ dg, PicksShortest dg := by
  classical
  refine ⟨fun m => if h : 0 < m then (shortest_exists m h).choose else ⟨0, 0, 0⟩, ?_⟩
  intro m h0 _
  simp only [h0, dif_pos]
  exact (shortest_exists m h0).choose_spec

theorem readNumber_signed (neg : Bool) (t : Str) (h : t.head? ≠ some 45) :
    readNumber ((if neg then str "-" else []) ++ t) = signed neg (readUnsigned t) := by
  unfold readNumber signed
  cases neg
  · simp only [Bool.false_eq_true, if_false, List.nil_append]
    rw [if_neg h]
  · simp only [if_true]
    rw [show str "-" = [45] by decide]
    simp

theorem read_decText (N : Int) : readNumber (decText N) = N := by
  have hu : readUnsigned (decDigits N.natAbs) = N.natAbs := by
    rw [readUnsigned_plain (decDigits_isDigit _), parseDec_decDigits]
  have hN : (N : ℚ) = signed (decide (N < 0)) (N.natAbs : ℚ) := by
    unfold signed
    by_cases h : N < 0
    · simp only [h, decide_true, if_true]
      have : N = -(N.natAbs : Int) := by omega
      conv_lhs => rw [this]
      rw [Int.cast_neg, Int.cast_natCast]
    · simp only [h, decide_false, Bool.false_eq_true, if_false]
      have : N = (N.natAbs : Int) := by omega
      conv_lhs => rw [this]
      rw [Int.cast_natCast]
  rw [hN, ← hu, ← readNumber_signed _ _ (decDigits_head _), decText_eq]
  by_cases h : N < 0
  · simp only [h, if_true, decide_true]
    rfl
  · simp only [h, if_false, decide_false, Bool.false_eq_true, List.nil_append]

/-- What the text of a number that is not integral says. -/
theorem read_frac (dg : Nat → Digits) (h : PicksShortest dg) (x : F64) (neg : Bool) (q : ℚ)
    (hx : binary64 x = .number neg q) (hq : ∀ N : Int, q ≠ N) :
    pyFloatStr dg x = (if neg then str "-" else []) ++ pyDigits (dg (x.toNat % 2 ^ 63)) ∧
    readNumber (pyFloatStr dg x) = signed neg (dg (x.toNat % 2 ^ 63)).value ∧
    Shortest (x.toNat % 2 ^ 63) (dg (x.toNat % 2 ^ 63)).k (dg (x.toNat % 2 ^ 63)).s (dg (x.toNat % 2 ^ 63)).n := by
  obtain ⟨hp, hmd, z, hv, hz0, hzn⟩ := frac_parts (pyFloatStr dg) x neg q hx hq
  obtain ⟨hm, _⟩ := finite_parts x neg q hx
  have hs := h _ (frac_pos _ hmd) hm
  have ht : pyFloatStr dg x = (if neg then str "-" else []) ++ pyDigits (dg (x.toNat % 2 ^ 63)) := by
    unfold pyFloatStr
    rw [hv]
    simp only [hz0, if_false, hzn]
  refine ⟨ht, ?_, hs⟩
  rw [ht, readNumber_signed _ _ (pyDigits_head _), readUnsigned_py _ (decDigits_len_eq hs.pos hs.lo hs.hi)]

theorem nearest_signed (x : F64) (neg : Bool) (q : ℚ) (hx : binary64 x = .number neg q) (num den : Nat) (hd : 0 < den)
    (hr : b64.round num den = x.toNat % 2 ^ 63) : IsNearest (ieee 11 52) 64 neg (signed neg (num / den)) x.toNat := by
  obtain ⟨hm, hxe, _⟩ := finite_parts x neg q hx
  have := b64.nearest_of b64_is neg num den hd (by rw [hr]; exact hm)
  rw [hr] at this
  rw [hxe]
  exact this

/-- Read as a decimal number and rounded to the nearest double, the key is the number again. -/
theorem C75_reads_back (dg : Nat → Digits) (h : PicksShortest dg) (x : F64) (neg : Bool) (q : ℚ)
    (hx : binary64 x = .number neg q) :
    ∃ p, normaliseKey (pyFloatStr dg) (.float x) = .ok p ∧
      IsNearest (ieee 11 52) 64 neg (readNumber (PKey.text p)) x.toNat := by
  by_cases hq : ∀ N : Int, q ≠ N
  · obtain ⟨hp, _⟩ := frac_parts (pyFloatStr dg) x neg q hx hq
    obtain ⟨_, hr, hs⟩ := read_frac dg h x neg q hx hq
    refine ⟨_, hp, ?_⟩
    show IsNearest _ _ _ (readNumber (pyFloatStr dg x)) _
    have := nearest_signed x neg q hx _ _ (decimal_den_pos _) hs.reads
    rw [decimal_value] at this
    rw [hr]
    exact this
  · push Not at hq
    obtain ⟨N, rfl⟩ := hq
    obtain ⟨p, hp, ht⟩ := integer_key (pyFloatStr dg) x neg N hx
    refine ⟨p, hp, ?_⟩
    rw [ht, read_decText]
    obtain ⟨_, _, _, _, _, _, hqs⟩ := finite_parts x neg N hx
    have := nearest_signed x neg N hx _ _ (Nat.two_pow_pos b64.unit) (b64.round_mag (x.toNat % 2 ^ 63))
    rw [Nat.cast_pow, Nat.cast_ofNat, ← hqs] at this
    exact this

theorem mem_decText {N : Int} {c : Nat} (h : c ∈ decText N) : isDigit c = true ∨ c = 45 := by
  rw [decText_eq] at h
  split at h
  · rcases List.mem_cons.1 h with h | h
    · exact Or.inr h
    · exact Or.inl (decDigits_isDigit _ c h)
  · exact Or.inl (decDigits_isDigit _ c h)

/-- Every case of a double, with the text of its key. -/
theorem key_cases (dg : Nat → Digits) (x : F64) (p : PKey)
    (hp : normaliseKey (pyFloatStr dg) (.float x) = .ok p) :
    (∃ neg, ∃ N : Int, binary64 x = .number neg N ∧ PKey.text p = decText N) ∨
    (∃ neg q, binary64 x = .number neg q ∧ (∀ N : Int, q ≠ N) ∧ PKey.text p = pyFloatStr dg x) ∨
    (∃ neg, binary64 x = .infinity neg ∧ PKey.text p = (if neg then str "-" else []) ++ str "inf") ∨
    (binary64 x = .nan ∧ PKey.text p = str "nan") := by
  have hb := binary64_eq x
  by_cases he : fExp x.toNat = 2047
  · rw [if_pos he] at hb
    by_cases hr : fFrac x.toNat = 0
    · rw [if_pos hr] at hb
      have hf : fval x = .inf (fSign x.toNat) := by unfold fval; simp only [he, hr, if_true]
      simp only [normaliseKey, fInt?, hf, Except.ok.injEq] at hp
      right; right; left
      refine ⟨_, hb, ?_⟩
      rw [← hp]
      show pyFloatStr dg x = _
      unfold pyFloatStr
      rw [hf]
    · rw [if_neg hr] at hb
      have hf : fval x = .nan := by unfold fval; simp only [he, hr, if_true, if_false]
      simp only [normaliseKey, fInt?, hf, Except.ok.injEq] at hp
      right; right; right
      refine ⟨hb, ?_⟩
      rw [← hp]
      show pyFloatStr dg x = _
      unfold pyFloatStr
      rw [hf]
  · rw [if_neg he] at hb
    generalize signed _ _ = q at hb
    by_cases hq : ∀ N : Int, q ≠ N
    · right; left
      refine ⟨_, q, hb, hq, ?_⟩
      rw [(frac_parts (pyFloatStr dg) x _ q hb hq).1] at hp
      cases hp
      rfl
    · push Not at hq
      obtain ⟨N, rfl⟩ := hq
      left
      obtain ⟨p', hp', ht⟩ := integer_key (pyFloatStr dg) x _ N hb
      rw [hp] at hp'
      cases hp'
      exact ⟨_, N, hb, ht⟩

/-- The texts of the kinds of doubles are told apart by their characters. -/
theorem frac_chars (dg : Nat → Digits) (h : PicksShortest dg) (x : F64) (neg : Bool) (q : ℚ)
    (hx : binary64 x = .number neg q) (hq : ∀ N : Int, q ≠ N) :
    110 ∉ pyFloatStr dg x ∧ (46 ∈ pyFloatStr dg x ∨ 101 ∈ pyFloatStr dg x) := by
  obtain ⟨ht, _, _⟩ := read_frac dg h x neg q hx hq
  obtain ⟨h1, h2⟩ := pyDigits_chars (dg (x.toNat % 2 ^ 63))
  rw [ht]
  refine ⟨?_, ?_⟩
  · rw [List.mem_append, not_or]
    refine ⟨by cases neg <;> decide, ?_⟩
    intro hm
    rcases h1 110 hm with h | h
    · cases h
    · omega
  · rcases h2 with h2 | h2
    · exact Or.inl (List.mem_append_right _ h2)
    · exact Or.inr (List.mem_append_right _ h2)

/-- Doubles that stand for different numbers are different keys, whatever JavaScript calls them. -/
theorem C75_distinct (dg : Nat → Digits) (h : PicksShortest dg) (x y : F64) (p : PKey)
    (hx : normaliseKey (pyFloatStr dg) (.float x) = .ok p) (hy : normaliseKey (pyFloatStr dg) (.float y) = .ok p) :
    binary64 x = binary64 y ∨ ∃ neg neg', binary64 x = .number neg 0 ∧ binary64 y = .number neg' 0 := by
  have hnum : ∀ N : Int, (110 : Nat) ∉ decText N := by
    intro N hc
    rcases mem_decText hc with h | h
    · cases h
    · omega
  have hfrac : ∀ N : Int, ¬ (46 ∈ decText N ∨ 101 ∈ decText N) := by
    rintro N (hc | hc) <;> rcases mem_decText hc with h | h
    · cases h
    · omega
    · cases h
    · omega
  have hinf : ∀ neg : Bool, (110 : Nat) ∈ (if neg then str "-" else []) ++ str "inf" := by decide
  have hnan : (110 : Nat) ∈ str "nan" := by decide
  rcases key_cases dg x p hx with ⟨n1, N, a1, a2⟩ | ⟨n1, q, a1, a3, a2⟩ | ⟨n1, a1, a2⟩ | ⟨a1, a2⟩ <;>
    rcases key_cases dg y p hy with ⟨n2, N', b1, b2⟩ | ⟨n2, q', b1, b3, b2⟩ | ⟨n2, b1, b2⟩ | ⟨b1, b2⟩
  · have hN : N = N' := by
      have h1 := read_decText N
      rw [← a2, b2, read_decText] at h1
      exact_mod_cast h1.symm
    subst hN
    by_cases h0 : N = 0
    · subst h0
      exact Or.inr ⟨n1, n2, by simpa using a1, by simpa using b1⟩
    · left
      rw [a1, b1, (integral_parts x n1 N a1).2.2.2 h0, (integral_parts y n2 N b1).2.2.2 h0]
  · exact absurd (by rw [← a2, b2]; exact (frac_chars dg h y n2 q' b1 b3).2) (hfrac N)
  · exact absurd (by rw [← a2, b2]; exact hinf n2) (hnum N)
  · exact absurd (by rw [← a2, b2]; exact hnan) (hnum N)
  · exact absurd (by rw [← b2, a2]; exact (frac_chars dg h x n1 q a1 a3).2) (hfrac N')
  · left
    obtain ⟨_, c1, c2⟩ := read_frac dg h x n1 q a1 a3
    obtain ⟨_, d1, d2⟩ := read_frac dg h y n2 q' b1 b3
    rw [← a2, b2, d1] at c1
    have hpos : ∀ (d : Digits) m, Shortest m d.k d.s d.n → 0 < d.value := by
      intro d m hs
      have : 0 < d.s := Nat.lt_of_lt_of_le (by positivity) hs.lo
      unfold Spec.Digits.value
      exact mul_pos (by exact_mod_cast this) (zpow_pos (by norm_num) _)
    have p1 := hpos _ _ c2
    have p2 := hpos _ _ d2
    have hn : n1 = n2 := by
      unfold signed at c1
      cases n1 <;> cases n2 <;> simp only [Bool.false_eq_true, if_false, if_true] at c1
      · rfl
      · linarith
      · linarith
      · rfl
    subst hn
    have hv := signed_inj c1
    have hm : x.toNat % 2 ^ 63 = y.toNat % 2 ^ 63 := by
      rw [← c2.reads, ← d2.reads]
      exact (decimal_congr hv).symm
    obtain ⟨_, _, _, _, _, _, e1⟩ := finite_parts x n1 q a1
    obtain ⟨_, _, _, _, _, _, e2⟩ := finite_parts y n1 q' b1
    rw [a1, b1, e1, e2, hm]
  · exact absurd (by rw [← a2, b2]; exact hinf n2) (frac_chars dg h x n1 q a1 a3).1
  · exact absurd (by rw [← a2, b2]; exact hnan) (frac_chars dg h x n1 q a1 a3).1
  · exact absurd (by rw [← b2, a2]; exact hinf n1) (hnum N')
  · exact absurd (by rw [← b2, a2]; exact hinf n1) (frac_chars dg h y n2 q' b1 b3).1
  · left
    rw [a2] at b2
    have : n1 = n2 := by
      revert b2
      cases n1 <;> cases n2 <;> decide
    rw [a1, b1, this]
  · rw [a2] at b2
    exfalso
    revert b2
    cases n1 <;> decide
  · exact absurd (by rw [← b2, a2]; exact hnan) (hnum N')
  · exact absurd (by rw [← b2, a2]; exact hnan) (frac_chars dg h y n2 q' b1 b3).1
  · rw [a2] at b2
    exfalso
    revert b2
    cases n2 <;> decide
  · left
    rw [a1, b1]

/-! ### Cases -/

/-- The digits of a power of ten. -/
theorem shortest_ten {m k s : Nat} {n : Int} (h : Shortest m k s n) (j : Int) (h1 : decimal 1 j = m)
    (h2 : decimal 9 (j - 1) < decimal 1 j) (h3 : decimal 9 j < decimal 1 (j + 1)) (h4 : ∀ s < 10, decimal s j = m → s = 1)
    (h5 : ¬ decimal 1 (j + 1) ≤ m) : k = 1 ∧ s = 1 ∧ n = j + 1 := by
  have t1 := (shortest_threshold h j h2).2 (by omega)
  have t2 := (shortest_threshold h (j + 1) (by rw [Int.add_sub_cancel]; exact h3)).not.2 h5
  have hn : n = j + 1 := by omega
  have hk := h.least 1 1 (j + 1) (by omega) (by decide) (by decide) (by
    rw [← h1]; congr 1; push_cast; ring)
  have hk1 : k = 1 := by have := h.pos; omega
  subst hk1
  have hr := h.reads
  rw [hn, show j + 1 - ((1 : Nat) : Int) = j by push_cast; ring] at hr
  exact ⟨rfl, h4 s (by simpa using h.hi) hr, hn⟩

/-- `1e-7`: the code names the property `1e-07`, JavaScript `1e-7`. -/
theorem C75_small_differs (dg : Nat → Digits) (h : PicksShortest dg) :
    normaliseKey (pyFloatStr dg) (.float 0x3E7AD7F29ABCAF48) = .ok (.name (str "1e-07")) ∧
    jsNumberText dg 0x3E7AD7F29ABCAF48 = str "1e-7" := by
  have hs := h 0x3E7AD7F29ABCAF48 (by decide) (by decide)
  obtain ⟨h1, h2, h3⟩ := shortest_ten hs (-7) (by decide +kernel) (by decide +kernel) (by decide +kernel) (by decide +kernel)
    (by decide +kernel)
  have hd : dg 0x3E7AD7F29ABCAF48 = ⟨1, 1, -6⟩ := by
    cases hdg : dg 0x3E7AD7F29ABCAF48 with
    | mk a b c => rw [hdg] at h1 h2 h3; simp only at h1 h2 h3; rw [h1, h2, h3]; rfl
  have hm : (0x3E7AD7F29ABCAF48 : F64).toNat % 2 ^ 63 = 0x3E7AD7F29ABCAF48 := by decide
  have hf : fInt? 0x3E7AD7F29ABCAF48 = none := by decide +kernel
  constructor
  · simp only [normaliseKey, hf]
    unfold pyFloatStr
    rw [hm, hd]
    decide +kernel
  · unfold jsNumberText
    rw [hm, hd]
    decide +kernel

/-- `1e21`: the code writes all digits, JavaScript `1e+21`. -/
theorem C75_big_differs (dg : Nat → Digits) (h : PicksShortest dg) :
    normaliseKey (pyFloatStr dg) (.float 0x444B1AE4D6E2EF50) = .ok (.name (str "1000000000000000000000")) ∧
    jsNumberText dg 0x444B1AE4D6E2EF50 = str "1e+21" := by
  have hs := h 0x444B1AE4D6E2EF50 (by decide) (by decide)
  obtain ⟨h1, h2, h3⟩ := shortest_ten hs 21 (by decide +kernel) (by decide +kernel) (by decide +kernel) (by decide +kernel)
    (by decide +kernel)
  have hd : dg 0x444B1AE4D6E2EF50 = ⟨1, 1, 22⟩ := by
    cases hdg : dg 0x444B1AE4D6E2EF50 with
    | mk a b c => rw [hdg] at h1 h2 h3; simp only at h1 h2 h3; rw [h1, h2, h3]; rfl
  have hm : (0x444B1AE4D6E2EF50 : F64).toNat % 2 ^ 63 = 0x444B1AE4D6E2EF50 := by decide
  have hf : fInt? 0x444B1AE4D6E2EF50 = some (10 ^ 21) := by decide +kernel
  constructor
  · simp only [normaliseKey, hf]
    decide +kernel
  · unfold jsNumberText
    rw [hm, hd]
    decide +kernel

/-- `2^60`: below `1e21`, but its shortest digits are not exact: JavaScript names the property `1152921504606847000`, the
code `1152921504606846976`. -/
theorem C75_unsafe_differs (dg : Nat → Digits) (h : PicksShortest dg) :
    normaliseKey (pyFloatStr dg) (.float 0x43B0000000000000) = .ok (.name (str "1152921504606846976")) ∧
    jsNumberText dg 0x43B0000000000000 ≠ str "1152921504606846976" := by
  have hf : fInt? 0x43B0000000000000 = some (2 ^ 60) := by decide +kernel
  have hm : (0x43B0000000000000 : F64).toNat % 2 ^ 63 = 0x43B0000000000000 := by decide
  have hs := h 0x43B0000000000000 (by decide) (by decide)
  constructor
  · simp only [normaliseKey, hf]
    decide +kernel
  · unfold jsNumberText
    rw [show fval 0x43B0000000000000 = .fin (2 ^ 60 * 2 ^ 1074) by decide +kernel, hm]
    simp only
    rw [if_neg (by decide +kernel), if_neg (by decide +kernel), List.nil_append,
      show str "1152921504606846976" = decDigits (2 ^ 60) by decide +kernel]
    rw [Ne, jsDigits_int _ hs (A := 2 ^ 60) (by decide) (by decide +kernel)]
    rintro ⟨_, he⟩
    have hk := hs.least 16 1152921504606847 19 (by decide) (by decide) (by decide) (by decide +kernel)
    have t1 := (shortest_threshold hs 18 (by decide +kernel)).2 (by decide +kernel)
    obtain ⟨j, hj⟩ : ∃ j : Nat, (dg 0x43B0000000000000).n - (dg 0x43B0000000000000).k = j + 3 :=
      ⟨((dg 0x43B0000000000000).n - (dg 0x43B0000000000000).k - 3).toNat, by omega⟩
    rw [hj, show ((j : Int) + 3) = ((j + 3 : Nat) : Int) by push_cast; ring, zpow_natCast] at he
    have he' : (dg 0x43B0000000000000).s * 10 ^ (j + 3) = 2 ^ 60 := by exact_mod_cast he
    rw [Nat.pow_add, ← Nat.mul_assoc] at he'
    have : (2 ^ 60) % 10 ^ 3 = 0 := by rw [← he']; exact Nat.mul_mod_left _ _
    revert this
    decide

/-- Cases that meet the hypotheses: `1.5`, `-3`, `2^53 - 1`. -/
example : binary64 0x3FF8000000000000 = .number false (3 / 2) ∧ (∀ N : Int, (3 / 2 : ℚ) ≠ N) ∧
    binary64 0xC008000000000000 = .number true ((-3 : Int) : ℚ) ∧
    binary64 0x433FFFFFFFFFFFFF = .number false ((2 ^ 53 - 1 : Int) : ℚ) := by
  have h1 : (0x3FF8000000000000 : F64).toNat = 0x3FF8000000000000 := by decide
  have h2 : (0xC008000000000000 : F64).toNat = 0xC008000000000000 := by decide
  have h3 : (0x433FFFFFFFFFFFFF : F64).toNat = 0x433FFFFFFFFFFFFF := by decide
  refine ⟨by unfold binary64 ieee; rw [h1]; norm_num, ?_, by unfold binary64 ieee; rw [h2]; norm_num,
    by unfold binary64 ieee; rw [h3]; norm_num⟩
  intro N h
  have h2 : ((2 * N : Int) : ℚ) = ((3 : Int) : ℚ) := by
    push_cast
    linarith
  have : 2 * N = 3 := by exact_mod_cast h2
  omega

end V8.Props
