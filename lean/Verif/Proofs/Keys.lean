import Verif.Model.Keys
import Mathlib.Data.List.Basic
import Mathlib.Data.Nat.Digits.Defs
import Mathlib.Tactic.Ring
import Mathlib.Tactic.Linarith

namespace V8

/-- Value of digits, least significant first. -/
def parseRev : Str → Nat
  | [] => 0
  | c :: t => parseRev t * 10 + (c - 48)

theorem parseDec_eq (s : Str) : parseDec s = parseRev s.reverse := by
  unfold parseDec
  rw [List.foldl_eq_foldr_reverse]
  induction s.reverse with
  | nil => rfl
  | cons c t ih => simp only [List.foldr_cons, ih, parseRev]

theorem isDigit_iff (c : Nat) : isDigit c = true ↔ 48 ≤ c ∧ c ≤ 57 := by
  simp [isDigit]

theorem decDigitsRev_spec (fuel n : Nat) (h : n < fuel) :
    parseRev (decDigitsRev fuel n) = n ∧ decDigitsRev fuel n ≠ [] ∧
    (∀ c ∈ decDigitsRev fuel n, isDigit c = true) ∧
    ((decDigitsRev fuel n).getLast? = some 48 → n = 0) := by
  induction fuel generalizing n with
  | zero => omega
  | succ fuel ih =>
    rw [decDigitsRev]
    by_cases hn : n < 10
    · rw [if_pos hn]
      refine ⟨by simp [parseRev], by simp, ?_, ?_⟩
      · intro c hc
        simp only [List.mem_singleton] at hc
        rw [isDigit_iff]; omega
      · simp
    · rw [if_neg hn]
      obtain ⟨h1, h2, h3, h4⟩ := ih (n / 10) (by omega)
      refine ⟨?_, by simp, ?_, ?_⟩
      · rw [parseRev, h1]; omega
      · intro c hc
        rcases List.mem_cons.1 hc with rfl | hc
        · rw [isDigit_iff]; omega
        · exact h3 c hc
      · intro hl
        rw [List.getLast?_cons_of_ne_nil h2] at hl
        have := h4 hl
        omega

theorem parseRev_pos (l : Str) (c : Nat) (hl : l.getLast? = some c) (hc : 48 < c) :
    0 < parseRev l := by
  induction l with
  | nil => simp at hl
  | cons a t ih =>
    rw [parseRev]
    cases t with
    | nil => simp at hl; subst hl; omega
    | cons b u =>
      rw [List.getLast?_cons_of_ne_nil (by simp)] at hl
      have := ih hl
      omega

theorem decDigitsRev_parseRev (l : Str) (h0 : l ≠ []) (hd : ∀ c ∈ l, isDigit c = true)
    (hlead : l.getLast? = some 48 → l = [48]) (fuel : Nat) (hf : parseRev l < fuel) :
    decDigitsRev fuel (parseRev l) = l := by
  induction l generalizing fuel with
  | nil => exact absurd rfl h0
  | cons c t ih =>
    obtain ⟨f, rfl⟩ : ∃ f, fuel = f + 1 := ⟨fuel - 1, by omega⟩
    have hc := (isDigit_iff c).1 (hd c List.mem_cons_self)
    rw [parseRev] at hf ⊢
    cases t with
    | nil =>
      simp only [parseRev, Nat.zero_mul, Nat.zero_add]
      rw [decDigitsRev, if_pos (by omega)]
      congr 1; omega
    | cons b u =>
      have hlast : ∃ x, (b :: u).getLast? = some x ∧ 48 < x := by
        cases hx : (b :: u).getLast? with
        | none => simp at hx
        | some x =>
          refine ⟨x, rfl, ?_⟩
          have hxm := List.mem_of_getLast? hx
          have := (isDigit_iff x).1 (hd x (List.mem_cons_of_mem _ hxm))
          rcases Nat.lt_or_ge 48 x with h | h
          · exact h
          · have hx48 : x = 48 := by omega
            subst hx48
            have := hlead (by rw [List.getLast?_cons_of_ne_nil (by simp)]; exact hx)
            simp at this
      obtain ⟨x, hx, hx48⟩ := hlast
      have hpos := parseRev_pos (b :: u) x hx hx48
      rw [decDigitsRev, if_neg (by omega)]
      have e1 : (parseRev (b :: u) * 10 + (c - 48)) % 10 = c - 48 := by omega
      have e2 : (parseRev (b :: u) * 10 + (c - 48)) / 10 = parseRev (b :: u) := by omega
      rw [e1, e2, ih (by simp) (fun c hc => hd c (List.mem_cons_of_mem _ hc)) ?_ f (by omega)]
      · congr 1; omega
      · intro h48; rw [hx] at h48; simp at h48; omega

theorem parseDec_decDigits (n : Nat) : parseDec (decDigits n) = n := by
  rw [parseDec_eq, decDigits, List.reverse_reverse]
  exact (decDigitsRev_spec (n + 1) n (by omega)).1

theorem decDigits_digits (n : Nat) : isAsciiDecimal (decDigits n) = true := by
  obtain ⟨_, h2, h3, _⟩ := decDigitsRev_spec (n + 1) n (by omega)
  unfold isAsciiDecimal decDigits
  simp only [Bool.and_eq_true, Bool.not_eq_true', List.isEmpty_eq_false_iff, List.all_eq_true]
  exact ⟨by simpa using h2, fun c hc => h3 c (List.mem_reverse.1 hc)⟩

theorem decDigits_no_leading_zero (n : Nat) (h : (decDigits n).head? = some 48) :
    decDigits n = [48] := by
  have h4 := (decDigitsRev_spec (n + 1) n (by omega)).2.2.2
  unfold decDigits at h ⊢
  rw [List.head?_reverse] at h
  have := h4 h
  subst this
  rfl

theorem decDigits_parseDec (s : Str) (h : isAsciiDecimal s = true)
    (hz : ¬ (s.head? = some 48 ∧ s ≠ [48])) : decDigits (parseDec s) = s := by
  unfold isAsciiDecimal at h
  simp only [Bool.and_eq_true, Bool.not_eq_true', List.isEmpty_eq_false_iff, List.all_eq_true] at h
  rw [parseDec_eq, decDigits, decDigitsRev_parseRev s.reverse]
  · simp
  · simpa using h.1
  · intro c hc; exact h.2 c (List.mem_reverse.1 hc)
  · intro hl
    rw [List.getLast?_reverse] at hl
    have : s = [48] := by
      by_contra hne; exact hz ⟨hl, hne⟩
    rw [this]; rfl
  · omega

theorem decDigits_inj {m n : Nat} (h : decDigits m = decDigits n) : m = n := by
  rw [← parseDec_decDigits m, h, parseDec_decDigits]

theorem decDigitsRev_digits (fuel n : Nat) (h : n < fuel) (h0 : 0 < n) :
    decDigitsRev fuel n = (Nat.digits 10 n).map (48 + ·) := by
  induction fuel generalizing n with
  | zero => omega
  | succ fuel ih =>
    rw [decDigitsRev, Nat.digits_def' (by omega) h0]
    by_cases hn : n < 10
    · rw [if_pos hn]
      have e1 : n / 10 = 0 := by omega
      have e2 : n % 10 = n := by omega
      rw [e1, e2]; simp
    · rw [if_neg hn, ih (n / 10) (by omega) (by omega)]; rfl

/-- Normalising the decimal text of an int is normalising the int. -/
theorem normaliseKey_intStr (fs : F64 → Str) (n : Int) (s : Str) (h : pyIntStr n = .ok s) :
    normaliseKey fs (.str s) = normaliseInt n := by
  unfold pyIntStr at h
  simp only at h
  split at h
  · simp at h
  rename_i hlen
  simp only [Except.ok.injEq] at h
  by_cases hn : n < 0
  · rw [if_pos hn] at h
    subst h
    have hnd : isAsciiDecimal (45 :: decDigits n.natAbs) = false := by
      simp [isAsciiDecimal, isDigit]
    simp only [normaliseKey, canonicalNumericIndexString, hnd]
    have hnb : ¬ (0 ≤ n ∧ n < (maxArrayLength : Int)) := by omega
    unfold normaliseInt pyIntStr
    rw [if_neg hnb]
    simp only
    rw [if_neg hlen, if_pos hn]; rfl
  · rw [if_neg hn] at h
    subst h
    simp only [normaliseKey, canonicalNumericIndexString, decDigits_digits, if_true, pyIntParse]
    rw [if_neg hlen, parseDec_decDigits]
    simp only
    rw [if_neg (by
      rintro ⟨h1, h2⟩; exact h2 (decDigits_no_leading_zero _ h1))]
    simp only
    congr 1; omega

end V8
