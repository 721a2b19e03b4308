import Verif.Proofs.Keys
import Verif.Proofs.Num

/-!
# C30: property key normalisation
-/

namespace V8.Props
open V8

/-- The decimal text of an integer, from Mathlib's digits. -/
def decText (n : Int) : Str :=
  (if n < 0 then [45] else []) ++
    (if n = 0 then [48] else (Nat.digits 10 n.natAbs).reverse.map (48 + ·))

theorem decText_eq (n : Int) :
    decText n = (if n < 0 then 45 :: decDigits n.natAbs else decDigits n.natAbs) := by
  unfold decText
  by_cases h0 : n = 0
  · subst h0; decide
  · rw [if_neg h0, decDigits, decDigitsRev_digits (n.natAbs + 1) n.natAbs (by omega) (by omega),
      List.map_reverse]
    split <;> simp

/-- The property name a key denotes in JavaScript: an int or an integral float denotes its decimal
text, a string itself.  (`none`: a float that is not an integer, outside the property.  JavaScript
writes integral doubles from 1e21 on in exponent form; the property is stated for the decimal form
that the code documents.) -/
def jsName : RawKey → Option Str
  | .str s => some s
  | .int n => some (decText n)
  | .float x => (fInt? x).map decText

/-- The text of a normalised key. -/
def PKey.text : PKey → Str
  | .idx n => decText n
  | .name s => s

/-- A normalised key given back as a key. -/
def PKey.raw : PKey → RawKey
  | .idx n => .int n
  | .name s => .str s

theorem normaliseInt_text (n : Int) (p : PKey) (h : normaliseInt n = .ok p) :
    PKey.text p = decText n := by
  unfold normaliseInt at h
  split at h
  · rename_i hb
    simp only [Except.ok.injEq] at h
    subst h
    simp only [PKey.text]
    congr 1; omega
  · unfold pyIntStr at h
    simp only at h
    split at h
    · simp [Except.map] at h
    · simp only [Except.map, Except.ok.injEq] at h
      subst h; exact (decText_eq n).symm

/-- C30, kinds: an integer (int or integral float) normalises to an index exactly when it is in
0..2^32-2. -/
theorem C30_index_range (fs : F64 → Str) (n : Int) (k : Nat) :
    normaliseKey fs (.int n) = .ok (.idx k) ↔ (0 ≤ n ∧ n ≤ 2 ^ 32 - 2 ∧ n = k) := by
  have hmax : ((maxArrayLength : Nat) : Int) = 2 ^ 32 - 1 := by decide
  simp only [normaliseKey, normaliseInt, hmax]
  by_cases h : 0 ≤ n ∧ n < 2 ^ 32 - 1
  · rw [if_pos h]
    simp only [Except.ok.injEq, PKey.idx.injEq]; omega
  · rw [if_neg h]
    cases pyIntStr n with
    | error e => simp [Except.map]; omega
    | ok s => simp [Except.map]; omega

/-- C30, text: a normalised key has the same JavaScript name as the key it came from. -/
theorem C30_same_name (fs : F64 → Str) (k : RawKey) (p : PKey) (s : Str)
    (hk : jsName k = some s) (h : normaliseKey fs k = .ok p) : PKey.text p = s := by
  cases k with
  | int n =>
    simp only [jsName, Option.some.injEq] at hk
    rw [← hk]; exact normaliseInt_text n p h
  | float x =>
    simp only [jsName, Option.map_eq_some_iff] at hk
    obtain ⟨n, hn, rfl⟩ := hk
    simp only [normaliseKey, hn] at h
    exact normaliseInt_text n p h
  | str t =>
    simp only [jsName, Option.some.injEq] at hk
    subst hk
    simp only [normaliseKey, canonicalNumericIndexString] at h
    split at h
    · simp at h
    · simp only [Except.ok.injEq] at h; subst h; rfl
    · rename_i n hc
      split at hc
      · rename_i hd
        unfold pyIntParse at hc
        split at hc
        · simp at hc
        · rename_i m hm
          split at hm
          · simp at hm
          · simp only [Except.ok.injEq] at hm hc
            subst hm
            split at hc
            · simp at hc
            · rename_i hz
              simp only [Option.some.injEq] at hc
              subst hc
              rw [normaliseInt_text _ p h, decText_eq, if_neg (by omega)]
              simpa using decDigits_parseDec t hd hz
      · simp at hc

/-- The normalised key is a function of the JavaScript name alone. -/
theorem normaliseKey_of_name (fs : F64 → Str) (k : RawKey) (p : PKey) (s : Str)
    (hk : jsName k = some s) (h : normaliseKey fs k = .ok p) :
    normaliseKey fs (.str s) = .ok p := by
  have key : ∀ n : Int, s = decText n →
      normaliseInt n = .ok p → normaliseKey fs (.str s) = .ok p := by
    intro n hs hn
    by_cases hlen : (decDigits n.natAbs).length > maxStrDigits
    · -- only possible for an index, whose text is short
      unfold normaliseInt at hn
      split at hn
      · rename_i hb
        exfalso
        have hmax : ((maxArrayLength : Nat) : Int) = 2 ^ 32 - 1 := by decide
        have hb2 : n.natAbs < 2 ^ 32 := by omega
        have hshort : ∀ fuel m, m < 10 ^ fuel → (decDigitsRev (m + 1) m).length ≤ fuel + 1 := by
          have aux : ∀ fuel f m, m < 10 ^ fuel → (decDigitsRev f m).length ≤ fuel + 1 := by
            intro fuel
            induction fuel with
            | zero =>
              intro f m hm
              have : m = 0 := by simpa using hm
              subst this
              cases f <;> simp [decDigitsRev]
            | succ fuel ih =>
              intro f m hm
              cases f with
              | zero => simp [decDigitsRev]
              | succ f =>
                rw [decDigitsRev]
                split
                · simp
                · have : m / 10 < 10 ^ fuel := by
                    rw [Nat.div_lt_iff_lt_mul (by omega)]
                    rw [Nat.pow_succ] at hm; exact hm
                  have := ih f (m / 10) this
                  simp only [List.length_cons]; omega
          intro fuel m hm; exact aux fuel (m + 1) m hm
        have := hshort 10 n.natAbs (by omega)
        unfold decDigits at hlen
        rw [List.length_reverse] at hlen
        unfold maxStrDigits at hlen
        omega
      · unfold pyIntStr at hn
        simp only at hn
        rw [if_pos hlen] at hn
        simp [Except.map] at hn
    · have : pyIntStr n = .ok s := by
        unfold pyIntStr
        simp only
        rw [if_neg hlen, hs, decText_eq]
      rw [normaliseKey_intStr fs n s this, hn]
  cases k with
  | int n =>
    simp only [jsName, Option.some.injEq] at hk
    exact key n hk.symm h
  | float x =>
    simp only [jsName, Option.map_eq_some_iff] at hk
    obtain ⟨n, hn, hs⟩ := hk
    simp only [normaliseKey, hn] at h
    exact key n hs.symm h
  | str t =>
    simp only [jsName, Option.some.injEq] at hk
    rw [← hk]; exact h

/-- C30, merging: two keys (strings, ints, integral floats) normalise to the same key exactly when
they denote the same JavaScript property name. -/
theorem C30_merged_iff_same_property (fs : F64 → Str) (k₁ k₂ : RawKey) (s₁ s₂ : Str) (p₁ p₂ : PKey)
    (h₁ : jsName k₁ = some s₁) (h₂ : jsName k₂ = some s₂)
    (e₁ : normaliseKey fs k₁ = .ok p₁) (e₂ : normaliseKey fs k₂ = .ok p₂) :
    p₁ = p₂ ↔ s₁ = s₂ := by
  constructor
  · intro h
    rw [← C30_same_name fs k₁ p₁ s₁ h₁ e₁, ← C30_same_name fs k₂ p₂ s₂ h₂ e₂, h]
  · intro h
    have a := normaliseKey_of_name fs k₁ p₁ s₁ h₁ e₁
    have b := normaliseKey_of_name fs k₂ p₂ s₂ h₂ e₂
    rw [h, b] at a
    simpa using a.symm

/-- C30, idempotence. -/
theorem C30_idempotent (fs : F64 → Str) (k : RawKey) (p : PKey) (s : Str)
    (hk : jsName k = some s) (h : normaliseKey fs k = .ok p) :
    normaliseKey fs (PKey.raw p) = .ok p := by
  cases p with
  | name t =>
    have := C30_same_name fs k _ s hk h
    simp only [PKey.text] at this
    simp only [PKey.raw, this]
    rw [← this] at hk ⊢
    exact normaliseKey_of_name fs k _ t hk h
  | idx n =>
    have ha := C30_same_name fs k _ s hk h
    have hb := normaliseKey_of_name fs k _ s hk h
    rw [← ha] at hb
    simp only [PKey.text, decText_eq, if_neg (show ¬ ((n : Int) < 0) by omega), Int.natAbs_natCast] at hb
    have hs : pyIntStr (n : Int) = .ok (decDigits n) ∨ pyIntStr (n : Int) = .error .valueError := by
      unfold pyIntStr
      simp only [Int.natAbs_natCast]
      split
      · exact Or.inr rfl
      · rw [if_neg (by omega)]; exact Or.inl rfl
    rcases hs with hs | hs
    · rw [normaliseKey_intStr fs n _ hs] at hb
      exact hb
    · -- a text that long cannot normalise at all
      exfalso
      unfold pyIntStr at hs
      simp only [Int.natAbs_natCast] at hs
      split at hs
      · rename_i hlen
        simp only [normaliseKey, canonicalNumericIndexString, decDigits_digits, if_true,
          pyIntParse, if_pos hlen] at hb
        simp at hb
      · simp at hs

/-- C30, the int and its text: for every int whose text Python can produce, the text and the int
normalise alike. -/
theorem C30_int_and_text (fs : F64 → Str) (n : Int) (s : Str) (h : pyIntStr n = .ok s) :
    normaliseKey fs (.str s) = normaliseKey fs (.int n) :=
  normaliseKey_intStr fs n s h

/-- C30, integral floats: a double holding a safe integer normalises like the integer. -/
theorem C30_integral_float (fs : F64 → Str) (n : Int) (h : n.natAbs ≤ 2 ^ 53 - 1) :
    normaliseKey fs (.float (doubleOfInt n)) = normaliseKey fs (.int n) := by
  simp only [normaliseKey, fInt?_doubleOfInt n h]

/-- C30, when it fails: only for integers of more than 4300 digits. -/
theorem C30_total (fs : F64 → Str) (k : RawKey) (s : Str) (hk : jsName k = some s)
    (hs : s.length ≤ 4300) : ∃ p, normaliseKey fs k = .ok p := by
  have key : ∀ n : Int, (decDigits n.natAbs).length ≤ 4300 → ∃ p, normaliseInt n = .ok p := by
    intro n hn
    unfold normaliseInt
    split
    · exact ⟨_, rfl⟩
    · unfold pyIntStr
      simp only
      rw [if_neg (by unfold maxStrDigits; omega)]
      exact ⟨_, rfl⟩
  cases k with
  | int n =>
    simp only [jsName, Option.some.injEq] at hk
    apply key
    rw [← hk, decText_eq] at hs
    split at hs
    · simp only [List.length_cons] at hs; omega
    · exact hs
  | float x =>
    simp only [jsName, Option.map_eq_some_iff] at hk
    obtain ⟨n, hn, hs'⟩ := hk
    simp only [normaliseKey, hn]
    apply key
    rw [← hs', decText_eq] at hs
    split at hs
    · simp only [List.length_cons] at hs; omega
    · exact hs
  | str t =>
    simp only [jsName, Option.some.injEq] at hk
    subst hk
    simp only [normaliseKey, canonicalNumericIndexString]
    by_cases hd : isAsciiDecimal t = true
    · rw [if_pos hd]
      unfold pyIntParse
      rw [if_neg (by unfold maxStrDigits; omega)]
      simp only
      by_cases hz : t.head? = some 48 ∧ t ≠ [48]
      · rw [if_pos hz]; exact ⟨_, rfl⟩
      · rw [if_neg hz]
        apply key
        rw [Int.natAbs_natCast, decDigits_parseDec t hd hz]
        exact hs
    · rw [if_neg hd]; exact ⟨_, rfl⟩

/-- Concrete cases: `"7"`, `7` and `7.0` are one key; `"07"`, `"-7"` and `"4294967295"` are names. -/
example :
    normaliseKey (fun _ => []) (.str (str "7")) = .ok (.idx 7) ∧
    normaliseKey (fun _ => []) (.float 0x401C000000000000) = .ok (.idx 7) ∧
    normaliseKey (fun _ => []) (.str (str "07")) = .ok (.name (str "07")) ∧
    normaliseKey (fun _ => []) (.int (-7)) = .ok (.name (str "-7")) ∧
    normaliseKey (fun _ => []) (.int 4294967295) = .ok (.name (str "4294967295")) ∧
    normaliseKey (fun _ => []) (.str (str "4294967294")) = .ok (.idx 4294967294) := by
  refine ⟨?_, ?_, ?_, ?_, ?_, ?_⟩ <;> decide +kernel

end V8.Props
