import Verif.Spec.RegExp
import Verif.Props.RoundTrip

/-!
# C54: RegExp flags as text and as Python flags, patterns from and to Python
-/

namespace V8.Props
open V8 V8.Spec

theorem testBit_foldl_or (l : List Nat) (a i : Nat) :
    ((l.map (2 ^ ·)).foldl (· ||| ·) a).testBit i = (a.testBit i || l.contains i) := by
  induction l generalizing a with
  | nil => simp
  | cons b t ih =>
    simp only [List.map_cons, List.foldl_cons]
    rw [ih, Nat.testBit_or, Nat.testBit_two_pow]
    simp only [List.contains_cons, Bool.or_assoc]
    congr 2
    by_cases h : b = i
    · simp [h]
    · simp [h, Ne.symm h]

theorem pythonFlagMapping_value : pythonFlagMapping = [(1, 1), (3, 2), (4, 5), (5, 8)] := by decide

theorem fromPython_bits {p : Nat} (h : p.testBit 6 = false) : ∃ f, fromPythonFlags p = .ok f ∧
    ∀ i, f.testBit i = true ↔ (i = 1 ∧ p.testBit 1 = true) ∨ (i = 2 ∧ p.testBit 3 = true) ∨
      (i = 5 ∧ p.testBit 4 = true) ∨ (i = 8 ∧ p.testBit 5 = true) := by
  refine ⟨_, by unfold fromPythonFlags; rw [h]; rfl, fun i => ?_⟩
  rw [testBit_foldl_or, pythonFlagMapping_value]
  simp only [Nat.zero_testBit, Bool.false_or, List.contains_eq_mem, decide_eq_true_eq, List.mem_filterMap,
    List.mem_filter, pythonFlagBits]
  constructor
  · rintro ⟨b, ⟨hb, hp⟩, hg⟩
    simp only [List.mem_cons, List.not_mem_nil, or_false] at hb
    rcases hb with rfl | rfl | rfl | rfl | rfl | rfl | rfl <;> simp [Dict.get] at hg <;> subst hg <;> simp [hp]
  · rintro (⟨rfl, hp⟩ | ⟨rfl, hp⟩ | ⟨rfl, hp⟩ | ⟨rfl, hp⟩)
    · exact ⟨1, ⟨by decide, hp⟩, by decide⟩
    · exact ⟨3, ⟨by decide, hp⟩, by decide⟩
    · exact ⟨4, ⟨by decide, hp⟩, by decide⟩
    · exact ⟨5, ⟨by decide, hp⟩, by decide⟩

theorem hasLetter_iff (f : Nat) (c : Char) : HasLetter f c ↔
    (c = 'g' ∧ f.testBit 0 = true) ∨ (c = 'i' ∧ f.testBit 1 = true) ∨ (c = 'm' ∧ f.testBit 2 = true) ∨
    (c = 'y' ∧ f.testBit 3 = true) ∨ (c = 'u' ∧ f.testBit 4 = true) ∨ (c = 's' ∧ f.testBit 5 = true) ∨
    (c = 'l' ∧ f.testBit 6 = true) ∨ (c = 'd' ∧ f.testBit 7 = true) ∨ (c = 'v' ∧ f.testBit 8 = true) := by
  unfold HasLetter letterBits
  constructor
  · rintro ⟨b, hm, hb⟩
    simp only [List.mem_cons, List.not_mem_nil, or_false, Prod.mk.injEq] at hm
    rcases hm with ⟨rfl, rfl⟩ | ⟨rfl, rfl⟩ | ⟨rfl, rfl⟩ | ⟨rfl, rfl⟩ | ⟨rfl, rfl⟩ | ⟨rfl, rfl⟩ | ⟨rfl, rfl⟩ |
      ⟨rfl, rfl⟩ | ⟨rfl, rfl⟩ <;> simp [hb]
  · rintro (⟨rfl, h⟩ | ⟨rfl, h⟩ | ⟨rfl, h⟩ | ⟨rfl, h⟩ | ⟨rfl, h⟩ | ⟨rfl, h⟩ | ⟨rfl, h⟩ | ⟨rfl, h⟩ | ⟨rfl, h⟩) <;>
      exact ⟨_, by simp, h⟩

/-- C54: Python flags convert exactly if VERBOSE is not among them, and the result has the letters `i`, `m`,
`s` and `v` for IGNORECASE, MULTILINE, DOTALL and UNICODE, and nothing else. -/
theorem C54_from_python_flags (p : Nat) :
    (p.testBit pyVerbose = true → fromPythonFlags p = .error .jsRegExpError) ∧
    (p.testBit pyVerbose = false → ∃ f, fromPythonFlags p = .ok f ∧ f < 2 ^ 9 ∧
      ∀ c, HasLetter f c ↔ c ≠ 'u' ∧ ∃ b, Means b c ∧ p.testBit b = true) := by
  refine ⟨fun h => by unfold fromPythonFlags; exact if_pos h, fun h => ?_⟩
  obtain ⟨f, hf, hb⟩ := fromPython_bits h
  refine ⟨f, hf, ?_, fun c => ?_⟩
  · refine Nat.lt_pow_two_of_testBit f fun i hi => ?_
    cases ht : f.testBit i
    · rfl
    · have := (hb i).1 ht
      omega
  · rw [hasLetter_iff]
    simp only [hb]
    constructor
    · rintro (⟨rfl, h⟩ | ⟨rfl, h⟩ | ⟨rfl, h⟩ | ⟨rfl, h⟩ | ⟨rfl, h⟩ | ⟨rfl, h⟩ | ⟨rfl, h⟩ | ⟨rfl, h⟩ | ⟨rfl, h⟩) <;>
        simp only [reduceCtorEq, false_and, true_and, or_false, false_or, Nat.reduceEqDiff] at h <;>
        refine ⟨by decide, _, ?_, h⟩ <;> simp [Means, pyIgnoreCase, pyMultiline, pyDotAll, pyUnicode]
    · rintro ⟨hu, b, (⟨rfl, rfl⟩ | ⟨rfl, rfl⟩ | ⟨rfl, rfl⟩ | ⟨rfl, rfl | rfl⟩), h⟩ <;>
        simp_all [pyIgnoreCase, pyMultiline, pyDotAll, pyUnicode]

example : fromPythonFlags 0b0100101010 = .ok 0b100000110 := by decide      -- I, M, U (and ASCII, dropped)
example : fromPythonFlags 0b1000000 = .error .jsRegExpError := by decide

theorem asPythonLoop_none {l : List FlagDef} (a : Nat) (h : ∃ f ∈ l, f.python = none) : asPythonLoop l a = none := by
  induction l generalizing a with
  | nil => simp at h
  | cons f t ih =>
    unfold asPythonLoop
    split
    · rfl
    · rename_i hp
      refine ih _ ?_
      obtain ⟨g, hg, hn⟩ := h
      rcases List.mem_cons.1 hg with rfl | hg
      · rw [hn] at hp; cases hp
      · exact ⟨g, hg, hn⟩
    · rename_i hp
      refine ih _ ?_
      obtain ⟨g, hg, hn⟩ := h
      rcases List.mem_cons.1 hg with rfl | hg
      · rw [hn] at hp; cases hp
      · exact ⟨g, hg, hn⟩

theorem asPythonLoop_some {l : List FlagDef} (a : Nat) (h : ∀ f ∈ l, f.python ≠ none) :
    ∃ p, asPythonLoop l a = some p ∧
      ∀ i, p.testBit i = true ↔ a.testBit i = true ∨ ∃ f ∈ l, f.python = some (some i) := by
  induction l generalizing a with
  | nil => exact ⟨a, rfl, by simp⟩
  | cons f t ih =>
    have ht : ∀ g ∈ t, g.python ≠ none := fun g hg => h g (List.mem_cons_of_mem _ hg)
    unfold asPythonLoop
    split
    · rename_i hp; exact absurd hp (h f List.mem_cons_self)
    · rename_i hp
      obtain ⟨p, h1, h2⟩ := ih a ht
      refine ⟨p, h1, fun i => ?_⟩
      rw [h2]
      simp [hp]
    · rename_i q hp
      obtain ⟨p, h1, h2⟩ := ih (a ||| 2 ^ q) ht
      refine ⟨p, h1, fun i => ?_⟩
      rw [h2, Nat.testBit_or, Nat.testBit_two_pow]
      simp [hp, or_assoc]

theorem mem_flagMembers {f : Nat} {d : FlagDef} : d ∈ flagMembers f ↔ d ∈ jsFlagDefs ∧ f.testBit d.bit = true := by
  simp [flagMembers]

theorem hasLetter_l (f : Nat) : HasLetter f 'l' ↔ f.testBit 6 = true := by
  rw [hasLetter_iff]
  simp

theorem asPython_bits {f : Nat} (h : f.testBit 6 = false) : ∃ p, asPythonLoop (flagMembers f) 0 = some p ∧
    ∀ i, p.testBit i = true ↔ (i = 1 ∧ f.testBit 1 = true) ∨ (i = 3 ∧ f.testBit 2 = true) ∨
      (i = 4 ∧ f.testBit 5 = true) ∨ (i = 5 ∧ (f.testBit 4 = true ∨ f.testBit 8 = true)) := by
  obtain ⟨p, h1, h2⟩ := asPythonLoop_some (l := flagMembers f) 0 (by
    intro d hd hn
    obtain ⟨hm, hb⟩ := mem_flagMembers.1 hd
    simp only [jsFlagDefs, List.mem_cons, List.not_mem_nil, or_false] at hm
    rcases hm with rfl | rfl | rfl | rfl | rfl | rfl | rfl | rfl | rfl <;> simp_all)
  refine ⟨p, h1, fun i => ?_⟩
  rw [h2]
  simp only [Nat.zero_testBit, Bool.false_eq_true, false_or]
  constructor
  · rintro ⟨d, hd, hp⟩
    obtain ⟨hm, hb⟩ := mem_flagMembers.1 hd
    simp only [jsFlagDefs, List.mem_cons, List.not_mem_nil, or_false] at hm
    rcases hm with rfl | rfl | rfl | rfl | rfl | rfl | rfl | rfl | rfl <;> simp at hp <;> subst hp <;> simp [hb]
  · rintro (⟨rfl, hb⟩ | ⟨rfl, hb⟩ | ⟨rfl, hb⟩ | ⟨rfl, hb | hb⟩)
    · exact ⟨⟨105, 1, some (some 1)⟩, mem_flagMembers.2 ⟨by decide, hb⟩, rfl⟩
    · exact ⟨⟨109, 2, some (some 3)⟩, mem_flagMembers.2 ⟨by decide, hb⟩, rfl⟩
    · exact ⟨⟨115, 5, some (some 4)⟩, mem_flagMembers.2 ⟨by decide, hb⟩, rfl⟩
    · exact ⟨⟨117, 4, some (some 5)⟩, mem_flagMembers.2 ⟨by decide, hb⟩, rfl⟩
    · exact ⟨⟨118, 8, some (some 5)⟩, mem_flagMembers.2 ⟨by decide, hb⟩, rfl⟩

/-- C54: JavaScript flags convert exactly if `l` is not among them, and the result has the Python flags that
mean what the letters mean, and nothing else (`d`, `g` and `y` have no meaning for Python). -/
theorem C54_as_python_flags (f : Nat) (throw : Bool) :
    (HasLetter f 'l' → asPythonFlags f throw = if throw then .error .jsRegExpError else .ok none) ∧
    (¬ HasLetter f 'l' → ∃ p, asPythonFlags f throw = .ok (some p) ∧
      ∀ b, p.testBit b = true ↔ ∃ c, Means b c ∧ HasLetter f c) := by
  refine ⟨fun h => ?_, fun h => ?_⟩
  · rw [hasLetter_l] at h
    unfold asPythonFlags
    rw [asPythonLoop_none 0 ⟨⟨108, 6, none⟩, mem_flagMembers.2 ⟨by decide, h⟩, rfl⟩]
  · rw [hasLetter_l, Bool.not_eq_true] at h
    obtain ⟨p, h1, h2⟩ := asPython_bits h
    refine ⟨p, by unfold asPythonFlags; rw [h1], fun b => ?_⟩
    rw [h2]
    constructor
    · rintro (⟨rfl, hb⟩ | ⟨rfl, hb⟩ | ⟨rfl, hb⟩ | ⟨rfl, hb | hb⟩)
      · exact ⟨'i', by simp [Means, pyIgnoreCase], by rw [hasLetter_iff]; simp [hb]⟩
      · exact ⟨'m', by simp [Means, pyMultiline], by rw [hasLetter_iff]; simp [hb]⟩
      · exact ⟨'s', by simp [Means, pyDotAll], by rw [hasLetter_iff]; simp [hb]⟩
      · exact ⟨'u', by simp [Means, pyUnicode], by rw [hasLetter_iff]; simp [hb]⟩
      · exact ⟨'v', by simp [Means, pyUnicode], by rw [hasLetter_iff]; simp [hb]⟩
    · rintro ⟨c, (⟨rfl, rfl⟩ | ⟨rfl, rfl⟩ | ⟨rfl, rfl⟩ | ⟨rfl, rfl | rfl⟩), hc⟩ <;> rw [hasLetter_iff] at hc <;>
        simp at hc <;> simp [hc, pyIgnoreCase, pyMultiline, pyDotAll, pyUnicode]

example : asPythonFlags 0b110010111 true = .ok (some 0b101010) := by decide      -- d i m g u v
example : asPythonFlags 0b001000001 true = .error .jsRegExpError := by decide    -- g l
example : asPythonFlags 0b001000001 false = .ok none := by decide

/-- C54: Python flags, converted and converted back, are the ones among IGNORECASE, MULTILINE, DOTALL and
UNICODE. -/
theorem C54_python_flags_come_back (p f : Nat) (h : fromPythonFlags p = .ok f) (throw : Bool) :
    ∃ q, asPythonFlags f throw = .ok (some q) ∧
      ∀ b, q.testBit b = true ↔ p.testBit b = true ∧ b ∈ [pyIgnoreCase, pyMultiline, pyDotAll, pyUnicode] := by
  have hv : p.testBit 6 = false := by
    cases hp : p.testBit 6
    · rfl
    · unfold fromPythonFlags at h
      rw [if_pos hp] at h
      cases h
  obtain ⟨f', hf, hb⟩ := fromPython_bits hv
  rw [hf] at h
  cases h
  have h6 : f.testBit 6 = false := by
    cases ht : f.testBit 6
    · rfl
    · have := (hb 6).1 ht
      omega
  obtain ⟨q, hq, hqb⟩ := asPython_bits h6
  refine ⟨q, by unfold asPythonFlags; rw [hq], fun b => ?_⟩
  rw [hqb, hb, hb, hb, hb, hb]
  simp only [pyIgnoreCase, pyMultiline, pyDotAll, pyUnicode, List.mem_cons, List.not_mem_nil, or_false]
  constructor
  · rintro (⟨rfl, h⟩ | ⟨rfl, h⟩ | ⟨rfl, h⟩ | ⟨rfl, h⟩) <;> simp at h <;> simp [h]
  · rintro ⟨h, rfl | rfl | rfl | rfl⟩ <;> simp [h]

/-- C54: JavaScript flags, converted and converted back, keep `i`, `m` and `s`, and have `v` in place of `u`
or `v`. -/
theorem C54_js_flags_come_back (f p : Nat) (throw : Bool) (h : asPythonFlags f throw = .ok (some p)) :
    ∃ f', fromPythonFlags p = .ok f' ∧
      ∀ c, HasLetter f' c ↔ (c ∈ ['i', 'm', 's'] ∧ HasLetter f c) ∨
        (c = 'v' ∧ (HasLetter f 'u' ∨ HasLetter f 'v')) := by
  have hl : f.testBit 6 = false := by
    cases ht : f.testBit 6
    · rfl
    · have := (C54_as_python_flags f throw).1 ((hasLetter_l f).2 ht)
      rw [this] at h
      cases throw <;> cases h
  obtain ⟨q, hq, hqb⟩ := asPython_bits hl
  unfold asPythonFlags at h
  rw [hq] at h
  cases h
  have h6 : p.testBit 6 = false := by
    cases ht : p.testBit 6
    · rfl
    · have := (hqb 6).1 ht
      omega
  obtain ⟨f', hf, hb⟩ := fromPython_bits h6
  refine ⟨f', hf, fun c => ?_⟩
  simp only [hasLetter_iff, hb, hqb]
  constructor
  · rintro (⟨rfl, h⟩ | ⟨rfl, h⟩ | ⟨rfl, h⟩ | ⟨rfl, h⟩ | ⟨rfl, h⟩ | ⟨rfl, h⟩ | ⟨rfl, h⟩ | ⟨rfl, h⟩ | ⟨rfl, h⟩) <;>
      simp at h <;> simp [h]
  · rintro (⟨hc, h⟩ | ⟨rfl, h⟩)
    · simp only [List.mem_cons, List.not_mem_nil, or_false] at hc
      rcases hc with rfl | rfl | rfl <;> simp at h <;> simp [h]
    · simp at h
      simp [h]

/-! ## The text form -/

theorem flagsStr_mem (f : Nat) (c : Char) : c.toNat ∈ flagsStr f ↔ HasLetter f c := by
  rw [hasLetter_iff]
  unfold flagsStr
  simp only [List.mem_map, mem_flagMembers]
  have inj : ∀ d : Char, c.toNat = d.toNat → c = d := fun d h => Char.toNat_inj.1 h
  constructor
  · rintro ⟨d, ⟨hm, hb⟩, hc⟩
    simp only [jsFlagDefs, List.mem_cons, List.not_mem_nil, or_false] at hm
    rcases hm with rfl | rfl | rfl | rfl | rfl | rfl | rfl | rfl | rfl
    · obtain rfl := inj 'd' hc.symm; simp [hb]
    · obtain rfl := inj 'g' hc.symm; simp [hb]
    · obtain rfl := inj 'i' hc.symm; simp [hb]
    · obtain rfl := inj 'l' hc.symm; simp [hb]
    · obtain rfl := inj 'm' hc.symm; simp [hb]
    · obtain rfl := inj 's' hc.symm; simp [hb]
    · obtain rfl := inj 'u' hc.symm; simp [hb]
    · obtain rfl := inj 'v' hc.symm; simp [hb]
    · obtain rfl := inj 'y' hc.symm; simp [hb]
  · rintro (⟨rfl, h⟩ | ⟨rfl, h⟩ | ⟨rfl, h⟩ | ⟨rfl, h⟩ | ⟨rfl, h⟩ | ⟨rfl, h⟩ | ⟨rfl, h⟩ | ⟨rfl, h⟩ | ⟨rfl, h⟩)
    · exact ⟨⟨103, 0, some none⟩, ⟨by decide, h⟩, rfl⟩
    · exact ⟨⟨105, 1, some (some 1)⟩, ⟨by decide, h⟩, rfl⟩
    · exact ⟨⟨109, 2, some (some 3)⟩, ⟨by decide, h⟩, rfl⟩
    · exact ⟨⟨121, 3, some none⟩, ⟨by decide, h⟩, rfl⟩
    · exact ⟨⟨117, 4, some (some 5)⟩, ⟨by decide, h⟩, rfl⟩
    · exact ⟨⟨115, 5, some (some 4)⟩, ⟨by decide, h⟩, rfl⟩
    · exact ⟨⟨108, 6, none⟩, ⟨by decide, h⟩, rfl⟩
    · exact ⟨⟨100, 7, some none⟩, ⟨by decide, h⟩, rfl⟩
    · exact ⟨⟨118, 8, some (some 5)⟩, ⟨by decide, h⟩, rfl⟩

/-- C54: `str(flags)` has the letters of the flags that are set, each once, in alphabetical order. -/
theorem C54_text (f : Nat) :
    (flagsStr f).Pairwise (· < ·) ∧ ∀ c : Char, c.toNat ∈ flagsStr f ↔ HasLetter f c := by
  refine ⟨?_, flagsStr_mem f⟩
  unfold flagsStr flagMembers
  have : (jsFlagDefs.map (·.char)).Pairwise (· < ·) := by decide
  exact this.sublist (List.filter_sublist.map _)

/-- C54: two flag values have the same text exactly if they have the same meaningful bits. -/
theorem C54_text_determines_flags (f g : Nat) : flagsStr f = flagsStr g ↔ canonicalFlags f = canonicalFlags g := by
  obtain ⟨hlf, hf, _⟩ := C43_canonical f
  obtain ⟨hlg, hg, _⟩ := C43_canonical g
  constructor
  · intro h
    have hm : ∀ c, HasLetter f c ↔ HasLetter g c := fun c => by rw [← flagsStr_mem, ← flagsStr_mem, h]
    simp only [hasLetter_iff] at hm
    refine Nat.eq_of_testBit_eq fun i => ?_
    by_cases hi : i < 9
    · rw [hf i hi, hg i hi]
      have b0 := hm 'g'
      have b1 := hm 'i'
      have b2 := hm 'm'
      have b3 := hm 'y'
      have b4 := hm 'u'
      have b5 := hm 's'
      have b6 := hm 'l'
      have b7 := hm 'd'
      have b8 := hm 'v'
      simp at b0 b1 b2 b3 b4 b5 b6 b7 b8
      rw [Bool.eq_iff_iff]
      have : i = 0 ∨ i = 1 ∨ i = 2 ∨ i = 3 ∨ i = 4 ∨ i = 5 ∨ i = 6 ∨ i = 7 ∨ i = 8 := by omega
      rcases this with rfl | rfl | rfl | rfl | rfl | rfl | rfl | rfl | rfl <;> simpa using by assumption
    · rw [Nat.testBit_lt_two_pow (Nat.lt_of_lt_of_le hlf (Nat.pow_le_pow_right (by decide) (by omega))),
        Nat.testBit_lt_two_pow (Nat.lt_of_lt_of_le hlg (Nat.pow_le_pow_right (by decide) (by omega)))]
  · intro h
    unfold flagsStr flagMembers
    congr 1
    refine List.filter_congr fun d hd => ?_
    have hb : d.bit < 9 := by
      revert d
      decide
    rw [← hf _ hb, ← hg _ hb, h]

example : flagsStr 0b1110010001 = str "dguv" := by decide

/-! ## Patterns -/

/-- The text of a pattern: itself, or decoded from UTF-8. -/
def PatternText : PySource → Str → Prop
  | .str s, t => t = s
  | .bytes b, t => utf8Encode t = some b

theorem patternSource_ok {src : PySource} {t : Str} (h : PatternText src t) : patternSource src = .ok t := by
  cases src with
  | str s => simp only [PatternText] at h; subst h; rfl
  | bytes b =>
    simp only [PatternText] at h
    simp only [patternSource]
    rw [utf8Decode_encode h]

theorem fromPython_valid {p f : Nat} (h : fromPythonFlags p = .ok f) :
    p.testBit pyVerbose = false ∧ f < 2 ^ 9 ∧ f.testBit 4 = false := by
  cases hv : p.testBit pyVerbose
  · obtain ⟨f', hf, hlt, hm⟩ := (C54_from_python_flags p).2 hv
    rw [hf] at h
    cases h
    refine ⟨rfl, hlt, ?_⟩
    cases ht : f.testBit 4
    · rfl
    · exact absurd rfl ((hm 'u').1 ((hasLetter_iff f 'u').2 (by simp [ht]))).1
  · rw [(C54_from_python_flags p).1 hv] at h
    cases h

/-- C54: a pattern without VERBOSE becomes the RegExp with its text (`(?:)` if it is empty) and the
converted flags; the constructor's check of the flags never fails.  With VERBOSE the result is
JSRegExpV8SerializeError, or None if `throw` is off. -/
theorem C54_from_pattern_partial (src : PySource) (flags : Nat) (text : Str) (ht : PatternText src text) (throw : Bool) :
    (flags.testBit pyVerbose = true →
      fromPythonPattern ⟨src, flags⟩ throw = if throw then .error .jsRegExpError else .ok none) ∧
    (flags.testBit pyVerbose = false → ∃ f, fromPythonFlags flags = .ok f ∧
      fromPythonPattern ⟨src, flags⟩ throw = .ok (some ⟨if text = [] then str "(?:)" else text, f⟩)) := by
  have hs := patternSource_ok ht
  refine ⟨fun h => ?_, fun h => ?_⟩
  · unfold fromPythonPattern
    simp only [hs, (C54_from_python_flags flags).1 h]
  · obtain ⟨f, hf, _, _⟩ := (C54_from_python_flags flags).2 h
    obtain ⟨_, hlt, h4⟩ := fromPython_valid hf
    refine ⟨f, hf, ?_⟩
    unfold fromPythonPattern
    simp only [hs, hf]
    unfold mkRegExp flagUnicode
    simp only [flagMember_small (known := 511) (Nat.lt_trans hlt (by decide)), ne_eq, not_true, h4, Bool.false_and, Bool.false_eq_true, if_false]

/-- Missing from the full property: a `bytes` pattern that is not UTF-8 raises UnicodeDecodeError (a
ValueError), also with `throw` off. -/
theorem C54_bad_bytes_raise : fromPythonPattern ⟨.bytes [0xff], 0⟩ false = .error .valueError := by decide

example : fromPythonPattern ⟨.str (str "a.c"), 0b110010⟩ true = .ok (some ⟨str "a.c", 0b100100010⟩) := by decide +kernel
example : fromPythonPattern ⟨.bytes [0xc3, 0xa9], 0⟩ true = .ok (some ⟨[0xe9], 0⟩) := by decide +kernel
example : fromPythonPattern ⟨.str [], 32⟩ true = .ok (some ⟨str "(?:)", 0b100000000⟩) := by decide +kernel

/-- C54: converting a RegExp to a pattern compiles its source with the converted flags.  Only
`JSRegExpV8SerializeError` comes from the conversion, and none with `throw` off; other exceptions of
`re.compile` pass through. -/
theorem C54_as_pattern {π : Type} (compile : Str → Nat → Compiled π) (r : RegExp) (throw : Bool) :
    (HasLetter r.flags 'l' →
      asPythonPattern compile r throw = if throw then .error .jsRegExpError else .ok none) ∧
    (¬ HasLetter r.flags 'l' → ∃ p, asPythonFlags r.flags true = .ok (some p) ∧
      asPythonPattern compile r throw =
        match compile r.source p with
        | .ok q => .ok (some q)
        | .reError => if throw then .error .jsRegExpError else .ok none
        | .other e => .error e) := by
  refine ⟨fun h => ?_, fun h => ?_⟩
  · unfold asPythonPattern
    rw [(C54_as_python_flags r.flags true).1 h]
    rfl
  · obtain ⟨p, hp, _⟩ := (C54_as_python_flags r.flags true).2 h
    refine ⟨p, hp, ?_⟩
    unfold asPythonPattern
    simp only [hp]
    cases compile r.source p <;> rfl

/-- C54: a pattern that is serialised comes back as the RegExp it converts to. -/
theorem C54_pattern_through_dumps (p : PyPattern) (r : RegExp) (h : fromPythonPattern p true = .ok (some r))
    (env : EEnv) (hh : env.heap = [.regexp r]) (ht : NoTwins env) (denv : DEnv) (hpy : denv.py = env.py) (bytes : Bytes)
    (hd : dumps env (.obj 0) = .ok bytes) :
    ∃ j ds, loads denv bytes = .ok (.obj j, ds) ∧ ds.heap[j]? = some (.regexp r) := by
  have hr : mkRegExp r.source r.flags = .ok r ∧ canonicalFlags r.flags = r.flags := by
    unfold fromPythonPattern at h
    cases hs : patternSource p.source with
    | error e => rw [hs] at h; cases h
    | ok text =>
      rw [hs] at h
      simp only at h
      cases hf : fromPythonFlags p.flags with
      | error e => rw [hf] at h; cases h
      | ok f =>
        rw [hf] at h
        simp only at h
        cases hm : mkRegExp text f with
        | error e => rw [hm] at h; cases h
        | ok r' =>
          rw [hm] at h
          cases h
          obtain ⟨hne, hu, hfl, _⟩ := C43_valid text f r hm
          obtain ⟨_, hlt, _⟩ := fromPython_valid hf
          refine ⟨?_, ?_⟩
          · unfold mkRegExp
            have hs : r.flags < 2 ^ 64 := by rw [hfl]; exact Nat.lt_trans hlt (by decide)
            rw [if_neg (fun hn => hn (flagMember_small hs)), if_neg (by simpa [flagUnicode, flagUnicodeSets] using hu), if_neg hne]
          · rw [hfl]
            unfold canonicalFlags
            exact (Nat.and_two_pow_sub_one_eq_mod f 9).trans (Nat.mod_eq_of_lt hlt)
  have he : Encodable env := by
    refine ⟨fun i n hi => ?_, fun i j hij hb => ?_⟩
    · rw [hh] at hi
      cases i with
      | zero => cases hi; exact hr.1
      | succ i => simp at hi
    · exfalso
      unfold IsBuffer at hb
      rw [hh] at hb
      cases i with
      | zero => exact hb
      | succ i => simp at hb
  have hn : NumbersAgree env (.obj 0) := by
    refine .inr ⟨ht, fun x _ => ?_⟩
    rw [hh]
    exact List.count_le_length
  obtain ⟨z, P, w, ds, hl, hg⟩ := C11_round_trip_partial he hpy (.obj 0) hn bytes hd
  obtain ⟨j, hij, hp⟩ := hg.root
  obtain rfl := ht _ _ hij
  obtain ⟨n, hn, hs⟩ := hg.objects _ _ hp
  rw [hh] at hn
  cases hn
  obtain ⟨k, n', rfl, hk, hc⟩ := hs
  refine ⟨k, ds, hl, ?_⟩
  cases n' <;> first | exact hc.elim | skip
  obtain ⟨h1, h2⟩ := hc
  rw [hk]
  rename_i r'
  obtain ⟨rs, rf⟩ := r'
  simp only at h1 h2
  rw [h1, h2, hr.2]

/-- Concrete: `re.compile("a.c", re.I | re.S)` written and read back. -/
example :
    (match dumps (exampleEnc [.regexp ⟨str "a.c", 0b100100010⟩]) (.obj 0) with
      | .ok b => (loads exampleDec b).toOption.map fun r => (r.1, r.2.heap)
      | .error _ => none) = some (.obj 0, [.regexp ⟨str "a.c", 0b100100010⟩]) := by decide +kernel

end V8.Props
