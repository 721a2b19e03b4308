import Verif.Proofs.VersionTexts
import Verif.Props.Config

/-!
# C71: version texts and the features they select
-/

namespace V8.Props

open V8.Versions V8.Spec

/-- C71: a text without capital letters (and the four other characters that `re.IGNORECASE` treats as
letters) and without white space which `packaging` accepts is the same version for
`parse_lenient_version`.
Full statement: the same for every text.  It is false with capital letters and with white space,
see `C71_capital_refused`, `C71_space_refused` and `C71_capital_other`. -/
theorem C71_same_partial (s : Str)
    (h : ∀ c ∈ s, ¬ (65 ≤ c ∧ c ≤ 90) ∧ c ≠ 0x130 ∧ c ≠ 0x131 ∧ c ≠ 0x17f ∧ c ≠ 0x212a)
    (hs : ∀ c ∈ s, isSpaceChar c = false) (v : Version) (hv : version s = .ok v) :
    parseLenient s = .ok v := lenient_same h hs hv

example : version (str "v1!12.9-rc.3-1.dev+ab-c.7") =
    .ok ⟨1, [12, 9], some (str "rc", 3), some (str "post", 1), some (str "dev", 0),
      some [.inr (str "ab"), .inr (str "c"), .inl 7]⟩ ∧
    (∀ c ∈ str "v1!12.9-rc.3-1.dev+ab-c.7",
      ¬ (65 ≤ c ∧ c ≤ 90) ∧ c ≠ 0x130 ∧ c ≠ 0x131 ∧ c ≠ 0x17f ∧ c ≠ 0x212a) ∧
    (∀ c ∈ str "v1!12.9-rc.3-1.dev+ab-c.7", isSpaceChar c = false) := by decide +kernel

/-- C71 fails: `V12.9` is a version for `packaging`, but not for the parser that is less strict. -/
theorem C71_capital_refused :
    version (str "V12.9") = .ok (plain [12, 9]) ∧ parseLenient (str "V12.9") = .error .invalid := by
  decide +kernel

/-- C71 fails: so is a version with a space before it. -/
theorem C71_space_refused :
    version (str " 12.9") = .ok (plain [12, 9]) ∧ parseLenient (str " 12.9") = .error .invalid := by
  decide +kernel

/-- C71 fails: `10.0.29-RC1` is a release candidate for `packaging`, older than 10.0.29 and so without
a feature set; here it is 10.0.29 with a local part. -/
theorem C71_capital_other :
    (version (str "10.0.29-RC1")).map supportedByVersion = .ok (.error .lookup) ∧
    supportedByText (str "10.0.29-RC1") = .ok Features.none ∧
    supportedByText (str "10.0.29-rc1") = .error .lookup := by
  decide +kernel

/-- C71: release numbers are parsed as written, and select the features of C24. -/
theorem C71_release (r : List Nat) (hr : r ≠ []) (hn : ∀ n ∈ r, n < 10 ^ maxStrDigits) :
    parseLenient (dotted r) = .ok { release := r } ∧
    supportedByText (dotted r) =
      match Features.supportedBy (.rel r) with
      | none => .error .lookup
      | some fs => .ok fs := by
  have h := lenient_dotted hr hn
  refine ⟨h, ?_⟩
  unfold supportedByText
  rw [h]
  exact supported_plain r

/-- Small numbers are below the limit of `int()`. -/
theorem small_numbers {r : List Nat} (h : ∀ n ∈ r, n < 10 ^ 20) : ∀ n ∈ r, n < 10 ^ maxStrDigits := by
  intro n hn
  refine Nat.lt_of_lt_of_le (h n hn) (Nat.pow_le_pow_right (by decide) (by decide))

example : dotted [12, 9, 202, 2] = str "12.9.202.2" ∧ (∀ n ∈ [12, 9, 202, 2], n < 10 ^ maxStrDigits) :=
  ⟨by decide, small_numbers (by decide)⟩

/-- C71: release numbers, `-` and a suffix of words joined by `.` or `_`, if not a version by itself,
is that release with the words as its local part. -/
theorem C71_suffix (r : List Nat) (hr : r ≠ []) (hn : ∀ n ∈ r, n < 10 ^ maxStrDigits)
    (w : Suffix) (hw : w.Ok) (hv : version (dotted r ++ str "-" ++ w.text) = .error .invalid) :
    parseLenient (dotted r ++ str "-" ++ w.text) = .ok { release := r, loc := some w.parts } := by
  have e : dotted r ++ str "-" ++ w.text = dotted r ++ 45 :: w.text := by simp [str]
  rw [e] at hv ⊢
  exact lenient_suffix hr hn hw hv

/-- C71: such a suffix does not change the features selected. -/
theorem C71_suffix_features (r : List Nat) (hr : r ≠ []) (hn : ∀ n ∈ r, n < 10 ^ maxStrDigits)
    (w : Suffix) (hw : w.Ok) (hv : version (dotted r ++ str "-" ++ w.text) = .error .invalid) :
    supportedByText (dotted r ++ str "-" ++ w.text) = supportedByText (dotted r) := by
  unfold supportedByText
  rw [C71_suffix r hr hn w hw hv, (C71_release r hr hn).1]
  exact supported_loc { release := r } (some w.parts)

/-- `rusty_Node.33` -/
def rusty : Suffix := ⟨str "rusty", [(95, str "Node"), (46, str "33")]⟩

example : rusty.text = str "rusty_Node.33" ∧
    rusty.parts = [.inr (str "rusty"), .inr (str "node"), .inl 33] ∧
    version (dotted [12, 9, 202, 2] ++ str "-" ++ rusty.text) = .error .invalid := by decide +kernel

example : rusty.Ok := by
  unfold Suffix.Ok Word rusty
  decide

/-- C71: whatever is parsed is `packaging`'s version of the text, or of the text with one `-` turned
into `+` (and a final line feed dropped). -/
theorem C71_split (s : Str) (v : Version) (h : parseLenient s = .ok v) :
    version s = .ok v ∨ ∃ p w, w ≠ [] ∧ (s = p ++ str "-" ++ w ∨ s = p ++ str "-" ++ w ++ str "\n") ∧
      version (p ++ str "+" ++ w) = .ok v := by
  unfold parseLenient at h
  cases hm : lenientMatch s with
  | none => rw [hm] at h; cases h
  | some m =>
    obtain ⟨g, rest, x⟩ := m
    rw [hm] at h
    obtain ⟨hp, hx⟩ := lenientMatch_cases hm
    cases x with
    | none => exact Or.inl h
    | some w =>
      right
      simp only at h
      split at h
      · cases h
      · rcases suffixOpt_cases hx with ⟨h0, _⟩ | ⟨u, rfl, h1, h2, h3⟩
        · cases h0
        · cases h1
          obtain ⟨p, hps⟩ := pattern_mem hp
          simp only at hps
          have htake : s.take (s.length - (45 :: u).length) = p := by
            rw [← hps, List.length_append, Nat.add_sub_cancel, List.take_left]
          rw [htake] at h
          refine ⟨p, _, h2, ?_, h⟩
          have hu := List.takeWhile_append_dropWhile (p := fun c => !isSpaceChar c) (l := u)
          have hdrop : u.drop (u.takeWhile fun c => !isSpaceChar c).length =
              u.dropWhile fun c => !isSpaceChar c := by
            conv => lhs; rw [← hu]
            rw [hu]
            nth_rewrite 2 [← hu]
            rw [List.drop_left]
          rw [hdrop] at h3
          have e45 : str "-" = [45] := rfl
          have e10 : str "\n" = [10] := rfl
          simp only [atEnd, Bool.or_eq_true, decide_eq_true_eq] at h3
          rw [e45, e10]
          rcases h3 with h3 | h3
          · left
            rw [h3, List.append_nil] at hu
            rw [hu, ← hps]
            simp
          · right
            rw [h3] at hu
            rw [← hps, List.append_assoc, List.append_assoc, hu]
            simp

example : (parseLenient (str "1.0-a-b!c\n")) = .error .invalid ∧
    parseLenient (str "1.0-1-1-x\n") = .ok ⟨0, [1, 0], none, some (str "post", 1), none,
      some [.inl 1, .inr (str "x")]⟩ := by decide +kernel

/-- C71: the errors of `parse_lenient_version`.  Full statement: every other text raises
InvalidVersion (or, with a number of more than 4300 digits, ValueError).  It is false for texts with
`+`, see `C71_assertion`. -/
theorem C71_invalid_partial (s : Str) (e : VErr) (h : parseLenient s = .error e) (hp : 43 ∉ s) :
    e = .invalid ∨ e = .valueError := by
  have hv : ∀ t, version t = .error e → e = .invalid ∨ e = .valueError := by
    intro t ht
    unfold version at ht
    split at ht
    · cases ht; exact Or.inl rfl
    · exact Or.inr (fromGroups_error ht)
  unfold parseLenient at h
  cases hm : lenientMatch s with
  | none => rw [hm] at h; cases h; exact Or.inl rfl
  | some m =>
    obtain ⟨g, rest, x⟩ := m
    rw [hm] at h
    obtain ⟨hpm, hx⟩ := lenientMatch_cases hm
    cases x with
    | none => exact hv _ h
    | some w =>
      have : g.loc = none := pattern_loc hp hpm
      simp only [this, Option.isSome_none, Bool.false_eq_true, if_false] at h
      exact hv _ h

example : parseLenient (str "afsdf") = .error .invalid ∧ 43 ∉ str "afsdf" := by decide +kernel

/-- C71 fails: a local part followed by a suffix is an AssertionError. -/
theorem C71_assertion : parseLenient (str "1.0+abc-d!f") = .error .assertion := by decide +kernel

/-- C71: `<=` on versions of any form (epoch, release, pre-, post- and development parts, local part)
is a total preorder, and `<` is its strict part. -/
theorem C71_order (u v w : Version) :
    (u.le v = true ∨ v.le u = true) ∧ (u.le v = true → v.le w = true → u.le w = true) ∧
    (u.lt v = true ↔ ¬ v.le u = true) := by
  refine ⟨le_total' u v, le_trans', ?_⟩
  rw [le_iff_not_lt]
  simp

example : (⟨0, [1, 0], none, none, some (str "dev", 0), none⟩ : Version).lt ⟨0, [1], some (str "a", 0), none, none, none⟩ ∧
    (⟨0, [1], some (str "a", 0), none, none, none⟩ : Version).lt ⟨0, [1], some (str "rc", 0), none, none, none⟩ ∧
    (⟨0, [1], some (str "rc", 0), none, none, none⟩ : Version).lt ⟨0, [1, 0, 0], none, none, none, none⟩ ∧
    (⟨0, [1], none, none, none, none⟩ : Version).lt ⟨0, [1], none, none, none, some [.inr (str "x")]⟩ ∧
    (⟨0, [1], none, none, none, some [.inr (str "x")]⟩ : Version).lt ⟨0, [1], none, some (str "post", 0), none, none⟩ := by
  decide +kernel

/-- C71: a version that is at least another has all its features, whatever the form of the two. -/
theorem C71_monotone (v w : Version) (hle : v.le w = true) (fv : Features)
    (hv : supportedByVersion v = .ok fv) :
    ∃ fw, supportedByVersion w = .ok fw ∧ ∀ f, fv.has f = true → fw.has f = true := by
  have hlt : v.lt (plain [10, 0, 29]) = false := by
    unfold supportedByVersion at hv
    split at hv
    · cases hv
    · rename_i h; simpa using h
  have hw : supportedByVersion w = .ok (collect w Feature.all Features.none) := by
    unfold supportedByVersion
    rw [not_lt_mono hle hlt]
    rfl
  refine ⟨_, hw, ?_⟩
  intro f hf
  rw [supported_has hv] at hf
  rw [supported_has hw]
  exact hasFeature_mono hle hf

example : (⟨0, [12, 0], none, none, none, some [.inl 1]⟩ : Version).le ⟨0, [12, 1], some (str "rc", 1), none, none, none⟩ ∧
    supportedByVersion ⟨0, [12, 0], none, none, none, some [.inl 1]⟩ = .ok ⟨true, true, false, false⟩ := by
  decide +kernel

/-- C71: a local part does not change the features. -/
theorem C71_local (v : Version) (l : Option (List (Nat ⊕ Str))) :
    supportedByVersion { v with loc := l } = supportedByVersion v := supported_loc v l

/-- A version comes before the plain release `r`: no epoch, and its numbers are older or they are the
same and it is a pre-release or a development release. -/
def Before (v : Version) (r : List Nat) : Prop :=
  v.epoch = 0 ∧ (Older v.release r ∨
    (∀ i, component v.release i = component r i) ∧ (v.pre ≠ none ∨ (v.post = none ∧ v.dev ≠ none)))

theorem strip_eq_iff (a b : List Nat) : stripZeros a = stripZeros b ↔ ∀ i, component a i = component b i := by
  constructor
  · intro h i
    rw [← component_strip, h, component_strip]
  · intro h
    by_contra hne
    rcases (listLt_total natLt_total).tri _ _ hne with h1 | h1 <;> rw [← tupleLt_eq] at h1
    · rw [tupleLt_iff _ _ (strip_idem _) (strip_idem _), older_strip] at h1
      obtain ⟨i, hi, _⟩ := h1
      rw [h i] at hi
      omega
    · rw [tupleLt_iff _ _ (strip_idem _) (strip_idem _), older_strip] at h1
      obtain ⟨i, hi, _⟩ := h1
      rw [h i] at hi
      omega

/-- The code's `<` between any version and plain release numbers is the order just stated. -/
theorem before_iff (v : Version) (r : List Nat) : v.lt (plain r) = true ↔ Before v r := by
  have hrel : tupleLt (stripZeros v.release) (stripZeros r) = true ↔ Older v.release r := by
    rw [tupleLt_iff _ _ (strip_idem _) (strip_idem _), older_strip]
  unfold Version.lt Before
  rw [key_plain]
  by_cases he : v.epoch = 0
  swap
  · simp [Key.lt, Version.key, he, natLt]
  by_cases hr : stripZeros v.release = stripZeros r
  · have hc := (strip_eq_iff _ _).1 hr
    have ho : ¬ Older v.release r := by
      rintro ⟨i, hi, _⟩
      rw [hc i] at hi
      omega
    obtain ⟨e, rel, pre, post, dev, l⟩ := v
    simp only at he hr hc ho
    subst he
    cases pre <;> cases post <;> cases dev <;> cases l <;> simp [Key.lt, Version.key, hr, hc, ho, extLt]
  · have hc : ¬ ∀ i, component v.release i = component r i := fun h => hr ((strip_eq_iff _ _).2 h)
    simp only [Key.lt, Version.key, he, ne_eq, not_true, if_false, hr, not_false_iff, if_true, hrel, hc,
      false_and, or_false, true_and]

/-- C71: exactly the versions before 10.0.29 are refused, and a version has a feature exactly when it
does not come before the first version of the feature (never if no V8 has it yet). -/
theorem C71_features_exact (v : Version) :
    (supportedByVersion v = .error .lookup ↔ Before v [10, 0, 29]) ∧
    ∀ fs, supportedByVersion v = .ok fs → ∀ f,
      (∀ r, f.first = .rel r → (fs.has f = true ↔ ¬ Before v r)) ∧
      (f.first = .unreleased → fs.has f = false) := by
  constructor
  · rw [← before_iff]
    unfold supportedByVersion
    split <;> simp_all
  · intro fs hfs f
    rw [supported_has hfs]
    unfold hasFeature
    refine ⟨fun r hr => ?_, fun hr => by rw [hr]⟩
    rw [← before_iff, hr]
    simp only
    rw [le_iff_not_lt]
    simp

example : Before ⟨0, [12, 1, 109, 0], some (str "rc", 1), some (str "post", 3), none, none⟩ [12, 1, 109] :=
  ⟨rfl, Or.inr ⟨fun i => by
    match i with
    | 0 | 1 | 2 | 3 => rfl
    | _ + 4 => rfl, Or.inl (by simp)⟩⟩

example : supportedByVersion ⟨0, [12, 1, 109, 0], none, some (str "post", 3), some (str "dev", 1), none⟩ =
    .ok ⟨true, true, true, false⟩ ∧
    supportedByVersion ⟨1, [0], some (str "a", 3), none, none, none⟩ = .ok ⟨true, true, true, false⟩ := by
  decide +kernel

/-- C71: a pre-release or development release of a feature's first version does not have the feature
(the numbers may be followed by zeros). -/
theorem C71_prerelease (f : Feature) (r : List Nat) (hf : f.first = .rel r) (v : Version) (k : Nat)
    (he : v.epoch = 0) (hr : v.release = r ++ List.replicate k 0)
    (hp : v.pre ≠ none ∨ (v.post = none ∧ v.dev ≠ none)) (fs : Features)
    (hs : supportedByVersion v = .ok fs) : fs.has f = false := by
  rw [supported_has hs]
  unfold hasFeature
  rw [hf]
  simp only
  rw [Bool.eq_false_iff, ne_eq, le_iff_not_lt, prerelease_lt v r k he hr hp]
  simp

/-- C71: nor has a pre-release of 10.0.29 any features: it is refused. -/
theorem C71_prerelease_refused (v : Version) (k : Nat) (he : v.epoch = 0)
    (hr : v.release = [10, 0, 29] ++ List.replicate k 0)
    (hp : v.pre ≠ none ∨ (v.post = none ∧ v.dev ≠ none)) : supportedByVersion v = .error .lookup := by
  unfold supportedByVersion
  rw [prerelease_lt v _ k he hr hp]
  rfl

/-- C71: the order within one release (PEP 440): development releases, pre-releases with their development releases
first, the release, its post-releases with their development releases first. -/
theorem C71_release_cycle (e : Nat) (r : List Nat) (d p q : Str × Nat) :
    Version.lt { epoch := e, release := r, dev := some d } { epoch := e, release := r, pre := some p, dev := some q } = true ∧
    Version.lt { epoch := e, release := r, pre := some p, dev := some d } { epoch := e, release := r, pre := some p } = true ∧
    Version.lt { epoch := e, release := r, pre := some p } { epoch := e, release := r } = true ∧
    Version.lt { epoch := e, release := r } { epoch := e, release := r, post := some p, dev := some d } = true ∧
    Version.lt { epoch := e, release := r, post := some p, dev := some d } { epoch := e, release := r, post := some p } = true := by
  simp [Version.lt, Version.key, Key.lt, extLt]

example : supportedByText (str "12.1.109.0-rc1") = .ok ⟨true, true, false, false⟩ ∧
    supportedByText (str "12.1.109-x") = .ok ⟨true, true, true, false⟩ ∧
    parseLenient (str "12.1.109.0-rc1") = .ok ⟨0, [12, 1, 109] ++ List.replicate 1 0, some (str "rc", 1), none, none, none⟩ := by
  decide +kernel

end V8.Props
