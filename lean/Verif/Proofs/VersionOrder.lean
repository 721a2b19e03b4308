import Verif.Model.Versions

/-!
# The order of versions
-/

namespace V8.Versions

/-- A strict total order given by a Boolean function. -/
structure StrictTotal {α : Type} (lt : α → α → Bool) : Prop where
  irrefl : ∀ a, lt a a = false
  trans : ∀ a b c, lt a b = true → lt b c = true → lt a c = true
  tri : ∀ a b, a ≠ b → lt a b = true ∨ lt b a = true

theorem natLt_total : StrictTotal natLt where
  irrefl a := by simp [natLt]
  trans a b c := by simp only [natLt, decide_eq_true_eq]; omega
  tri a b h := by simp only [natLt, decide_eq_true_eq]; omega

theorem extLt_total {α : Type} {lt : α → α → Bool} (h : StrictTotal lt) : StrictTotal (extLt lt) where
  irrefl a := by cases a <;> simp [extLt, h.irrefl]
  trans a b c := by
    cases a <;> cases b <;> cases c <;> simp [extLt]
    exact h.trans _ _ _
  tri a b := by
    cases a <;> cases b <;> simp [extLt]
    exact h.tri _ _

theorem StrictTotal.asymm {α : Type} {lt : α → α → Bool} (h : StrictTotal lt) {a b : α}
    (hab : lt a b = true) : lt b a = false := by
  cases hb : lt b a with
  | false => rfl
  | true => have := h.trans _ _ _ hab hb; rw [h.irrefl] at this; cases this

theorem pairLt_total {α β : Type} [DecidableEq α] {lt : α → α → Bool} {lt' : β → β → Bool}
    (h : StrictTotal lt) (h' : StrictTotal lt') : StrictTotal (pairLt lt lt') where
  irrefl a := by simp [pairLt, h'.irrefl]
  trans a b c := by
    obtain ⟨a1, a2⟩ := a
    obtain ⟨b1, b2⟩ := b
    obtain ⟨c1, c2⟩ := c
    simp only [pairLt]
    intro hab hbc
    by_cases e : a1 = b1
    · subst e
      rw [if_pos rfl] at hab
      by_cases e' : a1 = c1
      · rw [if_pos e'] at hbc ⊢
        exact h'.trans _ _ _ hab hbc
      · rw [if_neg e'] at hbc ⊢
        exact hbc
    · rw [if_neg e] at hab
      by_cases e' : b1 = c1
      · subst e'
        rw [if_neg e]
        exact hab
      · rw [if_neg e'] at hbc
        have hac := h.trans _ _ _ hab hbc
        rw [if_neg]
        · exact hac
        · intro e2
          subst e2
          rw [h.irrefl] at hac
          cases hac
  tri a b hne := by
    obtain ⟨a1, a2⟩ := a
    obtain ⟨b1, b2⟩ := b
    simp only [pairLt]
    by_cases e : a1 = b1
    · subst e
      simp only [if_true]
      exact h'.tri _ _ fun h2 => hne (by rw [h2])
    · rw [if_neg e, if_neg (Ne.symm e)]
      exact h.tri _ _ e

theorem listLt_total {α : Type} [DecidableEq α] {lt : α → α → Bool} (h : StrictTotal lt) :
    StrictTotal (listLt lt) where
  irrefl a := by
    induction a with
    | nil => rfl
    | cons x t ih => simp [listLt, ih]
  trans a := by
    induction a with
    | nil =>
      intro b c hab hbc
      cases c with
      | nil => cases b <;> simp [listLt] at hbc
      | cons => rfl
    | cons x t ih =>
      intro b c hab hbc
      cases b with
      | nil => simp [listLt] at hab
      | cons y u =>
        cases c with
        | nil => simp [listLt] at hbc
        | cons z w =>
          simp only [listLt] at hab hbc ⊢
          by_cases e : x = y
          · subst e
            rw [if_pos rfl] at hab
            by_cases e' : x = z
            · rw [if_pos e'] at hbc ⊢
              exact ih _ _ hab hbc
            · rw [if_neg e'] at hbc ⊢
              exact hbc
          · rw [if_neg e] at hab
            by_cases e' : y = z
            · subst e'
              rw [if_neg e]
              exact hab
            · rw [if_neg e'] at hbc
              have hac := h.trans _ _ _ hab hbc
              rw [if_neg]
              · exact hac
              · intro e2
                subst e2
                rw [h.irrefl] at hac
                cases hac
  tri a := by
    induction a with
    | nil =>
      intro b hne
      cases b with
      | nil => exact absurd rfl hne
      | cons => exact Or.inl rfl
    | cons x t ih =>
      intro b hne
      cases b with
      | nil => exact Or.inr rfl
      | cons y u =>
        simp only [listLt]
        by_cases e : x = y
        · subst e
          simp only [if_true]
          exact ih _ fun h2 => hne (by rw [h2])
        · rw [if_neg e, if_neg (Ne.symm e)]
          exact h.tri _ _ e

theorem tupleLt_eq (a : List Nat) : ∀ b, tupleLt a b = listLt natLt a b := by
  induction a with
  | nil => intro b; cases b <;> rfl
  | cons x t ih =>
    intro b
    cases b with
    | nil => rfl
    | cons y u =>
      simp only [tupleLt, listLt, natLt, ih]

/-- The key as nested pairs. -/
def Key.tup (k : Key) : Nat × List Nat × Ext (Str × Nat) × Ext (Str × Nat) × Ext (Str × Nat) ×
    Ext (List (Ext Nat × Str)) := (k.epoch, k.release, k.pre, k.post, k.dev, k.loc)

theorem Key.lt_tup (a b : Key) : a.lt b =
    pairLt natLt (pairLt (listLt natLt) (pairLt (extLt letterLt) (pairLt (extLt letterLt)
      (pairLt (extLt letterLt) (extLt (listLt localPartLt)))))) a.tup b.tup := by
  unfold Key.lt pairLt Key.tup
  by_cases h1 : a.epoch = b.epoch
  · by_cases h2 : a.release = b.release
    · by_cases h3 : a.pre = b.pre
      · by_cases h4 : a.post = b.post
        · by_cases h5 : a.dev = b.dev <;> simp [h1, h2, h3, h4, h5]
        · simp [h1, h2, h3, h4]
      · simp [h1, h2, h3]
    · simp [h1, h2, tupleLt_eq]
  · simp [h1]

theorem letterLt_total : StrictTotal letterLt := pairLt_total (listLt_total natLt_total) natLt_total

theorem localPartLt_total : StrictTotal localPartLt :=
  pairLt_total (extLt_total natLt_total) (listLt_total natLt_total)

theorem keyLt_total : StrictTotal Key.lt := by
  have h := pairLt_total natLt_total (pairLt_total (listLt_total natLt_total)
    (pairLt_total (extLt_total letterLt_total) (pairLt_total (extLt_total letterLt_total)
      (pairLt_total (extLt_total letterLt_total) (extLt_total (listLt_total localPartLt_total))))))
  constructor
  · intro a; rw [Key.lt_tup]; exact h.irrefl _
  · intro a b c; rw [Key.lt_tup, Key.lt_tup, Key.lt_tup]; exact h.trans _ _ _
  · intro a b hne
    rw [Key.lt_tup, Key.lt_tup]
    refine h.tri _ _ fun e => hne ?_
    obtain ⟨a1, a2, a3, a4, a5, a6⟩ := a
    obtain ⟨b1, b2, b3, b4, b5, b6⟩ := b
    simp only [Key.tup, Prod.mk.injEq] at e
    obtain ⟨rfl, rfl, rfl, rfl, rfl, rfl⟩ := e
    rfl

theorem le_iff_not_lt (v w : Version) : v.le w = true ↔ w.lt v = false := by
  unfold Version.le Version.lt
  simp only [Bool.or_eq_true, decide_eq_true_eq]
  constructor
  · rintro (h | h)
    · rw [h]; exact keyLt_total.irrefl _
    · exact keyLt_total.asymm h
  · intro h
    by_cases e : v.key = w.key
    · exact Or.inl e
    · rcases keyLt_total.tri _ _ e with h2 | h2
      · exact Or.inr h2
      · rw [h2] at h; cases h

theorem le_trans' {u v w : Version} (h1 : u.le v = true) (h2 : v.le w = true) : u.le w = true := by
  unfold Version.le at h1 h2 ⊢
  simp only [Bool.or_eq_true, decide_eq_true_eq] at h1 h2 ⊢
  rcases h1 with e1 | h1
  · rw [e1]; exact h2
  · rcases h2 with e2 | h2
    · rw [← e2]; exact Or.inr h1
    · exact Or.inr (keyLt_total.trans _ _ _ h1 h2)

theorem le_total' (v w : Version) : v.le w = true ∨ w.le v = true := by
  by_cases h : w.lt v = true
  · right
    unfold Version.le
    unfold Version.lt at h
    rw [h, Bool.or_true]
  · left
    rw [le_iff_not_lt]
    simpa using h

theorem collect_has (v : Version) (f : Feature) (l : List Feature) : ∀ fs : Features,
    (collect v l fs).has f = (fs.has f || (l.contains f && hasFeature f v)) := by
  induction l with
  | nil => intro fs; simp [collect]
  | cons g t ih =>
    intro fs
    simp only [collect, ih, List.contains_cons]
    by_cases hg : hasFeature g v = true
    · rw [if_pos hg]
      by_cases e : f = g
      · subst e
        rw [hg]
        cases f <;> simp [Features.has, Features.add]
      · have hb : (f == g) = false := by simpa using e
        have hadd : (fs.add g).has f = fs.has f := by
          cases f <;> cases g <;> simp_all [Features.has, Features.add]
        rw [hb, hadd, Bool.false_or]
    · rw [if_neg hg]
      by_cases e : f = g
      · subst e
        have : hasFeature f v = false := by simpa using hg
        rw [this]; simp
      · have hb : (f == g) = false := by simpa using e
        rw [hb, Bool.false_or]

theorem supported_has {v : Version} {fs : Features} (h : supportedByVersion v = .ok fs) (f : Feature) :
    fs.has f = hasFeature f v := by
  unfold supportedByVersion at h
  split at h
  · cases h
  · cases h
    rw [collect_has]
    have h1 : Features.none.has f = false := by cases f <;> rfl
    have h2 : Feature.all.contains f = true := by cases f <;> decide
    rw [h1, h2]; simp

theorem features_ext' {a b : Features} (h : ∀ f, a.has f = b.has f) : a = b := by
  obtain ⟨a1, a2, a3, a4⟩ := a
  obtain ⟨b1, b2, b3, b4⟩ := b
  have h1 := h .regExpUnicodeSets
  have h2 := h .resizableArrayBuffers
  have h3 := h .circularErrorCause
  have h4 := h .float16Array
  simp only [Features.has] at h1 h2 h3 h4
  subst h1 h2 h3 h4
  rfl

theorem hasFeature_mono {v w : Version} (hle : v.le w = true) {f : Feature}
    (h : hasFeature f v = true) : hasFeature f w = true := by
  unfold hasFeature at h ⊢
  cases hf : f.first with
  | unreleased => rw [hf] at h; cases h
  | rel r => rw [hf] at h; exact le_trans' h hle

theorem not_lt_mono {u v w : Version} (hle : v.le w = true) (h : v.lt u = false) : w.lt u = false := by
  rw [← le_iff_not_lt] at h ⊢
  exact le_trans' h hle

theorem key_plain (r : List Nat) : (plain r).key = ⟨0, stripZeros r, .inf, .neg, .inf, .neg⟩ := rfl

theorem extLt_neg {α : Type} (lt : α → α → Bool) (x : Ext α) : extLt lt x .neg = false := by
  cases x <;> rfl

/-- Whether a version is older than plain release numbers does not depend on its local part. -/
theorem lt_plain_loc (v : Version) (l : Option (List (Nat ⊕ Str))) (r : List Nat) :
    ({ v with loc := l } : Version).lt (plain r) = v.lt (plain r) := by
  unfold Version.lt
  rw [key_plain]
  simp only [Key.lt, Version.key, extLt_neg]

theorem le_plain_loc (v : Version) (l : Option (List (Nat ⊕ Str))) (r : List Nat) :
    (plain r).le { v with loc := l } = (plain r).le v := by
  have h1 := le_iff_not_lt (plain r) { v with loc := l }
  have h2 := le_iff_not_lt (plain r) v
  rw [lt_plain_loc] at h1
  cases ha : (plain r).le { v with loc := l } <;> cases hb : (plain r).le v <;> simp_all

theorem supported_loc (v : Version) (l : Option (List (Nat ⊕ Str))) :
    supportedByVersion { v with loc := l } = supportedByVersion v := by
  unfold supportedByVersion
  rw [lt_plain_loc]
  split
  · rfl
  · congr 1
    apply features_ext'
    intro f
    rw [collect_has, collect_has]
    have : hasFeature f { v with loc := l } = hasFeature f v := by
      unfold hasFeature
      cases f.first with
      | unreleased => rfl
      | rel r => exact le_plain_loc v l r
    rw [this]

/-- For release numbers alone this is the simpler model of `Model/Config.lean`. -/
theorem plain_lt (a b : List Nat) : (plain a).lt (plain b) = (Ver.rel a).lt (Ver.rel b) := by
  unfold Version.lt
  rw [key_plain, key_plain]
  simp only [Key.lt, Ver.lt, ne_eq, not_true, if_false, extLt, natLt]
  by_cases h : stripZeros a = stripZeros b
  · rw [if_neg (by simpa using h), h]
    rw [tupleLt_eq, (listLt_total natLt_total).irrefl]
  · rw [if_pos h]

theorem plain_le (a b : List Nat) : (plain a).le (plain b) = (Ver.rel a).le (Ver.rel b) := by
  have h := le_iff_not_lt (plain a) (plain b)
  rw [plain_lt] at h
  simp only [Ver.lt, Ver.le] at h ⊢
  cases ha : (plain a).le (plain b) <;> cases hb : tupleLt (stripZeros b) (stripZeros a) <;> simp_all

theorem hasFeature_plain (f : Feature) (r : List Nat) :
    hasFeature f (plain r) = f.first.le (.rel r) := by
  unfold hasFeature
  cases f <;> simp only [Feature.first, plain_le] <;> rfl

theorem collect_plain (r : List Nat) (l : List Feature) : ∀ fs : Features,
    collect (plain r) l fs = Features.collect (.rel r) l fs := by
  induction l with
  | nil => intro fs; rfl
  | cons f t ih => intro fs; simp only [collect, Features.collect, ih, hasFeature_plain]

theorem supported_plain (r : List Nat) : supportedByVersion (plain r) =
    match Features.supportedBy (.rel r) with
    | none => .error .lookup
    | some fs => .ok fs := by
  unfold supportedByVersion Features.supportedBy maxCompatVersion
  rw [plain_lt, collect_plain]
  split <;> rfl

theorem stripZeros_zeros (k : Nat) : stripZeros (List.replicate k 0) = [] := by
  induction k with
  | zero => rfl
  | succ k ih => simp [List.replicate_succ, stripZeros, ih]

theorem stripZeros_append (r : List Nat) (k : Nat) : stripZeros (r ++ List.replicate k 0) = stripZeros r := by
  induction r with
  | nil => rw [List.nil_append, stripZeros_zeros]; rfl
  | cons a r ih => simp only [List.cons_append, stripZeros, ih]

theorem prerelease_lt (v : Version) (r : List Nat) (k : Nat) (he : v.epoch = 0)
    (hr : v.release = r ++ List.replicate k 0) (hp : v.pre ≠ none ∨ (v.post = none ∧ v.dev ≠ none)) :
    v.lt (plain r) = true := by
  unfold Version.lt
  rw [key_plain]
  obtain ⟨e, rel, pre, post, dev, l⟩ := v
  simp only at he hr hp
  subst he hr
  cases pre with
  | some p => simp [Key.lt, Version.key, stripZeros_append, extLt]
  | none =>
    rcases hp with hp | ⟨hp, hd⟩
    · exact absurd rfl hp
    · subst hp
      cases dev with
      | none => exact absurd rfl hd
      | some d => simp [Key.lt, Version.key, stripZeros_append, extLt]

end V8.Versions
