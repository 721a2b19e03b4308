import Verif.Proofs.VersionOrder
import Mathlib.Data.List.Basic

/-!
# Matching version texts
-/

namespace V8.Versions

/-! ## Every match leaves an end of the text -/

theorem plus_mem {p : Nat → Bool} : ∀ {t : Str} {m : Str × Str}, m ∈ plus p t →
    t = m.1 ++ m.2 ∧ m.1 ≠ [] ∧ ∀ c ∈ m.1, p c = true
  | [], m, h => by simp [plus] at h
  | c :: t, m, h => by
    unfold plus at h
    by_cases hc : p c = true
    · rw [if_pos hc, List.mem_append] at h
      rcases h with h | h
      · obtain ⟨k, hk, rfl⟩ := List.mem_map.1 h
        obtain ⟨h1, _, h3⟩ := plus_mem hk
        refine ⟨by simp [← h1], by simp, ?_⟩
        intro x hx
        rcases List.mem_cons.1 hx with rfl | hx
        · exact hc
        · exact h3 x hx
      · have := List.mem_singleton.1 h
        subst this
        exact ⟨rfl, by simp, fun x hx => by rw [List.mem_singleton.1 hx]; exact hc⟩
    · rw [if_neg hc] at h
      cases h

theorem mem_plus {p : Nat → Bool} : ∀ {m r : Str}, m ≠ [] → (∀ c ∈ m, p c = true) →
    (m, r) ∈ plus p (m ++ r)
  | [], r, h, _ => absurd rfl h
  | [c], r, _, h => by
    unfold plus
    simp [h c (by simp)]
  | c :: d :: t, r, _, h => by
    rw [List.cons_append, plus, if_pos (h c (by simp)), List.mem_append]
    left
    exact List.mem_map.2 ⟨(d :: t, r), mem_plus (by simp) (fun x hx => h x (by simp [hx])), rfl⟩

theorem plus_cases (p : Nat → Bool) : ∀ t : Str,
    (plus p t = [] ∧ t.dropWhile p = t ∧ ∀ c u, t = c :: u → p c = false) ∨
    ∃ l, plus p t = (t.takeWhile p, t.dropWhile p) :: l ∧ (∀ x ∈ l, ∃ c u, x.2 = c :: u ∧ p c = true) ∧
      ∃ c u, t = c :: u ∧ p c = true
  | [] => Or.inl ⟨rfl, rfl, by simp⟩
  | c :: t => by
    by_cases hc : p c = true
    · right
      unfold plus
      rw [if_pos hc, List.takeWhile_cons_of_pos hc, List.dropWhile_cons_of_pos hc]
      rcases plus_cases p t with ⟨h1, h2, h3⟩ | ⟨l, h1, h2, h3⟩
      · refine ⟨[], ?_, by simp, c, t, rfl, hc⟩
        have ht : t.takeWhile p = [] := by
          cases t with
          | nil => rfl
          | cons d u => rw [List.takeWhile_cons_of_neg (by simp [h3 d u rfl])]
        rw [h1, h2, ht]
        rfl
      · refine ⟨l.map (fun m => (c :: m.1, m.2)) ++ [([c], t)], ?_, ?_, c, t, rfl, hc⟩
        · rw [h1]; simp
        · intro x hx
          rcases List.mem_append.1 hx with hx | hx
          · obtain ⟨y, hy, rfl⟩ := List.mem_map.1 hx
            exact h2 y hy
          · rw [List.mem_singleton.1 hx]
            exact h3
    · left
      refine ⟨?_, ?_, ?_⟩
      · unfold plus; rw [if_neg hc]
      · rw [List.dropWhile_cons_of_neg hc]
      · intro d u h
        cases h
        simpa using hc

theorem moreWords_mem {sep p : Nat → Bool} : ∀ (n : Nat) {t : Str} {m : Str × Str},
    m ∈ moreWords sep p n t → t = m.1 ++ m.2
  | 0, t, m, h => by
    rw [moreWords] at h
    rw [List.mem_singleton.1 h]; rfl
  | n + 1, t, m, h => by
    unfold moreWords at h
    rw [List.mem_append] at h
    rcases h with h | h
    · cases t with
      | nil => cases h
      | cons c u =>
        by_cases hc : sep c = true
        · simp only [if_pos hc, List.mem_flatMap, List.mem_map] at h
          obtain ⟨k, hk, j, hj, rfl⟩ := h
          have h1 := (plus_mem hk).1
          have h2 := moreWords_mem n hj
          simp only [List.cons_append, List.append_assoc, ← h2, ← h1]
        · simp only [if_neg hc, List.not_mem_nil] at h
    · rw [List.mem_singleton.1 h]; rfl

theorem words_mem {sep p : Nat → Bool} {t : Str} {m : Str × Str} (h : m ∈ words sep p t) :
    t = m.1 ++ m.2 := by
  unfold words at h
  simp only [List.mem_flatMap, List.mem_map] at h
  obtain ⟨k, hk, j, hj, rfl⟩ := h
  have h1 := (plus_mem hk).1
  have h2 := moreWords_mem _ hj
  simp only [List.append_assoc, ← h2, ← h1]

theorem lit_mem {ci : Bool} : ∀ {n t : Str} {m : Str × Str}, lit ci n t = some m → t = m.1 ++ m.2
  | [], t, m, h => by rw [lit] at h; cases h; rfl
  | _ :: _, [], m, h => by rw [lit] at h; cases h
  | x :: xs, c :: t, m, h => by
    rw [lit] at h
    split at h
    · obtain ⟨k, hk, rfl⟩ := Option.map_eq_some_iff.1 h
      have := lit_mem hk
      simp [← this]
    · cases h

theorem suffix_of {b a x : Str} (h : b = a ++ x) : x <:+ b := ⟨a, h.symm⟩

theorem sepOpt_mem {t u : Str} (h : u ∈ sepOpt t) : u <:+ t := by
  unfold sepOpt at h
  split at h
  · rw [List.mem_singleton.1 h]; exact List.suffix_rfl
  · split at h
    · rcases List.mem_cons.1 h with rfl | h
      · exact List.suffix_cons _ _
      · rw [List.mem_singleton.1 h]; exact List.suffix_rfl
    · rw [List.mem_singleton.1 h]; exact List.suffix_rfl

theorem numOpt_mem {t : Str} {m : Option Str × Str} (h : m ∈ numOpt t) : m.2 <:+ t := by
  unfold numOpt at h
  rcases List.mem_append.1 h with h | h
  · obtain ⟨k, hk, rfl⟩ := List.mem_map.1 h
    exact ⟨k.1, (plus_mem hk).1.symm⟩
  · rw [List.mem_singleton.1 h]; exact List.suffix_rfl

theorem letterGroup_mem {ci : Bool} {names : List Str} {t : Str} {m : Str × Option Str × Str}
    (h : m ∈ letterGroup ci names t) : m.2.2 <:+ t := by
  unfold letterGroup at h
  simp only [List.mem_flatMap] at h
  obtain ⟨t1, h1, name, _, h2⟩ := h
  split at h2
  · cases h2
  · rename_i k hk
    simp only [List.mem_flatMap, List.mem_map] at h2
    obtain ⟨x, hx, n, hn, rfl⟩ := h2
    exact (numOpt_mem hn).trans ((sepOpt_mem hx).trans
      ((suffix_of (lit_mem hk)).trans (sepOpt_mem h1)))

theorem localOpt_mem {ci : Bool} {g : Groups} {t : Str} {m : Groups × Str}
    (h : m ∈ localOpt ci g t) : m.2 <:+ t := by
  unfold localOpt at h
  rcases List.mem_append.1 h with h | h
  · split at h
    · cases h
    · split at h
      · obtain ⟨k, hk, rfl⟩ := List.mem_map.1 h
        exact (suffix_of (words_mem hk)).trans (List.suffix_cons _ _)
      · cases h
  · rw [List.mem_singleton.1 h]; exact List.suffix_rfl

theorem devOpt_mem {ci : Bool} {g : Groups} {t : Str} {m : Groups × Str}
    (h : m ∈ devOpt ci g t) : m.2 <:+ t := by
  unfold devOpt at h
  rcases List.mem_append.1 h with h | h
  · obtain ⟨k, hk, h⟩ := List.mem_flatMap.1 h
    exact (localOpt_mem h).trans (letterGroup_mem hk)
  · exact localOpt_mem h

theorem dashNumber_mem {t : Str} {m : Str × Str} (h : m ∈ dashNumber t) : m.2 <:+ t := by
  unfold dashNumber at h
  split at h
  · cases h
  · split at h
    · exact (suffix_of (plus_mem h).1).trans (List.suffix_cons _ _)
    · cases h

theorem postOpt_mem {ci : Bool} {g : Groups} {t : Str} {m : Groups × Str}
    (h : m ∈ postOpt ci g t) : m.2 <:+ t := by
  unfold postOpt at h
  rw [List.mem_append, List.mem_append] at h
  rcases h with (h | h) | h
  · obtain ⟨k, hk, h⟩ := List.mem_flatMap.1 h
    exact (devOpt_mem h).trans (dashNumber_mem hk)
  · obtain ⟨k, hk, h⟩ := List.mem_flatMap.1 h
    exact (devOpt_mem h).trans (letterGroup_mem hk)
  · exact devOpt_mem h

theorem preOpt_mem {ci : Bool} {g : Groups} {t : Str} {m : Groups × Str}
    (h : m ∈ preOpt ci g t) : m.2 <:+ t := by
  unfold preOpt at h
  rcases List.mem_append.1 h with h | h
  · obtain ⟨k, hk, h⟩ := List.mem_flatMap.1 h
    exact (postOpt_mem h).trans (letterGroup_mem hk)
  · exact postOpt_mem h

theorem releasePart_mem {ci : Bool} {g : Groups} {t : Str} {m : Groups × Str}
    (h : m ∈ releasePart ci g t) : m.2 <:+ t := by
  obtain ⟨k, hk, h⟩ := List.mem_flatMap.1 h
  exact (preOpt_mem h).trans ⟨k.1, (words_mem hk).symm⟩

theorem epochPart_mem {t : Str} {m : Str × Str} (h : m ∈ epochPart t) : t = m.1 ++ 33 :: m.2 := by
  obtain ⟨k, hk, h⟩ := List.mem_flatMap.1 h
  have h1 := (plus_mem hk).1
  unfold bang at h
  split at h
  · cases h
  · rename_i c u hcu
    split at h
    · rename_i hc
      rw [List.mem_singleton.1 h, h1, hcu]
      simp at hc
      rw [hc]
    · cases h

theorem epochOpt_mem {ci : Bool} {t : Str} {m : Groups × Str}
    (h : m ∈ epochOpt ci t) : m.2 <:+ t := by
  unfold epochOpt at h
  rcases List.mem_append.1 h with h | h
  · obtain ⟨k, hk, h⟩ := List.mem_flatMap.1 h
    refine (releasePart_mem h).trans ⟨k.1 ++ [33], ?_⟩
    rw [epochPart_mem hk]; simp
  · exact releasePart_mem h

theorem vOpt_mem {ci : Bool} {t u : Str} (h : u ∈ vOpt ci t) : u <:+ t := by
  unfold vOpt at h
  split at h
  · rw [List.mem_singleton.1 h]; exact List.suffix_rfl
  · split at h
    · rcases List.mem_cons.1 h with rfl | h
      · exact List.suffix_cons _ _
      · rw [List.mem_singleton.1 h]; exact List.suffix_rfl
    · rw [List.mem_singleton.1 h]; exact List.suffix_rfl

theorem pattern_mem {ci : Bool} {t : Str} {m : Groups × Str} (h : m ∈ pattern ci t) : m.2 <:+ t := by
  obtain ⟨u, hu, h⟩ := List.mem_flatMap.1 h
  exact (epochOpt_mem h).trans (vOpt_mem hu)

/-! ## Texts without capital letters match alike with and without `re.IGNORECASE` -/

/-- None of the characters `re.IGNORECASE` treats specially. -/
def Small (t : Str) : Prop := ∀ c ∈ t, ¬ (65 ≤ c ∧ c ≤ 90) ∧ c ≠ 0x130 ∧ c ≠ 0x131 ∧ c ≠ 0x17f ∧ c ≠ 0x212a

theorem Small.of_suffix {t u : Str} (h : Small t) (hs : u <:+ t) : Small u :=
  fun c hc => h c (hs.subset hc)

theorem flatMap_congr' {α β : Type} {f g : α → List β} : ∀ {l : List α}, (∀ a ∈ l, f a = g a) →
    l.flatMap f = l.flatMap g
  | [], _ => rfl
  | a :: l, h => by
    rw [List.flatMap_cons, List.flatMap_cons, h a (by simp), flatMap_congr' fun b hb => h b (by simp [hb])]

theorem isAlnum_small {t : Str} (h : Small t) : ∀ c ∈ t, isAlnum true c = isAlnum false c := by
  intro c hc
  obtain ⟨h1, h2, h3, h4, h5⟩ := h c hc
  have h1' : (decide (65 ≤ c) && decide (c ≤ 90)) = false := by
    rw [Bool.eq_false_iff]; simpa using h1
  simp [isAlnum, h1', h2, h3, h4, h5]

theorem plus_agree {p q : Nat → Bool} : ∀ {t : Str}, (∀ c ∈ t, p c = q c) → plus p t = plus q t
  | [], _ => rfl
  | c :: t, h => by
    rw [plus, plus, h c (by simp), plus_agree fun d hd => h d (by simp [hd])]

theorem moreWords_agree {sep p q : Nat → Bool} : ∀ (n : Nat) {t : Str}, (∀ c ∈ t, p c = q c) →
    moreWords sep p n t = moreWords sep q n t
  | 0, _, _ => rfl
  | n + 1, t, h => by
    unfold moreWords
    congr 1
    cases t with
    | nil => rfl
    | cons c u =>
      have hu : ∀ d ∈ u, p d = q d := fun d hd => h d (by simp [hd])
      simp only [plus_agree hu]
      split
      · apply flatMap_congr'
        intro m hm
        have : m.2 <:+ u := ⟨m.1, (plus_mem hm).1.symm⟩
        rw [moreWords_agree n fun d hd => hu d (this.subset hd)]
      · rfl

theorem words_agree {sep p q : Nat → Bool} {t : Str} (h : ∀ c ∈ t, p c = q c) :
    words sep p t = words sep q t := by
  unfold words
  rw [plus_agree h]
  apply flatMap_congr'
  intro m hm
  have : m.2 <:+ t := ⟨m.1, (plus_mem hm).1.symm⟩
  rw [moreWords_agree _ fun d hd => h d (this.subset hd)]

theorem lit_small : ∀ {n t : Str}, (∀ x ∈ n, 97 ≤ x ∧ x ≤ 122) → Small t → lit true n t = lit false n t
  | [], _, _, _ => by rw [lit, lit]
  | _ :: _, [], _, _ => by rw [lit, lit]
  | x :: xs, c :: t, hn, h => by
    obtain ⟨h1, h2, h3, h4, h5⟩ := h c (by simp)
    have hx := hn x (by simp)
    have : sameLetter true x c = sameLetter false x c := by
      have h6 : (c + 32 == x) = false := by simp; omega
      simp [sameLetter, h2, h3, h4, h6]
    rw [lit, lit, this, lit_small (fun y hy => hn y (by simp [hy])) fun d hd => h d (by simp [hd])]

theorem letterGroup_small {names : List Str} {t : Str} (hn : ∀ n ∈ names, ∀ x ∈ n, 97 ≤ x ∧ x ≤ 122)
    (h : Small t) : letterGroup true names t = letterGroup false names t := by
  unfold letterGroup
  apply flatMap_congr'
  intro t1 h1
  apply flatMap_congr'
  intro n hnm
  rw [lit_small (hn n hnm) (h.of_suffix (sepOpt_mem h1))]

theorem preNames_small : ∀ n ∈ preNames, ∀ x ∈ n, 97 ≤ x ∧ x ≤ 122 := by decide
theorem postNames_small : ∀ n ∈ postNames, ∀ x ∈ n, 97 ≤ x ∧ x ≤ 122 := by decide
theorem devNames_small : ∀ n ∈ devNames, ∀ x ∈ n, 97 ≤ x ∧ x ≤ 122 := by decide

theorem localOpt_small {g : Groups} {t : Str} (h : Small t) : localOpt true g t = localOpt false g t := by
  unfold localOpt
  congr 1
  cases t with
  | nil => rfl
  | cons c u =>
    have hu : Small u := fun d hd => h d (by simp [hd])
    simp only [words_agree (isAlnum_small hu)]

theorem devOpt_small {g : Groups} {t : Str} (h : Small t) : devOpt true g t = devOpt false g t := by
  unfold devOpt
  rw [letterGroup_small devNames_small h, localOpt_small h]
  congr 1
  exact flatMap_congr' fun m hm => localOpt_small (h.of_suffix (letterGroup_mem hm))

theorem postOpt_small {g : Groups} {t : Str} (h : Small t) : postOpt true g t = postOpt false g t := by
  unfold postOpt
  rw [letterGroup_small postNames_small h, devOpt_small h]
  congr 1
  congr 1
  · exact flatMap_congr' fun m hm => devOpt_small (h.of_suffix (dashNumber_mem hm))
  · exact flatMap_congr' fun m hm => devOpt_small (h.of_suffix (letterGroup_mem hm))

theorem preOpt_small {g : Groups} {t : Str} (h : Small t) : preOpt true g t = preOpt false g t := by
  unfold preOpt
  rw [letterGroup_small preNames_small h, postOpt_small h]
  congr 1
  exact flatMap_congr' fun m hm => postOpt_small (h.of_suffix (letterGroup_mem hm))

theorem releasePart_small {g : Groups} {t : Str} (h : Small t) :
    releasePart true g t = releasePart false g t :=
  flatMap_congr' fun m hm => preOpt_small (h.of_suffix ⟨m.1, (words_mem hm).symm⟩)

theorem epochOpt_small {t : Str} (h : Small t) : epochOpt true t = epochOpt false t := by
  unfold epochOpt
  rw [releasePart_small h]
  congr 1
  refine flatMap_congr' fun m hm => releasePart_small (h.of_suffix ⟨m.1 ++ [33], ?_⟩)
  rw [epochPart_mem hm]; simp

theorem vOpt_small {t : Str} (h : Small t) : vOpt true t = vOpt false t := by
  unfold vOpt
  cases t with
  | nil => rfl
  | cons c u =>
    obtain ⟨h1, h2, h3, h4, h5⟩ := h c (by simp)
    have : sameLetter true 118 c = sameLetter false 118 c := by
      have h6 : (c + 32 == 118) = false := by simp; omega
      simp [sameLetter, h6]
    simp only [this]

theorem pattern_small {t : Str} (h : Small t) : pattern true t = pattern false t := by
  unfold pattern
  rw [vOpt_small h]
  exact flatMap_congr' fun u hu => epochOpt_small (h.of_suffix (vOpt_mem hu))

end V8.Versions
