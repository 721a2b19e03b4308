import Verif.Spec.Classes
import Mathlib.Data.List.Basic

/-! # Lemmas for C70 -/

namespace V8.Dispatch
variable {κ : Type} [DecidableEq κ]

/-! ## The merge -/

theorem mem_removeHead {x : κ} {seqs : List (List κ)} {s : List κ} (h : s ∈ removeHead x seqs) :
    ∃ t ∈ seqs, s = if t.head? = some x then t.tail else t := by
  unfold removeHead at h
  rw [List.mem_map] at h
  obtain ⟨t, ht, rfl⟩ := h
  exact ⟨t, ht, rfl⟩

theorem candidate_some {seqs : List (List κ)} {x : κ} (h : candidate seqs = some x) :
    (∃ t ∈ seqs, t.head? = some x) ∧ ∀ t ∈ seqs, x ∉ t.tail := by
  unfold candidate at h
  constructor
  · have := List.mem_of_find?_eq_some h
    rw [List.mem_filterMap] at this
    exact this
  · have := List.find?_some h
    intro t ht
    have := (List.all_eq_true.1 this) t ht
    simpa using this

theorem mergeLoop_spec (fuel : Nat) (seqs : List (List κ)) (r : List κ) (h : mergeLoop fuel seqs = .ok r) :
    r.Nodup ∧ (∀ s ∈ seqs, s.Sublist r) ∧ ∀ x ∈ r, ∃ s ∈ seqs, x ∈ s := by
  induction fuel generalizing seqs r with
  | zero => simp [mergeLoop] at h
  | succ f ih =>
    simp only [mergeLoop] at h
    by_cases he : (seqs.filter (fun s => !s.isEmpty)).isEmpty
    · rw [if_pos he] at h
      simp only [Except.ok.injEq] at h
      subst h
      refine ⟨List.nodup_nil, ?_, by simp⟩
      intro s hs
      rw [List.isEmpty_iff, List.filter_eq_nil_iff] at he
      have := he s hs
      simp only [Bool.not_eq_true', Bool.not_eq_false, List.isEmpty_iff] at this
      rw [this]
    · rw [if_neg he] at h
      cases hc : candidate (seqs.filter (fun s => !s.isEmpty)) with
      | none => rw [hc] at h; simp at h
      | some x =>
        rw [hc] at h
        simp only at h
        cases hm : mergeLoop f (removeHead x (seqs.filter (fun s => !s.isEmpty))) with
        | error e => rw [hm] at h; simp at h
        | ok r' =>
          rw [hm] at h
          simp only [Except.ok.injEq] at h
          subst h
          obtain ⟨h1, h2, h3⟩ := ih _ _ hm
          obtain ⟨⟨t0, ht0, hh0⟩, htail⟩ := candidate_some hc
          refine ⟨?_, ?_, ?_⟩
          · rw [List.nodup_cons]
            refine ⟨?_, h1⟩
            intro hx
            obtain ⟨s, hs, hxs⟩ := h3 x hx
            obtain ⟨t, ht, rfl⟩ := mem_removeHead hs
            have hn := htail t ht
            by_cases hh : t.head? = some x
            · rw [if_pos hh] at hxs; exact hn hxs
            · rw [if_neg hh] at hxs
              cases t with
              | nil => simp at hxs
              | cons y t =>
                simp only [List.head?_cons, Option.some.injEq, List.tail_cons] at hh hn
                rcases List.mem_cons.1 hxs with rfl | hxs
                · exact hh rfl
                · exact hn hxs
          · intro s hs
            cases s with
            | nil => exact List.nil_sublist _
            | cons y t =>
              have hmem : (y :: t) ∈ seqs.filter (fun s => !s.isEmpty) := List.mem_filter.2 ⟨hs, rfl⟩
              have := h2 _ (List.mem_map.2 ⟨_, hmem, rfl⟩)
              by_cases hyx : y = x
              · subst hyx
                rw [if_pos (by rfl)] at this
                exact this.cons_cons y
              · rw [if_neg (by simpa using hyx)] at this
                exact this.trans (List.sublist_cons_self _ _)
          · intro y hy
            rcases List.mem_cons.1 hy with rfl | hy
            · refine ⟨t0, (List.mem_filter.1 ht0).1, List.mem_of_mem_head? ?_⟩
              rw [hh0]; rfl
            · obtain ⟨s, hs, hys⟩ := h3 y hy
              obtain ⟨t, ht, rfl⟩ := mem_removeHead hs
              refine ⟨t, (List.mem_filter.1 ht).1, ?_⟩
              split at hys
              · exact List.mem_of_mem_tail hys
              · exact hys

/-- The first sequence goes first, if it can. -/
theorem mergeLoop_head (fuel : Nat) (c : κ) (seqs : List (List κ)) (r : List κ) (h : mergeLoop fuel ([c] :: seqs) = .ok r)
    (hc : ∀ s ∈ seqs, c ∉ s.tail) : ∃ t, r = c :: t := by
  cases fuel with
  | zero => simp [mergeLoop] at h
  | succ f =>
    simp only [mergeLoop] at h
    have hf : ([c] :: seqs).filter (fun s => !s.isEmpty) = [c] :: seqs.filter (fun s => !s.isEmpty) := rfl
    rw [hf, if_neg (by simp)] at h
    have hcand : candidate ([c] :: seqs.filter (fun s => !s.isEmpty)) = some c := by
      unfold candidate
      rw [List.filterMap_cons_some (by rfl : List.head? [c] = some c), List.find?_cons_of_pos]
      rw [List.all_eq_true]
      intro s hs
      rcases List.mem_cons.1 hs with rfl | hs
      · rfl
      · simpa using hc s (List.mem_filter.1 hs).1
    rw [hcand] at h
    simp only at h
    cases hm : mergeLoop f (removeHead c ([c] :: seqs.filter (fun s => !s.isEmpty))) with
    | error e => rw [hm] at h; simp at h
    | ok r' =>
      rw [hm] at h
      simp only [Except.ok.injEq] at h
      exact ⟨r', h.symm⟩

omit [DecidableEq κ] in
theorem length_filter_nonempty (seqs : List (List κ)) :
    ((seqs.filter (fun s => !s.isEmpty)).map List.length).sum = (seqs.map List.length).sum := by
  induction seqs with
  | nil => rfl
  | cons s t ih => cases s <;> simp_all

theorem length_removeHead (x : κ) (seqs : List (List κ)) :
    ((removeHead x seqs).map List.length).sum ≤ (seqs.map List.length).sum ∧
    ((∃ t ∈ seqs, t.head? = some x) → ((removeHead x seqs).map List.length).sum < (seqs.map List.length).sum) := by
  induction seqs with
  | nil => simp [removeHead]
  | cons s t ih =>
    simp only [removeHead, List.map_cons, List.sum_cons] at ih ⊢
    by_cases hs : s.head? = some x
    · rw [if_pos hs]
      have : s.tail.length < s.length := by
        cases s with
        | nil => simp at hs
        | cons y s => simp
      exact ⟨by omega, fun _ => by omega⟩
    · rw [if_neg hs]
      refine ⟨by omega, ?_⟩
      rintro ⟨u, hu, hx⟩
      rcases List.mem_cons.1 hu with rfl | hu
      · exact absurd hx hs
      · have := ih.2 ⟨u, hu, hx⟩; omega

theorem mergeLoop_deep (fuel : Nat) (seqs : List (List κ)) (h : (seqs.map List.length).sum < fuel) :
    mergeLoop fuel seqs ≠ .error .tooDeep := by
  induction fuel generalizing seqs with
  | zero => omega
  | succ f ih =>
    simp only [mergeLoop]
    by_cases he : (seqs.filter (fun s => !s.isEmpty)).isEmpty
    · rw [if_pos he]; simp
    · rw [if_neg he]
      cases hc : candidate (seqs.filter (fun s => !s.isEmpty)) with
      | none => simp
      | some x =>
        simp only
        have h1 := (length_removeHead x (seqs.filter (fun s => !s.isEmpty))).2 (candidate_some hc).1
        rw [length_filter_nonempty] at h1
        have h2 := ih (removeHead x (seqs.filter (fun s => !s.isEmpty))) (by omega)
        cases hm : mergeLoop f (removeHead x (seqs.filter (fun s => !s.isEmpty))) with
        | error e => rw [hm] at h2; simpa using h2
        | ok r => simp

/-- A sequence whose head can go next is preferred to all later ones. -/
theorem mergeLoop_prefer (fuel : Nat) (before after : List (List κ)) (x y : κ) (xs r : List κ)
    (h : mergeLoop fuel (before ++ (x :: xs) :: after) = .ok r)
    (hx : ∀ s ∈ before ++ (x :: xs) :: after, x ∉ s.tail) (hy : ∀ s ∈ before, y ∉ s) (hxy : x ≠ y) (hyr : y ∈ r) :
    [x, y].Sublist r := by
  induction fuel generalizing before after r xs with
  | zero => simp [mergeLoop] at h
  | succ f ih =>
    simp only [mergeLoop] at h
    have hf : (before ++ (x :: xs) :: after).filter (fun s => !s.isEmpty) =
        before.filter (fun s => !s.isEmpty) ++ (x :: xs) :: after.filter (fun s => !s.isEmpty) := by
      rw [List.filter_append]; rfl
    rw [hf, if_neg (by simp)] at h
    set B := before.filter (fun s => !s.isEmpty) with hB
    set A := after.filter (fun s => !s.isEmpty) with hA
    have hx' : ∀ s ∈ B ++ (x :: xs) :: A, x ∉ s.tail := by
      intro s hs
      rw [← hf] at hs
      exact hx s (List.mem_filter.1 hs).1
    have hy' : ∀ s ∈ B, y ∉ s := fun s hs => hy s (List.mem_filter.1 hs).1
    cases hc : candidate (B ++ (x :: xs) :: A) with
    | none => rw [hc] at h; simp at h
    | some z =>
      rw [hc] at h
      simp only at h
      -- `z` is the head of a sequence of `B`, or `x`
      have hz : z = x ∨ ∃ s ∈ B, s.head? = some z := by
        unfold candidate at hc
        rw [List.filterMap_append, List.filterMap_cons_some (by rfl : (x :: xs).head? = some x), List.find?_append] at hc
        rw [Option.or_eq_some_iff] at hc
        rcases hc with hc | ⟨_, hc⟩
        · right
          have := List.mem_of_find?_eq_some hc
          rwa [List.mem_filterMap] at this
        · left
          rw [List.find?_cons_of_pos (by
            rw [List.all_eq_true]
            intro s hs
            simpa using hx' s hs)] at hc
          simpa using hc.symm
      cases hm : mergeLoop f (removeHead z (B ++ (x :: xs) :: A)) with
      | error e => rw [hm] at h; simp at h
      | ok r' =>
        rw [hm] at h
        simp only [Except.ok.injEq] at h
        subst h
        by_cases hzx : z = x
        · subst hzx
          rcases List.mem_cons.1 hyr with rfl | hyr
          · exact absurd rfl hxy
          · exact (List.singleton_sublist.2 hyr).cons_cons z
        · obtain ⟨s, hs, hsz⟩ := hz.resolve_left hzx
          have hzy : z ≠ y := by
            rintro rfl
            exact hy' s hs (List.mem_of_mem_head? (by rw [hsz]; rfl))
          have hyr' : y ∈ r' := by
            rcases List.mem_cons.1 hyr with rfl | hyr
            · exact absurd rfl hzy
            · exact hyr
          have hsplit : removeHead z (B ++ (x :: xs) :: A) = removeHead z B ++ (x :: xs) :: removeHead z A := by
            unfold removeHead
            rw [List.map_append, List.map_cons, if_neg (by simpa using Ne.symm hzx)]
          rw [hsplit] at hm
          have := ih (removeHead z B) (removeHead z A) xs r' hm (by
            intro s hs
            rw [← hsplit] at hs
            obtain ⟨t, ht, rfl⟩ := mem_removeHead hs
            split
            · exact fun hc => hx' t ht (List.mem_of_mem_tail hc)
            · exact hx' t ht) (by
            intro s hs hc
            obtain ⟨t, ht, rfl⟩ := mem_removeHead hs
            refine hy' t ht ?_
            split at hc
            · exact List.mem_of_mem_tail hc
            · exact hc) hyr'
          exact this.trans (List.sublist_cons_self _ _)

/-! ## Lists -/

omit [DecidableEq κ] in
theorem mapE_ok {f : κ → Except Failure (List κ)} {l : List κ} {rs : List (List κ)} (h : mapE f l = .ok rs) :
    (∀ x ∈ l, ∃ r ∈ rs, f x = .ok r) ∧ ∀ r ∈ rs, ∃ x ∈ l, f x = .ok r := by
  induction l generalizing rs with
  | nil =>
    simp only [mapE, Except.ok.injEq] at h
    subst h; simp
  | cons x t ih =>
    simp only [mapE] at h
    cases hx : f x with
    | error e => rw [hx] at h; simp at h
    | ok r =>
      cases ht : mapE f t with
      | error e => rw [hx, ht] at h; simp at h
      | ok rs' =>
        rw [hx, ht] at h
        simp only [Except.ok.injEq] at h
        subst h
        obtain ⟨h1, h2⟩ := ih ht
        constructor
        · intro y hy
          rcases List.mem_cons.1 hy with rfl | hy
          · exact ⟨r, List.mem_cons_self, hx⟩
          · obtain ⟨r', h3, h4⟩ := h1 y hy; exact ⟨r', List.mem_cons_of_mem _ h3, h4⟩
        · intro r' hr'
          rcases List.mem_cons.1 hr' with rfl | hr'
          · exact ⟨x, List.mem_cons_self, hx⟩
          · obtain ⟨y, h3, h4⟩ := h2 r' hr'; exact ⟨y, List.mem_cons_of_mem _ h3, h4⟩

omit [DecidableEq κ] in
theorem mapE_deep {f : κ → Except Failure (List κ)} {l : List κ} (h : ∀ x ∈ l, f x ≠ .error .tooDeep) :
    mapE f l ≠ .error .tooDeep := by
  induction l with
  | nil => simp [mapE]
  | cons x t ih =>
    have h1 := h x List.mem_cons_self
    have h2 := ih (fun y hy => h y (List.mem_cons_of_mem _ hy))
    simp only [mapE]
    cases hx : f x with
    | error e => rw [hx] at h1; simpa using h1
    | ok r =>
      cases ht : mapE f t with
      | error e => rw [ht] at h2; simpa using h2
      | ok rs => simp

/-! ## `_c3_mro` -/

section
variable {W : Classes κ} {registry : List κ} {born : κ → Nat}

theorem PyClasses.born_mro (w : PyClasses W registry born) (n : Nat) : ∀ c, born c ≤ n → ∀ d ∈ W.mro c, d ≠ c → born d < born c := by
  induction n with
  | zero =>
    intro c hc d hd hne
    obtain ⟨b, hb, _⟩ := w.mro_cases c d hd hne
    have := w.older c b hb
    omega
  | succ n ih =>
    intro c hc d hd hne
    obtain ⟨b, hb, hdb⟩ := w.mro_cases c d hd hne
    have h1 := w.older c b hb
    by_cases hdb' : d = b
    · subst hdb'; exact h1
    · have := ih b (by omega) d hdb hdb'; omega

theorem PyClasses.mro_trans (w : PyClasses W registry born) (n : Nat) : ∀ c, born c ≤ n → ∀ d ∈ W.mro c, ∀ e ∈ W.mro d, e ∈ W.mro c := by
  induction n with
  | zero =>
    intro c hc d hd e he
    by_cases hne : d = c
    · subst hne; exact he
    · obtain ⟨b, hb, _⟩ := w.mro_cases c d hd hne
      have := w.older c b hb
      omega
  | succ n ih =>
    intro c hc d hd e he
    by_cases hne : d = c
    · subst hne; exact he
    · obtain ⟨b, hb, hdb⟩ := w.mro_cases c d hd hne
      have h1 := w.older c b hb
      exact w.mro_base c b hb e (ih b (by omega) d hdb e he)

theorem PyClasses.not_mem_mro_base (w : PyClasses W registry born) {c b : κ} (hb : b ∈ W.bases c) : c ∉ W.mro b := by
  intro h
  have h1 := w.older c b hb
  by_cases hcb : c = b
  · subst hcb; omega
  · have := w.born_mro (born b) b (Nat.le_refl _) c h hcb; omega

omit [DecidableEq κ] in
theorem PyClasses.base_mem (w : PyClasses W registry born) {c b : κ} (hb : b ∈ W.bases c) : b ∈ W.mro c :=
  w.mro_base c b hb b (w.self_mem b)

/-- Membership of a registered class is inherited from every class of the mro. -/
theorem PyClasses.sub_of_mro (w : PyClasses W registry born) {c d e : κ} (hd : d ∈ W.mro c) (he : e ∈ registry) (h : W.sub d e = true) :
    W.sub c e = true := by
  suffices H : ∀ n c, born c ≤ n → d ∈ W.mro c → W.sub c e = true from H (born c) c (Nat.le_refl _) hd
  intro n
  induction n with
  | zero =>
    intro c hc hd
    by_cases hne : d = c
    · subst hne; exact h
    · obtain ⟨b, hb, _⟩ := w.mro_cases c d hd hne
      have := w.older c b hb
      omega
  | succ n ih =>
    intro c hc hd
    by_cases hne : d = c
    · subst hne; exact h
    · obtain ⟨b, hb, hdb⟩ := w.mro_cases c d hd hne
      have h1 := w.older c b hb
      exact w.sub_base c b e hb he (ih b (by omega) hdb)

/-- The pending abstract classes are registered, new to the class, and unrelated to one another by inheritance. -/
structure Pending (W : Classes κ) (registry : List κ) (c : κ) (abcs : List κ) : Prop where
  registered : ∀ a ∈ abcs, a ∈ registry
  fresh : ∀ a ∈ abcs, a ∉ W.mro c
  apart : ∀ a ∈ abcs, ∀ a' ∈ abcs, a' ∈ W.mro a → a' = a

/-- One call of `_c3_mro`, taken apart. -/
theorem c3Mro_ok {fuel : Nat} {c : κ} {abcs r : List κ} (h : W.c3Mro fuel c abcs = .ok r) :
    ∃ f e a o, fuel = f + 1 ∧
      mapE (fun b => W.c3Mro f b (abcs.filter (fun a => !W.introduces c a))) ((W.bases c).take (W.boundary c)) = .ok e ∧
      mapE (fun b => W.c3Mro f b (abcs.filter (fun a => !W.introduces c a))) (abcs.filter (fun a => W.introduces c a)) = .ok a ∧
      mapE (fun b => W.c3Mro f b (abcs.filter (fun a => !W.introduces c a))) ((W.bases c).drop (W.boundary c)) = .ok o ∧
      c3Merge ([[c]] ++ e ++ a ++ o ++ [(W.bases c).take (W.boundary c)] ++ [abcs.filter (fun a => W.introduces c a)]
        ++ [(W.bases c).drop (W.boundary c)]) = .ok r := by
  cases fuel with
  | zero => simp [Classes.c3Mro] at h
  | succ f =>
    simp only [Classes.c3Mro] at h
    cases h1 : mapE (fun b => W.c3Mro f b (abcs.filter (fun a => !W.introduces c a))) ((W.bases c).take (W.boundary c)) with
    | error x => rw [h1] at h; simp at h
    | ok e =>
      cases h2 : mapE (fun b => W.c3Mro f b (abcs.filter (fun a => !W.introduces c a)))
          (abcs.filter (fun a => W.introduces c a)) with
      | error x => rw [h1, h2] at h; simp at h
      | ok a =>
        cases h3 : mapE (fun b => W.c3Mro f b (abcs.filter (fun a => !W.introduces c a))) ((W.bases c).drop (W.boundary c)) with
        | error x => rw [h1, h2, h3] at h; simp at h
        | ok o =>
          rw [h1, h2, h3] at h
          exact ⟨f, e, a, o, rfl, h1, h2, h3, h⟩

/-- The calls that one call makes, and what it does with their results. -/
theorem c3Mro_calls {fuel : Nat} {c : κ} {abcs r : List κ} (h : W.c3Mro fuel c abcs = .ok r) :
    ∃ f, fuel = f + 1 ∧ r.Nodup ∧ c ∈ r ∧
      (∀ b, b ∈ W.bases c ∨ (b ∈ abcs ∧ W.introduces c b = true) →
        ∃ r', W.c3Mro f b (abcs.filter (fun a => !W.introduces c a)) = .ok r' ∧ r'.Sublist r) ∧
      (∀ x ∈ r, x = c ∨ ∃ b r', (b ∈ W.bases c ∨ (b ∈ abcs ∧ W.introduces c b = true)) ∧
        ((W.c3Mro f b (abcs.filter (fun a => !W.introduces c a)) = .ok r' ∧ x ∈ r') ∨ x = b)) := by
  obtain ⟨f, e, a, o, rfl, h1, h2, h3, h4⟩ := c3Mro_ok h
  obtain ⟨hn, hs, hm⟩ := mergeLoop_spec _ _ _ h4
  obtain ⟨e1, e2⟩ := mapE_ok h1
  obtain ⟨a1, a2⟩ := mapE_ok h2
  obtain ⟨o1, o2⟩ := mapE_ok h3
  refine ⟨f, rfl, hn, ?_, ?_, ?_⟩
  · exact (hs [c] (by simp)).subset (by simp)
  · rintro b (hb | ⟨hb, hi⟩)
    · rw [← List.take_append_drop (W.boundary c) (W.bases c), List.mem_append] at hb
      rcases hb with hb | hb
      · obtain ⟨r', hr', hc⟩ := e1 b hb
        exact ⟨r', hc, hs r' (by simp [hr'])⟩
      · obtain ⟨r', hr', hc⟩ := o1 b hb
        exact ⟨r', hc, hs r' (by simp [hr'])⟩
    · obtain ⟨r', hr', hc⟩ := a1 b (List.mem_filter.2 ⟨hb, hi⟩)
      exact ⟨r', hc, hs r' (by simp [hr'])⟩
  · intro x hx
    obtain ⟨s, hs', hxs⟩ := hm x hx
    simp only [List.mem_append, List.mem_singleton] at hs'
    rcases hs' with (((((rfl | h) | h) | h) | rfl) | rfl) | rfl
    · left; simpa using hxs
    · obtain ⟨b, hb, hc⟩ := e2 s h
      exact .inr ⟨b, s, .inl (List.mem_of_mem_take hb), .inl ⟨hc, hxs⟩⟩
    · obtain ⟨b, hb, hc⟩ := a2 s h
      exact .inr ⟨b, s, .inr (by simpa using hb), .inl ⟨hc, hxs⟩⟩
    · obtain ⟨b, hb, hc⟩ := o2 s h
      exact .inr ⟨b, s, .inl (List.mem_of_mem_drop hb), .inl ⟨hc, hxs⟩⟩
    · exact .inr ⟨x, [], .inl (List.mem_of_mem_take hxs), .inr rfl⟩
    · exact .inr ⟨x, [], .inr (by simpa using hxs), .inr rfl⟩
    · exact .inr ⟨x, [], .inl (List.mem_of_mem_drop hxs), .inr rfl⟩

omit [DecidableEq κ] in
theorem introduces_sub {c a : κ} (h : W.introduces c a = true) : W.sub c a = true := by
  unfold Classes.introduces at h
  rw [Bool.and_eq_true] at h
  exact h.1

omit [DecidableEq κ] in
theorem introduces_base {c a b : κ} (h : W.introduces c a = true) (hb : b ∈ W.bases c) : W.sub b a = false := by
  unfold Classes.introduces at h
  rw [Bool.and_eq_true, Bool.not_eq_true', List.any_eq_false] at h
  simpa using h.2 b hb

omit [DecidableEq κ] in
theorem Pending.call (w : PyClasses W registry born) {c b : κ} {abcs : List κ} (p : Pending W registry c abcs)
    (hb : b ∈ W.bases c ∨ (b ∈ abcs ∧ W.introduces c b = true)) :
    Pending W registry b (abcs.filter (fun a => !W.introduces c a)) := by
  refine ⟨fun a ha => p.registered a (List.mem_filter.1 ha).1, ?_,
    fun a ha a' ha' => p.apart a (List.mem_filter.1 ha).1 a' (List.mem_filter.1 ha').1⟩
  intro a ha hm
  obtain ⟨ha, hi⟩ := List.mem_filter.1 ha
  rcases hb with hb | ⟨hb, hbi⟩
  · exact p.fresh a ha (w.mro_base c b hb a hm)
  · have := p.apart b hb a ha hm
    subst this
    simp [hbi] at hi

omit [DecidableEq κ] in
/-- A base, or an abstract class introduced, is one that `c` belongs to. -/
theorem PyClasses.sub_call (w : PyClasses W registry born) {c b e : κ} {abcs : List κ} (p : Pending W registry c abcs)
    (hb : b ∈ W.bases c ∨ (b ∈ abcs ∧ W.introduces c b = true)) (he : e ∈ registry) (h : W.sub b e = true) :
    W.sub c e = true := by
  rcases hb with hb | ⟨hb, hbi⟩
  · exact w.sub_base c b e hb he h
  · exact w.sub_trans c b e (p.registered b hb) he (introduces_sub hbi) h

/-- Where the classes of the result come from. -/
theorem c3Mro_elems (w : PyClasses W registry born) (fuel : Nat) : ∀ c abcs r, Pending W registry c abcs →
    W.c3Mro fuel c abcs = .ok r → ∀ x ∈ r, x ∈ W.mro c ∨ ∃ a ∈ abcs, W.sub c a = true ∧ x ∈ W.mro a := by
  induction fuel with
  | zero => intro c abcs r _ h; simp [Classes.c3Mro] at h
  | succ f ih =>
    intro c abcs r p h x hx
    obtain ⟨f', hf, _, _, _, hm⟩ := c3Mro_calls h
    obtain rfl : f = f' := by omega
    rcases hm x hx with rfl | ⟨b, r', hb, hr⟩
    · exact .inl (w.self_mem x)
    · have own : x ∈ W.mro b → x ∈ W.mro c ∨ ∃ a ∈ abcs, W.sub c a = true ∧ x ∈ W.mro a := by
        intro hxb
        rcases hb with hb | ⟨hb, hbi⟩
        · exact .inl (w.mro_base c b hb x hxb)
        · exact .inr ⟨b, hb, introduces_sub hbi, hxb⟩
      rcases hr with ⟨hr, hxr⟩ | rfl
      · rcases ih b _ r' (p.call w hb) hr x hxr with hxb | ⟨a, ha, hsub, hxa⟩
        · exact own hxb
        · have ha := (List.mem_filter.1 ha).1
          exact .inr ⟨a, ha, w.sub_call p hb (p.registered a ha) hsub, hxa⟩
      · exact own (w.self_mem x)

/-- The class itself comes first. -/
theorem c3Mro_head (w : PyClasses W registry born) {fuel : Nat} {c : κ} {abcs r : List κ} (p : Pending W registry c abcs)
    (h : W.c3Mro fuel c abcs = .ok r) : ∃ t, r = c :: t := by
  obtain ⟨f, e, a, o, rfl, h1, h2, h3, h4⟩ := c3Mro_ok h
  have hres : ∀ b s, (b ∈ W.bases c ∨ (b ∈ abcs ∧ W.introduces c b = true)) →
      W.c3Mro f b (abcs.filter (fun a => !W.introduces c a)) = .ok s → c ∉ s := by
    intro b s hb hs hc
    have key : ∀ a ∈ abcs, W.sub c a = true → c ∉ W.mro a := by
      intro a ha hsub hca
      have := w.acyclic c a (p.registered a ha) hsub hca
      subst this
      exact p.fresh c ha (w.self_mem c)
    rcases c3Mro_elems w f b _ s (p.call w hb) hs c hc with hcb | ⟨a, ha, hsub, hca⟩
    · rcases hb with hb | ⟨hb, hbi⟩
      · exact w.not_mem_mro_base hb hcb
      · exact key b hb (introduces_sub hbi) hcb
    · have ha := (List.mem_filter.1 ha).1
      exact key a ha (w.sub_call p hb (p.registered a ha) hsub) hca
  have hbase : c ∉ W.bases c := fun hc => w.not_mem_mro_base hc (w.self_mem c)
  refine mergeLoop_head _ c (e ++ a ++ o ++ [(W.bases c).take (W.boundary c)] ++ [abcs.filter (fun a => W.introduces c a)]
        ++ [(W.bases c).drop (W.boundary c)]) r (by simpa [c3Merge] using h4) ?_
  intro s hs hc
  replace hc := List.mem_of_mem_tail hc
  simp only [List.mem_append, List.mem_singleton] at hs
  rcases hs with ((((hs | hs) | hs) | rfl) | rfl) | rfl
  · obtain ⟨b, hb, hr⟩ := (mapE_ok h1).2 s hs
    exact hres b s (.inl (List.mem_of_mem_take hb)) hr hc
  · obtain ⟨b, hb, hr⟩ := (mapE_ok h2).2 s hs
    exact hres b s (.inr (by simpa using hb)) hr hc
  · obtain ⟨b, hb, hr⟩ := (mapE_ok h3).2 s hs
    exact hres b s (.inl (List.mem_of_mem_drop hb)) hr hc
  · exact hbase (List.mem_of_mem_take hc)
  · exact p.fresh c (List.mem_filter.1 hc).1 (w.self_mem c)
  · exact hbase (List.mem_of_mem_drop hc)

/-- Every class of the result was the subject of a call, whose result is kept in order. -/
theorem c3Mro_sub (w : PyClasses W registry born) (fuel : Nat) : ∀ c abcs r, Pending W registry c abcs →
    W.c3Mro fuel c abcs = .ok r → ∀ x ∈ r, ∃ f' abcs' r', Pending W registry x abcs' ∧
      W.c3Mro f' x abcs' = .ok r' ∧ r'.Sublist r := by
  induction fuel with
  | zero => intro c abcs r _ h; simp [Classes.c3Mro] at h
  | succ f ih =>
    intro c abcs r p h x hx
    obtain ⟨f', hf, _, _, hcalls, hm⟩ := c3Mro_calls h
    obtain rfl : f = f' := by omega
    rcases hm x hx with rfl | ⟨b, r', hb, hr⟩
    · exact ⟨f + 1, abcs, r, p, h, List.Sublist.refl _⟩
    · obtain ⟨rb, hrb, hsub⟩ := hcalls b hb
      rcases hr with ⟨hr, hxr⟩ | rfl
      · rw [hrb] at hr
        simp only [Except.ok.injEq] at hr
        subst hr
        obtain ⟨f2, abcs2, r2, p2, h2, hs2⟩ := ih b _ rb (p.call w hb) hrb x hxr
        exact ⟨f2, abcs2, r2, p2, h2, hs2.trans hsub⟩
      · exact ⟨f, _, rb, p.call w hb, hrb, hsub⟩

/-- A class of the mro is the subject of a call that still has before it the abstract classes it belongs to. -/
theorem c3Mro_mro (w : PyClasses W registry born) (fuel : Nat) : ∀ c abcs r, Pending W registry c abcs →
    W.c3Mro fuel c abcs = .ok r → ∀ d ∈ W.mro c, ∃ f' abcs' r', Pending W registry d abcs' ∧
      W.c3Mro f' d abcs' = .ok r' ∧ r'.Sublist r ∧ (∀ a ∈ abcs', a ∈ abcs) ∧
      ∀ a ∈ abcs, W.sub d a = true → a ∈ abcs' := by
  induction fuel with
  | zero => intro c abcs r _ h; simp [Classes.c3Mro] at h
  | succ f ih =>
    intro c abcs r p h d hd
    by_cases hne : d = c
    · subst hne
      exact ⟨f + 1, abcs, r, p, h, List.Sublist.refl _, fun _ ha => ha, fun _ ha _ => ha⟩
    · obtain ⟨b, hb, hdb⟩ := w.mro_cases c d hd hne
      obtain ⟨f', hf, _, _, hcalls, _⟩ := c3Mro_calls h
      obtain rfl : f = f' := by omega
      obtain ⟨rb, hrb, hsub⟩ := hcalls b (.inl hb)
      obtain ⟨f2, abcs2, r2, p2, h2, hs2, hin, hall⟩ := ih b _ rb (p.call w (.inl hb)) hrb d hdb
      refine ⟨f2, abcs2, r2, p2, h2, hs2.trans hsub, fun a ha => (List.mem_filter.1 (hin a ha)).1, ?_⟩
      intro a ha hda
      refine hall a (List.mem_filter.2 ⟨ha, ?_⟩) hda
      have hba := w.sub_of_mro hdb (p.registered a ha) hda
      cases hi : W.introduces c a with
      | false => rfl
      | true =>
        have := introduces_base hi hb
        rw [hba] at this; cases this

/-- The result has the classes of the mro, and the abstract classes that the class belongs to. -/
theorem c3Mro_contains (w : PyClasses W registry born) (fuel : Nat) : ∀ c abcs r, Pending W registry c abcs →
    W.c3Mro fuel c abcs = .ok r →
    (∀ d ∈ W.mro c, d ∈ r) ∧ ∀ a ∈ abcs, W.sub c a = true → a ∈ r := by
  induction fuel with
  | zero => intro c abcs r _ h; simp [Classes.c3Mro] at h
  | succ f ih =>
    intro c abcs r p h
    constructor
    · intro d hd
      obtain ⟨_, _, r', p', h', hs, _⟩ := c3Mro_mro w _ c abcs r p h d hd
      obtain ⟨t, rfl⟩ := c3Mro_head w p' h'
      exact hs.subset List.mem_cons_self
    · intro a ha hsub
      obtain ⟨f', hf, _, _, hcalls, _⟩ := c3Mro_calls h
      obtain rfl : f = f' := by omega
      cases hi : W.introduces c a with
      | true =>
        obtain ⟨ra, hra, hs⟩ := hcalls a (.inr ⟨ha, hi⟩)
        obtain ⟨t, rfl⟩ := c3Mro_head w (p.call w (.inr ⟨ha, hi⟩)) hra
        exact hs.subset List.mem_cons_self
      | false =>
        unfold Classes.introduces at hi
        rw [hsub, Bool.true_and, Bool.not_eq_false', List.any_eq_true] at hi
        obtain ⟨b, hb, hba⟩ := hi
        obtain ⟨rb, hrb, hs⟩ := hcalls b (.inl hb)
        refine hs.subset ((ih b _ rb (p.call w (.inl hb)) hrb).2 a (List.mem_filter.2 ⟨ha, ?_⟩) hba)
        cases hi2 : W.introduces c a with
        | false => rfl
        | true =>
          have := introduces_base hi2 hb
          rw [hba] at this; cases this

theorem c3Mro_deep (w : PyClasses W registry born) (N : Nat) (hN : ∀ a ∈ registry, born a ≤ N) (fuel : Nat) :
    ∀ c abcs, (∀ a ∈ abcs, a ∈ registry) → abcs.length * (N + 1) + born c < fuel →
      W.c3Mro fuel c abcs ≠ .error .tooDeep := by
  induction fuel with
  | zero => intro c abcs _ h; omega
  | succ f ih =>
    intro c abcs hreg hfuel
    have hrest : ∀ a ∈ abcs.filter (fun a => !W.introduces c a), a ∈ registry := fun a ha => hreg a (List.mem_filter.1 ha).1
    have hlen : (abcs.filter (fun a => !W.introduces c a)).length ≤ abcs.length := List.length_filter_le _ _
    have hbase : ∀ b ∈ W.bases c, W.c3Mro f b (abcs.filter (fun a => !W.introduces c a)) ≠ .error .tooDeep := by
      intro b hb
      refine ih b _ hrest ?_
      have := w.older c b hb
      have := Nat.mul_le_mul_right (N + 1) hlen
      omega
    have h1 := mapE_deep (f := fun b => W.c3Mro f b (abcs.filter (fun a => !W.introduces c a)))
      (l := (W.bases c).take (W.boundary c)) (fun b hb => hbase b (List.mem_of_mem_take hb))
    have h3 := mapE_deep (f := fun b => W.c3Mro f b (abcs.filter (fun a => !W.introduces c a)))
      (l := (W.bases c).drop (W.boundary c)) (fun b hb => hbase b (List.mem_of_mem_drop hb))
    have h2 := mapE_deep (f := fun b => W.c3Mro f b (abcs.filter (fun a => !W.introduces c a)))
      (l := abcs.filter (fun a => W.introduces c a)) (by
        intro a ha
        obtain ⟨ha, hi⟩ := List.mem_filter.1 ha
        refine ih a _ hrest ?_
        have hlt : (abcs.filter (fun a => !W.introduces c a)).length < abcs.length := by
          rw [List.length_filter_lt_length_iff_exists]
          exact ⟨a, ha, by simp [hi]⟩
        have h5 := Nat.mul_le_mul_right (N + 1) (Nat.succ_le_of_lt hlt)
        rw [Nat.succ_mul] at h5
        have := hN a (hreg a ha)
        omega)
    simp only [Classes.c3Mro]
    cases e1 : mapE (fun b => W.c3Mro f b (abcs.filter (fun a => !W.introduces c a))) ((W.bases c).take (W.boundary c)) with
    | error x => rw [e1] at h1; simpa using h1
    | ok e =>
      cases e2 : mapE (fun b => W.c3Mro f b (abcs.filter (fun a => !W.introduces c a)))
          (abcs.filter (fun a => W.introduces c a)) with
      | error x => rw [e2] at h2; simpa using h2
      | ok a =>
        cases e3 : mapE (fun b => W.c3Mro f b (abcs.filter (fun a => !W.introduces c a))) ((W.bases c).drop (W.boundary c)) with
        | error x => rw [e3] at h3; simpa using h3
        | ok o => exact mergeLoop_deep _ _ (Nat.lt_succ_self _)

end

/-! ## The order of the abstract classes -/

omit [DecidableEq κ] in
theorem foldl_inv {α β : Type} (P : α → Prop) (f : α → β → α) (l : List β) (a : α) (h0 : P a)
    (h : ∀ a, P a → ∀ b ∈ l, P (f a b)) : P (l.foldl f a) := by
  induction l generalizing a with
  | nil => exact h0
  | cons b t ih =>
    exact ih (f a b) (h a h0 b List.mem_cons_self) (fun a ha b hb => h a ha b (List.mem_cons_of_mem _ hb))

theorem mem_addNew (mro l : List κ) (x : κ) : x ∈ Classes.addNew mro l ↔ x ∈ mro ∨ x ∈ l := by
  induction l generalizing mro with
  | nil => simp [Classes.addNew]
  | cons y t ih =>
    simp only [Classes.addNew]
    by_cases hy : mro.contains y = true
    · rw [if_pos hy, ih]
      simp only [List.contains_iff_mem] at hy
      simp only [List.mem_cons]
      constructor
      · rintro (h | h)
        · exact .inl h
        · exact .inr (.inr h)
      · rintro (h | rfl | h)
        · exact .inl h
        · exact .inl hy
        · exact .inr h
    · rw [if_neg hy, ih]
      simp only [List.mem_append, List.mem_cons, List.not_mem_nil, or_false]
      rw [or_assoc]

theorem mem_foldl_addNew (ls : List (List κ)) (mro : List κ) (x : κ) :
    x ∈ ls.foldl Classes.addNew mro ↔ x ∈ mro ∨ ∃ l ∈ ls, x ∈ l := by
  induction ls generalizing mro with
  | nil => simp
  | cons l t ih =>
    rw [List.foldl_cons, ih, mem_addNew, or_assoc]
    simp

section
variable {W : Classes κ} {registry : List κ} {born : κ → Nat}

theorem addType_mono (c : κ) (types mro : List κ) (t x : κ) (h : x ∈ mro) : x ∈ W.addType c types mro t := by
  simp only [Classes.addType]
  split
  · exact List.mem_append_left _ h
  · exact (mem_foldl_addNew _ _ _).2 (.inl h)

theorem addType_new (w : PyClasses W registry born) (c : κ) (types mro : List κ) (t : κ) (ht : t ∈ types) :
    t ∈ W.addType c types mro t := by
  simp only [Classes.addType]
  split
  · simp
  · rename_i hne
    rw [mem_foldl_addNew]
    right
    cases hf : ((W.children t).filter (fun s => !(W.mro c).contains s && W.sub c s)) with
    | nil => rw [hf] at hne; simp at hne
    | cons s ss =>
      have hs : s ∈ (W.children t).filter (fun s => !(W.mro c).contains s && W.sub c s) := by rw [hf]; simp
      refine ⟨(W.mro s).filter (fun x => types.contains x), ?_, ?_⟩
      · rw [List.mem_mergeSort]; simp
      · rw [List.mem_filter]
        exact ⟨w.child_mro t s (List.mem_filter.1 hs).1, by simpa using ht⟩

theorem addType_sub (c : κ) (types mro : List κ) (t x : κ) (ht : t ∈ types) (h : x ∈ W.addType c types mro t) :
    x ∈ mro ∨ x ∈ types := by
  simp only [Classes.addType] at h
  split at h
  · rcases List.mem_append.1 h with h | h
    · exact .inl h
    · rw [List.mem_singleton] at h; subst h; exact .inr ht
  · rw [mem_foldl_addNew] at h
    rcases h with h | ⟨l, hl, hx⟩
    · exact .inl h
    · rw [List.mem_mergeSort, List.mem_map] at hl
      obtain ⟨s, _, rfl⟩ := hl
      right
      simpa using (List.mem_filter.1 hx).2

theorem mem_order (w : PyClasses W registry born) (c : κ) (types : List κ) (x : κ) :
    x ∈ W.order c types ↔ x ∈ types := by
  unfold Classes.order
  constructor
  · exact foldl_inv (fun m => x ∈ m → x ∈ types) _ types [] (by simp) (by
      intro m hm t ht hx
      rcases addType_sub c types m t x ht hx with h | h
      · exact hm h
      · exact h)
  · intro hx
    suffices H : ∀ (l : List κ), (∀ t ∈ l, t ∈ types) → ∀ m, x ∈ l ∨ x ∈ m → x ∈ l.foldl (W.addType c types) m from
      H types (fun _ h => h) [] (.inl hx)
    intro l
    induction l with
    | nil => intro _ m h; simpa using h
    | cons t ts ih =>
      intro hl m h
      rw [List.foldl_cons]
      refine ih (fun t ht => hl t (List.mem_cons_of_mem _ ht)) _ ?_
      rcases h with h | h
      · rcases List.mem_cons.1 h with rfl | h
        · exact .inr (addType_new w c types m x (hl x List.mem_cons_self))
        · exact .inl h
      · exact .inr (addType_mono c types m t x h)

theorem mem_related {c x : κ} {types : List κ} (h : x ∈ W.related c types) :
    x ∈ types ∧ x ∉ W.mro c ∧ W.sub c x = true ∧
      ∀ o ∈ types, o ∉ W.mro c → W.sub c o = true → x ∈ W.mro o → x = o := by
  simp only [Classes.related, List.mem_filter, Bool.and_eq_true, Bool.not_eq_true', List.any_eq_false, List.contains_eq_mem,
    decide_eq_false_iff_not, decide_eq_true_eq, not_and, and_imp] at h
  refine ⟨h.1.1, h.1.2.1, h.1.2.2, ?_⟩
  intro o ho h1 h2 h3
  by_contra hne
  exact h.2 o ho h1 h2 hne h3

omit [DecidableEq κ] in
theorem le_sum_map (f : κ → Nat) (l : List κ) (x : κ) (h : x ∈ l) : f x ≤ (l.map f).sum := by
  induction l with
  | nil => simp at h
  | cons y t ih =>
    rw [List.map_cons, List.sum_cons]
    rcases List.mem_cons.1 h with rfl | h
    · omega
    · have := ih h; omega

/-- Every registered class that `c` belongs to without inheriting is related, or inherited by one that is. -/
theorem related_cover (w : PyClasses W registry born) (c x : κ) (hx : x ∈ registry) (hm : x ∉ W.mro c)
    (hsub : W.sub c x = true) : ∃ o ∈ W.related c registry, x ∈ W.mro o := by
  -- by induction on how many registered classes are younger
  suffices H : ∀ n, ∀ x ∈ registry, x ∉ W.mro c → W.sub c x = true →
      (registry.map born).sum < n + born x → ∃ o ∈ W.related c registry, x ∈ W.mro o from
    H ((registry.map born).sum + 1) x hx hm hsub (by omega)
  intro n
  induction n with
  | zero =>
    intro x hx _ _ h
    exfalso
    have := le_sum_map born registry x hx
    omega
  | succ n ih =>
    intro x hx hm hsub hn
    by_cases hr : x ∈ W.related c registry
    · exact ⟨x, hr, w.self_mem x⟩
    · have : ∃ o ∈ registry, o ∉ W.mro c ∧ W.sub c o = true ∧ x ≠ o ∧ x ∈ W.mro o := by
        simp only [Classes.related, List.mem_filter, Bool.and_eq_true, Bool.not_eq_true', List.any_eq_false,
          List.contains_eq_mem, decide_eq_false_iff_not, decide_eq_true_eq, not_and, and_imp] at hr
        have := hr hx hm hsub
        push Not at this
        obtain ⟨o, ho, h1, h2, h3, h4⟩ := this
        exact ⟨o, ho, h1, h2, h3, h4⟩
      obtain ⟨o, ho, h1, h2, hne, hxo⟩ := this
      have hb := w.born_mro (born o) o (Nat.le_refl _) x hxo hne
      obtain ⟨o', ho', hoo⟩ := ih o ho h1 h2 (by omega)
      exact ⟨o', ho', w.mro_trans (born o') o' (Nat.le_refl _) o hoo x hxo⟩

theorem pending_order (w : PyClasses W registry born) (c : κ) :
    Pending W registry c (W.order c (W.related c registry)) := by
  refine ⟨?_, ?_, ?_⟩
  · intro a ha; exact (mem_related ((mem_order w c _ a).1 ha)).1
  · intro a ha; exact (mem_related ((mem_order w c _ a).1 ha)).2.1
  · intro a ha a' ha' hm
    have h1 := mem_related ((mem_order w c _ a).1 ha)
    have h2 := mem_related ((mem_order w c _ a').1 ha')
    exact h2.2.2.2 a h1.1 h1.2.1 h1.2.2.1 hm

/-! ## The choice -/

theorem pick_ok {c t : κ} {r : List κ} (h : W.pick c registry r = .ok t) :
    t ∈ registry ∧ ∃ pre post, r = pre ++ t :: post ∧ ∀ x ∈ pre, x ∉ registry := by
  induction r with
  | nil => simp [Classes.pick] at h
  | cons y rest ih =>
    simp only [Classes.pick] at h
    by_cases hy : registry.contains y = true
    · rw [if_pos hy] at h
      have hyt : y = t := by
        cases rest with
        | nil => simpa using h
        | cons u us =>
          simp only at h
          split at h
          · simp at h
          · simpa using h
      subst hyt
      exact ⟨by simpa using hy, [], rest, rfl, by simp⟩
    · rw [if_neg hy] at h
      obtain ⟨h1, pre, post, rfl, h2⟩ := ih h
      refine ⟨h1, y :: pre, post, rfl, ?_⟩
      intro x hx
      rcases List.mem_cons.1 hx with rfl | hx
      · simpa using hy
      · exact h2 x hx

theorem pick_error {c : κ} {r : List κ} {e : Failure} (h : W.pick c registry r = .error e) :
    (e = .noMatch ∧ ∀ x ∈ r, x ∉ registry) ∨
    (e = .ambiguous ∧ ∃ t u, t ∈ r ∧ u ∈ r ∧ t ∈ registry ∧ u ∈ registry ∧ t ∉ W.mro c ∧ u ∉ W.mro c ∧ W.sub t u = false) := by
  induction r with
  | nil =>
    simp only [Classes.pick, Except.error.injEq] at h
    exact .inl ⟨h.symm, by simp⟩
  | cons y rest ih =>
    simp only [Classes.pick] at h
    by_cases hy : registry.contains y = true
    · rw [if_pos hy] at h
      cases rest with
      | nil => simp at h
      | cons u us =>
        simp only at h
        split at h
        · rename_i hc
          simp only [Except.error.injEq] at h
          simp only [Bool.and_eq_true, Bool.not_eq_true', List.contains_eq_mem, decide_eq_true_eq,
            decide_eq_false_iff_not] at hc
          exact .inr ⟨h.symm, y, u, by simp, by simp, by simpa using hy, hc.1.1.1, hc.1.2, hc.1.1.2, hc.2⟩
        · simp at h
    · rw [if_neg hy] at h
      rcases ih h with ⟨h1, h2⟩ | ⟨h1, t, u, ht, hu, h2⟩
      · refine .inl ⟨h1, ?_⟩
        intro x hx
        rcases List.mem_cons.1 hx with rfl | hx
        · simpa using hy
        · exact h2 x hx
      · exact .inr ⟨h1, t, u, List.mem_cons_of_mem _ ht, List.mem_cons_of_mem _ hu, h2⟩

/-- A registered class that stands before another keeps it from being picked. -/
theorem pick_before {c t u : κ} {r : List κ} (h : W.pick c registry r = .ok t) (hn : r.Nodup) (hu : u ∈ registry)
    (hs : [u, t].Sublist r) : False := by
  obtain ⟨_, pre, post, rfl, hpre⟩ := pick_ok h
  rw [List.nodup_append] at hn
  obtain ⟨_, hn2, hn3⟩ := hn
  rw [List.nodup_cons] at hn2
  obtain ⟨l1, l2, hl, h1, h2⟩ := List.sublist_append_iff.1 hs
  match l1, hl with
  | [], hl =>
    simp only [List.nil_append] at hl
    subst hl
    cases h2 with
    | cons _ h2 => exact hn2.1 (h2.subset (by simp))
    | cons_cons _ h2 => exact hn2.1 (h2.subset (by simp))
  | x :: l1, hl =>
    simp only [List.cons_append, List.cons.injEq] at hl
    obtain ⟨rfl, _⟩ := hl
    exact hpre u (h1.subset (by simp)) hu

theorem composeMro_nodup {fuel : Nat} {c : κ} {r : List κ} (h : W.composeMro fuel c registry = .ok r) : r.Nodup := by
  obtain ⟨_, _, hn, _⟩ := c3Mro_calls h
  exact hn

theorem composeMro_sub (w : PyClasses W registry born) {fuel : Nat} {c x : κ} {r : List κ}
    (h : W.composeMro fuel c registry = .ok r) (hr : x ∈ registry) (hx : x ∈ r) : W.sub c x = true := by
  rcases c3Mro_elems w fuel c _ r (pending_order w c) h x hx with h1 | ⟨a, ha, hsub, hxa⟩
  · exact w.sub_mro c x h1
  · have ha := (pending_order w c).registered a ha
    exact w.sub_trans c a x ha hr hsub (w.sub_mro a x hxa)

theorem composeMro_mem (w : PyClasses W registry born) {fuel : Nat} {c x : κ} {r : List κ}
    (h : W.composeMro fuel c registry = .ok r) (hr : x ∈ registry) (hx : W.sub c x = true) : x ∈ r := by
  obtain ⟨h1, h2⟩ := c3Mro_contains w fuel c _ r (pending_order w c) h
  by_cases hm : x ∈ W.mro c
  · exact h1 x hm
  · obtain ⟨o, ho, hxo⟩ := related_cover w c x hr hm hx
    have hor := h2 o ((mem_order w c _ o).2 ho) (mem_related ho).2.2.1
    obtain ⟨f', abcs', r', p', h', hs⟩ := c3Mro_sub w fuel c _ r (pending_order w c) h o hor
    exact hs.subset ((c3Mro_contains w f' o abcs' r' p' h').1 x hxo)

/-- In the result a class stands before those that it inherits from. -/
theorem composeMro_before (w : PyClasses W registry born) {fuel : Nat} {c x y : κ} {r : List κ}
    (h : W.composeMro fuel c registry = .ok r) (hx : x ∈ r) (hy : y ∈ W.mro x) (hne : x ≠ y) : [x, y].Sublist r := by
  obtain ⟨f', abcs', r', p', h', hs⟩ := c3Mro_sub w fuel c _ r (pending_order w c) h x hx
  have hyr := (c3Mro_contains w f' x abcs' r' p' h').1 y hy
  obtain ⟨t, rfl⟩ := c3Mro_head w p' h'
  rcases List.mem_cons.1 hyr with rfl | hyr
  · exact absurd rfl hne
  · exact ((List.singleton_sublist.2 hyr).cons_cons x).trans hs

/-- A class of the mro stands before the abstract classes that it belongs to. -/
theorem composeMro_virtual (w : PyClasses W registry born) {fuel : Nat} {c x y : κ} {r : List κ}
    (h : W.composeMro fuel c registry = .ok r) (hx : x ∈ W.mro c) (hy : y ∈ W.related c registry)
    (hsub : W.sub x y = true) : [x, y].Sublist r := by
  obtain ⟨f', abcs', r', p', h', hs, _, hall⟩ := c3Mro_mro w fuel c _ r (pending_order w c) h x hx
  have hyr := (c3Mro_contains w f' x abcs' r' p' h').2 y (hall y ((mem_order w c _ y).2 hy) hsub) hsub
  obtain ⟨t, rfl⟩ := c3Mro_head w p' h'
  rcases List.mem_cons.1 hyr with rfl | hyr
  · exact absurd hx (mem_related hy).2.1
  · exact ((List.singleton_sublist.2 hyr).cons_cons x).trans hs

theorem dispatch_ok {fuel : Nat} {c t : κ} (h : W.dispatch fuel registry c = .ok t) :
    (c ∈ registry ∧ t = c) ∨ (c ∉ registry ∧ ∃ r, W.composeMro fuel c registry = .ok r ∧ W.pick c registry r = .ok t) := by
  unfold Classes.dispatch at h
  by_cases hc : registry.contains c = true
  · rw [if_pos hc] at h
    simp only [Except.ok.injEq] at h
    exact .inl ⟨by simpa using hc, h.symm⟩
  · rw [if_neg hc] at h
    cases hm : W.composeMro fuel c registry with
    | error e => rw [hm] at h; simp at h
    | ok r => rw [hm] at h; exact .inr ⟨by simpa using hc, r, rfl, h⟩

/-! ## A class with an abstract base and a plain one, registered with an abstract class -/

/-- `E(P, V)`, with `P` abstract, is a virtual subclass of `D`, and of no other registered class. -/
theorem c3Mro_registered (w : PyClasses W registry born) {fuel : Nat} {E P V D T : κ} {abcs r : List κ}
    (p : Pending W registry E abcs) (h : W.c3Mro fuel E abcs = .ok r) (hD : D ∈ abcs)
    (hbases : W.bases E = [P, V]) (hP : W.abstract P = true) (hV : W.abstract V = false)
    (hED : W.sub E D = true) (honly : ∀ a ∈ registry, W.sub E a = true → a = D ∨ a ∈ W.mro E)
    (hnP : ∀ a ∈ registry, W.sub P a = true → a ∈ W.mro P) (hnV : ∀ a ∈ registry, W.sub V a = true → a ∈ W.mro V)
    (hT : T ∈ W.mro E) (hTP : T ∉ W.mro P) (hTE : T ≠ E) : [D, T].Sublist r := by
  obtain ⟨f, e, a, o, rfl, h1, h2, h3, h4⟩ := c3Mro_ok h
  have hDE := p.fresh D hD
  have hPb : P ∈ W.bases E := by rw [hbases]; simp
  have hVb : V ∈ W.bases E := by rw [hbases]; simp
  have hbound : W.boundary E = 1 := by simp [Classes.boundary, hbases, hP, hV]
  have hsP : W.sub P D = false := by
    cases hs : W.sub P D with
    | false => rfl
    | true => exact absurd (w.mro_base E P hPb D (hnP D (p.registered D hD) hs)) hDE
  have hsV : W.sub V D = false := by
    cases hs : W.sub V D with
    | false => rfl
    | true => exact absurd (w.mro_base E V hVb D (hnV D (p.registered D hD) hs)) hDE
  have hint : W.introduces E D = true := by simp [Classes.introduces, hED, hbases, hsP, hsV]
  obtain ⟨hn, hsubl, _⟩ := mergeLoop_spec _ _ _ h4
  -- the only abstract class introduced is `D`
  have habs : abcs.filter (fun a => W.introduces E a) = [D] := by
    have hnd : (abcs.filter (fun a => W.introduces E a)).Nodup := (hsubl _ (by simp)).nodup hn
    have hall : ∀ x ∈ abcs.filter (fun a => W.introduces E a), x = D := by
      intro x hx
      obtain ⟨hx, hi⟩ := List.mem_filter.1 hx
      rcases honly x (p.registered x hx) (introduces_sub hi) with h | h
      · exact h
      · exact absurd h (p.fresh x hx)
    have hmem : D ∈ abcs.filter (fun a => W.introduces E a) := List.mem_filter.2 ⟨hD, hint⟩
    match hl : abcs.filter (fun a => W.introduces E a) with
    | [] => rw [hl] at hmem; simp at hmem
    | [x] => rw [hl] at hall; rw [hall x (by simp)]
    | x :: y :: l =>
      rw [hl] at hall hnd
      rw [hall x (by simp), hall y (by simp)] at hnd
      simp at hnd
  rw [hbound, hbases] at h1 h3 h4
  rw [habs] at h2 h4
  simp only [List.take_succ_cons, List.take_zero, List.drop_succ_cons, List.drop_zero] at h1 h3 h4
  have single : ∀ (g : κ → Except Failure (List κ)) (x : κ) (l : List (List κ)), mapE g [x] = .ok l →
      ∃ s, g x = .ok s ∧ l = [s] := by
    intro g x l hl
    simp only [mapE] at hl
    cases hg : g x with
    | error e => rw [hg] at hl; simp at hl
    | ok s => rw [hg] at hl; simp only [Except.ok.injEq] at hl; exact ⟨s, rfl, hl.symm⟩
  obtain ⟨rp, hrp, rfl⟩ := single _ _ _ h1
  obtain ⟨rd, hrd, rfl⟩ := single _ _ _ h2
  obtain ⟨rv, hrv, rfl⟩ := single _ _ _ h3
  have pP := p.call w (b := P) (.inl hPb)
  have pV := p.call w (b := V) (.inl hVb)
  have pD := p.call w (b := D) (.inr ⟨hD, hint⟩)
  have elemP : ∀ x ∈ rp, x ∈ W.mro P := by
    intro x hx
    rcases c3Mro_elems w f P _ rp pP hrp x hx with h | ⟨a, ha, hs, _⟩
    · exact h
    · exact absurd (hnP a (pP.registered a ha) hs) (pP.fresh a ha)
  have elemV : ∀ x ∈ rv, x ∈ W.mro V := by
    intro x hx
    rcases c3Mro_elems w f V _ rv pV hrv x hx with h | ⟨a, ha, hs, _⟩
    · exact h
    · exact absurd (hnV a (pV.registered a ha) hs) (pV.fresh a ha)
  have hDP : D ∉ rp := fun h => hDE (w.mro_base E P hPb D (elemP D h))
  have hDV : D ∉ rv := fun h => hDE (w.mro_base E V hVb D (elemV D h))
  have hTr : T ∈ r := (c3Mro_contains w _ E abcs r p h).1 T hT
  obtain ⟨td, rfl⟩ := c3Mro_head w pD hrd
  have hnd : (D :: td).Nodup := (hsubl _ (by simp)).nodup hn
  refine mergeLoop_prefer _ [[E], rp] [rv, [P], [D], [V]] D T td r (by simpa [c3Merge] using h4) ?_ ?_
    (fun h => hDE (h ▸ hT)) hTr
  · intro s hs
    simp only [List.cons_append, List.nil_append, List.mem_cons, List.not_mem_nil, or_false] at hs
    rcases hs with rfl | rfl | rfl | rfl | rfl | rfl | rfl
    · simp
    · exact fun h => hDP (List.mem_of_mem_tail h)
    · exact (List.nodup_cons.1 hnd).1
    · exact fun h => hDV (List.mem_of_mem_tail h)
    · simp
    · simp
    · simp
  · intro s hs
    simp only [List.mem_cons, List.not_mem_nil, or_false] at hs
    rcases hs with rfl | rfl
    · simpa using hTE
    · exact fun h => hTP (elemP T h)

end

/-! ## Errors -/

theorem mergeLoop_error (fuel : Nat) (seqs : List (List κ)) (e : Failure) (h : mergeLoop fuel seqs = .error e) :
    e = .tooDeep ∨ e = .inconsistent := by
  induction fuel generalizing seqs with
  | zero => simp only [mergeLoop, Except.error.injEq] at h; exact .inl h.symm
  | succ f ih =>
    simp only [mergeLoop] at h
    split at h
    · simp at h
    · split at h
      · simp only [Except.error.injEq] at h; exact .inr h.symm
      · rename_i x _
        cases hm : mergeLoop f (removeHead x (seqs.filter (fun s => !s.isEmpty))) with
        | error e' =>
          rw [hm] at h
          simp only [Except.error.injEq] at h
          subst h
          exact ih _ hm
        | ok r => rw [hm] at h; simp at h

omit [DecidableEq κ] in
theorem mapE_error {f : κ → Except Failure (List κ)} {l : List κ} {e : Failure} (h : mapE f l = .error e) :
    ∃ x ∈ l, f x = .error e := by
  induction l with
  | nil => simp [mapE] at h
  | cons x t ih =>
    simp only [mapE] at h
    cases hx : f x with
    | error e' =>
      rw [hx] at h
      simp only [Except.error.injEq] at h
      subst h
      exact ⟨x, List.mem_cons_self, hx⟩
    | ok r =>
      cases ht : mapE f t with
      | error e' =>
        rw [hx, ht] at h
        simp only [Except.error.injEq] at h
        subst h
        obtain ⟨y, hy, hf⟩ := ih ht
        exact ⟨y, List.mem_cons_of_mem _ hy, hf⟩
      | ok rs => rw [hx, ht] at h; simp at h

theorem c3Mro_errors {W : Classes κ} (fuel : Nat) : ∀ (c : κ) (abcs : List κ) (e : Failure), W.c3Mro fuel c abcs = .error e →
    e = .tooDeep ∨ e = .inconsistent := by
  induction fuel with
  | zero => intro c abcs e h; simp only [Classes.c3Mro, Except.error.injEq] at h; exact .inl h.symm
  | succ f ih =>
    intro c abcs e h
    simp only [Classes.c3Mro] at h
    split at h
    · exact mergeLoop_error _ _ _ h
    · rename_i hx
      simp only [Except.error.injEq] at h
      subst h
      obtain ⟨b, _, hb⟩ := mapE_error hx
      exact ih b _ _ hb
    · rename_i hx
      simp only [Except.error.injEq] at h
      subst h
      obtain ⟨b, _, hb⟩ := mapE_error hx
      exact ih b _ _ hb
    · rename_i hx
      simp only [Except.error.injEq] at h
      subst h
      obtain ⟨b, _, hb⟩ := mapE_error hx
      exact ih b _ _ hb

theorem c3Mro_error {W : Classes κ} {fuel : Nat} {c : κ} {registry : List κ} {e : Failure}
    (h : W.composeMro fuel c registry = .error e) (hne : e ≠ .tooDeep) : e = .inconsistent :=
  (c3Mro_errors fuel c _ e h).resolve_left hne

end V8.Dispatch
