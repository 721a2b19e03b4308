import Verif.Model.Views
import Verif.Spec.Views
import Verif.Proofs.PlainEq
import Verif.Proofs.SetAlgebra
import Mathlib.Data.List.Perm.Subperm

/-! Lemmas about the views of a JSMap. -/

namespace V8
open V8.Spec V8.Props

/-! ## Python sets -/

theorem keeps_nil (py : PyCompare) : Keeps py [] [] :=
  ⟨.slnil, ⟨by simp, .nil⟩, by simp⟩

theorem keeps_skip {py : PyCompare} {l r : List Val} (h : Keeps py l r) {v : Val}
    (hv : ∃ w ∈ r, Equal py w v) : Keeps py (l ++ [v]) r := by
  obtain ⟨h1, h2, h3⟩ := h
  refine ⟨h1.trans (List.sublist_append_left _ _), h2, fun n x hx => ?_⟩
  by_cases hn : n ≤ l.length
  · rw [List.take_append_of_le_length hn] at hx ⊢
    exact h3 n x hx
  · rw [List.take_of_length_le (by simp; omega)] at hx ⊢
    rcases List.mem_append.1 hx with hx | hx
    · obtain ⟨w, a, b, c⟩ := h3 l.length x (by rwa [List.take_length])
      exact ⟨w, a, List.mem_append_left _ (by rwa [List.take_length] at b), c⟩
    · obtain ⟨w, a, b⟩ := hv
      rw [List.mem_singleton.1 hx]
      exact ⟨w, a, List.mem_append_left _ (h1.subset a), b⟩

theorem keeps_add {py : PyCompare} (hw : HashesWell py) {l r : List Val} (h : Keeps py l r) {v : Val}
    (hk : CanHash py v) (hv : ∀ w ∈ r, ¬ Equal py w v) : Keeps py (l ++ [v]) (r ++ [v]) := by
  obtain ⟨h1, h2, h3⟩ := h
  refine ⟨h1.append (List.Sublist.refl _), ⟨?_, ?_⟩, fun n x hx => ?_⟩
  · intro k hk'
    rcases List.mem_append.1 hk' with hk' | hk'
    · exact h2.1 k hk'
    · rw [List.mem_singleton.1 hk']; exact hk
  · rw [List.pairwise_append]
    refine ⟨h2.2, List.pairwise_singleton _ _, fun a ha b hb => ?_⟩
    rw [List.mem_singleton.1 hb]
    exact hv a ha
  · by_cases hn : n ≤ l.length
    · rw [List.take_append_of_le_length hn] at hx ⊢
      obtain ⟨w, a, b, c⟩ := h3 n x hx
      exact ⟨w, List.mem_append_left _ a, b, c⟩
    · rw [List.take_of_length_le (by simp; omega)] at hx ⊢
      rcases List.mem_append.1 hx with hx | hx
      · obtain ⟨w, a, b, c⟩ := h3 l.length x (by rwa [List.take_length])
        exact ⟨w, List.mem_append_left _ a, List.mem_append_left _ (by rwa [List.take_length] at b), c⟩
      · rw [List.mem_singleton.1 hx]
        exact ⟨v, by simp, by simp, .inl (hw.refl v)⟩

theorem keeps_member {py : PyCompare} {l r : List Val} (h : Keeps py l r) {v : Val} (hv : v ∈ l) :
    ∃ w ∈ r, Equal py w v := by
  obtain ⟨w, a, _, c⟩ := h.2.2 l.length v (by rwa [List.take_length])
  exact ⟨w, a, c⟩

theorem gather_ok {py : PyCompare} (hw : HashesWell py) {test : Val → Except PyExc Bool} {b : Val → Bool}
    (l : List Val) : ∀ (p : List Val) (made : List (Val × Unit)), Keeps py p (made.map (·.1)) →
      (∀ v ∈ l, test v = .ok (b v)) → (∀ v ∈ l, b v = true → CanHash py v) →
      ∃ r, SetView.gather py test made l = .ok r ∧ Keeps py (p ++ l.filter b) (r.map (·.1)) := by
  induction l with
  | nil => intro p made h _ _; exact ⟨made, rfl, by simpa using h⟩
  | cons v t ih =>
    intro p made h ht hh
    have ht' : ∀ v ∈ t, test v = .ok (b v) := fun x hx => ht x (List.mem_cons_of_mem _ hx)
    have hh' : ∀ v ∈ t, b v = true → CanHash py v := fun x hx => hh x (List.mem_cons_of_mem _ hx)
    have hv := ht v List.mem_cons_self
    cases hb : b v with
    | false =>
      obtain ⟨r, h1, h2⟩ := ih p made h ht' hh'
      refine ⟨r, ?_, ?_⟩
      · unfold SetView.gather
        rw [hv, hb]
        exact h1
      · rwa [List.filter_cons_of_neg (by simp [hb])]
    | true =>
      have hk := hh v List.mem_cons_self hb
      obtain ⟨x, hx⟩ := Option.isSome_iff_exists.1 hk
      have hmade : ∀ e ∈ made, CanHash py e.1 := fun e he => h.2.1.1 _ (List.mem_map_of_mem he)
      have next : ∃ made', py.store v () made = .ok made' ∧ Keeps py (p ++ [v]) (made'.map (·.1)) := by
        rcases store_spec hw hk () made hmade with ⟨h1, h2⟩ | ⟨⟨e, h1, h1'⟩, d', h2, h3⟩
        · refine ⟨_, h2, ?_⟩
          rw [List.map_append]
          refine keeps_add hw h hk (fun w hw' => ?_)
          obtain ⟨e, he, rfl⟩ := List.mem_map.1 hw'
          exact h1 e he
        · refine ⟨d', h2, ?_⟩
          rw [h3]
          exact keeps_skip h ⟨e.1, List.mem_map_of_mem h1, h1'⟩
      obtain ⟨made', hs, hk'⟩ := next
      obtain ⟨r, h1, h2⟩ := ih (p ++ [v]) made' hk' ht' hh'
      refine ⟨r, ?_, ?_⟩
      · unfold SetView.gather
        simp only [hv, hb, hx, hs]
        exact h1
      · rw [List.filter_cons_of_pos (by simp [hb])]
        simpa using h2

theorem makeSet_ok {py : PyCompare} (hw : HashesWell py) {test : Val → Except PyExc Bool} {b : Val → Bool}
    {l : List Val} (ht : ∀ v ∈ l, test v = .ok (b v)) (hh : ∀ v ∈ l, b v = true → CanHash py v) :
    ∃ r, SetView.makeSet py test l = .ok r ∧ Keeps py (l.filter b) r := by
  obtain ⟨r, h1, h2⟩ := gather_ok hw l [] [] (keeps_nil py) ht hh
  refine ⟨r.map (·.1), ?_, by simpa using h2⟩
  unfold SetView.makeSet
  rw [h1]
  rfl

theorem gather_unhashable {py : PyCompare} (hw : HashesWell py) {test : Val → Except PyExc Bool}
    {b : Val → Bool} (l : List Val) : ∀ (p : List Val) (made : List (Val × Unit)), Keeps py p (made.map (·.1)) →
      (∀ v ∈ l, test v = .ok (b v)) → (∃ v ∈ l, b v = true ∧ ¬ CanHash py v) →
      SetView.gather py test made l = .error .typeError := by
  induction l with
  | nil => intro p made _ _ h; obtain ⟨v, hv, _⟩ := h; cases hv
  | cons v t ih =>
    intro p made h ht hu
    have ht' : ∀ v ∈ t, test v = .ok (b v) := fun x hx => ht x (List.mem_cons_of_mem _ hx)
    have hv := ht v List.mem_cons_self
    have later : (b v = true → CanHash py v) → ∃ v ∈ t, b v = true ∧ ¬ CanHash py v := by
      intro hn
      obtain ⟨x, hx, hb, hc⟩ := hu
      rcases List.mem_cons.1 hx with rfl | hx
      · exact absurd (hn hb) hc
      · exact ⟨x, hx, hb, hc⟩
    unfold SetView.gather
    cases hb : b v with
    | false =>
      rw [hv, hb]
      exact ih p made h ht' (later (by simp [hb]))
    | true =>
      rw [hv, hb]
      cases hx : py.hash v with
      | none => rfl
      | some x =>
        have hk : CanHash py v := by simp [CanHash, hx]
        have hmade : ∀ e ∈ made, CanHash py e.1 := fun e he => h.2.1.1 _ (List.mem_map_of_mem he)
        rcases store_spec hw hk () made hmade with ⟨h1, h2⟩ | ⟨⟨e, h1, h1'⟩, d', h2, h3⟩
        · simp only [h2]
          refine ih (p ++ [v]) _ ?_ ht' (later (fun _ => hk))
          rw [List.map_append]
          refine keeps_add hw h hk (fun w hw' => ?_)
          obtain ⟨e, he, rfl⟩ := List.mem_map.1 hw'
          exact h1 e he
        · simp only [h2]
          refine ih (p ++ [v]) _ ?_ ht' (later (fun _ => hk))
          rw [h3]
          exact keeps_skip h ⟨e.1, List.mem_map_of_mem h1, h1'⟩

theorem makeSet_unhashable {py : PyCompare} (hw : HashesWell py) {test : Val → Except PyExc Bool}
    {b : Val → Bool} {l : List Val} (ht : ∀ v ∈ l, test v = .ok (b v))
    (hu : ∃ v ∈ l, b v = true ∧ ¬ CanHash py v) : SetView.makeSet py test l = .error .typeError := by
  unfold SetView.makeSet
  rw [gather_unhashable hw l [] [] (keeps_nil py) ht hu]
  rfl

/-- `v in s` for a Python set. -/
theorem ofSet_has {py : PyCompare} (hw : HashesWell py) {l : List Val} (hl : DistinctKeys py l) {v : Val}
    (hv : CanHash py v) : ∃ b, (SetView.ofSet py l).has v = .ok b ∧ (b = true ↔ ∃ w ∈ l, Equal py w v) := by
  obtain ⟨x, hx⟩ := Option.isSome_iff_exists.1 hv
  simp only [SetView.ofSet, hx]
  have hd : DistinctKeys py ((l.map (fun x : Val => (x, ()))).map (·.1)) := by
    rw [List.map_map, show ((fun x : Val × Unit => x.1) ∘ fun x : Val => (x, ())) = id from rfl, List.map_id]
    exact hl
  rcases find_spec hw hv (l.map (fun x : Val => (x, ()))) hd with ⟨h1, h2⟩ | ⟨e, h1, h2, h3, _⟩
  · refine ⟨false, by rw [h1]; rfl, ?_⟩
    simp only [Bool.false_eq_true, false_iff]
    rintro ⟨w, hw', he⟩
    exact h2 (w, ()) (List.mem_map_of_mem hw') he
  · refine ⟨true, by rw [h3]; rfl, ?_⟩
    simp only [true_iff]
    obtain ⟨w, hw', rfl⟩ := List.mem_map.1 h1
    exact ⟨w, hw', h2⟩

theorem allE_iff {test : Val → Except PyExc Bool} {P : Val → Prop} {l : List Val}
    (h : ∀ v ∈ l, ∃ b, test v = .ok b ∧ (b = true ↔ P v)) :
    ∃ b, JSSet.allE test l = .ok b ∧ (b = true ↔ ∀ v ∈ l, P v) := by
  induction l with
  | nil => exact ⟨true, rfl, by simp⟩
  | cons v t ih =>
    obtain ⟨b, hb, hp⟩ := h v List.mem_cons_self
    obtain ⟨c, hc, hq⟩ := ih (fun x hx => h x (List.mem_cons_of_mem _ hx))
    unfold JSSet.allE
    cases b with
    | false =>
      refine ⟨false, by rw [hb], ?_⟩
      simp only [Bool.false_eq_true, false_iff] at hp ⊢
      exact fun hall => hp (hall v List.mem_cons_self)
    | true =>
      refine ⟨c, by rw [hb]; exact hc, ?_⟩
      rw [hq, List.forall_mem_cons]
      exact ⟨fun h => ⟨hp.1 rfl, h⟩, fun h => h.2⟩

/-! ## JSMap -/

variable {β : Type}

theorem mapLookup_some {l : List (Val × β)} (ho : (l.map (·.1)).Pairwise (fun a b => ¬ SameValueZero a b))
    {k : Val} {v : β} : mapLookup k l = some v ↔ ∃ e ∈ l, SameValueZero e.1 k ∧ e.2 = v := by
  induction l with
  | nil => simp [mapLookup]
  | cons e t ih =>
    rw [List.map_cons, List.pairwise_cons] at ho
    unfold mapLookup
    by_cases hs : SameValueZero e.1 k
    · rw [if_pos hs]
      constructor
      · intro h
        cases h
        exact ⟨e, List.mem_cons_self, hs, rfl⟩
      · rintro ⟨e', he', hs', rfl⟩
        rcases List.mem_cons.1 he' with rfl | he'
        · rfl
        · exact absurd (svz_trans hs (svz_symm hs')) (ho.1 _ (List.mem_map_of_mem he'))
    · rw [if_neg hs, ih ho.2]
      constructor
      · rintro ⟨e', he', h⟩
        exact ⟨e', List.mem_cons_of_mem _ he', h⟩
      · rintro ⟨e', he', hs', h⟩
        rcases List.mem_cons.1 he' with rfl | he'
        · exact absurd hs' hs
        · exact ⟨e', he', hs', h⟩

theorem mapLookup_none {l : List (Val × β)} {k : Val} :
    mapLookup k l = none ↔ hasMember k (l.map (·.1)) = false := by
  induction l with
  | nil => simp [mapLookup, hasMember]
  | cons e t ih =>
    unfold mapLookup
    by_cases hs : SameValueZero e.1 k
    · simp [hs, hasMember]
    · rw [if_neg hs, ih]
      simp [hs, hasMember]

/-- Inclusion between lists of the same length, with each class once, goes both ways. -/
theorem Once.within_of_length {l l' : List Val} (h : Once l) (hw : Within l l') (hl : l'.length ≤ l.length) :
    Within l' l := by
  intro v hv
  by_contra hn
  rw [Bool.not_eq_true] at hn
  obtain ⟨w, hw', hwv⟩ := hasMember_iff.1 hv
  have ho : Once (w :: l) := List.pairwise_cons.2 ⟨fun x hx hs => by
    have : hasMember v l = true := hasMember_iff.2 ⟨x, hx, svz_trans (svz_symm hs) hwv⟩
    exact Bool.false_ne_true (hn.symm.trans this), h⟩
  have := Once.length_le ho (l' := l') (fun x hx => by
    rcases List.mem_cons.1 hx with rfl | hx
    · exact hasMember_of_mem hw'
    · exact hw x (hasMember_of_mem hx))
  simp only [List.length_cons] at this
  omega

/-- A Python set keeps all of pairwise unequal values. -/
theorem keeps_distinct {py : PyCompare} (hw : HashesWell py) {l r : List Val} (hl : DistinctKeys py l)
    (h : Keeps py l r) : r = l := by
  have hsub : l ⊆ r := by
    intro v hv
    obtain ⟨w, hwr, he⟩ := keeps_member h hv
    have hwl := h.1.subset hwr
    have key : ∀ l : List Val, DistinctKeys py l → v ∈ l → w ∈ l → w = v := by
      intro l
      induction l with
      | nil => intro _ hv; cases hv
      | cons x t ih =>
        intro hd hv hw'
        have hp := List.pairwise_cons.1 hd.2
        have hvk := hd.1 v hv
        have hwk := hd.1 w hw'
        rcases List.mem_cons.1 hv with hvx | hvt
        · rcases List.mem_cons.1 hw' with hwx | hwt
          · rw [hvx, hwx]
          · exact absurd (hw.symm _ _ hwk hvk he) (by rw [hvx]; exact hp.1 w hwt)
        · rcases List.mem_cons.1 hw' with hwx | hwt
          · exact absurd he (by rw [hwx]; exact hp.1 v hvt)
          · exact ih ⟨fun k hk => hd.1 k (List.mem_cons_of_mem _ hk), hp.2⟩ hvt hwt
    rw [← key l hl hv hwl]
    exact hwr
  have hnd : l.Nodup := by
    refine List.Pairwise.imp ?_ hl.2
    intro a b hn heq
    rw [heq] at hn
    exact hn (.inl (hw.refl b))
  exact h.1.eq_of_length_le (List.subperm_of_subset hnd hsub).length_le

/-- Elements matched one to one: every element of `l` has a partner in `r`, no two of them the same, and the lists
have the same length. -/
theorem agree_of_inj {α : Type} {R : α → α → Prop} (l : List α) : ∀ (r : List α), l.length = r.length →
    (∀ a ∈ l, ∃ b ∈ r, R a b) → l.Pairwise (fun a a' => ∀ b, R a b → ¬ R a' b) → AgreeInAnyOrder R l r := by
  induction l with
  | nil =>
    intro r hl _ _
    cases r with
    | nil => exact ⟨[], List.Perm.refl _, .nil⟩
    | cons b t => cases hl
  | cons a t ih =>
    intro r hl hm hp
    rw [List.pairwise_cons] at hp
    obtain ⟨b, hb, hab⟩ := hm a List.mem_cons_self
    obtain ⟨r1, r2, rfl⟩ := List.append_of_mem hb
    have hlen : t.length = (r1 ++ r2).length := by
      simp only [List.length_cons, List.length_append] at hl ⊢
      omega
    obtain ⟨b', hperm, hf⟩ := ih (r1 ++ r2) hlen (fun a' ha' => by
      obtain ⟨c, hc, hac⟩ := hm a' (List.mem_cons_of_mem _ ha')
      have hne : ¬ R a' b := hp.1 a' ha' b hab
      rcases List.mem_append.1 hc with hc | hc
      · exact ⟨c, List.mem_append_left _ hc, hac⟩
      · rcases List.mem_cons.1 hc with rfl | hc
        · exact absurd hac hne
        · exact ⟨c, List.mem_append_right _ hc, hac⟩) hp.2
    exact ⟨b :: b', (hperm.cons b).trans List.perm_middle.symm, .cons hab hf⟩

theorem mem_of_agree {α : Type} {R : α → α → Prop} {l r : List α} (h : AgreeInAnyOrder R l r) :
    l.length = r.length ∧ ∀ a ∈ l, ∃ b ∈ r, R a b := by
  obtain ⟨b', hp, hf⟩ := h
  refine ⟨hf.length_eq.trans hp.length_eq, fun a ha => ?_⟩
  have key : ∀ (x y : List α), List.Forall₂ R x y → a ∈ x → ∃ b ∈ y, R a b := by
    intro x y hxy
    induction hxy with
    | nil => intro h; cases h
    | cons hab _ ih =>
      intro h
      rcases List.mem_cons.1 h with rfl | h
      · exact ⟨_, List.mem_cons_self, hab⟩
      · obtain ⟨b, hb, hr⟩ := ih h
        exact ⟨b, List.mem_cons_of_mem _ hb, hr⟩
  obtain ⟨b, hb, hr⟩ := key _ _ hf ha
  exact ⟨b, hp.subset hb, hr⟩

end V8
