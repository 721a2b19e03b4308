import Verif.Spec.PlainEq
import Mathlib.Data.List.Forall2

/-! Lemmas about `==` between JSMap and dict, JSSet and set. -/

namespace V8
open V8.Spec

theorem same_or_eq_true {py : PyCompare} {v w : Val} :
    py.same_or_eq v w = .ok true ↔ Equal py v w := by
  unfold PyCompare.same_or_eq Equal
  by_cases h : py.same v w = true
  · simp [h]
  · simp [h]

theorem keyMatch_hashable {py : PyCompare} (hw : HashesWell py) {v w : Val} (hv : CanHash py v)
    (hww : CanHash py w) :
    (py.keyMatch v w = .ok true ∧ Equal py v w) ∨ (py.keyMatch v w = .ok false ∧ ¬ Equal py v w) := by
  unfold PyCompare.keyMatch
  by_cases hh : py.hash v = py.hash w
  · rw [if_pos hh]
    by_cases he : Equal py v w
    · exact .inl ⟨same_or_eq_true.2 he, he⟩
    · refine .inr ⟨?_, he⟩
      obtain ⟨b, hb⟩ := hw.total v w hv hww
      unfold PyCompare.same_or_eq
      have hs : ¬ py.same v w = true := fun h => he (.inl h)
      rw [if_neg hs, hb]
      cases b with
      | false => rfl
      | true => exact absurd (.inr hb) he
  · rw [if_neg hh]
    exact .inr ⟨rfl, fun he => hh (hw.hash v w hv hww he)⟩

variable {β : Type}

/-- Looking up a key in a dict: none matches, or exactly one entry does. -/
theorem find_spec {py : PyCompare} (hw : HashesWell py) {k : Val} (hk : CanHash py k)
    (d : List (Val × β)) (hd : DistinctKeys py (d.map (·.1))) :
    (py.find k d = .ok none ∧ ∀ e ∈ d, ¬ Equal py e.1 k) ∨
      ∃ e ∈ d, Equal py e.1 k ∧ py.find k d = .ok (some e.2) ∧
        ∀ e' ∈ d, Equal py e'.1 k → e' = e := by
  induction d with
  | nil => exact .inl ⟨rfl, by simp⟩
  | cons e t ih =>
    obtain ⟨k', v⟩ := e
    have hk' : CanHash py k' := hd.1 k' (by simp)
    have hp := hd.2
    rw [List.map_cons, List.pairwise_cons] at hp
    have ht : DistinctKeys py (t.map (·.1)) :=
      ⟨fun x hx => hd.1 x (List.mem_cons_of_mem _ hx), hp.2⟩
    rcases keyMatch_hashable hw hk' hk with ⟨hm, he⟩ | ⟨hm, he⟩
    · refine .inr ⟨(k', v), by simp, he, ?_, ?_⟩
      · simp [PyCompare.find, hm]
      · intro e' he' heq
        rcases List.mem_cons.1 he' with rfl | he'
        · rfl
        · exfalso
          have hk1 : CanHash py e'.1 := ht.1 _ (List.mem_map_of_mem he')
          exact hp.1 e'.1 (List.mem_map_of_mem he')
            (hw.trans _ _ _ hk' hk hk1 he (hw.symm _ _ hk1 hk heq))
    · have hf : py.find k ((k', v) :: t) = py.find k t := by simp [PyCompare.find, hm]
      rw [hf]
      rcases ih ht with ⟨h1, h2⟩ | ⟨e, h1, h2, h3, h4⟩
      · refine .inl ⟨h1, ?_⟩
        intro e he1
        rcases List.mem_cons.1 he1 with rfl | he1
        · exact he
        · exact h2 e he1
      · refine .inr ⟨e, List.mem_cons_of_mem _ h1, h2, h3, ?_⟩
        intro e' he' heq
        rcases List.mem_cons.1 he' with rfl | he'
        · exact absurd heq he
        · exact h4 e' he' heq

/-- Storing a hashable key in a dict. -/
theorem store_spec {py : PyCompare} (hw : HashesWell py) {k : Val} (hk : CanHash py k) (v : β)
    (d : List (Val × β)) (hd : ∀ e ∈ d, CanHash py e.1) :
    ((∀ e ∈ d, ¬ Equal py e.1 k) ∧ py.store k v d = .ok (d ++ [(k, v)])) ∨
      ((∃ e ∈ d, Equal py e.1 k) ∧ ∃ d', py.store k v d = .ok d' ∧ d'.map (·.1) = d.map (·.1)) := by
  induction d with
  | nil => exact .inl ⟨by simp, rfl⟩
  | cons e t ih =>
    obtain ⟨k', v'⟩ := e
    have hk' : CanHash py k' := hd (k', v') (by simp)
    rcases keyMatch_hashable hw hk' hk with ⟨hm, he⟩ | ⟨hm, he⟩
    · refine .inr ⟨⟨(k', v'), by simp, he⟩, (k', v) :: t, ?_, by simp⟩
      simp [PyCompare.store, hm]
    · rcases ih (fun e he => hd e (List.mem_cons_of_mem _ he)) with ⟨h1, h2⟩ | ⟨⟨e, h1, h1'⟩, d', h2, h3⟩
      · refine .inl ⟨?_, ?_⟩
        · intro e he1
          rcases List.mem_cons.1 he1 with rfl | he1
          · exact he
          · exact h1 e he1
        · simp [PyCompare.store, hm, h2]
      · refine .inr ⟨⟨e, List.mem_cons_of_mem _ h1, h1'⟩, (k', v') :: d', ?_, by simp [h3]⟩
        simp [PyCompare.store, hm, h2]

/-- `dict(pairs)` with hashable keys works.  It has as many entries as there are pairs only when the keys are
pairwise unequal, and then its entries are the pairs. -/
theorem storeAll_spec {py : PyCompare} (hw : HashesWell py) (l d : List (Val × β))
    (hl : ∀ e ∈ l, CanHash py e.1) (hd : ∀ e ∈ d, CanHash py e.1) :
    ∃ r, py.storeAll d l = .ok r ∧ r.length ≤ d.length + l.length ∧
      ((r = d ++ l ∧ (∀ a ∈ d, ∀ b ∈ l, ¬ Equal py a.1 b.1) ∧
        (l.map (·.1)).Pairwise (fun a b => ¬ Equal py a b)) ∨
       (r.length < d.length + l.length ∧
        ¬ ((∀ a ∈ d, ∀ b ∈ l, ¬ Equal py a.1 b.1) ∧
        (l.map (·.1)).Pairwise (fun a b => ¬ Equal py a b)))) := by
  induction l generalizing d with
  | nil => exact ⟨d, rfl, by simp, .inl ⟨by simp, by simp, by simp⟩⟩
  | cons e t ih =>
    obtain ⟨k, v⟩ := e
    have hk : CanHash py k := hl (k, v) (by simp)
    have ht : ∀ e ∈ t, CanHash py e.1 := fun e he => hl e (List.mem_cons_of_mem _ he)
    obtain ⟨x, hx⟩ := Option.isSome_iff_exists.1 hk
    rcases store_spec hw hk v d hd with ⟨h1, h2⟩ | ⟨⟨e, h1, h1'⟩, d', h2, h3⟩
    · have hd' : ∀ e ∈ d ++ [(k, v)], CanHash py e.1 := by
        intro e he
        rcases List.mem_append.1 he with he | he
        · exact hd e he
        · rw [List.mem_singleton.1 he]; exact hk
      obtain ⟨r, hr, hlen, hcase⟩ := ih (d ++ [(k, v)]) ht hd'
      have hs : py.storeAll d ((k, v) :: t) = .ok r := by simp [PyCompare.storeAll, hx, h2, hr]
      have hiff : ((∀ a ∈ d ++ [(k, v)], ∀ b ∈ t, ¬ Equal py a.1 b.1) ∧
          (t.map (·.1)).Pairwise (fun a b => ¬ Equal py a b)) ↔
          ((∀ a ∈ d, ∀ b ∈ (k, v) :: t, ¬ Equal py a.1 b.1) ∧
          (((k, v) :: t).map (·.1)).Pairwise (fun a b => ¬ Equal py a b)) := by
        constructor
        · rintro ⟨p, q⟩
          refine ⟨?_, ?_⟩
          · intro a ha b hb
            rcases List.mem_cons.1 hb with rfl | hb
            · exact h1 a ha
            · exact p a (List.mem_append_left _ ha) b hb
          · rw [List.map_cons, List.pairwise_cons]
            refine ⟨?_, q⟩
            intro b hb
            obtain ⟨e, he, rfl⟩ := List.mem_map.1 hb
            exact p (k, v) (by simp) e he
        · rintro ⟨p, q⟩
          rw [List.map_cons, List.pairwise_cons] at q
          refine ⟨?_, q.2⟩
          intro a ha b hb
          rcases List.mem_append.1 ha with ha | ha
          · exact p a ha b (List.mem_cons_of_mem _ hb)
          · rw [List.mem_singleton.1 ha]
            exact q.1 b.1 (List.mem_map_of_mem hb)
      refine ⟨r, hs, by simp at hlen ⊢; omega, ?_⟩
      rcases hcase with ⟨p1, p2⟩ | ⟨p1, p2⟩
      · exact .inl ⟨by simp [p1], hiff.1 p2⟩
      · exact .inr ⟨by simp at p1 ⊢; omega, fun h => p2 (hiff.2 h)⟩
    · have hlen' : d'.length = d.length := by simpa using congrArg List.length h3
      have hd' : ∀ e ∈ d', CanHash py e.1 := by
        intro e he
        have : e.1 ∈ d.map (·.1) := h3 ▸ List.mem_map_of_mem he
        obtain ⟨e', he', h⟩ := List.mem_map.1 this
        rw [← h]; exact hd e' he'
      obtain ⟨r, hr, hlen, -⟩ := ih d' ht hd'
      have hs : py.storeAll d ((k, v) :: t) = .ok r := by simp [PyCompare.storeAll, hx, h2, hr]
      refine ⟨r, hs, by simp at hlen ⊢; omega, .inr ⟨by simp at hlen ⊢; omega, ?_⟩⟩
      rintro ⟨p, -⟩
      exact p e h1 (k, v) (by simp) h1'

/-- An unhashable key makes `dict(pairs)` raise. -/
theorem storeAll_unhashable {py : PyCompare} (l d : List (Val × β))
    (h : ∃ e ∈ l, ¬ CanHash py e.1) : ∃ e, py.storeAll d l = .error e := by
  induction l generalizing d with
  | nil => simp at h
  | cons e t ih =>
    obtain ⟨k, v⟩ := e
    unfold PyCompare.storeAll
    cases hx : py.hash k with
    | none => exact ⟨_, rfl⟩
    | some x =>
      have ht : ∃ e ∈ t, ¬ CanHash py e.1 := by
        obtain ⟨e, he, hn⟩ := h
        rcases List.mem_cons.1 he with rfl | he
        · exact absurd (show CanHash py k by simp [CanHash, hx]) hn
        · exact ⟨e, he, hn⟩
      cases hs : py.store k v d with
      | error e => exact ⟨e, rfl⟩
      | ok d' => exact ih d' ht

/-- Entries that are found one by one are matched one to one. -/
theorem agree_of_found {py : PyCompare} (hw : HashesWell py) (R : β → β → Prop) (c d : List (Val × β))
    (hc : DistinctKeys py (c.map (·.1))) (hd : DistinctKeys py (d.map (·.1)))
    (hlen : c.length = d.length)
    (h : ∀ x ∈ c, ∃ y ∈ d, Equal py x.1 y.1 ∧ R x.2 y.2) :
    AgreeInAnyOrder (fun x y => Equal py x.1 y.1 ∧ R x.2 y.2) c d := by
  induction c generalizing d with
  | nil =>
    have : d = [] := List.length_eq_zero_iff.1 hlen.symm
    subst this
    exact ⟨[], .refl _, .nil⟩
  | cons x t ih =>
    obtain ⟨y, hy, hxy⟩ := h x (by simp)
    obtain ⟨d₁, d₂, rfl⟩ := List.append_of_mem hy
    have hp := hc.2
    rw [List.map_cons, List.pairwise_cons] at hp
    have hx : CanHash py x.1 := hc.1 _ (by simp)
    have hyh : CanHash py y.1 := hd.1 _ (by simp)
    have ht : DistinctKeys py (t.map (·.1)) :=
      ⟨fun x hx => hc.1 x (List.mem_cons_of_mem _ hx), hp.2⟩
    have hd' : DistinctKeys py ((d₁ ++ d₂).map (·.1)) := by
      refine ⟨?_, ?_⟩
      · intro k hk
        apply hd.1
        simp only [List.map_append, List.map_cons, List.mem_append, List.mem_cons] at hk ⊢
        rcases hk with hk | hk
        · exact .inl hk
        · exact .inr (.inr hk)
      · refine hd.2.sublist (List.Sublist.map _ ?_)
        exact (List.sublist_cons_self y d₂).append_left d₁
    obtain ⟨d', hd'p, hd'f⟩ := ih (d₁ ++ d₂) ht hd' (by simp at hlen ⊢; omega) (by
      intro z hz
      obtain ⟨w, hw', hzw⟩ := h z (List.mem_cons_of_mem _ hz)
      refine ⟨w, ?_, hzw⟩
      simp only [List.mem_append, List.mem_cons] at hw' ⊢
      rcases hw' with hw' | rfl | hw'
      · exact .inl hw'
      · exfalso
        have hzh : CanHash py z.1 := ht.1 _ (List.mem_map_of_mem hz)
        exact hp.1 z.1 (List.mem_map_of_mem hz)
          (hw.trans _ _ _ hx hyh hzh hxy.1 (hw.symm _ _ hzh hyh hzw.1))
      · exact .inr hw')
    exact ⟨y :: d', (hd'p.cons y).trans List.perm_middle.symm, .cons hxy hd'f⟩

theorem agree_mem {α : Type} {R : α → α → Prop} {a b : List α} (h : List.Forall₂ R a b) {x : α}
    (hx : x ∈ a) : ∃ y ∈ b, R x y := by
  induction h with
  | nil => simp at hx
  | cons hr _ ih =>
    rcases List.mem_cons.1 hx with rfl | hx
    · exact ⟨_, by simp, hr⟩
    · obtain ⟨y, hy, h⟩ := ih hx
      exact ⟨y, List.mem_cons_of_mem _ hy, h⟩

theorem found_of_agree {py : PyCompare} (R : β → β → Prop) (c d : List (Val × β))
    (h : AgreeInAnyOrder (fun x y => Equal py x.1 y.1 ∧ R x.2 y.2) c d) :
    c.length = d.length ∧ ∀ x ∈ c, ∃ y ∈ d, Equal py x.1 y.1 ∧ R x.2 y.2 := by
  obtain ⟨d', hp, hf⟩ := h
  refine ⟨by rw [hf.length_eq, hp.length_eq], ?_⟩
  intro x hx
  obtain ⟨y, hy, hxy⟩ := agree_mem hf hx
  exact ⟨y, hp.subset hy, hxy⟩

theorem entriesIn_true {py : PyCompare} (hw : HashesWell py) (d c : List (Val × Val))
    (hc : ∀ e ∈ c, CanHash py e.1) (hd : DistinctKeys py (d.map (·.1))) :
    py.entriesIn d c = .ok true ↔ ∀ x ∈ c, ∃ y ∈ d, Equal py x.1 y.1 ∧ Equal py x.2 y.2 := by
  induction c with
  | nil => simp [PyCompare.entriesIn]
  | cons x t ih =>
    obtain ⟨k, v⟩ := x
    have hk : CanHash py k := hc (k, v) (by simp)
    have ih := ih (fun e he => hc e (List.mem_cons_of_mem _ he))
    rcases find_spec hw hk d hd with ⟨h1, h2⟩ | ⟨e, h1, h2, h3, h4⟩
    · simp only [PyCompare.entriesIn, h1]
      constructor
      · intro h; simp at h
      · intro h
        obtain ⟨y, hy, he, -⟩ := h (k, v) (by simp)
        have hyk : CanHash py y.1 := hd.1 _ (List.mem_map_of_mem hy)
        exact absurd (hw.symm _ _ hk hyk he) (h2 y hy)
    · have hek : CanHash py e.1 := hd.1 _ (List.mem_map_of_mem h1)
      have hiff : (∃ y ∈ d, Equal py k y.1 ∧ Equal py v y.2) ↔ py.same_or_eq v e.2 = .ok true := by
        rw [same_or_eq_true]
        constructor
        · rintro ⟨y, hy, hky, hvy⟩
          have hyk : CanHash py y.1 := hd.1 _ (List.mem_map_of_mem hy)
          rw [← h4 y hy (hw.symm _ _ hk hyk hky)]; exact hvy
        · intro h
          exact ⟨e, h1, hw.symm _ _ hek hk h2, h⟩
      simp only [PyCompare.entriesIn, h3, List.forall_mem_cons, hiff, ← ih]
      cases hs : py.same_or_eq v e.2 with
      | error e => simp
      | ok b => cases b <;> simp

theorem setGo_true {py : PyCompare} (hw : HashesWell py) (d c : List (Val × Unit))
    (hc : ∀ e ∈ c, CanHash py e.1) (hd : DistinctKeys py (d.map (·.1))) :
    PyCompare.setEq.go py d c = .ok true ↔ ∀ x ∈ c, ∃ y ∈ d, Equal py x.1 y.1 ∧ True := by
  induction c with
  | nil => simp [PyCompare.setEq.go]
  | cons x t ih =>
    obtain ⟨k, v⟩ := x
    have hk : CanHash py k := hc (k, v) (by simp)
    have ih := ih (fun e he => hc e (List.mem_cons_of_mem _ he))
    rcases find_spec hw hk d hd with ⟨h1, h2⟩ | ⟨e, h1, h2, h3, h4⟩
    · simp only [PyCompare.setEq.go, h1]
      constructor
      · intro h; simp at h
      · intro h
        obtain ⟨y, hy, he, -⟩ := h (k, v) (by simp)
        have hyk : CanHash py y.1 := hd.1 _ (List.mem_map_of_mem hy)
        exact absurd (hw.symm _ _ hk hyk he) (h2 y hy)
    · have hek : CanHash py e.1 := hd.1 _ (List.mem_map_of_mem h1)
      have hiff : (∃ y ∈ d, Equal py k y.1 ∧ True) ↔ True :=
        ⟨fun _ => trivial, fun _ => ⟨e, h1, hw.symm _ _ hek hk h2, trivial⟩⟩
      simp only [PyCompare.setEq.go, h3, List.forall_mem_cons, hiff, ← ih, true_and]

theorem allZip_true {α : Type} (test : α → α → Except PyExc Bool) (a b : List α)
    (hlen : a.length = b.length) :
    allZip test a b = .ok true ↔ List.Forall₂ (fun x y => test x y = .ok true) a b := by
  induction a generalizing b with
  | nil =>
    cases b with
    | nil => simp [allZip]
    | cons y t => simp at hlen
  | cons x s ih =>
    cases b with
    | nil => simp at hlen
    | cons y t =>
      have ih := ih t (by simpa using hlen)
      rw [List.forall₂_cons, ← ih]
      simp only [allZip]
      cases ht : test x y with
      | error e => simp
      | ok b => cases b <;> simp

theorem pairEq_true {py : PyCompare} {x y : Val × Val} :
    py.pairEq x y = .ok true ↔ EqualPair py x y := by
  unfold PyCompare.pairEq EqualPair
  rw [← same_or_eq_true, ← same_or_eq_true]
  cases h : py.same_or_eq x.1 y.1 with
  | error e => simp
  | ok b => cases b <;> simp

theorem map_some_true {r : Except PyExc Bool} : r.map some = .ok (some true) ↔ r = .ok true := by
  cases r with
  | error e => simp [Except.map]
  | ok b => simp [Except.map]

/-- A list of pairs that agrees with the entries of a dict has distinct keys itself. -/
theorem distinct_of_agree {py : PyCompare} (hw : HashesWell py) (R : β → β → Prop) (c d : List (Val × β))
    (hc : ∀ e ∈ c, CanHash py e.1) (hd : DistinctKeys py (d.map (·.1)))
    (h : AgreeInAnyOrder (fun x y => Equal py x.1 y.1 ∧ R x.2 y.2) c d) :
    (c.map (·.1)).Pairwise (fun a b => ¬ Equal py a b) := by
  obtain ⟨d', hp, hf⟩ := h
  have hd1 : ∀ e ∈ d', CanHash py e.1 := fun e he => hd.1 _ (List.mem_map_of_mem (hp.subset he))
  have hd2 : (d'.map (·.1)).Pairwise (fun a b => ¬ Equal py a b) := by
    have hk : ∀ k ∈ d'.map (·.1), CanHash py k := by
      intro k hk
      obtain ⟨e, he, rfl⟩ := List.mem_map.1 hk
      exact hd1 e he
    have hs : (d'.map (·.1)).Pairwise (fun a b => CanHash py a → CanHash py b → ¬ Equal py a b) := by
      refine (List.Perm.pairwise_iff ?_ (hp.map _)).2 (hd.2.imp (fun h _ _ => h))
      intro a b h hb ha he
      exact h ha hb (hw.symm _ _ hb ha he)
    exact hs.imp_of_mem (fun ha hb h => h (hk _ ha) (hk _ hb))
  clear hp hd
  induction hf with
  | nil => simp
  | @cons x y s t hxy hst ih =>
    rw [List.map_cons, List.pairwise_cons] at hd2 ⊢
    refine ⟨?_, ih (fun e he => hc e (List.mem_cons_of_mem _ he))
      (fun e he => hd1 e (List.mem_cons_of_mem _ he)) hd2.2⟩
    intro k hk he
    obtain ⟨z, hz, rfl⟩ := List.mem_map.1 hk
    obtain ⟨w, hw', hzw⟩ := agree_mem hst hz
    have hxk := hc x (by simp)
    have hyk := hd1 y (by simp)
    have hzk := hc z (List.mem_cons_of_mem _ hz)
    have hwk := hd1 w (List.mem_cons_of_mem _ hw')
    exact hd2.1 w.1 (List.mem_map_of_mem hw')
      (hw.trans _ _ _ hyk hxk hwk (hw.symm _ _ hxk hyk hxy.1) (hw.trans _ _ _ hxk hzk hwk he hzw.1))

/-- Comparing pairs with hashable keys with a dict by way of `dict(pairs)`. -/
theorem toDict_agree {py : PyCompare} (hw : HashesWell py) (R : β → β → Prop)
    (test : List (Val × β) → Prop) (c d : List (Val × β))
    (hc : ∀ e ∈ c, CanHash py e.1) (hd : DistinctKeys py (d.map (·.1))) (hlen : c.length = d.length)
    (htest : ∀ c : List (Val × β), (∀ e ∈ c, CanHash py e.1) →
      (test c ↔ ∀ x ∈ c, ∃ y ∈ d, Equal py x.1 y.1 ∧ R x.2 y.2)) :
    ∃ r, py.toDict c = .ok r ∧ ((r.length = d.length ∧ test r) ↔
      AgreeInAnyOrder (fun x y => Equal py x.1 y.1 ∧ R x.2 y.2) c d) := by
  obtain ⟨r, hr, -, hcase⟩ := storeAll_spec hw c [] hc (by simp)
  refine ⟨r, hr, ?_⟩
  rcases hcase with ⟨h1, -, h3⟩ | ⟨h1, h2⟩
  · rw [List.nil_append] at h1
    subst h1
    have hcd : DistinctKeys py (r.map (·.1)) := by
      refine ⟨?_, h3⟩
      intro k hk
      obtain ⟨e, he, rfl⟩ := List.mem_map.1 hk
      exact hc e he
    rw [htest r hc]
    exact ⟨fun h => agree_of_found hw R r d hcd hd hlen h.2, fun h => found_of_agree R r d h⟩
  · constructor
    · rintro ⟨h, -⟩
      simp at h1
      omega
    · intro h
      exact absurd ⟨by simp, distinct_of_agree hw R c d hc hd h⟩ h2

/-! ## No exceptions but those of the values -/

section total
variable {py : PyCompare} (ht : ∀ v w, ∃ b, py.eq v w = .ok b)
include ht

theorem same_or_eq_total (v w : Val) : ∃ b, py.same_or_eq v w = .ok b := by
  unfold PyCompare.same_or_eq
  split
  · exact ⟨_, rfl⟩
  · exact ht v w

theorem find_total (k : Val) (d : List (Val × β)) : ∃ r, py.find k d = .ok r := by
  induction d with
  | nil => exact ⟨_, rfl⟩
  | cons e t ih =>
    obtain ⟨k', v⟩ := e
    have : ∃ b, py.keyMatch k' k = .ok b := by
      unfold PyCompare.keyMatch
      split
      · exact same_or_eq_total ht k' k
      · exact ⟨_, rfl⟩
    obtain ⟨b, hb⟩ := this
    cases b with
    | true => exact ⟨some v, by simp [PyCompare.find, hb]⟩
    | false =>
      obtain ⟨r, hr⟩ := ih
      exact ⟨r, by simp [PyCompare.find, hb, hr]⟩

theorem entriesIn_total (d c : List (Val × Val)) : ∃ r, py.entriesIn d c = .ok r := by
  induction c with
  | nil => exact ⟨_, rfl⟩
  | cons e t ih =>
    obtain ⟨k, v⟩ := e
    obtain ⟨o, ho⟩ := find_total ht k d
    cases o with
    | none => exact ⟨false, by simp [PyCompare.entriesIn, ho]⟩
    | some w =>
      obtain ⟨b, hb⟩ := same_or_eq_total ht v w
      cases b with
      | false => exact ⟨false, by simp [PyCompare.entriesIn, ho, hb]⟩
      | true =>
        obtain ⟨r, hr⟩ := ih
        exact ⟨r, by simp [PyCompare.entriesIn, ho, hb, hr]⟩

theorem setGo_total (d c : List (Val × Unit)) : ∃ r, PyCompare.setEq.go py d c = .ok r := by
  induction c with
  | nil => exact ⟨_, rfl⟩
  | cons e t ih =>
    obtain ⟨k, v⟩ := e
    obtain ⟨o, ho⟩ := find_total ht k d
    cases o with
    | none => exact ⟨false, by simp [PyCompare.setEq.go, ho]⟩
    | some w =>
      obtain ⟨r, hr⟩ := ih
      exact ⟨r, by simp [PyCompare.setEq.go, ho, hr]⟩

theorem pairEq_total (x y : Val × Val) : ∃ b, py.pairEq x y = .ok b := by
  unfold PyCompare.pairEq
  obtain ⟨b, hb⟩ := same_or_eq_total ht x.1 y.1
  rw [hb]
  cases b with
  | false => exact ⟨_, rfl⟩
  | true => exact same_or_eq_total ht _ _

omit ht in
theorem allZip_total {α : Type} {test : α → α → Except PyExc Bool} (h : ∀ x y, ∃ b, test x y = .ok b)
    (a b : List α) : ∃ r, allZip test a b = .ok r := by
  induction a generalizing b with
  | nil => exact ⟨true, by simp [allZip]⟩
  | cons x s ih =>
    cases b with
    | nil => exact ⟨true, by simp [allZip]⟩
    | cons y t =>
      obtain ⟨b, hb⟩ := h x y
      cases b with
      | false => exact ⟨false, by simp [allZip, hb]⟩
      | true =>
        obtain ⟨r, hr⟩ := ih t
        exact ⟨r, by simp [allZip, hb, hr]⟩

end total
end V8
