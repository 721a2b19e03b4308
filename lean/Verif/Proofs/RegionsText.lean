import Verif.Proofs.Regions
import Verif.Spec.ReprWritten
import Std.Data.String.ToInt

/-!
# The text of array properties tells arrays apart: proofs
-/

namespace V8.Regions

open V8 V8.Spec.Regions V8.Spec.ReprWritten

variable {α : Type}

theorem commas_two (x y : List Char) (t : List (List Char)) : commas (x :: y :: t) = x ++ (',' :: ' ' :: commas (y :: t)) := by
  simp [commas, List.intercalate, List.intersperse]

theorem commas_one (x : List Char) : commas [x] = x := by
  simp [commas, List.intercalate, List.intersperse]

/-- Parts that are not empty and have no commas are told apart by the text that joins them. -/
theorem commas_same : ∀ (P Q : List (List Char)), commas P = commas Q → (∀ x ∈ P, x ≠ [] ∧ ',' ∉ x) → (∀ x ∈ Q, x ≠ [] ∧ ',' ∉ x) →
    P = Q := by
  have split : ∀ (x : List Char) (t : List (List Char)), ∃ r, commas (x :: t) = x ++ r ∧ (∀ c ∈ r.head?, ¬ c ≠ ',') ∧
      ((t = [] ∧ r = []) ∨ (t ≠ [] ∧ r = ',' :: ' ' :: commas t)) := by
    intro x t
    cases t with
    | nil => exact ⟨[], by rw [commas_one, List.append_nil], by simp, .inl ⟨rfl, rfl⟩⟩
    | cons y t => exact ⟨_, commas_two x y t, by simp, .inr ⟨by simp, rfl⟩⟩
  intro P
  induction P with
  | nil =>
    intro Q h _ hQ
    cases Q with
    | nil => rfl
    | cons y t =>
      obtain ⟨r, hr, _⟩ := split y t
      rw [hr] at h
      have h : [] = y ++ r := h
      exact absurd (List.append_eq_nil_iff.1 h.symm).1 (hQ y (by simp)).1
  | cons x s ih =>
    intro Q h hP hQ
    obtain ⟨r, hr, hc, hrest⟩ := split x s
    cases Q with
    | nil =>
      rw [hr] at h
      have h : x ++ r = [] := h
      exact absurd (List.append_eq_nil_iff.1 h).1 (hP x (by simp)).1
    | cons y t =>
      obtain ⟨r', hr', hc', hrest'⟩ := split y t
      rw [hr, hr'] at h
      obtain ⟨e1, e2⟩ := runs_same (fun c => c ≠ ',') x y r r' h
        (fun c hm he => (hP x (by simp)).2 (he ▸ hm)) (fun c hm he => (hQ y (by simp)).2 (he ▸ hm)) hc hc'
      have et : s = t := by
        rcases hrest with ⟨a1, a2⟩ | ⟨a1, a2⟩ <;> rcases hrest' with ⟨b1, b2⟩ | ⟨b1, b2⟩
        · rw [a1, b1]
        · rw [a2, b2] at e2; cases e2
        · rw [a2, b2] at e2; cases e2
        · rw [a2, b2, List.cons.injEq, List.cons.injEq] at e2
          exact ih t e2.2.2 (fun z hz => hP z (by simp [hz])) (fun z hz => hQ z (by simp [hz]))
      rw [e1, et]

/-- A piece that shows an element, not holes. -/
def ofElement (x : List Char) : Prop := x.head? ≠ some '<'

theorem shown_empty_head (repr : α → List Char) {rs : List (Region α)} {k : Nat} {l : List (Option α)} (hd : Divide k rs l)
    (hk : ∀ r ∈ rs.head?, isEmpty r ≠ false) : ∀ x ∈ (rs.flatMap (shown repr)).head?, ¬ ofElement x := by
  cases rs with
  | nil => intro x hx; cases hx
  | cons r rest =>
    cases r with
    | occupied s vs => exact absurd rfl (hk _ rfl)
    | empty s n =>
      intro x hx
      have hx : _ = x := Option.mem_some_iff.1 hx
      rw [← hx]
      simp [ofElement]

/-- Lists whose regions are shown alike are the same. -/
theorem shown_same (repr : α → List Char) (hi : ∀ v w, repr v = repr w → v = w) (he : ∀ v, ofElement (repr v)) :
    ∀ {k k' : Nat} {rs rs' : List (Region α)} {l l' : List (Option α)}, Divide k rs l → Divide k' rs' l' →
      rs.flatMap (shown repr) = rs'.flatMap (shown repr) → l = l' := by
  have ne : ∀ (r : Region α), content r ≠ [] → shown repr r ≠ [] := by
    intro r h
    cases r with
    | empty s n => simp [shown]
    | occupied s vs =>
      intro hs
      apply h
      have hs : vs.map repr = [] := hs
      rw [List.map_eq_nil_iff] at hs
      rw [hs]; rfl
  intro k k' rs
  induction rs generalizing k k' with
  | nil =>
    intro rs' l l' h h' e
    cases rs' with
    | nil => exact Eq.trans h (Eq.symm h')
    | cons r' rest' =>
      rw [List.flatMap_cons, List.flatMap_nil] at e
      exact absurd (List.append_eq_nil_iff.1 e.symm).1 (ne r' h'.2.1)
  | cons r rest ih =>
    intro rs' l l' h h' e
    cases rs' with
    | nil =>
      rw [List.flatMap_cons, List.flatMap_nil] at e
      exact absurd (List.append_eq_nil_iff.1 e).1 (ne r h.2.1)
    | cons r' rest' =>
      obtain ⟨h1, h2, h3, t, h4, h5⟩ := h
      obtain ⟨g1, g2, g3, t', g4, g5⟩ := h'
      rw [List.flatMap_cons, List.flatMap_cons] at e
      cases r with
      | empty s n =>
        cases r' with
        | empty s' n' =>
          simp only [shown, List.cons_append, List.nil_append, List.cons.injEq, List.append_cancel_right_eq, true_and] at e
          have hn : n = n' := Int.repr_injective (String.toList_inj.1 e.1)
          rw [h4, g4, ih h5 g5 e.2, hn]
          rfl
        | occupied s' vs =>
          cases vs with
          | nil => exact absurd rfl g2
          | cons v vs =>
            simp only [shown, List.map_cons, List.cons_append, List.nil_append, List.cons.injEq] at e
            refine absurd ?_ (he v)
            rw [← e.1]
            simp
      | occupied s vs =>
        cases r' with
        | empty s' n =>
          cases vs with
          | nil => exact absurd rfl h2
          | cons v vs =>
            simp only [shown, List.map_cons, List.cons_append, List.nil_append, List.cons.injEq] at e
            refine absurd ?_ (he v)
            rw [e.1]
            simp
        | occupied s' vs' =>
          have hm : ∀ (us : List α), ∀ x ∈ us.map repr, ofElement x := by
            intro us x hx
            obtain ⟨v, _, rfl⟩ := List.mem_map.1 hx
            exact he v
          obtain ⟨e1, e2⟩ := runs_same ofElement (vs.map repr) (vs'.map repr) _ _ e (hm vs) (hm vs')
            (shown_empty_head repr h5 h3) (shown_empty_head repr g5 g3)
          have hv : vs = vs' := List.map_injective_iff.2 (fun v w hvw => hi v w hvw) e1
          rw [h4, g4, ih h5 g5 e2, hv]
          rfl

theorem digits_no_comma (n : Int) : ',' ∉ (toString n).toList := by
  have hnat : ∀ m : Nat, ',' ∉ (Nat.repr m).toList := by
    intro m hm
    rw [Nat.toList_repr] at hm
    have := Nat.isDigit_of_mem_toDigits (by decide) (by decide) hm
    exact absurd this (by decide)
  show ',' ∉ (Int.repr n).toList
  cases n with
  | ofNat m => exact hnat m
  | negSucc m =>
    intro h
    have h : ',' ∈ ("-" ++ Nat.repr (m + 1)).toList := h
    rw [String.toList_append, List.mem_append] at h
    rcases h with h | h
    · exact absurd h (by decide)
    · exact hnat _ h

theorem shown_pieces (repr : α → List Char) (hr : ∀ v, repr v ≠ [] ∧ ',' ∉ repr v) (rs : List (Region α)) :
    ∀ x ∈ rs.flatMap (shown repr), x ≠ [] ∧ ',' ∉ x := by
  intro x hx
  obtain ⟨r, _, hx⟩ := List.mem_flatMap.1 hx
  cases r with
  | empty s n =>
    have hx := List.mem_singleton.1 hx
    rw [hx]
    refine ⟨by simp, ?_⟩
    rw [List.mem_append, List.mem_append]
    rintro ((h | h) | h)
    · exact absurd h (by decide)
    · exact digits_no_comma n h
    · exact absurd h (by decide)
  | occupied s vs =>
    obtain ⟨v, _, rfl⟩ := List.mem_map.1 hx
    exact hr v

end V8.Regions
