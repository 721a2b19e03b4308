import Verif.Model.ErrorTexts
import Verif.Spec.ErrorTexts
import Verif.Proofs.Errors

/-!
# Lemmas about the texts of exceptions (C90)
-/

namespace V8.Errors
open V8.Spec V8.Spec.ErrorTexts

theorem joinPairs_eq (repr : Val → Str) : ∀ l : List (String × Val), joinPairs repr l = listing repr l
  | [] => rfl
  | [(n, v)] => by simp [joinPairs, listing, List.intercalate]
  | (n, v) :: p :: t => by
    have ih := joinPairs_eq repr (p :: t)
    rw [listing, ← ih]
    simp [joinPairs, List.intercalate, List.intersperse]

theorem listing_nil (repr : Val → Str) (l : List (String × Val)) : listing repr l = [] ↔ l = [] := by
  match l with
  | [] => simp [listing]
  | [(n, v)] => simp [listing, str]
  | (n, v) :: p :: t => simp [listing, str]

theorem pairs_ok {e : Err} : ∀ {names : List String}, (∀ n ∈ names, ∃ v, e.get n = .ok v) →
    ∃ l, e.pairs names = .ok l ∧ l.map (·.1) = names ∧ ∀ p ∈ l, e.get p.1 = .ok p.2
  | [], _ => ⟨[], rfl, rfl, by simp⟩
  | n :: t, h => by
    obtain ⟨v, hv⟩ := h n (by simp)
    obtain ⟨l, h1, h2, h3⟩ := pairs_ok (names := t) fun m hm => h m (List.mem_cons_of_mem _ hm)
    refine ⟨(n, v) :: l, by simp only [Err.pairs, hv, h1], by simp [h2], ?_⟩
    intro p hp
    rcases List.mem_cons.1 hp with rfl | hp
    · exact hv
    · exact h3 p hp

theorem names1 {l : List (String × Val)} {a : String} (h : l.map (·.1) = [a]) : ∃ x, l = [(a, x)] := by
  match l, h with
  | [(_, x)], h => simp at h; subst h; exact ⟨x, rfl⟩

theorem names2 {l : List (String × Val)} {a b : String} (h : l.map (·.1) = [a, b]) : ∃ x y, l = [(a, x), (b, y)] := by
  match l, h with
  | [(_, x), (_, y)], h => simp at h; obtain ⟨rfl, rfl⟩ := h; exact ⟨x, y, rfl⟩

theorem names3 {l : List (String × Val)} {a b c : String} (h : l.map (·.1) = [a, b, c]) :
    ∃ x y z, l = [(a, x), (b, y), (c, z)] := by
  match l, h with
  | [(_, x), (_, y), (_, z)], h => simp at h; obtain ⟨rfl, rfl, rfl⟩ := h; exact ⟨x, y, z, rfl⟩

theorem names4 {l : List (String × Val)} {a b c d : String} (h : l.map (·.1) = [a, b, c, d]) :
    ∃ x y z w, l = [(a, x), (b, y), (c, z), (d, w)] := by
  match l, h with
  | [(_, x), (_, y), (_, z), (_, w)], h => simp at h; obtain ⟨rfl, rfl, rfl, rfl⟩ := h; exact ⟨x, y, z, w, rfl⟩

end V8.Errors
