import Verif.Proofs.Dense
import Verif.Proofs.Dict
import Mathlib.Data.List.Nodup
import Mathlib.Data.List.Perm.Subperm

namespace V8
open Spec
variable {α : Type}

/-! ## sorting -/

theorem mem_insertSorted (k x : Nat) (l : List Nat) :
    x ∈ insertSorted k l ↔ x = k ∨ x ∈ l := by
  induction l with
  | nil => simp [insertSorted]
  | cons h t ih =>
    rw [insertSorted]
    split
    · simp
    · simp [ih]; tauto

theorem mem_sortNat (x : Nat) (l : List Nat) : x ∈ sortNat l ↔ x ∈ l := by
  induction l with
  | nil => simp [sortNat]
  | cons h t ih => rw [sortNat, mem_insertSorted, ih]; simp

theorem insertSorted_sorted (k : Nat) (l : List Nat) (h : l.Pairwise (· < ·)) (hk : k ∉ l) :
    (insertSorted k l).Pairwise (· < ·) := by
  induction l with
  | nil => simp [insertSorted]
  | cons a t ih =>
    rw [insertSorted]
    rw [List.pairwise_cons] at h
    simp only [List.mem_cons, not_or] at hk
    split
    · rename_i hle
      rw [List.pairwise_cons]
      refine ⟨?_, List.pairwise_cons.2 h⟩
      intro x hx
      rcases List.mem_cons.1 hx with rfl | hx
      · omega
      · have := h.1 x hx; omega
    · rw [List.pairwise_cons]
      refine ⟨?_, ih h.2 hk.2⟩
      intro x hx
      rcases (mem_insertSorted k x t).1 hx with rfl | hx
      · omega
      · exact h.1 x hx

theorem sortNat_sorted (l : List Nat) (h : l.Nodup) : (sortNat l).Pairwise (· < ·) := by
  induction l with
  | nil => simp [sortNat]
  | cons a t ih =>
    rw [List.nodup_cons] at h
    rw [sortNat]
    exact insertSorted_sorted a _ (ih h.2) (by rw [mem_sortNat]; exact h.1)

theorem bisectLeft_take (l : List Nat) (x : Nat) (h : l.Pairwise (· < ·)) :
    (∀ k, k ∈ l.take (bisectLeft l x) ↔ k ∈ l ∧ k < x) ∧
    (∀ k, k ∈ l.drop (bisectLeft l x) ↔ k ∈ l ∧ ¬ k < x) := by
  induction l with
  | nil => simp [bisectLeft]
  | cons a t ih =>
    rw [List.pairwise_cons] at h
    rw [bisectLeft]
    obtain ⟨ih1, ih2⟩ := ih h.2
    by_cases ha : a < x
    · simp only [ha, if_true, List.take_succ_cons, List.drop_succ_cons, List.mem_cons, ih1, ih2]
      constructor
      · intro k
        constructor
        · rintro (rfl | h'); exacts [⟨Or.inl rfl, ha⟩, ⟨Or.inr h'.1, h'.2⟩]
        · rintro ⟨rfl | h1, h2⟩; exacts [Or.inl rfl, Or.inr ⟨h1, h2⟩]
      · intro k
        constructor
        · rintro ⟨h1, h2⟩; exact ⟨Or.inr h1, h2⟩
        · rintro ⟨rfl | h1, h2⟩; exacts [absurd ha h2, ⟨h1, h2⟩]
    · simp only [ha, if_false, List.take_zero, List.drop_zero]
      have hall : ∀ k ∈ a :: t, ¬ k < x := by
        intro k hk
        rcases List.mem_cons.1 hk with rfl | hk
        · exact ha
        · have := h.1 k hk; omega
      constructor
      · intro k
        constructor
        · intro hk; simp at hk
        · rintro ⟨h1, h2⟩; exact absurd h2 (hall k h1)
      · intro k
        exact ⟨fun hk => ⟨hk, hall k hk⟩, fun hk => hk.1⟩

/-! ## invariant and abstraction -/

/-- The representation invariant of `SparseArrayProperties`. -/
structure Sparse.Inv (s : Sparse α) : Prop where
  nodup : s.items.keys.Nodup
  bound : ∀ k ∈ s.items.keys, (k : Int) < s.len
  nonneg : 0 ≤ s.len
  sorted : ∀ l, s.sortedKeys = some l → l.Pairwise (· < ·) ∧ ∀ k, k ∈ l ↔ k ∈ s.items.keys

/-- The list of elements a sparse array stands for. -/
def Sparse.abs (s : Sparse α) : List (Option α) :=
  (List.range s.len.toNat).map (fun i => s.items.get i)

theorem Sparse.length_abs (s : Sparse α) : s.abs.length = s.len.toNat := by simp [Sparse.abs]

theorem Sparse.getElem?_abs (s : Sparse α) (i : Nat) :
    s.abs[i]? = if i < s.len.toNat then some (s.items.get i) else none := by
  unfold Sparse.abs
  rw [List.getElem?_map]
  by_cases h : i < s.len.toNat
  · rw [List.getElem?_range h, if_pos h]; rfl
  · rw [if_neg h, List.getElem?_eq_none (by simpa using h)]; rfl

theorem abs_ext {s : Sparse α} {l : List (Option α)} (hlen : l.length = s.len.toNat)
    (h : ∀ i, i < s.len.toNat → l[i]? = some (s.items.get i)) : s.abs = l := by
  apply List.ext_getElem?
  intro i
  rw [Sparse.getElem?_abs]
  by_cases hi : i < s.len.toNat
  · rw [if_pos hi, h i hi]
  · rw [if_neg hi, List.getElem?_eq_none (by omega)]

theorem Sparse.sortedKeysNow_spec {s : Sparse α} (h : s.Inv) :
    s.sortedKeysNow.Pairwise (· < ·) ∧ ∀ k, k ∈ s.sortedKeysNow ↔ k ∈ s.items.keys := by
  unfold Sparse.sortedKeysNow
  cases hs : s.sortedKeys with
  | some l => exact h.sorted l hs
  | none => exact ⟨sortNat_sorted _ h.nodup, fun k => mem_sortNat k _⟩

theorem Sparse.mem_keys_abs {s : Sparse α} (h : s.Inv) (k : Nat) :
    k ∈ s.items.keys ↔ k ∈ occupied s.abs := by
  rw [mem_occupied, Dict.mem_keys_iff]
  constructor
  · rintro ⟨v, hv⟩
    have hk : k < s.len.toNat := by
      have := h.bound k ((Dict.mem_keys_iff _ _).2 ⟨v, hv⟩); omega
    exact ⟨v, by rw [Sparse.getElem?_abs, if_pos hk, hv]⟩
  · rintro ⟨v, hv⟩
    rw [Sparse.getElem?_abs] at hv
    split at hv
    · exact ⟨v, by simpa using hv⟩
    · simp at hv

theorem Sparse.sortedKeysNow_eq {s : Sparse α} (h : s.Inv) :
    s.sortedKeysNow = occupied s.abs := by
  obtain ⟨h1, h2⟩ := Sparse.sortedKeysNow_spec h
  exact sorted_unique h1 (occupied_sorted _) (fun k => by rw [h2, Sparse.mem_keys_abs h])

theorem length_occupied (l : List (Option α)) : (occupied l).length = usedCount l := by
  rw [← usedIndexes_zero]
  suffices ∀ s, (usedIndexes l s).length = usedCount l from this 0
  induction l with
  | nil => intro s; rfl
  | cons a t ih =>
    intro s
    cases a with
    | none => rw [usedIndexes, ih]; simp [usedCount]
    | some v => rw [usedIndexes, List.length_cons, ih]; simp [usedCount]

theorem Sparse.used_eq {s : Sparse α} (h : s.Inv) : s.used = usedCount s.abs := by
  unfold Sparse.used
  rw [← length_occupied, ← Dict.length_keys]
  have hocc : (occupied s.abs).Nodup := (occupied_sorted s.abs).imp (fun h => Nat.ne_of_lt h)
  exact ((List.perm_ext_iff_of_nodup h.nodup hocc).2 (fun k => Sparse.mem_keys_abs h k)).length_eq

theorem Sparse.normaliseIndex_eq {s : Sparse α} (h : s.Inv) (i : Int) :
    s.normaliseIndex i = subscript s.abs.length i := by
  rw [Sparse.length_abs]
  have h0 := h.nonneg
  unfold Sparse.normaliseIndex
  by_cases hi : i < 0
  · rw [if_pos hi]
    by_cases h2 : s.len + i < 0
    · rw [if_pos h2, subscript_none (Or.inl (by omega))]
    · rw [if_neg h2, subscript_of_neg hi (by omega)]; congr 1; omega
  · rw [if_neg hi]
    by_cases h2 : i ≥ s.len
    · rw [if_pos h2, subscript_none (Or.inr (by omega))]
    · rw [if_neg h2, subscript_of_nonneg (by omega) (by omega)]

/-! ## iteration -/

theorem expandRuns_cons (length pos : Int) (i : Nat) (v : α) (t : List (Nat × α)) :
    expandRuns length pos (adjacentRuns ((i, v) :: t))
      = List.replicate ((i : Int) - pos).toNat none ++ some v ::
          expandRuns length ((i : Int) + 1) (adjacentRuns t) := by
  rw [adjacentRuns]
  cases h : adjacentRuns t with
  | nil => simp [expandRuns]
  | cons e rest =>
    obtain ⟨j, vs⟩ := e
    simp only
    split
    · rename_i hj
      subst hj
      simp only [expandRuns, List.map_cons, List.length_cons, List.append_assoc, List.cons_append]
      have h1 : (((i + 1 : Nat) : Int) - ((i : Int) + 1)).toNat = 0 := by omega
      have h2 : (i : Int) + ((vs.length + 1 : Nat) : Int) = ((i + 1 : Nat) : Int) + vs.length := by
        omega
      rw [h1, h2]; simp
    · simp [expandRuns]

theorem expandRuns_eq (g : Nat → Option α) (n : Nat) (es : List (Nat × α)) (pos : Nat)
    (hpos : pos ≤ n)
    (hs : (es.map (·.1)).Pairwise (· < ·))
    (hb : ∀ e ∈ es, pos ≤ e.1 ∧ e.1 < n)
    (hg : ∀ k v, pos ≤ k → k < n → (g k = some v ↔ (k, v) ∈ es)) :
    expandRuns (n : Int) (pos : Int) (adjacentRuns es) = (List.range' pos (n - pos)).map g := by
  induction es generalizing pos with
  | nil =>
    rw [adjacentRuns, expandRuns]
    have : ((n : Int) - pos).toNat = n - pos := by omega
    rw [this]
    symm
    rw [List.eq_replicate_iff]
    refine ⟨by simp, ?_⟩
    intro b hb'
    rw [List.mem_map] at hb'
    obtain ⟨k, hk, rfl⟩ := hb'
    rw [List.mem_range'_1] at hk
    cases hgk : g k with
    | none => rfl
    | some v => exact absurd ((hg k v hk.1 (by omega)).1 hgk) (by simp)
  | cons e t ih =>
    obtain ⟨i, v⟩ := e
    rw [expandRuns_cons]
    simp only [List.map_cons, List.pairwise_cons] at hs
    obtain ⟨hi1, hi2⟩ := hb (i, v) List.mem_cons_self
    simp only at hi1 hi2
    have hlt : ∀ e ∈ t, i < e.1 := fun e he => hs.1 e.1 (List.mem_map.2 ⟨e, he, rfl⟩)
    have ih' := ih (i + 1) (by omega) hs.2
      (fun e he => ⟨hlt e he, (hb e (List.mem_cons_of_mem _ he)).2⟩)
      (by
        intro k w hk1 hk2
        rw [hg k w (by omega) hk2, List.mem_cons]
        constructor
        · rintro (h | h)
          · simp only [Prod.mk.injEq] at h; omega
          · exact h
        · exact Or.inr)
    have e1 : ((i : Int) + 1) = ((i + 1 : Nat) : Int) := by omega
    rw [e1, ih']
    have e2 : n - pos = (i - pos) + (1 + (n - (i + 1))) := by omega
    rw [e2, ← List.range'_append_1, ← List.range'_append_1, List.map_append, List.map_append]
    have e3 : ((i : Int) - pos).toNat = i - pos := by omega
    have e4 : pos + (i - pos) = i := by omega
    rw [e3, e4]
    congr 1
    · symm
      rw [List.eq_replicate_iff]
      refine ⟨by simp, ?_⟩
      intro b hb'
      rw [List.mem_map] at hb'
      obtain ⟨k, hk, rfl⟩ := hb'
      rw [List.mem_range'_1] at hk
      cases hgk : g k with
      | none => rfl
      | some w =>
        have := (hg k w hk.1 (by omega)).1 hgk
        rcases List.mem_cons.1 this with h | h
        · simp only [Prod.mk.injEq] at h; omega
        · have := hlt _ h; simp only at this; omega
    · have := (hg i v hi1 hi2).2 List.mem_cons_self
      simp [this]

theorem Sparse.elementItems_spec {s : Sparse α} (h : s.Inv) :
    (s.elementItems.map (·.1)) = s.sortedKeysNow ∧
    ∀ k v, (k, v) ∈ s.elementItems ↔ s.items.get k = some v := by
  obtain ⟨_, h2⟩ := Sparse.sortedKeysNow_spec h
  unfold Sparse.elementItems
  constructor
  · have : ∀ l : List Nat, (∀ k ∈ l, k ∈ s.items.keys) →
        (l.filterMap (fun k => (s.items.get k).map (fun v => (k, v)))).map (·.1) = l := by
      intro l hl
      induction l with
      | nil => rfl
      | cons a t ih =>
        obtain ⟨v, hv⟩ := (Dict.mem_keys_iff _ _).1 (hl a List.mem_cons_self)
        rw [List.filterMap_cons]
        simp only [hv, Option.map_some, List.map_cons]
        rw [ih (fun k hk => hl k (List.mem_cons_of_mem _ hk))]
    exact this _ (fun k hk => (h2 k).1 hk)
  · intro k v
    rw [List.mem_filterMap]
    constructor
    · rintro ⟨a, _, ha⟩
      rw [Option.map_eq_some_iff] at ha
      obtain ⟨w, hw, he⟩ := ha
      simp only [Prod.mk.injEq] at he
      rw [← he.1, ← he.2]; exact hw
    · intro hv
      exact ⟨k, (h2 k).2 ((Dict.mem_keys_iff _ _).2 ⟨v, hv⟩), by simp [hv]⟩

theorem Sparse.toList_eq {s : Sparse α} (h : s.Inv) : s.toList = s.abs := by
  obtain ⟨h1, h2⟩ := Sparse.elementItems_spec h
  have h0 := h.nonneg
  unfold Sparse.toList Sparse.abs
  have hl : s.len = (s.len.toNat : Int) := by omega
  have := expandRuns_eq (fun i => s.items.get i) s.len.toNat s.elementItems 0 (Nat.zero_le _)
    (by rw [h1]; exact (Sparse.sortedKeysNow_spec h).1)
    (by
      intro e he
      obtain ⟨k, v⟩ := e
      have := h.bound k ((Dict.mem_keys_iff _ _).2 ⟨v, (h2 k v).1 he⟩)
      simp only; omega)
    (by intro k v _ _; exact (h2 k v).symm)
  rw [← hl] at this
  simp only [Nat.sub_zero, ← List.range_eq_range'] at this
  exact this

end V8
