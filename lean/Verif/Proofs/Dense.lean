import Verif.Spec.PyList
import Mathlib.Data.List.Basic
import Mathlib.Tactic.Ring
import Mathlib.Tactic.Linarith

namespace V8
open Spec
variable {α : Type}

theorem usedCount_eq (l : List (Option α)) : usedCount l = countUsed l := by
  unfold usedCount countUsed isHole
  congr 1
  funext v; cases v <;> rfl

theorem pyIndex_eq (n : Nat) (i : Int) : pyIndex n i = subscript n i := by
  unfold pyIndex subscript
  split_ifs <;> first | rfl | omega | (congr 1; omega) | (exfalso; omega)

theorem subscript_of_neg {n : Nat} {i : Int} (h : i < 0) (h2 : 0 ≤ (n : Int) + i) :
    subscript n i = some ((n : Int) + i).toNat := by
  unfold subscript
  split_ifs <;> first | omega | (congr 1; omega)

theorem subscript_of_nonneg {n : Nat} {i : Int} (h : 0 ≤ i) (h2 : i < n) :
    subscript n i = some i.toNat := by
  unfold subscript
  split_ifs <;> first | omega | rfl

theorem subscript_none {n : Nat} {i : Int} (h : (n : Int) + i < 0 ∨ (n : Int) ≤ i) :
    subscript n i = none := by
  unfold subscript
  split_ifs <;> first | omega | rfl

theorem subscript_lt {n : Nat} {i : Int} {k : Nat} (h : subscript n i = some k) : k < n := by
  unfold subscript at h
  split at h
  · simp only [Option.some.injEq] at h; omega
  · split at h
    · simp only [Option.some.injEq] at h; omega
    · simp at h

theorem usedIndexes_eq (l : List (Option α)) (s : Nat) :
    usedIndexes l s = (occupied l).map (· + s) := by
  induction l generalizing s with
  | nil => simp [usedIndexes, occupied]
  | cons a t ih =>
    have hocc : occupied (a :: t)
        = (if a.isSome then [0] else []) ++ (occupied t).map (· + 1) := by
      unfold occupied
      rw [List.length_cons, List.range_succ_eq_map, List.filter_cons, List.filter_map]
      have : (fun i => ((a :: t)[i]?).join.isSome) ∘ Nat.succ = fun i => (t[i]?).join.isSome := by
        funext i; simp
      rw [this]
      cases a <;> simp
    rw [hocc]
    cases a with
    | none =>
      rw [usedIndexes, ih]
      simp only [Option.isSome_none, List.nil_append, List.map_map, Bool.false_eq_true, if_false]
      apply List.map_congr_left
      intro x _; simp; omega
    | some v =>
      rw [usedIndexes, ih]
      simp only [Option.isSome_some, if_true, List.map_append, List.map_map, List.map_cons,
        List.map_nil, List.singleton_append, Nat.zero_add]
      congr 1
      apply List.map_congr_left
      intro x _; simp; omega

theorem usedIndexes_zero (l : List (Option α)) : usedIndexes l 0 = occupied l := by
  rw [usedIndexes_eq]; simp

theorem mem_occupied {l : List (Option α)} {i : Nat} :
    i ∈ occupied l ↔ ∃ v, l[i]? = some (some v) := by
  unfold occupied
  rw [List.mem_filter, List.mem_range]
  constructor
  · rintro ⟨h, h2⟩
    rw [List.getElem?_eq_getElem h] at h2 ⊢
    cases hv : l[i] with
    | none => simp [hv] at h2
    | some v => exact ⟨v, rfl⟩
  · rintro ⟨v, hv⟩
    refine ⟨(List.getElem?_eq_some_iff.1 hv).1, by simp [hv]⟩

theorem occupied_sorted (l : List (Option α)) : (occupied l).Pairwise (· < ·) :=
  List.Pairwise.filter _ List.pairwise_lt_range

/-- Two strictly ascending lists with the same members are equal. -/
theorem sorted_unique {l m : List Nat} (hl : l.Pairwise (· < ·)) (hm : m.Pairwise (· < ·))
    (h : ∀ x, x ∈ l ↔ x ∈ m) : l = m := by
  induction l generalizing m with
  | nil =>
    cases m with
    | nil => rfl
    | cons b t => exact absurd ((h b).2 List.mem_cons_self) (by simp)
  | cons a t ih =>
    cases m with
    | nil => exact absurd ((h a).1 List.mem_cons_self) (by simp)
    | cons b u =>
      rw [List.pairwise_cons] at hl hm
      have hab : a = b := by
        have h1 := (h a).1 List.mem_cons_self
        have h2 := (h b).2 List.mem_cons_self
        rcases List.mem_cons.1 h1 with h1 | h1
        · exact h1
        · rcases List.mem_cons.1 h2 with h2 | h2
          · exact h2.symm
          · have := hl.1 b h2; have := hm.1 a h1; omega
      subst hab
      congr 1
      apply ih hl.2 hm.2
      intro x
      constructor
      · intro hx
        rcases List.mem_cons.1 ((h x).1 (List.mem_cons_of_mem _ hx)) with h1 | h1
        · subst h1; have := hl.1 x hx; omega
        · exact h1
      · intro hx
        rcases List.mem_cons.1 ((h x).2 (List.mem_cons_of_mem _ hx)) with h1 | h1
        · subst h1; have := hm.1 x hx; omega
        · exact h1

theorem countUsed_append (l m : List (Option α)) :
    countUsed (l ++ m) = countUsed l + countUsed m := by
  unfold countUsed; rw [List.countP_append]

theorem countUsed_cons (v : Option α) (l : List (Option α)) :
    countUsed (v :: l) = countUsed l + (if isHole v then 0 else 1) := by
  unfold countUsed; rw [List.countP_cons]; cases v <;> simp [isHole]

theorem countUsed_replicate (n : Nat) : countUsed (List.replicate n (none : Option α)) = 0 := by
  induction n with
  | zero => rfl
  | succ n ih => rw [List.replicate_succ, countUsed_cons, ih]; rfl

theorem split_at {l : List (Option α)} {k : Nat} {c : Option α} (h : l[k]? = some c) :
    l = l.take k ++ c :: l.drop (k + 1) := by
  obtain ⟨hk, hv⟩ := List.getElem?_eq_some_iff.1 h
  rw [← hv, ← List.drop_eq_getElem_cons hk, List.take_append_drop]

theorem countUsed_split {l : List (Option α)} {k : Nat} {c : Option α} (h : l[k]? = some c) :
    countUsed l = countUsed (l.take k) + countUsed (l.drop (k + 1))
      + (if isHole c then 0 else 1) := by
  conv_lhs => rw [split_at h]
  rw [countUsed_append, countUsed_cons]; omega

theorem set_split {l : List (Option α)} {k : Nat} {c v : Option α} (h : l[k]? = some c) :
    l.set k v = l.take k ++ v :: l.drop (k + 1) := by
  obtain ⟨hk, _⟩ := List.getElem?_eq_some_iff.1 h
  exact List.set_eq_take_append_cons_drop .. |>.trans (by rw [if_pos hk])

/-- The counter is right. -/
def Dense.Inv (d : Dense α) : Prop := d.used = countUsed d.items

theorem Dense.normaliseIndex_get (d : Dense α) (i : Int) :
    (match d.normaliseIndex i with
      | none => none
      | some k => (d.items[k]?).map (fun c => (k, c))) =
    match subscript d.items.length i with
      | none => none
      | some k => (d.items[k]?).map (fun c => (k, c)) := by
  unfold Dense.normaliseIndex Dense.len
  by_cases h : i < 0
  · rw [if_pos h]
    by_cases h2 : (d.items.length : Int) + i < 0
    · rw [if_pos h2, subscript_none (Or.inl h2)]
    · rw [if_neg h2, subscript_of_neg h (by omega)]
  · rw [if_neg h]
    by_cases h2 : i < d.items.length
    · rw [subscript_of_nonneg (by omega) h2]
    · rw [subscript_none (Or.inr (by omega))]
      simp only
      rw [List.getElem?_eq_none (by omega)]; rfl

/-- What `setitem`/`delitem` look up: the position and the current element, or IndexError. -/
theorem Dense.lookup_cases (d : Dense α) (i : Int) :
    (∃ k c, d.normaliseIndex i = some k ∧ d.items[k]? = some c
        ∧ subscript d.items.length i = some k) ∨
    ((d.normaliseIndex i = none ∨ ∃ k, d.normaliseIndex i = some k ∧ d.items[k]? = none)
        ∧ subscript d.items.length i = none) := by
  have h := d.normaliseIndex_get i
  cases hs : subscript d.items.length i with
  | none =>
    right
    refine ⟨?_, rfl⟩
    cases hn : d.normaliseIndex i with
    | none => exact Or.inl rfl
    | some k =>
      refine Or.inr ⟨k, rfl, ?_⟩
      rw [hs, hn] at h
      simpa using h
  | some k =>
    left
    have hk := subscript_lt hs
    rw [hs] at h
    simp only [List.getElem?_eq_getElem hk, Option.map_some] at h
    cases hn : d.normaliseIndex i with
    | none => rw [hn] at h; simp at h
    | some k' =>
      rw [hn] at h
      simp only [Option.map_eq_some_iff, Prod.mk.injEq] at h
      obtain ⟨c, h1, h2, h3⟩ := h
      subst h2
      exact ⟨k', c, rfl, h1, rfl⟩

/-- The operations on which `DenseArrayProperties` is meant to behave like a list: all of them,
except that `insert` before the front raises IndexError rather than inserting at the front. -/
def denseDom (l : List (Option α)) : ArrOp α → Prop
  | .insert i _ => -(l.length : Int) ≤ i
  | _ => True

theorem dense_step (d : Dense α) (hd : d.Inv) (op : ArrOp α) (hop : denseDom d.items op) :
    ∃ d', (arrStep (.dense d) op).1 = .dense d' ∧ d'.Inv
      ∧ d'.items = (listStep d.items op).1
      ∧ (arrStep (.dense d) op).2 = (listStep d.items op).2 := by
  unfold Dense.Inv at hd
  have hget : ∀ i, d.getitem i = match subscript d.items.length i with
      | some k => .ok (d.items[k]?).join
      | none => .error .indexError := by
    intro i
    unfold Dense.getitem
    rw [pyIndex_eq]
    cases hs : subscript d.items.length i with
    | none => rfl
    | some k =>
      simp only
      rw [List.getElem?_eq_getElem (subscript_lt hs)]; rfl
  have hdel : ∀ i, d.delitem i = match subscript d.items.length i with
      | some k => (⟨d.items.take k ++ d.items.drop (k + 1),
          countUsed (d.items.take k ++ d.items.drop (k + 1))⟩, none)
      | none => (d, some .indexError) := by
    intro i
    unfold Dense.delitem
    rcases d.lookup_cases i with ⟨k, c, h1, h2, h3⟩ | ⟨h1, h3⟩
    · simp only [h1, h2, h3]
      have hc := countUsed_split h2
      rw [countUsed_append, ← List.eraseIdx_eq_take_drop_succ]
      cases c with
      | none => simp [isHole] at hc ⊢; omega
      | some v => simp [isHole] at hc ⊢; omega
    · rw [h3]
      rcases h1 with h1 | ⟨k, h1, h2⟩
      · simp only [h1]
      · simp only [h1, h2]
  cases op with
  | get i =>
    refine ⟨d, rfl, hd, ?_, ?_⟩
    · simp only [listStep]; split <;> rfl
    · simp only [arrStep, listStep, Arr.getitem, hget]
      cases subscript d.items.length i <;> rfl
  | set i v =>
    simp only [arrStep, arrStep.ret, Arr.setitem, listStep, Dense.setitem]
    rcases d.lookup_cases i with ⟨k, c, h1, h2, h3⟩ | ⟨h1, h3⟩
    · simp only [h1, h2, h3]
      refine ⟨_, rfl, ?_, rfl, trivial⟩
      have hc := countUsed_split h2
      unfold Dense.Inv
      rw [set_split h2, countUsed_append, countUsed_cons]
      cases c <;> cases v <;> simp [isHole] at hc ⊢ <;> omega
    · rw [h3]
      rcases h1 with h1 | ⟨k, h1, h2⟩
      · simp only [h1]; exact ⟨d, rfl, hd, rfl, trivial⟩
      · simp only [h1, h2]; exact ⟨d, rfl, hd, rfl, trivial⟩
  | del i =>
    simp only [arrStep, arrStep.ret, Arr.delitem, listStep, hdel]
    cases hs : subscript d.items.length i with
    | none => exact ⟨d, rfl, hd, rfl, rfl⟩
    | some k => exact ⟨_, rfl, rfl, rfl, rfl⟩
  | insert i v =>
    simp only [denseDom] at hop
    simp only [arrStep, arrStep.ret, Arr.insert, listStep, Dense.insert]
    have hpos : ∃ k, d.normaliseIndex i = some k ∧
        d.items.take k = d.items.take (insertPos d.items.length i) ∧
        d.items.drop k = d.items.drop (insertPos d.items.length i) := by
      unfold Dense.normaliseIndex Dense.len insertPos
      by_cases h : i < 0
      · rw [if_pos h, if_neg (by omega), if_pos h]
        refine ⟨_, rfl, ?_, ?_⟩ <;> · congr 1; omega
      · rw [if_neg h, if_neg h]
        refine ⟨_, rfl, ?_, ?_⟩
        · by_cases h2 : i.toNat ≤ d.items.length
          · rw [Nat.min_eq_left h2]
          · rw [Nat.min_eq_right (by omega), List.take_of_length_le (by omega),
              List.take_of_length_le (by omega)]
        · by_cases h2 : i.toNat ≤ d.items.length
          · rw [Nat.min_eq_left h2]
          · rw [Nat.min_eq_right (by omega), List.drop_eq_nil_of_le (by omega),
              List.drop_eq_nil_of_le (by omega)]
    obtain ⟨k, h1, h2, h3⟩ := hpos
    simp only [h1]
    refine ⟨_, rfl, ?_, ?_, trivial⟩
    · unfold Dense.Inv
      have hc : countUsed d.items = countUsed (d.items.take k) + countUsed (d.items.drop k) := by
        rw [← countUsed_append, List.take_append_drop]
      simp only [countUsed_append, countUsed_cons]
      cases v <;> simp [isHole] <;> omega
    · simp [h2, h3]
  | append v =>
    simp only [arrStep, arrStep.ret, Arr.append, listStep, Dense.append]
    refine ⟨_, rfl, ?_, rfl, trivial⟩
    unfold Dense.Inv
    simp only [countUsed_append, countUsed_cons]
    cases v <;> simp [isHole, countUsed] <;> simpa [countUsed, isHole] using hd
  | pop i =>
    simp only [arrStep, Arr.pop, Arr.getitem, Arr.delitem, listStep, hdel, hget]
    cases hs : subscript d.items.length i with
    | none => exact ⟨d, rfl, hd, rfl, rfl⟩
    | some k => exact ⟨_, rfl, rfl, rfl, rfl⟩
  | resize n =>
    simp only [arrStep, arrStep.ret, Arr.resize, listStep, Dense.resize]
    have hm : ((maxArrayLength : Nat) : Int) = 2 ^ 32 - 1 := by decide
    rw [hm]
    by_cases h : n < 0 ∨ n > 2 ^ 32 - 1
    · have h' : ¬ (0 ≤ n ∧ n ≤ 2 ^ 32 - 1) := by omega
      rw [if_pos h, if_neg h']
      exact ⟨d, rfl, hd, rfl, rfl⟩
    · have h' : 0 ≤ n ∧ n ≤ 2 ^ 32 - 1 := by omega
      rw [if_neg h, if_pos h']
      by_cases h2 : n.toNat < d.items.length
      · rw [if_pos h2]
        refine ⟨_, rfl, ?_, ?_, rfl⟩
        · unfold Dense.Inv
          have hc : countUsed d.items
              = countUsed (d.items.take n.toNat) + countUsed (d.items.drop n.toNat) := by
            rw [← countUsed_append, List.take_append_drop]
          split <;> simp only <;> omega
        · have : n.toNat - d.items.length = 0 := by omega
          simp [this]
      · rw [if_neg h2]
        refine ⟨_, rfl, ?_, ?_, rfl⟩
        · unfold Dense.Inv
          rw [countUsed_append, countUsed_replicate]; simpa using hd
        · simp only
          rw [List.take_of_length_le (by omega)]
  | len => exact ⟨d, rfl, hd, rfl, rfl⟩
  | used =>
    refine ⟨d, rfl, hd, rfl, ?_⟩
    simp only [arrStep, Arr.used, listStep, usedCount_eq, hd]
  | indexes desc =>
    refine ⟨d, ?_, hd, rfl, ?_⟩
    · cases desc <;> rfl
    · simp only [arrStep, listStep, Arr.elementIndexes]
      cases desc with
      | false => simp [Dense.elementIndexes, usedIndexes_zero]
      | true =>
        simp only [if_true, Dense.elementIndexes, usedIndexes_zero, Dense.len]
        congr 2
        have key : ((occupied d.items.reverse).map (fun i => d.items.length - 1 - i)).reverse
            = occupied d.items := by
          apply sorted_unique
          · rw [List.pairwise_reverse, List.pairwise_map]
            refine (occupied_sorted d.items.reverse).imp_of_mem ?_
            intro a b ha hb hab
            obtain ⟨v, hv⟩ := mem_occupied.1 hb
            have := (List.getElem?_eq_some_iff.1 hv).1
            rw [List.length_reverse] at this
            omega
          · exact occupied_sorted _
          · intro x
            rw [List.mem_reverse, List.mem_map]
            constructor
            · rintro ⟨i, hi, rfl⟩
              obtain ⟨v, hv⟩ := mem_occupied.1 hi
              have hlt := (List.getElem?_eq_some_iff.1 hv).1
              rw [List.length_reverse] at hlt
              rw [List.getElem?_reverse (by omega)] at hv
              exact mem_occupied.2 ⟨v, hv⟩
            · intro hx
              obtain ⟨v, hv⟩ := mem_occupied.1 hx
              have hlt := (List.getElem?_eq_some_iff.1 hv).1
              refine ⟨d.items.length - 1 - x, mem_occupied.2 ⟨v, ?_⟩, by omega⟩
              rw [List.getElem?_reverse (by omega)]
              rw [← hv]; congr 1; omega
        rw [← key, List.reverse_reverse]
  | iter => exact ⟨d, rfl, hd, rfl, rfl⟩

end V8
