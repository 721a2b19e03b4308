import Verif.Spec.PySeq
import Verif.Proofs.ObjBuild

/-! # Lemmas for C69 -/

namespace V8
open Spec
variable {α : Type}

/-- Which implementation holds the elements. -/
def Arr.isDense : Arr α → Bool
  | .dense _ => true
  | .sparse _ => false

/-- The domain of the operations of C27 and C28. -/
def baseDom (dense : Bool) (l : List (Option α)) (op : ArrOp α) : Prop := if dense then denseDom l op else sparseDom l op

/-- The operations on which the methods agree with those of a list. -/
def seqDom (dense : Bool) (l : List (Option α)) : SeqOp α → Prop
  | .base op => baseDom dense l op
  | .reverse => dense = true ∨ usedCount l ≠ 1 ∧ usedCount l ≠ 2
  | .extend vs => dense = true ∨ (∀ v ∈ vs, v.isSome) ∧ l.length + vs.length ≤ 2 ^ 32 - 1
  | .extendSelf => dense = true ∨ (∀ v ∈ l, v.isSome) ∧ l.length + l.length ≤ 2 ^ 32 - 1
  | _ => True

theorem Arr.step_spec {a : Arr α} (h : a.Inv) (op : ArrOp α) (hd : baseDom a.isDense a.abs op) :
    (arrStep a op).1.Inv ∧ (arrStep a op).1.abs = (listStep a.abs op).1 ∧ (arrStep a op).1.isDense = a.isDense ∧
    ((arrStep a op).2 = (listStep a.abs op).2 ∨
      (a.isDense = false ∧ (∃ i v, op = .set i v) ∧ (arrStep a op).2 = .error .assertionError)) := by
  cases a with
  | dense d =>
    obtain ⟨d', h1, h2, h3, h4⟩ := dense_step d h op (by simpa [baseDom, Arr.isDense, Arr.abs] using hd)
    rw [h1]
    exact ⟨h2, h3, rfl, Or.inl h4⟩
  | sparse s =>
    obtain ⟨s', h1, h2, h3, h4⟩ := sparse_step s h op (by simpa [baseDom, Arr.isDense, Arr.abs] using hd)
    rw [h1]
    refine ⟨h2, h3, rfl, ?_⟩
    rcases h4 with h4 | ⟨h4, _, _, h5⟩
    · exact Or.inl h4
    · exact Or.inr ⟨rfl, h4, h5⟩

theorem Arr.cache_spec {a : Arr α} (h : a.Inv) :
    (a.afterIndexes .ascending).Inv ∧ (a.afterIndexes .ascending).abs = a.abs ∧
      (a.afterIndexes .ascending).isDense = a.isDense := by
  obtain ⟨h1, h2, h3, _⟩ := Arr.step_spec h .iter (by unfold baseDom; split <;> trivial)
  exact ⟨h1, h2, h3⟩

/-! ## `index` -/

theorem find?_none_of_lt {β : Type} (l : List β) (p : β → Bool) (h : ∀ x ∈ l, p x = false) : l.find? p = none := by
  rw [List.find?_eq_none]; intro x hx; simp [h x hx]

theorem find?_agree {β : Type} {l : List β} {p q : β → Bool} (h : ∀ x ∈ l, p x = q x) : l.find? p = l.find? q := by
  induction l with
  | nil => rfl
  | cons x t ih =>
    rw [List.find?_cons, List.find?_cons, h x List.mem_cons_self, ih (fun y hy => h y (List.mem_cons_of_mem _ hy))]

theorem indexLoop_eq (same : Option α → Option α → Bool) {a : Arr α} (h : a.Inv) (v : Option α) (stop : Option Int)
    (fuel i : Nat) (hf : a.abs.length < fuel + i) :
    a.indexLoop same v stop fuel i =
      match (List.range' i (a.abs.length - i)).find? (fun k : Nat => !Arr.reached stop k && same (a.abs[k]?).join v) with
      | some k => .ok (k : Int)
      | none => .error .valueError := by
  induction fuel generalizing i with
  | zero =>
    have : a.abs.length - i = 0 := by omega
    rw [this]; rfl
  | succ f ih =>
    simp only [Arr.indexLoop]
    cases hr : Arr.reached stop (i : Int) with
    | true =>
      simp only [if_true]
      rw [find?_none_of_lt]
      intro k hk
      rw [List.mem_range'_1] at hk
      have : Arr.reached stop (k : Int) = true := by
        unfold Arr.reached at hr ⊢
        cases stop with
        | none => simp at hr
        | some s => simp only [Bool.not_eq_true', decide_eq_false_iff_not] at hr ⊢; omega
      simp [this]
    | false =>
      simp only [Bool.false_eq_true, if_false]
      rw [Arr.getitem_eq h]
      by_cases hi : i < a.abs.length
      · rw [subscript_of_nonneg (by omega) (by omega)]
        simp only [Int.toNat_natCast]
        obtain ⟨m, hm⟩ : ∃ m, a.abs.length - i = m + 1 := ⟨a.abs.length - i - 1, by omega⟩
        rw [hm, List.range'_succ, List.find?_cons, hr]
        simp only [Bool.not_false, Bool.true_and]
        by_cases hs : same (a.abs[i]?).join v = true
        · rw [if_pos hs, hs]
        · rw [if_neg hs, Bool.eq_false_iff.2 hs]
          have := ih (i + 1) (by omega)
          rw [show a.abs.length - (i + 1) = m by omega] at this
          rw [← this]
          push_cast
          rfl
      · rw [subscript_none (Or.inr (by omega))]
        have : a.abs.length - i = 0 := by omega
        rw [this]; rfl

theorem find?_range (p : Nat → Bool) (n i : Nat) (h : ∀ k, k < i → p k = false) :
    (List.range n).find? p = (List.range' i (n - i)).find? p := by
  by_cases hi : i ≤ n
  · obtain ⟨m, rfl⟩ : ∃ m, n = i + m := ⟨n - i, by omega⟩
    rw [List.range_eq_range', ← List.range'_append_1, List.find?_append,
      find?_none_of_lt (List.range' 0 i) p (by intro x hx; rw [List.mem_range'_1] at hx; exact h x (by omega))]
    simp
  · have : n - i = 0 := by omega
    rw [this]
    rw [find?_none_of_lt]
    · rfl
    · intro x hx; rw [List.mem_range] at hx; exact h x (by omega)

theorem Arr.index_eq (same : Option α → Option α → Bool) {a : Arr α} (h : a.Inv) (v : Option α) (start : Int)
    (stop : Option Int) :
    a.index same v start stop =
      match firstIndex same a.abs v start stop with
      | some k => .ok (k : Int)
      | none => .error .valueError := by
  unfold Arr.index
  have hl := Arr.len_eq h
  simp only [hl, Int.toNat_natCast]
  obtain ⟨i, hi⟩ : ∃ i : Nat, (if start < 0 then max ((a.abs.length : Int) + start) 0 else start) = (i : Int) := by
    refine ⟨(if start < 0 then max ((a.abs.length : Int) + start) 0 else start).toNat, ?_⟩
    split <;> omega
  rw [hi]
  rw [indexLoop_eq same h v _ _ i (by omega)]
  have key : firstIndex same a.abs v start stop =
      (List.range' i (a.abs.length - i)).find? (fun k : Nat =>
        !Arr.reached (stop.map (fun s => if s < 0 then s + (a.abs.length : Int) else s)) k && same (a.abs[k]?).join v) := by
    unfold firstIndex
    have hb : ∀ k : Nat, bound a.abs.length start ≤ k ↔ i ≤ k := by
      intro k
      unfold bound
      split <;> rename_i hs <;> simp only [hs, if_true, if_false] at hi <;> omega
    rw [find?_range _ _ i (by
      intro k hk
      have : ¬ bound a.abs.length start ≤ k := by rw [hb]; omega
      simp [this])]
    apply find?_agree
    intro k hk
    rw [List.mem_range'_1] at hk
    have : bound a.abs.length start ≤ k := (hb k).2 (by omega)
    simp only [this, decide_true, Bool.true_and]
    congr 1
    cases stop with
    | none => rfl
    | some s => simp only [Arr.reached, bound, Option.map_some, Bool.not_not]; rfl
  rw [key]

/-! ## `reversed` -/

theorem Arr.reversedFrom_eq {a : Arr α} (h : a.Inv) (n : Nat) (hn : n ≤ a.abs.length) :
    a.reversedFrom n = .ok (a.abs.take n).reverse := by
  induction n with
  | zero => simp [Arr.reversedFrom]
  | succ n ih =>
    simp only [Arr.reversedFrom]
    rw [Arr.getitem_nat h n (by omega), ih (by omega)]
    rw [List.take_add_one, List.getElem?_eq_getElem (by omega)]
    simp only [bind, Except.bind, Option.join_some, Option.toList_some, List.reverse_append, List.reverse_cons,
      List.reverse_nil, List.nil_append, List.singleton_append]

/-! ## `reverse` -/

theorem Sparse.setitem_assert {s : Sparse α} (h : s.Inv) (k : Nat) (v : Option α) (hk : k < s.abs.length)
    (he : (s.setitem k v).2 = some .assertionError) :
    usedCount (s.abs.set k v) ≤ 1 ∧ ((s.abs[k]?).join).isSome ≠ v.isSome := by
  obtain ⟨h1, h2⟩ := Sparse.setitem_spec h k v
  have hs : subscript s.abs.length (k : Int) = some k := by
    rw [subscript_of_nonneg (by omega) (by omega)]; simp
  rw [hs] at h2
  rw [← h2.1, ← Sparse.used_eq h1]
  have hk' : k < s.len.toNat := by rw [Sparse.length_abs] at hk; exact hk
  have hg : (s.abs[k]?).join = s.items.get k := by rw [Sparse.getElem?_abs, if_pos hk']; rfl
  rw [hg]
  unfold Sparse.setitem at he ⊢
  rw [Sparse.normaliseIndex_eq h, hs] at he ⊢
  simp only [Sparse.used] at he ⊢
  cases hgk : s.items.get k with
  | some w =>
    rw [hgk] at he
    cases v with
    | none =>
      simp only [Sparse.setHole] at he ⊢
      refine ⟨?_, by simp⟩
      cases hsk : s.sortedKeys with
      | none =>
        rw [hsk] at he
        simp only at he ⊢
        split at he
        · rename_i hc; rw [if_pos hc]; exact hc
        · simp at he
      | some l =>
        rw [hsk] at he
        simp only at he
        cases hl : l.getLast? with
        | none => rw [hl] at he; simp at he
        | some last =>
          rw [hl] at he
          simp only at he
          split at he <;> simp at he
    | some x => simp at he
  | none =>
    rw [hgk] at he
    cases v with
    | none => simp at he
    | some x =>
      simp only [Sparse.fillHole] at he ⊢
      refine ⟨?_, by simp⟩
      cases hsk : s.sortedKeys with
      | none =>
        rw [hsk] at he
        simp only at he ⊢
        split at he
        · rename_i hc; rw [if_pos hc]; exact hc
        · simp at he
      | some l =>
        rw [hsk] at he
        simp only at he
        split at he <;> simp at he

/-- An assignment that cannot raise. -/
theorem Arr.setitem_safe {a : Arr α} (h : a.Inv) (k : Nat) (v : Option α) (hk : k < a.abs.length)
    (hs : a.isDense = true ∨ 1 < usedCount (a.abs.set k v) ∨ ((a.abs[k]?).join).isSome = v.isSome) :
    ∃ a', a.setitem k v = (a', none) ∧ a'.Inv ∧ a'.abs = a.abs.set k v ∧ a'.isDense = a.isDense := by
  obtain ⟨h1, h2, h3⟩ := Arr.setitem_spec h k hk v
  have hkind : (a.setitem k v).1.isDense = a.isDense := by cases a <;> rfl
  refine ⟨(a.setitem k v).1, ?_, h1, h2, hkind⟩
  rcases h3 with h3 | ⟨s, rfl, _, _, h4⟩
  · rw [← h3]
  · exfalso
    have h4' : (s.setitem k v).2 = some .assertionError := h4
    obtain ⟨h5, h6⟩ := Sparse.setitem_assert h k v hk h4'
    rcases hs with hs | hs | hs
    · simp [Arr.isDense] at hs
    · have : usedCount ((Arr.sparse s).abs.set k v) ≤ 1 := h5
      omega
    · exact h6 hs

theorem usedCount_set (l : List (Option α)) (k : Nat) (hk : k < l.length) (v : Option α) :
    usedCount (l.set k v) + (if ((l[k]?).join).isSome then 1 else 0) = usedCount l + (if v.isSome then 1 else 0) := by
  unfold usedCount
  induction l generalizing k with
  | nil => simp at hk
  | cons x t ih =>
    cases k with
    | zero =>
      simp only [List.set_cons_zero, List.countP_cons, List.getElem?_cons_zero, Option.join_some]
      omega
    | succ k =>
      have := ih k (by simpa using hk)
      simp only [List.set_cons_succ, List.countP_cons, List.getElem?_cons_succ] at this ⊢
      omega

/-- The state in which `reverse` raises nothing. -/
def Arr.Swappable (a : Arr α) : Prop := a.isDense = true ∨ usedCount a.abs ≠ 1 ∧ usedCount a.abs ≠ 2

theorem usedCount_zero {l : List (Option α)} (h : usedCount l = 0) (k : Nat) : (l[k]?).join = none := by
  unfold usedCount at h
  rw [List.countP_eq_zero] at h
  cases hk : l[k]? with
  | none => rfl
  | some x =>
    have := h x (List.mem_of_getElem? hk)
    cases x <;> simp_all

theorem Arr.swap_spec {a : Arr α} (h : a.Inv) (i j : Nat) (hi : i < j) (hj : j < a.abs.length) (hs : a.Swappable) :
    ∃ a', a.swap i j = (a', none) ∧ a'.Inv ∧ a'.isDense = a.isDense ∧ a'.Swappable ∧
      a'.abs = (a.abs.set i (a.abs[j]?).join).set j (a.abs[i]?).join := by
  unfold Arr.swap
  rw [Arr.getitem_nat h j hj, Arr.getitem_nat h i (by omega)]
  simp only
  have hu1 := usedCount_set a.abs i (by omega) (a.abs[j]?).join
  have hu2 := usedCount_set (a.abs.set i (a.abs[j]?).join) j (by simpa using hj) (a.abs[i]?).join
  rw [List.getElem?_set_ne (by omega)] at hu2
  have hb1 : (if ((a.abs[i]?).join).isSome = true then 1 else 0) ≤ 1 := by split <;> omega
  have hb2 : (if ((a.abs[j]?).join).isSome = true then 1 else 0) ≤ 1 := by split <;> omega
  have hall : usedCount ((a.abs.set i (a.abs[j]?).join).set j (a.abs[i]?).join) = usedCount a.abs := by omega
  obtain ⟨a', h1, h2, h3, h4⟩ := Arr.setitem_safe h i (a.abs[j]?).join (by omega) (by
    rcases hs with hs | ⟨hs1, hs2⟩
    · exact Or.inl hs
    · right
      by_cases h0 : usedCount a.abs = 0
      · right; rw [usedCount_zero h0, usedCount_zero h0]
      · left; omega)
  rw [h1]
  simp only
  obtain ⟨a'', h5, h6, h7, h8⟩ := Arr.setitem_safe h2 j (a.abs[i]?).join (by rw [h3]; simpa using hj) (by
    rw [h3, h4]
    rcases hs with hs | ⟨hs1, hs2⟩
    · exact Or.inl hs
    · right
      by_cases h0 : usedCount a.abs = 0
      · right
        rw [List.getElem?_set_ne (by omega), usedCount_zero h0, usedCount_zero h0]
      · left; omega)
  refine ⟨a'', h5, h6, h8.trans h4, ?_, by rw [h7, h3]⟩
  unfold Arr.Swappable
  rw [h8, h4, h7, h3, hall]
  exact hs

theorem join_of_lt {l : List (Option α)} {i : Nat} (h : i < l.length) : some (l[i]?).join = l[i]? := by
  rw [List.getElem?_eq_getElem h]; rfl

theorem Arr.reverseLoop_spec (n r i : Nat) {a : Arr α} (h : a.Inv) (hn : a.abs.length = n) (hr : 2 * (i + r) ≤ n)
    (hs : a.Swappable) :
    ∃ a', Arr.reverseLoop n r i a = (a', none) ∧ a'.Inv ∧ a'.isDense = a.isDense ∧ a'.abs.length = n ∧
      ∀ p, p < n → a'.abs[p]? =
        if (i ≤ p ∧ p < i + r) ∨ (n - i - r ≤ p ∧ p < n - i) then a.abs[n - 1 - p]? else a.abs[p]? := by
  induction r generalizing i a with
  | zero =>
    refine ⟨a, rfl, h, rfl, hn, fun p hp => ?_⟩
    rw [if_neg (by omega)]
  | succ r ih =>
    simp only [Arr.reverseLoop]
    have e : (n : Int) - i - 1 = ((n - i - 1 : Nat) : Int) := by omega
    obtain ⟨a1, h1, h2, h3, h4, h5⟩ := Arr.swap_spec h i (n - i - 1) (by omega) (by omega) hs
    rw [e, h1]
    simp only
    obtain ⟨a2, g1, g2, g3, g4, g5⟩ := ih (i + 1) (a := a1) h2 (by rw [h5]; simpa using hn) (by omega) h4
    refine ⟨a2, g1, g2, g3.trans h3, g4, fun p hp => ?_⟩
    rw [g5 p hp, h5]
    by_cases hp1 : p = i
    · subst hp1
      rw [if_neg (by omega), if_pos (by omega), List.getElem?_set_ne (by omega), List.getElem?_set_self (by omega),
        join_of_lt (by omega)]
      congr 1; omega
    · by_cases hp2 : p = n - i - 1
      · subst hp2
        rw [if_neg (by omega), if_pos (by omega), List.getElem?_set_self (by simp; omega), join_of_lt (by omega)]
        congr 1; omega
      · by_cases hc : (i + 1 ≤ p ∧ p < i + 1 + r) ∨ (n - (i + 1) - r ≤ p ∧ p < n - (i + 1))
        · rw [if_pos hc, if_pos (by omega), List.getElem?_set_ne (by omega), List.getElem?_set_ne (by omega)]
        · rw [if_neg hc, if_neg (by omega), List.getElem?_set_ne (by omega), List.getElem?_set_ne (by omega)]

theorem Arr.reverse_spec {a : Arr α} (h : a.Inv) (hs : a.Swappable) :
    ∃ a', a.reverse = (a', none) ∧ a'.Inv ∧ a'.isDense = a.isDense ∧ a'.abs = a.abs.reverse := by
  obtain ⟨a', h1, h2, h3, h4, h5⟩ :=
    Arr.reverseLoop_spec a.abs.length (a.abs.length / 2) 0 h rfl (by omega) hs
  refine ⟨a', ?_, h2, h3, ?_⟩
  · unfold Arr.reverse
    rw [Arr.len_eq h, Int.toNat_natCast]; exact h1
  · apply List.ext_getElem?
    intro p
    by_cases hp : p < a.abs.length
    · rw [h5 p hp, List.getElem?_reverse hp]
      by_cases hc : (0 ≤ p ∧ p < 0 + a.abs.length / 2) ∨ (a.abs.length - 0 - a.abs.length / 2 ≤ p ∧ p < a.abs.length - 0)
      · rw [if_pos hc]
      · rw [if_neg hc]; congr 1; omega
    · rw [List.getElem?_eq_none (by omega), List.getElem?_eq_none (by simp; omega)]

/-! ## `clear`, `extend` -/

theorem Arr.pop_last {a : Arr α} (h : a.Inv) :
    (a.abs = [] → a.pop (-1) = (a, .error .indexError)) ∧
    (a.abs ≠ [] → ∃ a' v, a.pop (-1) = (a', .ok v) ∧ a'.Inv ∧ a'.isDense = a.isDense ∧ a'.abs = a.abs.dropLast) := by
  constructor
  · intro h0
    unfold Arr.pop
    rw [Arr.getitem_eq h, h0]
    rfl
  · intro h0
    have hl : 0 < a.abs.length := List.length_pos_iff.2 h0
    obtain ⟨h1, h2, h3, h4⟩ := Arr.step_spec h (.pop (-1)) (by unfold baseDom; split <;> trivial)
    have hs : subscript a.abs.length (-1) = some (a.abs.length - 1) := by
      rw [subscript_of_neg (by omega) (by omega)]
      congr 1; omega
    simp only [arrStep, listStep, hs] at h1 h2 h3 h4
    rcases h4 with h4 | ⟨_, ⟨_, _, h4⟩, _⟩
    · cases hp : a.pop (-1) with
      | mk a' r =>
        rw [hp] at h1 h2 h3 h4
        cases r with
        | error e => simp [Except.map] at h4
        | ok v =>
          refine ⟨a', v, rfl, h1, h3, ?_⟩
          simp only at h2
          rw [h2, List.dropLast_eq_take, List.drop_eq_nil_of_le (by omega), List.append_nil]
    · cases h4

theorem Arr.clearLoop_spec (fuel : Nat) {a : Arr α} (h : a.Inv) (hf : a.abs.length < fuel) :
    ∃ a', Arr.clearLoop fuel a = some (a', none) ∧ a'.Inv ∧ a'.isDense = a.isDense ∧ a'.abs = [] := by
  induction fuel generalizing a with
  | zero => omega
  | succ f ih =>
    simp only [Arr.clearLoop]
    by_cases h0 : a.abs = []
    · rw [(Arr.pop_last h).1 h0]
      exact ⟨a, rfl, h, rfl, h0⟩
    · obtain ⟨a1, v, h1, h2, h3, h4⟩ := (Arr.pop_last h).2 h0
      rw [h1]
      have hl : 0 < a.abs.length := List.length_pos_iff.2 h0
      obtain ⟨a2, g1, g2, g3, g4⟩ := ih h2 (by rw [h4, List.length_dropLast]; omega)
      exact ⟨a2, g1, g2, g3.trans h3, g4⟩

theorem Arr.clear_spec {a : Arr α} (h : a.Inv) :
    ∃ a', a.clear = some (a', none) ∧ a'.Inv ∧ a'.isDense = a.isDense ∧ a'.abs = [] :=
  Arr.clearLoop_spec _ h (by rw [Arr.len_eq h]; omega)

theorem Arr.extend_list_spec (vs : List (Option α)) {a : Arr α} (h : a.Inv)
    (hd : a.isDense = true ∨ (∀ v ∈ vs, v.isSome) ∧ a.abs.length + vs.length ≤ 2 ^ 32 - 1) :
    ∃ a', a.extend vs = (a', none) ∧ a'.Inv ∧ a'.isDense = a.isDense ∧ a'.abs = a.abs ++ vs := by
  induction vs generalizing a with
  | nil => exact ⟨a, rfl, h, rfl, by simp⟩
  | cons v t ih =>
    obtain ⟨h1, h2, h3, h4⟩ := Arr.step_spec h (.append v) (by
      unfold baseDom
      rcases hd with hd | ⟨hd1, hd2⟩
      · rw [if_pos hd]; trivial
      · split
        · trivial
        · simp only [List.length_cons] at hd2
          exact ⟨hd1 v List.mem_cons_self, by omega⟩)
    simp only [arrStep, arrStep.ret, listStep] at h1 h2 h3 h4
    rcases h4 with h4 | ⟨_, ⟨_, _, h4⟩, _⟩
    · simp only [Arr.extend]
      cases hp : a.append v with
      | mk a' r =>
        rw [hp] at h1 h2 h3 h4
        cases r with
        | some e => simp at h4
        | none =>
          simp only at h1 h2 h3 ⊢
          obtain ⟨a2, g1, g2, g3, g4⟩ := ih h1 (by
            rw [h3, h2]
            rcases hd with hd | ⟨hd1, hd2⟩
            · exact Or.inl hd
            · refine Or.inr ⟨fun w hw => hd1 w (List.mem_cons_of_mem _ hw), ?_⟩
              simp only [List.length_cons, List.length_append, List.length_nil] at hd2 ⊢
              omega)
          exact ⟨a2, g1, g2, g3.trans h3, by rw [g4, h2]; simp⟩
    · cases h4

/-! ## One step -/

theorem seq_step (same : Option α → Option α → Bool) {a : Arr α} (h : a.Inv) (op : SeqOp α)
    (hd : seqDom a.isDense a.abs op) :
    (seqStep same a op).1.Inv ∧ (seqStep same a op).1.abs = (listSeqStep same a.abs op).1 ∧
    (seqStep same a op).1.isDense = a.isDense ∧
    ((seqStep same a op).2 = (listSeqStep same a.abs op).2 ∨
      (a.isDense = false ∧ (∃ i v, op = .base (.set i v)) ∧ (seqStep same a op).2 = .error .assertionError)) := by
  cases op with
  | base op =>
    obtain ⟨h1, h2, h3, h4⟩ := Arr.step_spec h op hd
    refine ⟨h1, h2, h3, ?_⟩
    simp only [seqStep, listSeqStep]
    rcases h4 with h4 | ⟨h4, ⟨i, v, rfl⟩, h5⟩
    · left; rw [h4]
    · right; exact ⟨h4, ⟨i, v, rfl⟩, by rw [h5]; rfl⟩
  | index v start stop =>
    simp only [seqStep, listSeqStep, Arr.index_eq same h]
    cases firstIndex same a.abs v start stop with
    | none => exact ⟨h, rfl, trivial, Or.inl rfl⟩
    | some k => exact ⟨h, rfl, trivial, Or.inl rfl⟩
  | contains v =>
    obtain ⟨h1, h2, h3⟩ := Arr.cache_spec h
    refine ⟨h1, h2, h3, Or.inl ?_⟩
    simp only [seqStep, listSeqStep, Arr.contains, Arr.toList_eq h]
  | count v =>
    obtain ⟨h1, h2, h3⟩ := Arr.cache_spec h
    refine ⟨h1, h2, h3, Or.inl ?_⟩
    simp only [seqStep, listSeqStep, Arr.count, Arr.toList_eq h]
  | reversed =>
    refine ⟨h, rfl, rfl, Or.inl ?_⟩
    simp only [seqStep, listSeqStep, Arr.reversed, Arr.len_eq h, Int.toNat_natCast]
    rw [Arr.reversedFrom_eq h _ (Nat.le_refl _), List.take_length]
    rfl
  | reverse =>
    obtain ⟨a', h1, h2, h3, h4⟩ := Arr.reverse_spec h hd
    simp only [seqStep, seqStep.done, listSeqStep, h1]
    exact ⟨h2, h4, h3, Or.inl trivial⟩
  | remove v =>
    simp only [seqStep, seqStep.done, listSeqStep, Arr.remove, Arr.index_eq same h]
    cases hf : firstIndex same a.abs v 0 none with
    | none => exact ⟨h, rfl, rfl, Or.inl rfl⟩
    | some k =>
      have hk : k < a.abs.length := by
        unfold firstIndex at hf
        have := List.mem_of_find?_eq_some hf
        simpa using this
      obtain ⟨h1, h2, h3, h4⟩ := Arr.step_spec h (.del k) (by unfold baseDom; split <;> trivial)
      simp only [arrStep, arrStep.ret, listStep, subscript_of_nonneg (show (0 : Int) ≤ k by omega)
        (show (k : Int) < a.abs.length by omega), Int.toNat_natCast] at h1 h2 h3 h4
      refine ⟨h1, h2, h3, Or.inl ?_⟩
      rcases h4 with h4 | ⟨_, ⟨_, _, h4⟩, _⟩
      · simp only
        cases he : (a.delitem k).2 with
        | none => rfl
        | some e => rw [he] at h4; simp at h4
      · cases h4
  | clear =>
    obtain ⟨a', h1, h2, h3, h4⟩ := Arr.clear_spec h
    simp only [seqStep, seqStep.done, listSeqStep, h1]
    exact ⟨h2, h4, h3, Or.inl trivial⟩
  | extend vs =>
    obtain ⟨a', h1, h2, h3, h4⟩ := Arr.extend_list_spec vs h hd
    simp only [seqStep, seqStep.done, listSeqStep, h1]
    exact ⟨h2, h4, h3, Or.inl trivial⟩
  | extendSelf =>
    obtain ⟨c1, c2, c3⟩ := Arr.cache_spec h
    obtain ⟨a', h1, h2, h3, h4⟩ := Arr.extend_list_spec a.toList c1 (by
      rw [c2, c3, Arr.toList_eq h]; exact hd)
    simp only [seqStep, seqStep.done, listSeqStep, Arr.extendSelf, h1]
    exact ⟨h2, by rw [h4, c2, Arr.toList_eq h], h3.trans c3, Or.inl trivial⟩

end V8
