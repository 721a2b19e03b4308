import Verif.Spec.ObjEntries
import Verif.Props.Arrays
import Verif.Model.RecursiveEq
import Mathlib.Data.List.Sort

/-!
# C59: JSObject with the methods it inherits is a list of properties
-/

namespace V8.Props
open V8.Spec
variable {α : Type}

section Lists
variable {κ : Type} [DecidableEq κ]

theorem valueOf_get (k : κ) (l : List (κ × α)) : valueOf k l = Dict.get l k := by
  induction l with
  | nil => rfl
  | cons e t ih => obtain ⟨k', v⟩ := e; simp only [valueOf, Dict.get, ih]

theorem without_del (k : κ) (l : List (κ × α)) (h : (Dict.keys l).Nodup) : without k l = Dict.del l k := by
  induction l with
  | nil => rfl
  | cons e t ih =>
    obtain ⟨k', v⟩ := e
    have h' := List.nodup_cons.1 h
    by_cases hk : k' = k
    · subst hk
      simp only [without, List.filter_cons, ne_eq, not_true_eq_false, decide_false, Bool.false_eq_true, if_false,
        Dict.del, if_true]
      refine List.filter_eq_self.2 fun e he => ?_
      simp only [decide_eq_true_eq]
      rintro rfl
      exact h'.1 (List.mem_map.2 ⟨e, he, rfl⟩)
    · simp only [Dict.del, if_neg hk]
      rw [← ih h'.2]
      simp [without, hk]

theorem valueOf_append (k : κ) (a b : List (κ × α)) : valueOf k (a ++ b) = (valueOf k a).or (valueOf k b) := by
  induction a with
  | nil => rfl
  | cons e t ih =>
    obtain ⟨k', v⟩ := e
    simp only [List.cons_append, valueOf, ih]
    split <;> rfl

theorem valueOf_filter (k : κ) (p : κ → Bool) (l : List (κ × α)) :
    valueOf k (l.filter fun e => p e.1) = if p k then valueOf k l else none := by
  induction l with
  | nil => simp [valueOf]
  | cons e t ih =>
    obtain ⟨k', v⟩ := e
    by_cases hp : p k'
    · rw [List.filter_cons_of_pos (by exact hp)]
      simp only [valueOf, ih]
      by_cases hk : k' = k
      · subst hk; simp [hp]
      · simp [hk]
    · rw [List.filter_cons_of_neg (by exact hp), ih]
      simp only [valueOf]
      by_cases hk : k' = k
      · subst hk; simp [hp]
      · simp [hk]

theorem putName_set (s : Str) (v : α) (l : List (Str × α)) (h : (Dict.keys l).Nodup) : putName s v l = Dict.set l s v := by
  unfold putName
  rw [valueOf_get]
  by_cases hm : s ∈ Dict.keys l
  · rw [if_pos (Option.isSome_iff_exists.2 ((Dict.mem_keys_iff l s).1 hm))]
    induction l with
    | nil => cases hm
    | cons e t ih =>
      obtain ⟨k', w⟩ := e
      have h' := List.nodup_cons.1 h
      by_cases hk : k' = s
      · subst hk
        simp only [List.map_cons, if_true, Dict.set]
        congr 1
        conv_rhs => rw [← List.map_id t]
        refine List.map_congr_left fun e he => ?_
        rw [if_neg]
        · rfl
        · rintro rfl
          exact h'.1 (List.mem_map.2 ⟨e, he, rfl⟩)
      · simp only [List.map_cons, Dict.set, if_neg hk]
        rw [ih h'.2 (by
          rcases List.mem_cons.1 hm with hm | hm
          · exact absurd hm.symm hk
          · exact hm)]
  · rw [Dict.set_of_not_mem _ _ _ hm, if_neg]
    rw [(Dict.get_eq_none_iff l s).2 hm]
    simp

theorem valueOf_putIndex (n n' : Nat) (v : α) (l : List (Nat × α)) :
    valueOf n' (putIndex n v l) = if n = n' then some v else valueOf n' l := by
  unfold putIndex
  rw [valueOf_append, valueOf_filter n' (fun x => decide (x < n))]
  simp only [valueOf]
  rw [valueOf_filter n' (fun x => decide (n < x))]
  simp only [decide_eq_true_eq]
  rcases Nat.lt_trichotomy n' n with h | h | h
  · rw [if_pos h, if_neg (by omega), if_neg (by omega), if_neg (by omega)]
    cases valueOf n' l <;> rfl
  · subst h
    simp
  · rw [if_neg (by omega), if_neg (by omega), if_pos h, if_neg (by omega)]
    rfl

theorem putIndex_sorted (n : Nat) (v : α) (l : List (Nat × α)) (h : l.Pairwise (fun a b => a.1 < b.1)) :
    (putIndex n v l).Pairwise (fun a b => a.1 < b.1) := by
  unfold putIndex
  rw [List.pairwise_append]
  refine ⟨h.filter _, List.pairwise_cons.2 ⟨fun e he => by simpa using (List.mem_filter.1 he).2, h.filter _⟩, ?_⟩
  intro a ha b hb
  have ha := (List.mem_filter.1 ha).2
  simp only [decide_eq_true_eq] at ha
  rcases List.mem_cons.1 hb with rfl | hb
  · exact ha
  · have hb := (List.mem_filter.1 hb).2
    simp only [decide_eq_true_eq] at hb
    omega

theorem mem_fst_iff (k : κ) (l : List (κ × α)) : k ∈ l.map Prod.fst ↔ (valueOf k l).isSome := by
  rw [valueOf_get]
  exact (Dict.mem_keys_iff l k).trans Option.isSome_iff_exists.symm

end Lists

/-- A JSObject has these properties. -/
structure IsEntries (o : JSObj α) (m : Entries α) : Prop where
  inv : o.Inv
  sorted : m.elems.Pairwise (fun a b => a.1 < b.1)
  elems : ∀ n, o.lookup (.idx n) = valueOf n m.elems
  named : o.props = m.named

theorem isEntries_empty : IsEntries (JSObj.empty : JSObj α) .empty :=
  ⟨JSObj.empty_inv, .nil, fun _ => rfl, rfl⟩

theorem IsEntries.value {o : JSObj α} {m : Entries α} (h : IsEntries o m) (k : PKey) : o.lookup k = m.value k := by
  cases k with
  | idx n => exact h.elems n
  | name s =>
    simp only [JSObj.lookup, Entries.value, h.named]
    exact (valueOf_get s m.named).symm

theorem IsEntries.getitem {o : JSObj α} {m : Entries α} (h : IsEntries o m) (k : PKey) :
    o.getitem k = match m.value k with
      | some v => .ok v
      | none => .error .keyError := by
  rw [JSObj.getitem_eq h.inv, h.value]
  cases m.value k <;> rfl

theorem IsEntries.setitem {o : JSObj α} {m : Entries α} (h : IsEntries o m) (k : PKey) (hk : k.Valid) (v : Option α) :
    IsEntries (o.setitem k v).1 (m.put k v) := by
  obtain ⟨h1, h2, _, _, _⟩ := JSObj.setitem_spec h.inv k hk v
  have hn : (Dict.keys m.named).Nodup := by rw [← h.named]; exact h.inv.names
  cases k with
  | idx n =>
    have hp : (o.setitem (.idx n) v).1.props = o.props := by
      simp only [JSObj.setitem]
      cases JSObj.ensureCapacity o.array n with
      | mk a e => cases e <;> rfl
    cases v with
    | none =>
      refine ⟨h1, h.sorted.filter _, fun n' => ?_, hp.trans h.named⟩
      rw [h2]
      simp only [Entries.put, PKey.idx.injEq]
      unfold without
      rw [valueOf_filter n' (fun x => decide (x ≠ n)), ← h.elems]
      by_cases hx : n = n'
      · subst hx; simp
      · have : n' ≠ n := fun e => hx e.symm
        simp [hx, this]
    | some w =>
      refine ⟨h1, putIndex_sorted _ _ _ h.sorted, fun n' => ?_, hp.trans h.named⟩
      rw [h2]
      simp only [Entries.put, PKey.idx.injEq, valueOf_putIndex, h.elems]
  | name s =>
    cases v with
    | none =>
      refine ⟨h1, h.sorted, fun n' => ?_, ?_⟩
      · rw [h2, if_neg (by simp), h.elems]; rfl
      · simp only [JSObj.setitem, Entries.put]
        rw [without_del s m.named hn, h.named]
    | some w =>
      refine ⟨h1, h.sorted, fun n' => ?_, ?_⟩
      · rw [h2, if_neg (by simp), h.elems]; rfl
      · simp only [JSObj.setitem, Entries.put]
        rw [putName_set s w m.named hn, h.named]

/-- AssertionError is only raised for elements of a sparse array without sorted keys. -/
def Unsorted : Arr α → Prop
  | .dense _ => False
  | .sparse s => s.sortedKeys = none

theorem IsEntries.delitem {o : JSObj α} {m : Entries α} (h : IsEntries o m) (k : PKey) (hk : k.Valid) :
    match m.value k with
    | none => o.delitem k = (o, some .keyError)
    | some _ => IsEntries (o.delitem k).1 (m.put k none) ∧
      ((o.delitem k).2 = none ∨ ((o.delitem k).2 = some .assertionError ∧ (∃ n, k = .idx n) ∧ Unsorted o.array)) := by
  have hd := JSObj.delitem_spec h.inv k hk
  rw [h.value] at hd
  cases hv : m.value k with
  | none => rw [hv] at hd; exact hd
  | some w =>
    rw [hv] at hd
    obtain ⟨h1, h2, _, _⟩ := hd
    have hn : (Dict.keys m.named).Nodup := by rw [← h.named]; exact h.inv.names
    cases k with
    | name s =>
      have hg : o.props.get s = some w := by rw [← hv, ← h.value]; rfl
      simp only [JSObj.delitem, hg] at h1 h2 ⊢
      refine ⟨⟨h1, h.sorted, fun n' => ?_, ?_⟩, .inl trivial⟩
      · rw [h2, if_neg (by simp), h.elems]; rfl
      · simp only [Entries.put]
        rw [without_del s m.named hn, h.named]
    | idx n =>
      have hlt : n < o.array.abs.length := by
        by_contra hc
        have := h.value (.idx n)
        rw [hv] at this
        simp only [JSObj.lookup] at this
        rw [List.getElem?_eq_none (by omega)] at this
        cases this
      have hg : o.array.getitem n = .ok (some w) := by
        rw [Arr.getitem_nat h.inv.arr n hlt, ← hv, ← h.value]; rfl
      have hd : o.delitem (.idx n) = ({ o with array := (o.array.setitem n none).1 }, (o.array.setitem n none).2) := by
        simp only [JSObj.delitem, Arr.len_eq h.inv.arr, hg]
        rw [if_pos (by omega)]
      rw [hd] at h1 h2 ⊢
      refine ⟨⟨h1, h.sorted.filter _, fun n' => ?_, h.named⟩, ?_⟩
      · rw [h2]
        simp only [Entries.put, PKey.idx.injEq]
        unfold without
        rw [valueOf_filter n' (fun x => decide (x ≠ n)), ← h.elems]
        by_cases hx : n = n'
        · subst hx; simp
        · have : n' ≠ n := fun e => hx e.symm
          simp [hx, this]
      · rcases (Arr.setitem_spec h.inv.arr n hlt none).2.2 with h6 | ⟨s, hs, hs2, _, h6⟩
        · exact .inl h6
        · exact .inr ⟨h6, ⟨n, rfl⟩, by rw [hs]; exact hs2⟩

/-! ### Iterating -/

theorem afterIndexes_spec {a : Arr α} (h : a.Inv) : (a.afterIndexes .ascending).Inv ∧
    (a.afterIndexes .ascending).abs = a.abs ∧ ¬ Unsorted (a.afterIndexes .ascending) := by
  cases a with
  | dense d => exact ⟨h, rfl, id⟩
  | sparse s =>
    refine ⟨⟨h.nodup, h.bound, h.nonneg, ?_⟩, rfl, by simp [Unsorted, Arr.afterIndexes, Sparse.cacheSorted]⟩
    intro l hl
    cases hl
    exact Sparse.sortedKeysNow_spec h

theorem IsEntries.afterIter {o : JSObj α} {m : Entries α} (h : IsEntries o m) :
    IsEntries o.afterIter m ∧ ¬ Unsorted o.afterIter.array := by
  obtain ⟨h1, h2, h3⟩ := afterIndexes_spec h.inv.arr
  refine ⟨⟨⟨h1, h.inv.names⟩, h.sorted, fun n => ?_, h.named⟩, h3⟩
  rw [← h.elems]
  simp only [JSObj.lookup, JSObj.afterIter, h2]

theorem IsEntries.indexes {o : JSObj α} {m : Entries α} (h : IsEntries o m) :
    occupied o.array.abs = m.elems.map Prod.fst := by
  refine List.Pairwise.eq_of_mem_iff (r := (· < ·)) (occupied_sorted _) (List.pairwise_map.2 h.sorted) fun n => ?_
  rw [mem_occupied, mem_fst_iff, ← h.elems]
  simp only [JSObj.lookup]
  cases o.array.abs[n]? with
  | none => simp
  | some c => cases c <;> simp

theorem IsEntries.keys {o : JSObj α} {m : Entries α} (h : IsEntries o m) : o.keys = m.items.map Prod.fst := by
  unfold JSObj.keys Entries.items
  rw [Arr.elementIndexes_eq h.inv.arr, h.indexes, h.named]
  simp only [Dict.keys, List.map_append, List.map_map]
  rfl

theorem IsEntries.len {o : JSObj α} {m : Entries α} (h : IsEntries o m) : o.len = m.items.length := by
  unfold JSObj.len Entries.items
  rw [Arr.used_eq h.inv.arr, ← length_occupied, h.indexes, h.named]
  simp

theorem filterMap_fst {κ : Type} (l : List (κ × α)) (f : κ → Option (κ × α)) (h : ∀ e ∈ l, f e.1 = some e) :
    (l.map Prod.fst).filterMap f = l := by
  induction l with
  | nil => rfl
  | cons e t ih =>
    rw [List.map_cons, List.filterMap_cons_some (h e List.mem_cons_self),
      ih fun e' he => h e' (List.mem_cons_of_mem _ he)]

theorem valueOf_mem_items {m : Entries α} (hs : m.elems.Pairwise (fun a b => a.1 < b.1)) (hn : (Dict.keys m.named).Nodup)
    {k : PKey} {v : α} (h : (k, v) ∈ m.items) : m.value k = some v := by
  unfold Entries.items at h
  rcases List.mem_append.1 h with h | h
  · obtain ⟨e, he, hx⟩ := List.mem_map.1 h
    cases hx
    simp only [Entries.value]
    rw [valueOf_get]
    refine Dict.get_of_mem _ _ _ ?_ he
    exact (List.pairwise_map.2 hs : (m.elems.map Prod.fst).Pairwise (· < ·)).imp (fun h => Nat.ne_of_lt h)
  · obtain ⟨e, he, hx⟩ := List.mem_map.1 h
    cases hx
    simp only [Entries.value]
    rw [valueOf_get]
    exact Dict.get_of_mem _ _ _ hn he

theorem IsEntries.items {o : JSObj α} {m : Entries α} (h : IsEntries o m) : o.items = m.items := by
  have hn : (Dict.keys m.named).Nodup := by rw [← h.named]; exact h.inv.names
  unfold JSObj.items Entries.items
  rw [h.named]
  congr 2
  unfold JSObj.elementItems
  rw [Arr.elementIndexes_eq h.inv.arr, h.indexes]
  refine filterMap_fst _ _ fun e he => ?_
  have hv : m.value (.idx e.1) = some e.2 := valueOf_mem_items h.sorted hn (by
    unfold Entries.items
    exact List.mem_append_left _ (List.mem_map.2 ⟨e, he, rfl⟩))
  have hl := h.value (.idx e.1)
  rw [hv] at hl
  simp only [JSObj.lookup] at hl
  have hlt : e.1 < o.array.abs.length := by
    by_contra hc
    rw [List.getElem?_eq_none (by omega)] at hl
    cases hl
  rw [Arr.getitem_nat h.inv.arr e.1 hlt, hl]

/-- The indexes of an object are array indexes. -/
def IndexesValid (m : Entries α) : Prop := ∀ e ∈ m.elems, e.1 < 2 ^ 32 - 1

theorem indexesValid_empty : IndexesValid (Entries.empty : Entries α) := fun _ he => nomatch he

theorem IndexesValid.put {m : Entries α} (h : IndexesValid m) (k : PKey) (hk : k.Valid) (v : Option α) : IndexesValid (m.put k v) := by
  intro e he
  cases k with
  | name s => cases v <;> exact h e he
  | idx n =>
    cases v with
    | none => exact h e (List.mem_filter.1 he).1
    | some w =>
      simp only [Entries.put, putIndex, List.mem_append, List.mem_cons] at he
      rcases he with he | rfl | he
      · exact h e (List.mem_filter.1 he).1
      · exact hk
      · exact h e (List.mem_filter.1 he).1

theorem IndexesValid.key {m : Entries α} (h : IndexesValid m) {k : PKey} {v : α} (hm : (k, v) ∈ m.items) : k.Valid := by
  unfold Entries.items at hm
  rcases List.mem_append.1 hm with hm | hm
  · obtain ⟨e, he, hx⟩ := List.mem_map.1 hm
    cases hx
    exact h e he
  · obtain ⟨e, he, hx⟩ := List.mem_map.1 hm
    cases hx
    trivial

/-- What `popitem` does: it never raises AssertionError. -/
theorem IsEntries.popitem {o : JSObj α} {m : Entries α} (h : IsEntries o m) (hv : IndexesValid m) :
    match m.items with
    | [] => o.popitem = (o.afterIter, .error .keyError) ∧ IsEntries o.afterIter m
    | (k, v) :: _ => ∃ o', o.popitem = (o', .ok (k, v)) ∧ IsEntries o' (m.put k none) := by
  have hk := h.keys
  obtain ⟨ha, hu⟩ := h.afterIter
  cases hm : m.items with
  | nil =>
    rw [hm] at hk
    simp only [JSObj.popitem, hk, List.map_nil]
    exact ⟨trivial, ha⟩
  | cons e t =>
    obtain ⟨k, v⟩ := e
    rw [hm] at hk
    have hmem : (k, v) ∈ m.items := by rw [hm]; exact List.mem_cons_self
    have hval : m.value k = some v :=
      valueOf_mem_items h.sorted (by rw [← h.named]; exact h.inv.names) hmem
    have hd := ha.delitem k (hv.key hmem)
    rw [hval] at hd
    obtain ⟨h1, h2⟩ := hd
    refine ⟨(o.afterIter.delitem k).1, ?_, h1⟩
    have hg := ha.getitem k
    rw [hval] at hg
    simp only [JSObj.popitem, hk, List.map_cons, hg]
    rcases h2 with h2 | ⟨_, _, h2⟩
    · cases hx : o.afterIter.delitem k with
      | mk a b => rw [hx] at h2; cases h2; rfl
    · exact absurd h2 hu

theorem put_first_items {m : Entries α} (hs : m.elems.Pairwise (fun a b => a.1 < b.1)) (hn : (Dict.keys m.named).Nodup)
    {k : PKey} {v : α} {t : List (PKey × α)} (h : m.items = (k, v) :: t) : (m.put k none).items = t := by
  obtain ⟨elems, named⟩ := m
  cases elems with
  | cons e rest =>
    obtain ⟨n, w⟩ := e
    simp only [Entries.items, List.map_cons, List.cons_append, List.cons.injEq, Prod.mk.injEq] at h
    obtain ⟨⟨rfl, rfl⟩, rfl⟩ := h
    simp only [Entries.put, Entries.items]
    congr 2
    unfold without
    rw [List.filter_cons_of_neg (by simp)]
    refine List.filter_eq_self.2 fun e he => ?_
    have := (List.pairwise_cons.1 hs).1 e he
    simp only [decide_eq_true_eq]
    simp only at this
    omega
  | nil =>
    cases named with
    | nil => cases h
    | cons e rest =>
      obtain ⟨s, w⟩ := e
      simp only [Entries.items, List.map_nil, List.nil_append, List.map_cons, List.cons.injEq, Prod.mk.injEq] at h
      obtain ⟨⟨rfl, rfl⟩, rfl⟩ := h
      simp only [Entries.put, Entries.items, List.map_nil, List.nil_append]
      congr 1
      unfold without
      rw [List.filter_cons_of_neg (by simp)]
      refine List.filter_eq_self.2 fun e he => ?_
      simp only [decide_eq_true_eq]
      intro hc
      exact (List.nodup_cons.1 hn).1 (List.mem_map.2 ⟨e, he, hc⟩)

theorem items_nil {m : Entries α} (h : m.items = []) : m = .empty := by
  obtain ⟨elems, named⟩ := m
  simp only [Entries.items, List.append_eq_nil_iff, List.map_eq_nil_iff] at h
  obtain ⟨rfl, rfl⟩ := h
  rfl

theorem IsEntries.clearLoop : ∀ (fuel : Nat) {o : JSObj α} {m : Entries α}, IsEntries o m → IndexesValid m →
    m.items.length < fuel → ∃ o', o.clearLoop fuel = some (o', none) ∧ IsEntries o' .empty := by
  intro fuel
  induction fuel with
  | zero => intro o m _ _ hl; omega
  | succ fuel ih =>
    intro o m h hv hl
    have hp := h.popitem hv
    cases hm : m.items with
    | nil =>
      rw [hm] at hp
      refine ⟨o.afterIter, ?_, ?_⟩
      · simp only [JSObj.clearLoop, hp.1]
      · have := hp.2
        rwa [items_nil hm] at this
    | cons e t =>
      obtain ⟨k, v⟩ := e
      rw [hm] at hp
      obtain ⟨o', ho, he⟩ := hp
      have hi := put_first_items h.sorted (by rw [← h.named]; exact h.inv.names) hm
      obtain ⟨o'', ho'', he''⟩ := ih he (hv.put k (hv.key (by rw [hm]; exact List.mem_cons_self)) none) (by
        rw [hi]; rw [hm] at hl; simp only [List.length_cons] at hl; omega)
      exact ⟨o'', by simp only [JSObj.clearLoop, ho, ho''], he''⟩

/-! ### One step -/

theorem setitem_hole {a : Arr α} (h : a.Inv) (k : Nat) (hk : k < a.abs.length) (hh : (a.abs[k]?).join = none) :
    (a.setitem k none).2 = none := by
  rcases (Arr.setitem_spec h k hk none).2.2 with h1 | ⟨s, rfl, _, _, h1⟩
  · exact h1
  · exfalso
    have hn : s.normaliseIndex (k : Int) = some k := by
      rw [Sparse.normaliseIndex_eq h, subscript_of_nonneg (by omega) (by
        simp only [Arr.abs] at hk; omega)]
      simp
    have hg : s.items.get k = none := by
      have := Sparse.getElem?_abs s k
      simp only [Arr.abs] at hh hk
      rw [this] at hh
      rw [Sparse.length_abs] at hk
      simpa [hk] using hh
    simp only [Arr.setitem, Sparse.setitem, hn, hg] at h1
    cases h1

theorem setitem_unsorted {o : JSObj α} (h : o.Inv) (k : PKey) (hk : k.Valid) (v : Option α) :
    (o.setitem k v).2 = none ∨ ((o.setitem k v).2 = some .assertionError ∧ (∃ n, k = .idx n) ∧ Unsorted o.array) := by
  rcases (JSObj.setitem_spec h k hk v).2.2.2.2 with h4 | h4
  · exact .inl h4
  · cases k with
    | name s => exfalso; cases v <;> simp [JSObj.setitem] at h4
    | idx n =>
      by_cases hu : Unsorted o.array
      · exact .inr ⟨h4, ⟨n, rfl⟩, hu⟩
      · left
        exfalso
        have hc : Arr.Cached o.array := by
          cases ha : o.array with
          | dense d => trivial
          | sparse s => intro hs; rw [ha] at hu; exact absurd hs hu
        obtain ⟨e1, e2, e3⟩ := ensureCapacity_spec h.arr n hk
        have hlen : n < (JSObj.ensureCapacity o.array n).1.abs.length := by
          rw [e3, List.length_append, List.length_replicate]; omega
        have key : ((JSObj.ensureCapacity o.array n).1.setitem n v).2 = none := by
          cases v with
          | some w => exact (setitem_cached e1 (ensureCapacity_cached h.arr hc n) n hlen w).2
          | none =>
            by_cases hn : n < o.array.abs.length
            · have he : JSObj.ensureCapacity o.array n = (o.array, none) := by
                unfold JSObj.ensureCapacity
                rw [if_pos (by rw [Arr.len_eq h.arr]; omega)]
              rw [he]
              rcases (Arr.setitem_spec h.arr n hn none).2.2 with h5 | ⟨s, hs, hs2, _, _⟩
              · exact h5
              · rw [hs] at hu; exact absurd hs2 hu
            · refine setitem_hole e1 n hlen ?_
              rw [e3, getElem?_pad_join, List.getElem?_eq_none (by omega)]
              rfl
        simp only [JSObj.setitem] at h4
        cases hx : JSObj.ensureCapacity o.array n with
        | mk a e =>
          rw [hx] at h4 e2 key
          cases e2
          simp only [key] at h4
          cases h4

/-- One operation: the same properties, the same answer, or AssertionError for an element of a sparse array whose
keys are not sorted. -/
theorem entries_step {o : JSObj α} {m : Entries α} (h : IsEntries o m) (hv : IndexesValid m) (op : ObjOpX α)
    (hk : ∀ k, op.key = some k → k.Valid) :
    IsEntries (objStepX o op).1 (entriesStep m op).1 ∧ IndexesValid (entriesStep m op).1 ∧
    ((objStepX o op).2 = (entriesStep m op).2 ∨
      ((objStepX o op).2 = .error .assertionError ∧ op.writesElement ∧ Unsorted o.array)) := by
  cases op with
  | get k =>
    have hg := h.getitem k
    simp only [objStepX, entriesStep]
    cases hm : m.value k <;> rw [hm] at hg <;> simp only [hg] <;> exact ⟨h, hv, .inl rfl⟩
  | set k v =>
    have hkv := hk k rfl
    refine ⟨h.setitem k hkv v, hv.put k hkv v, ?_⟩
    simp only [objStepX, objStepX.ret, entriesStep]
    rcases setitem_unsorted h.inv k hkv v with h4 | ⟨h4, ⟨n, rfl⟩, hu⟩
    · left; rw [h4]
    · right; rw [h4]; exact ⟨rfl, trivial, hu⟩
  | del k =>
    have hkv := hk k rfl
    have hd := h.delitem k hkv
    simp only [objStepX, objStepX.ret, entriesStep]
    cases hm : m.value k with
    | none => rw [hm] at hd; simp only [hd]; exact ⟨h, hv, .inl trivial⟩
    | some w =>
      rw [hm] at hd
      obtain ⟨h1, h2⟩ := hd
      refine ⟨h1, hv.put k hkv none, ?_⟩
      rcases h2 with h2 | ⟨h2, ⟨n, rfl⟩, hu⟩
      · left; rw [h2]
      · right; rw [h2]; exact ⟨rfl, trivial, hu⟩
  | contains k =>
    have hg := h.getitem k
    simp only [objStepX, entriesStep, JSObj.contains]
    cases hm : m.value k <;> rw [hm] at hg <;> simp only [hg] <;> exact ⟨h, hv, Or.inl (by rfl)⟩
  | getDefault k d =>
    have hg := h.getitem k
    simp only [objStepX, entriesStep, JSObj.getDefault]
    cases hm : m.value k <;> rw [hm] at hg <;> simp only [hg] <;> exact ⟨h, hv, .inl rfl⟩
  | pop k d =>
    have hkv := hk k rfl
    have hg := h.getitem k
    have hd := h.delitem k hkv
    simp only [objStepX, entriesStep, JSObj.pop]
    cases hm : m.value k with
    | none =>
      rw [hm] at hg
      simp only [hg]
      cases d <;> exact ⟨h, hv, .inl rfl⟩
    | some w =>
      rw [hm] at hg hd
      obtain ⟨h1, h2⟩ := hd
      simp only [hg]
      cases hx : o.delitem k with
      | mk o' e =>
        rw [hx] at h1 h2
        rcases h2 with h2 | ⟨h2, ⟨n, rfl⟩, hu⟩ <;> simp only at h2 <;> subst h2
        · exact ⟨h1, hv.put k hkv none, .inl rfl⟩
        · exact ⟨h1, hv.put _ hkv none, .inr ⟨rfl, trivial, hu⟩⟩
  | popitem =>
    have hp := h.popitem hv
    simp only [objStepX, entriesStep]
    cases hm : m.items with
    | nil => rw [hm] at hp; simp only [hp.1]; exact ⟨hp.2, hv, .inl rfl⟩
    | cons e t =>
      obtain ⟨k, v⟩ := e
      rw [hm] at hp
      obtain ⟨o', ho, he⟩ := hp
      simp only [ho]
      exact ⟨he, hv.put k (hv.key (by rw [hm]; exact List.mem_cons_self)) none, .inl rfl⟩
  | setdefault k d =>
    have hkv := hk k rfl
    have hg := h.getitem k
    simp only [objStepX, entriesStep, JSObj.setdefault]
    cases hm : m.value k with
    | some w => rw [hm] at hg; simp only [hg]; exact ⟨h, hv, .inl rfl⟩
    | none =>
      rw [hm] at hg
      simp only [hg]
      have h1 := h.setitem k hkv d
      have h2 := setitem_unsorted h.inv k hkv d
      cases hx : o.setitem k d with
      | mk o' e =>
        rw [hx] at h1 h2
        rcases h2 with h2 | ⟨h2, ⟨n, rfl⟩, hu⟩ <;> simp only at h2 <;> subst h2
        · exact ⟨h1, hv.put k hkv d, .inl rfl⟩
        · exact ⟨h1, hv.put _ hkv d, .inr ⟨rfl, trivial, hu⟩⟩
  | clear =>
    obtain ⟨o', ho, he⟩ := h.clearLoop (o.keys.length + 1) hv (by rw [h.keys, List.length_map]; omega)
    simp only [objStepX, entriesStep, JSObj.clear, ho, objStepX.ret]
    exact ⟨he, indexesValid_empty, Or.inl trivial⟩
  | keys =>
    simp only [objStepX, entriesStep, h.keys]
    exact ⟨h.afterIter.1, hv, .inl trivial⟩
  | len =>
    simp only [objStepX, entriesStep, h.len]
    exact ⟨h, hv, .inl trivial⟩

theorem entries_hist {o : JSObj α} {m : Entries α} (h : IsEntries o m) (hv : IndexesValid m) (ops : List (ObjOpX α))
    (hk : ∀ op ∈ ops, ∀ k, op.key = some k → k.Valid) :
    IsEntries (runHist objStepX o ops).1 (runHist entriesStep m ops).1 ∧ IndexesValid (runHist entriesStep m ops).1 ∧
    AgreeButAssertX ops (runHist objStepX o ops).2 (runHist entriesStep m ops).2 := by
  induction ops generalizing o m with
  | nil => exact ⟨h, hv, trivial⟩
  | cons op ops ih =>
    obtain ⟨h1, h2, h3⟩ := entries_step h hv op (hk op List.mem_cons_self)
    obtain ⟨h4, h5, h6⟩ := ih h1 h2 (fun op' ho => hk op' (List.mem_cons_of_mem _ ho))
    refine ⟨h4, h5, ?_, h6⟩
    rcases h3 with h3 | ⟨h3, h7, _⟩
    · exact .inl h3
    · exact .inr ⟨h3, h7⟩

/-- C59: whatever is done with a JSObject (or JSArray) through the methods of a mapping, its answers are those of
a list of properties, indexes first and ascending, then names in order of creation, and so is its content.
Missing from the full statement: writing an element may raise a spurious AssertionError (with the right
content, C29_spurious_assertion). -/
theorem C59_history_partial (ops : List (ObjOpX α)) (hk : ∀ op ∈ ops, ∀ k, op.key = some k → k.Valid) :
    AgreeButAssertX ops (runHist objStepX JSObj.empty ops).2 (runHist entriesStep Entries.empty ops).2 ∧
    (runHist objStepX JSObj.empty ops).1.items = (runHist entriesStep (Entries.empty : Entries α) ops).1.items := by
  obtain ⟨h1, _, h3⟩ := entries_hist isEntries_empty indexesValid_empty ops hk
  exact ⟨h3, h1.items⟩

/-- A JSObject with elements in a sparse array, from which properties are taken in order. -/
example : (∀ op ∈ ([.set (.name (str "a")) (some 1), .set (.idx 100) (some 2), .set (.idx 7) (some 3), .popitem, .keys,
      .pop (.idx 7) (some 0), .setdefault (.name (str "b")) (some 4), .contains (.idx 100), .clear, .len] :
        List (ObjOpX Nat)), ∀ k, op.key = some k → k.Valid) ∧
    (runHist objStepX (JSObj.empty : JSObj Nat) [.set (.name (str "a")) (some 1), .set (.idx 100) (some 2),
      .set (.idx 7) (some 3), .popitem, .keys, .pop (.idx 7) (some 0), .setdefault (.name (str "b")) (some 4),
      .contains (.idx 100), .clear, .len]).2 =
    [.ok .unit, .ok .unit, .ok .unit, .ok (.item (.idx 7) 3), .ok (.keys [.idx 100, .name (str "a")]),
      .ok (.val (some 0)), .ok (.val (some 4)), .ok (.bool true), .ok .unit, .ok (.len 0)] := by
  constructor
  · intro op hop k hk
    simp only [List.mem_cons, List.not_mem_nil, or_false] at hop
    rcases hop with rfl | rfl | rfl | rfl | rfl | rfl | rfl | rfl | rfl | rfl <;> cases hk <;> simp [PKey.Valid]
  · decide +kernel

theorem runHist_append {σ ω ι : Type} (step : σ → ι → σ × ω) (s : σ) (a b : List ι) :
    runHist step s (a ++ b) =
      ((runHist step (runHist step s a).1 b).1, (runHist step s a).2 ++ (runHist step (runHist step s a).1 b).2) := by
  induction a generalizing s with
  | nil => rfl
  | cons x t ih => simp only [List.cons_append, runHist, ih]

/-- C59: directly after iterating over the object, no operation raises AssertionError. -/
theorem C59_fresh_after_iteration (ops : List (ObjOpX α)) (hk : ∀ op ∈ ops, ∀ k, op.key = some k → k.Valid)
    (last : ObjOpX α) (hl : ∀ k, last.key = some k → k.Valid) :
    (runHist objStepX (JSObj.empty : JSObj α) (ops ++ [.keys, last])).2.getLast? =
      (runHist entriesStep (Entries.empty : Entries α) (ops ++ [.keys, last])).2.getLast? := by
  obtain ⟨h1, h2, _⟩ := entries_hist isEntries_empty indexesValid_empty ops hk
  obtain ⟨h3, h4⟩ := h1.afterIter
  obtain ⟨_, _, h5⟩ := entries_step h3 h2 last hl
  rw [runHist_append, runHist_append]
  rw [List.getLast?_append, List.getLast?_append]
  rcases h5 with h5 | ⟨_, _, h5⟩
  · have : (objStepX (runHist objStepX JSObj.empty ops).1.afterIter last).2 =
        (entriesStep (runHist entriesStep Entries.empty ops).1 last).2 := h5
    exact congrArg (fun x => some x) this
  · exact absurd h5 h4

/-- The operation that raises AssertionError otherwise. -/
example : (runHist objStepX (JSObj.empty : JSObj Nat) [.set (.idx 0) (some 1), .set (.idx 1) (some 2),
      .set (.idx 100) (some 3), .del (.idx 0), .del (.idx 1)]).2.getLast? = some (.error .assertionError) ∧
    (runHist objStepX (JSObj.empty : JSObj Nat) ([.set (.idx 0) (some 1), .set (.idx 1) (some 2),
      .set (.idx 100) (some 3), .del (.idx 0)] ++ [.keys, .del (.idx 1)])).2.getLast? = some (.ok .unit) := by
  decide +kernel

/-- The full C59 is false, first: `o = JSObject({0: 1, 1: 2}); o[100] = 3; o.pop(0); o.pop(1)` raises AssertionError at
the last step, though the property is gone; and so do `o.pop(100)` and `o.setdefault(0, 5)` after it, although the
value is stored. -/
theorem C59_pop_raises :
    (runHist objStepX (JSObj.empty : JSObj Nat) [.set (.idx 0) (some 1), .set (.idx 1) (some 2),
      .set (.idx 100) (some 3), .pop (.idx 0) none, .pop (.idx 1) none, .contains (.idx 1), .pop (.idx 100) none,
      .setdefault (.idx 0) (some 5), .get (.idx 0)]).2 =
    [.ok .unit, .ok .unit, .ok .unit, .ok (.val (some 1)), .error .assertionError, .ok (.bool false),
      .error .assertionError, .error .assertionError, .ok (.val (some 5))] := by
  decide +kernel

/-- The full C59 is false, second: the elements leave a trace.  `o = JSObject({0: 'a'}); o.clear()` gives an object
without properties that is not `==` to `JSObject()`, because `ArrayProperties.__eq__` compares the lengths. -/
theorem C59_clear_leaves_length :
    let o := (runHist objStepX (JSObj.empty : JSObj Val) [.set (.idx 0) (some (.int 7)), .clear]).1
    o.items = [] ∧ (JSObj.empty : JSObj Val).items = [] ∧
    pyEqTop ⟨[.jsobj o, .jsobj .empty], fun _ _ => .ok false⟩ (.obj 0) (.obj 1) = (.ok false, []) := by
  decide +kernel

/-! ### Constructors -/

theorem update_values {o : JSObj α} {m : Entries α} (h : IsEntries o m) (hc : Arr.Cached o.array)
    (pairs : List (PKey × α)) (hk : ∀ e ∈ pairs, e.1.Valid) :
    ∃ o', o.update (pairs.map fun e => (e.1, some e.2)) = (o', none) ∧ IsEntries o' (m.putAll pairs) ∧ Arr.Cached o'.array ∧
      ((∀ e ∈ pairs, ∃ s, e.1 = .name s) → o'.array = o.array) := by
  induction pairs generalizing o m with
  | nil => exact ⟨o, rfl, h, hc, fun _ => rfl⟩
  | cons e t ih =>
    obtain ⟨k, v⟩ := e
    have hkv := hk (k, v) List.mem_cons_self
    have h1 := h.setitem k hkv (some v)
    have h2 : (o.setitem k (some v)).2 = none ∧ Arr.Cached (o.setitem k (some v)).1.array ∧
        ((∃ s, k = .name s) → (o.setitem k (some v)).1.array = o.array) := by
      cases k with
      | name s => exact ⟨rfl, hc, fun _ => rfl⟩
      | idx n =>
        obtain ⟨e1, e2, e3⟩ := ensureCapacity_spec h.inv.arr n hkv
        have hlen : n < (JSObj.ensureCapacity o.array n).1.abs.length := by
          rw [e3, List.length_append, List.length_replicate]; omega
        obtain ⟨c1, c2⟩ := setitem_cached e1 (ensureCapacity_cached h.inv.arr hc n) n hlen v
        cases hx : JSObj.ensureCapacity o.array n with
        | mk a e =>
          rw [hx] at e2 c1 c2
          cases e2
          simp only [JSObj.setitem, hx]
          exact ⟨c2, c1, fun hs => by obtain ⟨_, hs⟩ := hs; cases hs⟩
    obtain ⟨o', ho, he, hce, hna⟩ := ih h1 h2.2.1 fun e he => hk e (List.mem_cons_of_mem _ he)
    refine ⟨o', ?_, he, hce, fun hs => ?_⟩
    · simp only [List.map_cons, JSObj.update]
      cases hx : o.setitem k (some v) with
      | mk a b =>
        rw [hx] at h2 ho
        obtain ⟨h2, _⟩ := h2
        simp only at h2
        subst h2
        exact ho
    · rw [hna fun e he => hs e (List.mem_cons_of_mem _ he), h2.2.2 (hs _ List.mem_cons_self)]

/-- C59: `JSObject(properties, **kwargs)` succeeds and has the properties assigned one after the other. -/
theorem C59_object_constructor (pairs kwargs : List (PKey × α)) (hp : ∀ e ∈ pairs, e.1.Valid)
    (hk : ∀ e ∈ kwargs, e.1.Valid) :
    ∃ o, JSObj.ofPairs (pairs.map fun e => (e.1, some e.2)) (kwargs.map fun e => (e.1, some e.2)) = (o, none) ∧
      o.items = ((Entries.empty.putAll pairs).putAll kwargs).items := by
  obtain ⟨o1, h1, e1, c1, _⟩ := update_values isEntries_empty trivial pairs hp
  obtain ⟨o2, h2, e2, _, _⟩ := update_values e1 c1 kwargs hk
  exact ⟨o2, by simp only [JSObj.ofPairs, h1, h2], e2.items⟩

example : JSObj.ofPairs [(.name (str "b"), some 1), (.idx 3, some 2), (.idx 1, some 3)] [(.name (str "a"), some 4), (.idx 3, some 5)]
    = (⟨.dense ⟨[none, some 3, none, some 5], 2⟩, [(str "b", 1), (str "a", 4)]⟩, none) := by decide +kernel

theorem extend_dense (values : List (Option α)) (d : Dense α) (hd : d.Inv) :
    ∃ d' : Dense α, (Arr.dense d).extend values = (.dense d', none) ∧ d'.Inv ∧ d'.items = d.items ++ values := by
  induction values generalizing d with
  | nil => exact ⟨d, rfl, hd, by simp⟩
  | cons v t ih =>
    obtain ⟨d1, h1, h2, h3, h4⟩ := dense_step d hd (.append v) trivial
    simp only [arrStep, arrStep.ret, Arr.append, listStep] at h1 h3
    obtain ⟨d', g1, g2, g3⟩ := ih d1 h2
    refine ⟨d', ?_, g2, by rw [g3, h3, List.append_assoc]; rfl⟩
    simp only [Arr.extend, Arr.append, h1, Dense.append] at h1 ⊢
    exact g1

theorem positions_spec (values : List (Option α)) : ∀ i,
    (positions i values).Pairwise (fun a b => a.1 < b.1) ∧ (∀ e ∈ positions i values, i ≤ e.1) ∧
    ∀ n, valueOf (i + n) (positions i values) = (values[n]?).join := by
  induction values with
  | nil => intro i; simp [positions, valueOf]
  | cons v t ih =>
    intro i
    obtain ⟨h1, h2, h3⟩ := ih (i + 1)
    have hz : valueOf i (positions (i + 1) t) = none := by
      have := mem_fst_iff i (positions (i + 1) t)
      cases hv : valueOf i (positions (i + 1) t) with
      | none => rfl
      | some w =>
        exfalso
        rw [hv] at this
        obtain ⟨e, he, hei⟩ := List.mem_map.1 (this.2 rfl)
        have := h2 e he
        omega
    cases v with
    | none =>
      refine ⟨h1, fun e he => by have := h2 e he; omega, fun n => ?_⟩
      cases n with
      | zero => simpa [positions] using hz
      | succ n =>
        have := h3 n
        simp only [positions, List.getElem?_cons_succ]
        rw [← this]
        congr 1
        omega
    | some w =>
      refine ⟨List.pairwise_cons.2 ⟨fun e he => by have := h2 e he; simp only; omega, h1⟩, ?_, fun n => ?_⟩
      · intro e he
        rcases List.mem_cons.1 he with rfl | he
        · exact le_refl _
        · have := h2 e he; omega
      · cases n with
        | zero => simp [positions, valueOf]
        | succ n =>
          have := h3 n
          simp only [positions, List.getElem?_cons_succ, valueOf]
          rw [if_neg (by omega), ← this]
          congr 1
          omega

/-- C59: `JSArray(values, **kwargs)` succeeds and has the values (which may be JSHole) as elements, with the
further properties assigned one after the other; further names leave the elements as they are. -/
theorem C59_array_constructor (values : List (Option α)) (kwargs : List (PKey × α)) (hk : ∀ e ∈ kwargs, e.1.Valid) :
    ∃ o, JSObj.arrayOfValues values (kwargs.map fun e => (e.1, some e.2)) = (o, none) ∧
      o.items = (Entries.putAll ⟨positions 0 values, []⟩ kwargs).items ∧
      ((∀ e ∈ kwargs, ∃ s, e.1 = .name s) → o.array.toList = values) := by
  obtain ⟨d, h1, h2, h3⟩ := extend_dense values ⟨[], 0⟩ (rfl : (⟨[], 0⟩ : Dense α).Inv)
  obtain ⟨p1, _, p3⟩ := positions_spec values 0
  have he : IsEntries { (JSObj.empty : JSObj α) with array := .dense d } ⟨positions 0 values, []⟩ := by
    refine ⟨⟨h2, JSObj.empty_inv.names⟩, p1, fun n => ?_, rfl⟩
    have := p3 n
    rw [Nat.zero_add] at this
    simp only [JSObj.lookup, Arr.abs, this, h3, List.nil_append]
  obtain ⟨o, ho, hoe, _, hna⟩ := update_values he trivial kwargs hk
  refine ⟨o, ?_, hoe.items, fun hs => ?_⟩
  · unfold JSObj.arrayOfValues
    have : (JSObj.empty : JSObj α).array.extend values = (.dense d, none) := h1
    simp only [this, ho]
  · rw [hna hs]
    simp only [Arr.toList, Dense.toList, h3, List.nil_append]

end V8.Props
