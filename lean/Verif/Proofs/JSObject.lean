import Verif.Model.JSObject
import Verif.Proofs.SparseStep

namespace V8
open Spec
variable {α : Type}

/-- The elements an array stands for, whichever implementation holds them. -/
def Arr.abs : Arr α → List (Option α)
  | .dense d => d.items
  | .sparse s => s.abs

/-- The representation invariant of either implementation. -/
def Arr.Inv : Arr α → Prop
  | .dense d => d.Inv
  | .sparse s => s.Inv

theorem Arr.len_eq {a : Arr α} (h : a.Inv) : a.len = a.abs.length := by
  cases a with
  | dense d => rfl
  | sparse s =>
    have := h.nonneg
    simp only [Arr.len, Arr.abs, Sparse.length_abs]; omega

theorem Arr.used_eq {a : Arr α} (h : a.Inv) : a.used = usedCount a.abs := by
  cases a with
  | dense d => simp only [Arr.used, Arr.abs, usedCount_eq]; exact h
  | sparse s => simp only [Arr.used, Arr.abs, Sparse.used_eq h]

theorem Arr.getitem_eq {a : Arr α} (h : a.Inv) (i : Int) :
    a.getitem i = match subscript a.abs.length i with
      | some k => .ok (a.abs[k]?).join
      | none => .error .indexError := by
  cases a with
  | dense d =>
    simp only [Arr.getitem, Arr.abs, Dense.getitem, pyIndex_eq]
    cases hs : subscript d.items.length i with
    | none => rfl
    | some k =>
      simp only
      rw [List.getElem?_eq_getElem (subscript_lt hs)]; rfl
  | sparse s => exact Sparse.getitem_eq h i

theorem Arr.getitem_nat {a : Arr α} (h : a.Inv) (k : Nat) (hk : k < a.abs.length) :
    a.getitem k = .ok (a.abs[k]?).join := by
  rw [Arr.getitem_eq h, subscript_of_nonneg (by omega) (by omega)]
  simp

theorem Arr.setitem_spec {a : Arr α} (h : a.Inv) (k : Nat) (hk : k < a.abs.length)
    (v : Option α) :
    (a.setitem k v).1.Inv ∧ (a.setitem k v).1.abs = a.abs.set k v ∧
    ((a.setitem k v).2 = none ∨
      ∃ s, a = .sparse s ∧ s.sortedKeys = none ∧ s.items.length ≤ 2 ∧
        (a.setitem k v).2 = some .assertionError) := by
  have hs : subscript a.abs.length (k : Int) = some k := by
    rw [subscript_of_nonneg (by omega) (by omega)]; simp
  cases a with
  | dense d =>
    obtain ⟨d', h1, h2, h3, h4⟩ := dense_step d h (.set k v) trivial
    simp only [arrStep, arrStep.ret, listStep] at h1 h3 h4
    simp only [Arr.abs] at hs hk ⊢
    rw [hs] at h3 h4
    rw [h1]
    refine ⟨h2, h3, Or.inl ?_⟩
    simp only at h4
    cases he : ((Arr.dense d).setitem (k : Int) v).2 with
    | none => rfl
    | some e => rw [he] at h4; simp at h4
  | sparse s =>
    obtain ⟨h1, h2⟩ := Sparse.setitem_spec h k v
    simp only [Arr.abs] at hs
    rw [hs] at h2
    refine ⟨h1, h2.1, ?_⟩
    rcases h2.2 with h3 | ⟨h3, h4, h5⟩
    · exact Or.inl h3
    · exact Or.inr ⟨s, rfl, h3, h4, h5⟩

theorem Arr.resize_spec {a : Arr α} (h : a.Inv) (n : Nat) (hn : n ≤ 2 ^ 32 - 1) :
    (a.resize n).1.Inv ∧ (a.resize n).2 = none ∧
    (a.resize n).1.abs = a.abs.take n ++ List.replicate (n - a.abs.length) none := by
  have hb : (0 : Int) ≤ (n : Int) ∧ (n : Int) ≤ 2 ^ 32 - 1 := by omega
  cases a with
  | dense d =>
    obtain ⟨d', h1, h2, h3, h4⟩ := dense_step d h (.resize n) trivial
    simp only [arrStep, arrStep.ret, listStep] at h1 h3 h4
    rw [if_pos hb] at h3 h4
    rw [h1]
    refine ⟨h2, ?_, by simpa [Arr.abs] using h3⟩
    cases he : ((Arr.dense d).resize (n : Int)).2 with
    | none => rfl
    | some e => rw [he] at h4; simp at h4
  | sparse s =>
    obtain ⟨h1, h2⟩ := Sparse.resize_spec h n
    rw [if_pos hb] at h2
    refine ⟨h1, h2.2, ?_⟩
    have := h2.1
    rw [Int.toNat_natCast] at this
    exact this

theorem enumUsed_spec (l : List (Option α)) (st : Nat) :
    (∀ e ∈ Sparse.enumUsed l st, (st : Int) ≤ e.1 ∧ e.1 < ((st + l.length : Nat) : Int)) ∧
    ((Sparse.enumUsed l st).map (fun e => e.1.toNat)).Pairwise (· < ·) ∧
    ∀ (k : Nat) (v : α), ((k : Int), v) ∈ Sparse.enumUsed l st ↔ st ≤ k ∧ l[k - st]? = some (some v) := by
  induction l generalizing st with
  | nil => simp [Sparse.enumUsed]
  | cons a t ih =>
    obtain ⟨h1, h2, h3⟩ := ih (st + 1)
    have hsucc : ∀ k v, (st + 1 ≤ k ∧ t[k - (st + 1)]? = some (some v)) ↔
        (st < k ∧ (a :: t)[k - st]? = some (some v)) := by
      intro k v
      constructor
      · rintro ⟨ha, hb⟩
        refine ⟨by omega, ?_⟩
        have : k - st = (k - (st + 1)) + 1 := by omega
        rw [this, List.getElem?_cons_succ]; exact hb
      · rintro ⟨ha, hb⟩
        refine ⟨by omega, ?_⟩
        have : k - st = (k - (st + 1)) + 1 := by omega
        rw [this, List.getElem?_cons_succ] at hb; exact hb
    cases a with
    | none =>
      rw [Sparse.enumUsed]
      refine ⟨?_, h2, ?_⟩
      · intro e he
        have := h1 e he
        simp only [List.length_cons]; omega
      · intro k v
        rw [h3, hsucc]
        constructor
        · rintro ⟨ha, hb⟩; exact ⟨by omega, hb⟩
        · rintro ⟨ha, hb⟩
          refine ⟨?_, hb⟩
          rcases Nat.lt_or_ge st k with h | h
          · exact h
          · have : k - st = 0 := by omega
            rw [this] at hb; simp at hb
    | some w =>
      rw [Sparse.enumUsed]
      refine ⟨?_, ?_, ?_⟩
      · intro e he
        rcases List.mem_cons.1 he with rfl | he
        · simp only [List.length_cons]; omega
        · have := h1 e he
          simp only [List.length_cons]; omega
      · rw [List.map_cons, List.pairwise_cons]
        refine ⟨?_, h2⟩
        intro x hx
        obtain ⟨e, he, rfl⟩ := List.mem_map.1 hx
        have := h1 e he
        simp only; omega
      · intro k v
        rw [List.mem_cons, h3, hsucc]
        constructor
        · rintro (h | ⟨ha, hb⟩)
          · simp only [Prod.mk.injEq, Nat.cast_inj] at h
            obtain ⟨rfl, rfl⟩ := h
            simp
          · exact ⟨by omega, hb⟩
        · rintro ⟨ha, hb⟩
          rcases Nat.lt_or_ge st k with h | h
          · exact Or.inr ⟨h, hb⟩
          · have hk : k = st := by omega
            subst hk
            simp at hb
            left; simp [hb]

theorem Sparse.ofEntries_enumUsed (l : List (Option α)) (n : Nat) (hl : l.length ≤ n)
    (hn : n ≤ 2 ^ 32 - 1) :
    ∃ s, Sparse.ofEntries (Sparse.enumUsed l 0) (n : Int) = .ok s ∧ s.Inv ∧
      s.abs = l ++ List.replicate (n - l.length) none := by
  obtain ⟨h1, h2, h3⟩ := enumUsed_spec l 0
  have hmax : ((maxArrayLength : Nat) : Int) = 2 ^ 32 - 1 := by decide
  unfold Sparse.ofEntries
  rw [hmax, if_neg (by omega), if_neg (by
    simp only [List.any_eq_true, decide_eq_true_eq, not_exists, not_and]
    intro e he; have := h1 e he; omega)]
  have hfilter : (Sparse.enumUsed l 0).filter (fun e => decide (e.1 < (n : Int)))
      = Sparse.enumUsed l 0 := by
    rw [List.filter_eq_self]
    intro e he
    have := h1 e he
    simp only [decide_eq_true_eq]; omega
  rw [hfilter]
  set es : List (Nat × α) := (Sparse.enumUsed l 0).map (fun e => (e.1.toNat, e.2)) with hes
  have hkeys : es.map (·.1) = (Sparse.enumUsed l 0).map (fun e => e.1.toNat) := by
    simp [hes, Function.comp_def]
  have hnd : (es.map (·.1)).Nodup := by
    rw [hkeys]; exact h2.imp (fun h => Nat.ne_of_lt h)
  have hmem : ∀ k v, (k, v) ∈ es ↔ l[k]? = some (some v) := by
    intro k v
    rw [hes, List.mem_map]
    constructor
    · rintro ⟨⟨i, w⟩, hm, he⟩
      simp only [Prod.mk.injEq] at he
      obtain ⟨rfl, rfl⟩ := he
      have hb := h1 _ hm
      simp only at hb
      have : ((i.toNat : Int)) = i := by omega
      rw [← this] at hm
      simpa using ((h3 i.toNat w).1 hm).2
    · intro hk
      exact ⟨((k : Int), v), (h3 k v).2 ⟨Nat.zero_le _, by simpa using hk⟩, by simp⟩
  rw [Dict.ofList_eq es hnd]
  have hget : ∀ k, Dict.get es k = (l[k]?).join := by
    intro k
    cases hk : Dict.get es k with
    | some v => rw [(hmem k v).1 (Dict.mem_of_get es k v hk)]; rfl
    | none =>
      cases hl' : l[k]? with
      | none => rfl
      | some o =>
        cases o with
        | none => rfl
        | some v =>
          have := Dict.get_of_mem es k v hnd ((hmem k v).2 hl')
          rw [this] at hk; simp at hk
  refine ⟨_, rfl, ⟨hnd, ?_, ?_, ?_⟩, ?_⟩
  · intro k hk
    obtain ⟨v, hv⟩ := (Dict.mem_keys_iff _ _).1 hk
    rw [hget] at hv
    have : k < l.length := by
      by_contra hc
      rw [List.getElem?_eq_none (by omega)] at hv; simp at hv
    simp only [Sparse.len]; omega
  · simp only [Sparse.len]; omega
  · intro m hm
    simp only at hm
    split at hm
    · simp at hm
    · rename_i hle
      simp only [Option.some.injEq] at hm
      subst hm
      exact ⟨keys_sorted_of_le_one _ (by omega), fun _ => Iff.rfl⟩
  · apply abs_ext
    · simp only [Sparse.len, List.length_append, List.length_replicate]; omega
    · intro i hi
      simp only [Sparse.len] at hi
      simp only [hget]
      by_cases hil : i < l.length
      · rw [List.getElem?_append_left hil, List.getElem?_eq_getElem hil]; rfl
      · rw [List.getElem?_append_right (by omega), List.getElem?_replicate, if_pos (by omega),
          List.getElem?_eq_none (by omega)]; rfl

theorem ensureCapacity_spec {a : Arr α} (h : a.Inv) (k : Nat) (hk : k < 2 ^ 32 - 1) :
    (JSObj.ensureCapacity a k).1.Inv ∧ (JSObj.ensureCapacity a k).2 = none ∧
    (JSObj.ensureCapacity a k).1.abs
      = a.abs ++ List.replicate (k + 1 - a.abs.length) none := by
  unfold JSObj.ensureCapacity
  have hlen := Arr.len_eq h
  by_cases hlt : (k : Int) < a.len
  · rw [if_pos hlt]
    have : k + 1 - a.abs.length = 0 := by omega
    rw [this]
    exact ⟨h, rfl, by simp⟩
  · rw [if_neg hlt]
    have hres : (a.resize ((k : Int) + 1)).1.Inv ∧ (a.resize ((k : Int) + 1)).2 = none ∧
        (a.resize ((k : Int) + 1)).1.abs = a.abs ++ List.replicate (k + 1 - a.abs.length) none := by
      have := Arr.resize_spec h (k + 1) (by omega)
      rw [Nat.cast_add, Nat.cast_one] at this
      rw [List.take_of_length_le (by omega)] at this
      exact this
    cases a with
    | dense d =>
      simp only
      split
      · obtain ⟨s, h1, h2, h3⟩ := Sparse.ofEntries_enumUsed d.items (k + 1)
          (by simp only [Arr.abs] at hlen; omega) (by omega)
        rw [Nat.cast_add, Nat.cast_one] at h1
        simp only [JSObj.denseEntries, h1]
        exact ⟨h2, trivial, h3⟩
      · exact hres
    | sparse s => exact hres

/-- The representation invariant of a JSObject. -/
structure JSObj.Inv (o : JSObj α) : Prop where
  arr : o.array.Inv
  names : o.props.keys.Nodup

theorem JSObj.empty_inv : (JSObj.empty : JSObj α).Inv :=
  ⟨rfl, by simp [JSObj.empty, Dict.keys]⟩

/-- The value of a property, `none` if there is none. -/
def JSObj.lookup (o : JSObj α) : PKey → Option α
  | .idx k => (o.array.abs[k]?).join
  | .name s => o.props.get s

theorem JSObj.getitem_eq {o : JSObj α} (h : o.Inv) (k : PKey) :
    o.getitem k = match o.lookup k with
      | some v => .ok v
      | none => .error .keyError := by
  cases k with
  | name s => rfl
  | idx k =>
    simp only [JSObj.getitem, JSObj.lookup, Arr.len_eq h.arr]
    by_cases hk : k < o.array.abs.length
    · rw [if_pos (by omega), Arr.getitem_nat h.arr k hk]
      cases (o.array.abs[k]?).join <;> rfl
    · rw [if_neg (by omega), List.getElem?_eq_none (by omega)]
      rfl

/-- A key that `normalise_property_key` can return. -/
def PKey.Valid : PKey → Prop
  | .idx n => n < 2 ^ 32 - 1
  | .name _ => True

theorem getElem?_set_join (l : List (Option α)) (k j : Nat) (v : Option α) (hk : k < l.length) :
    ((l.set k v)[j]?).join = if k = j then v else (l[j]?).join := by
  rw [List.getElem?_set]
  by_cases h : k = j
  · subst h; simp [hk]
  · simp [h]

theorem getElem?_pad_join (l : List (Option α)) (n j : Nat) :
    ((l ++ List.replicate n none)[j]?).join = (l[j]?).join := by
  by_cases h : j < l.length
  · rw [List.getElem?_append_left h]
  · rw [List.getElem?_append_right (by omega), List.getElem?_eq_none (by omega : l.length ≤ j),
      List.getElem?_replicate]
    split <;> rfl

theorem JSObj.setitem_spec {o : JSObj α} (h : o.Inv) (k : PKey) (hk : k.Valid) (v : Option α) :
    (o.setitem k v).1.Inv ∧
    (∀ k', (o.setitem k v).1.lookup k' = if k = k' then v else o.lookup k') ∧
    (o.setitem k v).1.props.keys = (match k, v with
      | .idx _, _ => o.props.keys
      | .name s, none => o.props.keys.filter (fun t => decide (t ≠ s))
      | .name s, some _ => if s ∈ o.props.keys then o.props.keys else o.props.keys ++ [s]) ∧
    (o.setitem k v).1.array.abs = (match k with
      | .name _ => o.array.abs
      | .idx n => (o.array.abs ++ List.replicate (n + 1 - o.array.abs.length) none).set n v) ∧
    ((o.setitem k v).2 = none ∨ (o.setitem k v).2 = some .assertionError) := by
  cases k with
  | name s =>
    cases v with
    | none =>
      simp only [JSObj.setitem]
      refine ⟨⟨h.arr, Dict.nodup_del _ _ h.names⟩, ?_, Dict.keys_del_filter _ _ h.names, trivial, Or.inl trivial⟩
      intro k'
      cases k' with
      | idx n => simp [JSObj.lookup]
      | name t =>
        simp only [JSObj.lookup, PKey.name.injEq]
        rw [Dict.get_del _ _ _ h.names]
    | some w =>
      simp only [JSObj.setitem]
      refine ⟨⟨h.arr, Dict.nodup_set _ _ _ h.names⟩, ?_, ?_, trivial, Or.inl trivial⟩
      · intro k'
        cases k' with
        | idx n => simp [JSObj.lookup]
        | name t =>
          simp only [JSObj.lookup, PKey.name.injEq]
          rw [Dict.get_set]
      · split
        · rename_i hm; exact Dict.keys_set_of_mem _ _ _ hm
        · rename_i hm; exact Dict.keys_set_of_not_mem _ _ _ hm
  | idx n =>
    simp only [PKey.Valid] at hk
    obtain ⟨h1, h2, h3⟩ := ensureCapacity_spec h.arr n hk
    have hlt : n < (JSObj.ensureCapacity o.array n).1.abs.length := by
      rw [h3, List.length_append, List.length_replicate]; omega
    obtain ⟨h4, h5, h6⟩ := Arr.setitem_spec h1 n hlt v
    have hr : o.setitem (.idx n) v = ({ o with
        array := ((JSObj.ensureCapacity o.array n).1.setitem n v).1 },
        ((JSObj.ensureCapacity o.array n).1.setitem n v).2) := by
      simp only [JSObj.setitem]
      rw [show JSObj.ensureCapacity o.array n = ((JSObj.ensureCapacity o.array n).1, none) from
        Prod.ext rfl h2]
    rw [hr]
    refine ⟨⟨h4, h.names⟩, ?_, rfl, ?_, ?_⟩
    · intro k'
      cases k' with
      | name t => simp [JSObj.lookup]
      | idx m =>
        simp only [JSObj.lookup, PKey.idx.injEq]
        rw [h5, getElem?_set_join _ _ _ _ hlt, h3, getElem?_pad_join]
    · simp only; rw [h5, h3]
    · rcases h6 with h6 | ⟨_, _, _, _, h6⟩
      · exact Or.inl h6
      · exact Or.inr h6

theorem JSObj.delitem_spec {o : JSObj α} (h : o.Inv) (k : PKey) (hk : k.Valid) :
    match o.lookup k with
    | none => o.delitem k = (o, some .keyError)
    | some _ =>
      (o.delitem k).1.Inv ∧
      (∀ k', (o.delitem k).1.lookup k' = if k = k' then none else o.lookup k') ∧
      (o.delitem k).1.props.keys = (match k with
        | .idx _ => o.props.keys
        | .name s => o.props.keys.filter (fun t => decide (t ≠ s))) ∧
      ((o.delitem k).2 = none ∨ (o.delitem k).2 = some .assertionError) := by
  cases k with
  | name s =>
    simp only [JSObj.lookup, JSObj.delitem]
    cases hg : o.props.get s with
    | none => rfl
    | some w =>
      refine ⟨⟨h.arr, Dict.nodup_del _ _ h.names⟩, ?_, Dict.keys_del_filter _ _ h.names, Or.inl rfl⟩
      intro k'
      cases k' with
      | idx n => simp [JSObj.lookup]
      | name t =>
        simp only [JSObj.lookup, PKey.name.injEq]
        rw [Dict.get_del _ _ _ h.names]
  | idx n =>
    simp only [JSObj.lookup, JSObj.delitem, Arr.len_eq h.arr]
    by_cases hn : n < o.array.abs.length
    · rw [if_pos (by omega), Arr.getitem_nat h.arr n hn]
      cases hg : (o.array.abs[n]?).join with
      | none => rfl
      | some w =>
        obtain ⟨h4, h5, h6⟩ := Arr.setitem_spec h.arr n hn none
        simp only
        refine ⟨⟨h4, h.names⟩, ?_, trivial, ?_⟩
        · intro k'
          cases k' with
          | name t => simp [JSObj.lookup]
          | idx m =>
            simp only [JSObj.lookup, PKey.idx.injEq]
            rw [h5, getElem?_set_join _ _ _ _ hn]
        · rcases h6 with h6 | ⟨_, _, _, _, h6⟩
          · exact Or.inl h6
          · exact Or.inr h6
    · rw [if_neg (by omega), List.getElem?_eq_none (by omega)]
      rfl

theorem Arr.elementIndexes_eq {a : Arr α} (h : a.Inv) :
    a.elementIndexes .ascending = occupied a.abs := by
  cases a with
  | dense d => simp only [Arr.elementIndexes, Dense.elementIndexes, Arr.abs, usedIndexes_zero]
  | sparse s =>
    simp only [Arr.elementIndexes, Sparse.elementIndexes, Arr.abs, Sparse.sortedKeysNow_eq h]

end V8
