import Verif.Proofs.DecodeObj

/-! Building an object by assigning its items one after the other, as the decoder does. -/

namespace V8
open Spec
variable {α : Type}

/-- The elements that hold a value, with their indexes. -/
def itemsOf (l : List (Option α)) : List (Nat × α) :=
  (List.range l.length).filterMap (fun k => ((l[k]?).join).map (fun v => (k, v)))

theorem mem_itemsOf (l : List (Option α)) (k : Nat) (v : α) :
    (k, v) ∈ itemsOf l ↔ (l[k]?).join = some v := by
  unfold itemsOf
  rw [List.mem_filterMap]
  constructor
  · rintro ⟨a, _, ha⟩
    rw [Option.map_eq_some_iff] at ha
    obtain ⟨w, hw, he⟩ := ha
    simp only [Prod.mk.injEq] at he
    rw [← he.1, ← he.2]; exact hw
  · intro hv
    refine ⟨k, ?_, by simp [hv]⟩
    rw [List.mem_range]
    by_contra hk
    rw [List.getElem?_eq_none (by omega)] at hv
    simp at hv

theorem filterMap_sorted (g : Nat → Option α) (l : List Nat) (h : l.Pairwise (· < ·)) :
    (l.filterMap (fun k => (g k).map (fun v => (k, v)))).Pairwise (fun a b => a.1 < b.1) := by
  induction l with
  | nil => simp
  | cons a t ih =>
    rw [List.pairwise_cons] at h
    rw [List.filterMap_cons]
    cases hg : g a with
    | none => simpa [hg] using ih h.2
    | some v =>
      simp only [Option.map_some]
      rw [List.pairwise_cons]
      refine ⟨?_, ih h.2⟩
      rintro ⟨k, w⟩ hk
      rw [List.mem_filterMap] at hk
      obtain ⟨b, hb, he⟩ := hk
      rw [Option.map_eq_some_iff] at he
      obtain ⟨w', _, he⟩ := he
      simp only [Prod.mk.injEq] at he
      have := h.1 b hb
      simp only; omega

theorem itemsOf_sorted (l : List (Option α)) : (itemsOf l).Pairwise (fun a b => a.1 < b.1) :=
  filterMap_sorted _ _ List.pairwise_lt_range

theorem sorted_items_unique {l m : List (Nat × α)} (hl : l.Pairwise (fun a b => a.1 < b.1))
    (hm : m.Pairwise (fun a b => a.1 < b.1)) (h : ∀ e, e ∈ l ↔ e ∈ m) : l = m := by
  induction l generalizing m with
  | nil =>
    cases m with
    | nil => rfl
    | cons b t => have := (h b).2 List.mem_cons_self; simp at this
  | cons a t ih =>
    cases m with
    | nil => have := (h a).1 List.mem_cons_self; simp at this
    | cons b u =>
      rw [List.pairwise_cons] at hl hm
      have hab : a = b := by
        rcases List.mem_cons.1 ((h a).1 List.mem_cons_self) with h1 | h1
        · exact h1
        · rcases List.mem_cons.1 ((h b).2 List.mem_cons_self) with h2 | h2
          · exact h2.symm
          · have h3 := hm.1 a h1
            have h4 := hl.1 b h2
            omega
      subst hab
      congr 1
      refine ih hl.2 hm.2 fun e => ?_
      constructor
      · intro he
        rcases List.mem_cons.1 ((h e).1 (List.mem_cons_of_mem _ he)) with h1 | h1
        · subst h1; have := hl.1 e he; omega
        · exact h1
      · intro he
        rcases List.mem_cons.1 ((h e).2 (List.mem_cons_of_mem _ he)) with h1 | h1
        · subst h1; have := hm.1 e he; omega
        · exact h1

theorem elementItems_eq {a : Arr α} (h : a.Inv) : JSObj.elementItems a = itemsOf a.abs := by
  have hidx : ∀ k : Nat, k ∈ a.elementIndexes .ascending ↔ ((a.abs[k]?).join).isSome := by
    intro k
    rw [Arr.elementIndexes_eq h]
    unfold occupied
    rw [List.mem_filter, List.mem_range]
    constructor
    · exact fun h => h.2
    · intro hs
      refine ⟨?_, hs⟩
      by_contra hk
      rw [List.getElem?_eq_none (by omega)] at hs
      simp at hs
  have hsorted : (a.elementIndexes .ascending).Pairwise (· < ·) := by
    rw [Arr.elementIndexes_eq h]
    exact List.Pairwise.filter _ List.pairwise_lt_range
  have hget : ∀ k : Nat, (match a.getitem k with | .ok (some v) => some (k, v) | _ => none)
      = ((a.abs[k]?).join).map (fun v => (k, v)) := by
    intro k
    rw [Arr.getitem_eq h]
    by_cases hk : k < a.abs.length
    · rw [subscript_of_nonneg (by omega) (by omega)]
      simp only [Int.toNat_natCast]
      cases (a.abs[k]?).join <;> rfl
    · rw [List.getElem?_eq_none (by omega)]
      have : subscript a.abs.length (k : Int) = none := by
        unfold subscript
        rw [if_neg (by omega), if_neg (by omega)]
      rw [this]; rfl
  have e1 : JSObj.elementItems a = (a.elementIndexes .ascending).filterMap
      (fun k => ((a.abs[k]?).join).map (fun v => (k, v))) := by
    unfold JSObj.elementItems
    congr 1
    funext k
    exact hget k
  rw [e1]
  refine sorted_items_unique (filterMap_sorted _ _ hsorted) (itemsOf_sorted _) ?_
  rintro ⟨k, v⟩
  rw [mem_itemsOf, List.mem_filterMap]
  constructor
  · rintro ⟨b, _, he⟩
    rw [Option.map_eq_some_iff] at he
    obtain ⟨w, hw, he⟩ := he
    simp only [Prod.mk.injEq] at he
    rw [← he.1, ← he.2]; exact hw
  · intro hv
    exact ⟨k, (hidx k).2 (by rw [hv]; rfl), by simp [hv]⟩

theorem JSObj.items_eq {o : JSObj α} (h : o.Inv) :
    o.items = (itemsOf o.array.abs).map (fun e => (.idx e.1, e.2))
      ++ o.props.map (fun e => (.name e.1, e.2)) := by
  unfold JSObj.items
  rw [elementItems_eq h.arr]

theorem Arr.toList_eq {a : Arr α} (h : a.Inv) : a.toList = a.abs := by
  cases a with
  | dense d => rfl
  | sparse s => exact Sparse.toList_eq h

/-! ## One assignment -/

/-- An object to which values can be assigned without hitting the assertion of the sparse array. -/
structure JSObj.Good (o : JSObj α) : Prop where
  inv : o.Inv
  tame : o.array.Tame

theorem JSObj.empty_good : (JSObj.empty : JSObj α).Good := ⟨JSObj.empty_inv, trivial⟩

theorem JSObj.Good.bound {o : JSObj α} (h : o.Good) : ∃ c : Nat, o.Bound False c := by
  refine ⟨o.array.used.toNat + o.array.stored + o.props.length, h.inv, ?_, ?_, ?_, Or.inr h.tame⟩
  · omega
  · omega
  · omega

theorem JSObj.Good.put {o : JSObj α} (h : o.Good) (k : PKey) (hk : k.Valid) (v : α) :
    ∃ o', o.setitem k (some v) = (o', none) ∧ o'.Good := by
  obtain ⟨c, hb⟩ := h.bound
  obtain ⟨h1, h2⟩ := hb.setitem k hk (some v) (by simp)
  refine ⟨(o.setitem k (some v)).1, ?_, h1.inv, ?_⟩
  · rcases h2 with h2 | h2
    · exact Prod.ext rfl h2
    · exact h2.2.elim
  · exact h1.tame.resolve_left id

/-- Assigning a hole where there is none yet. -/
theorem JSObj.Good.putHole {o : JSObj α} (h : o.Good) (k : Nat) (hk : k < 2 ^ 32 - 1)
    (hn : o.lookup (.idx k) = none) :
    ∃ o', o.setitem (.idx k) none = (o', none) ∧ o'.Good := by
  obtain ⟨e1, e2, e3⟩ := ensureCapacity_spec h.inv.arr k hk
  obtain ⟨a1, a2, a3⟩ := JSObj.setitem_array o k none e2
  have hsp := JSObj.setitem_spec h.inv (.idx k) hk none
  have ht := ensureCapacity_tame h.inv.arr h.tame k hk
  have key : ((JSObj.ensureCapacity o.array k).1.setitem k none).2 = none ∧
      ((JSObj.ensureCapacity o.array k).1.setitem k none).1.Tame := by
    cases hc : (JSObj.ensureCapacity o.array k).1 with
    | dense d =>
      rw [hc] at e1 e3
      have hl : k < (Arr.dense d).abs.length := by
        have h6 := congrArg List.length e3
        simp only [List.length_append, List.length_replicate] at h6
        omega
      rcases (Arr.setitem_spec e1 k hl none).2.2 with h6 | ⟨s, hs, _⟩
      · exact ⟨h6, trivial⟩
      · simp at hs
    | sparse s =>
      rw [hc] at ht e1 e3
      have hl : (k : Int) < s.len := by
        have hl := Arr.len_eq e1
        have h6 := congrArg List.length e3
        simp only [List.length_append, List.length_replicate] at h6
        simp only [Arr.len] at hl
        omega
      have hnn : s.normaliseIndex k = some k := by
        unfold Sparse.normaliseIndex
        rw [if_neg (by omega), if_neg (by omega)]; simp
      have hg : s.items.get k = none := by
        have h6 := congrArg (fun l => (l[k]?).join) e3
        simp only [getElem?_pad_join] at h6
        simp only [JSObj.lookup] at hn
        rw [hn] at h6
        simp only [Arr.abs, Sparse.getElem?_abs] at h6
        rw [if_pos (by omega)] at h6
        simpa using h6
      simp only [Arr.setitem, Sparse.setitem, hnn, hg]
      exact ⟨trivial, ht⟩
  exact ⟨(o.setitem (.idx k) none).1, Prod.ext rfl (by rw [a2]; exact key.1), hsp.1,
    by rw [a1]; exact key.2⟩

/-! ## Assigning the items of another object -/

theorem itemsOf_set (l : List (Option α)) (n : Nat) (v : α) (h : ∀ e ∈ itemsOf l, e.1 < n) :
    itemsOf ((l ++ List.replicate (n + 1 - l.length) none).set n (some v)) = itemsOf l ++ [(n, v)] := by
  refine sorted_items_unique (itemsOf_sorted _) ?_ ?_
  · rw [List.pairwise_append]
    refine ⟨itemsOf_sorted _, by simp, ?_⟩
    intro a ha b hb
    simp only [List.mem_singleton] at hb
    subst hb
    exact h a ha
  · rintro ⟨k, w⟩
    rw [mem_itemsOf, List.mem_append, mem_itemsOf, getElem?_set_join _ _ _ _ (by
      rw [List.length_append, List.length_replicate]; omega), getElem?_pad_join]
    simp only [List.mem_singleton, Prod.mk.injEq]
    by_cases hk : n = k
    · subst hk
      rw [if_pos rfl]
      constructor
      · intro hv; right; simp only [Option.some.injEq] at hv; exact ⟨rfl, hv.symm⟩
      · rintro (hv | hv)
        · have := h (n, w) ((mem_itemsOf _ _ _).2 hv); simp only at this; omega
        · rw [hv.2]
    · rw [if_neg hk]
      constructor
      · intro hv; exact Or.inl hv
      · rintro (hv | hv)
        · exact hv
        · exact absurd hv.1.symm hk

/-- The items of an object: indexes ascending, then distinct names. -/
def ItemsShape (l : List (PKey × α)) : Prop :=
  ∃ (es : List (Nat × α)) (ps : Dict Str α),
    l = es.map (fun e => (.idx e.1, e.2)) ++ ps.map (fun e => (.name e.1, e.2)) ∧
    es.Pairwise (fun a b => a.1 < b.1) ∧ ps.keys.Nodup ∧ ∀ e ∈ es, e.1 < 2 ^ 32 - 1

/-- The assignments `obj[k] = v` for items of an object. -/
def assigns (l : List (PKey × α)) : List (PKey × Option α) := l.map (fun e => (e.1, some e.2))

theorem update_append (o o' : JSObj α) (l m : List (PKey × Option α)) (h : o.update l = (o', none)) :
    o.update (l ++ m) = o'.update m := by
  induction l generalizing o with
  | nil =>
    simp only [JSObj.update, Prod.mk.injEq] at h
    rw [h.1]; rfl
  | cons e t ih =>
    obtain ⟨k, v⟩ := e
    rw [List.cons_append]
    rw [JSObj.update] at h ⊢
    cases hs : o.setitem k v with
    | mk o1 x =>
      rw [hs] at h
      cases x with
      | none => exact ih o1 h
      | some e => simp at h

theorem update_indexes (es : List (Nat × α)) (o : JSObj α) (h : o.Good)
    (hs : (itemsOf o.array.abs ++ es).Pairwise (fun a b => a.1 < b.1))
    (hb : ∀ e ∈ es, e.1 < 2 ^ 32 - 1) :
    ∃ o', o.update (assigns (es.map (fun e => (.idx e.1, e.2)))) = (o', none) ∧ o'.Good ∧
      itemsOf o'.array.abs = itemsOf o.array.abs ++ es ∧ o'.props = o.props ∧
      ((∀ e ∈ es, e.1 < o.array.abs.length) → o'.array.abs.length = o.array.abs.length) := by
  induction es generalizing o with
  | nil => exact ⟨o, rfl, h, by simp, rfl, fun _ => rfl⟩
  | cons e t ih =>
    obtain ⟨n, v⟩ := e
    have hn : n < 2 ^ 32 - 1 := hb (n, v) List.mem_cons_self
    obtain ⟨o1, h1, h2⟩ := h.put (.idx n) hn v
    obtain ⟨_, _, _, h6, _⟩ := JSObj.setitem_spec h.inv (.idx n) hn (some v)
    rw [h1] at h6
    simp only at h6
    have hlt : ∀ e ∈ itemsOf o.array.abs, e.1 < n := by
      rw [List.pairwise_append] at hs
      exact fun e he => hs.2.2 e he (n, v) List.mem_cons_self
    have hi : itemsOf o1.array.abs = itemsOf o.array.abs ++ [(n, v)] := by
      rw [h6]; exact itemsOf_set _ _ _ hlt
    have hp : o1.props = o.props := by
      obtain ⟨_, e2, _⟩ := ensureCapacity_spec h.inv.arr n hn
      obtain ⟨_, _, a3⟩ := JSObj.setitem_array o n (some v) e2
      rw [h1] at a3; exact a3
    obtain ⟨o', g1, g2, g3, g4, g5⟩ := ih o1 h2 (by rw [hi]; simpa using hs)
      (fun e he => hb e (List.mem_cons_of_mem _ he))
    refine ⟨o', ?_, g2, ?_, by rw [g4, hp], ?_⟩
    · simp only [List.map_cons, assigns, JSObj.update]
      rw [h1]
      exact g1
    · rw [g3, hi]; simp
    · intro hl
      have hl1 : o1.array.abs.length = o.array.abs.length := by
        have := hl (n, v) List.mem_cons_self
        rw [h6]; simp only [List.length_set, List.length_append, List.length_replicate]
        simp only at this
        omega
      rw [g5 (fun e he => by rw [hl1]; exact hl e (List.mem_cons_of_mem _ he)), hl1]

theorem update_names (ps : Dict Str α) (o : JSObj α) (h : o.Good)
    (hs : (o.props ++ ps : Dict Str α).keys.Nodup) :
    ∃ o', o.update (assigns (ps.map (fun e => (.name e.1, e.2)))) = (o', none) ∧ o'.Good ∧
      o'.array = o.array ∧ o'.props = o.props ++ ps := by
  induction ps generalizing o with
  | nil => exact ⟨o, rfl, h, rfl, by simp⟩
  | cons e t ih =>
    obtain ⟨s, v⟩ := e
    have hm : s ∉ o.props.keys := by
      rw [Dict.keys_append, Dict.keys_cons, List.nodup_append] at hs
      intro hm
      exact hs.2.2 s hm s List.mem_cons_self rfl
    have h1 : o.setitem (.name s) (some v) = ({ o with props := o.props.set s v }, none) := rfl
    have hset := Dict.set_of_not_mem o.props s v hm
    obtain ⟨o1, h1', h2⟩ := h.put (.name s) trivial v
    rw [h1] at h1'
    simp only [Prod.mk.injEq, and_true] at h1'
    rw [h1'] at h1
    obtain ⟨o', g1, g2, g3, g4⟩ := ih o1 h2 (by
      rw [← h1', ]
      simp only [hset]
      simpa using hs)
    refine ⟨o', ?_, g2, ?_, ?_⟩
    · simp only [List.map_cons, assigns, JSObj.update]
      rw [h1]
      exact g1
    · rw [g3, ← h1']
    · rw [g4, ← h1']
      simp only [hset]
      simp

/-- Assigning items in order to an object without properties gives an object with those items. -/
theorem update_items (l : List (PKey × α)) (hl : ItemsShape l) (o : JSObj α) (h : o.Good)
    (h0 : itemsOf o.array.abs = []) (h1 : o.props = []) :
    ∃ o', o.update (assigns l) = (o', none) ∧ o'.Good ∧ o'.items = l ∧
      ((∀ n v, (PKey.idx n, v) ∈ l → n < o.array.abs.length) →
        o'.array.abs.length = o.array.abs.length) := by
  obtain ⟨es, ps, rfl, h2, h3, h4⟩ := hl
  obtain ⟨o1, g1, g2, g3, g4, g5⟩ := update_indexes es o h (by rw [h0]; simpa using h2) h4
  obtain ⟨o', k1, k2, k3, k4⟩ := update_names ps o1 g2 (by rw [g4, h1]; simpa using h3)
  refine ⟨o', ?_, k2, ?_, ?_⟩
  · have : assigns (es.map (fun e => (PKey.idx e.1, e.2)) ++ ps.map (fun e => (.name e.1, e.2)))
        = assigns (es.map (fun e => (.idx e.1, e.2))) ++ assigns (ps.map (fun e => (.name e.1, e.2))) := by
      simp [assigns]
    rw [this, update_append _ _ _ _ g1, k1]
  · rw [JSObj.items_eq k2.inv, k3, g3, h0, k4, g4, h1]; simp
  · intro hb
    rw [k3]
    refine g5 fun e he => hb e.1 e.2 ?_
    rw [List.mem_append]
    left
    rw [List.mem_map]
    exact ⟨e, he, rfl⟩

/-- Assigning to the index just past the end appends. -/
theorem JSObj.Good.append {o : JSObj α} (h : o.Good) (v : Option α)
    (hk : o.array.abs.length < 2 ^ 32 - 1) :
    ∃ o', o.setitem (.idx o.array.abs.length) v = (o', none) ∧ o'.Good ∧
      o'.array.abs = o.array.abs ++ [v] ∧ o'.props = o.props := by
  obtain ⟨_, _, _, h6, _⟩ := JSObj.setitem_spec h.inv (.idx o.array.abs.length) hk v
  simp only at h6
  have habs : (o.setitem (.idx o.array.abs.length) v).1.array.abs = o.array.abs ++ [v] := by
    rw [h6, Nat.add_sub_cancel_left]
    simp
  obtain ⟨_, e2, _⟩ := ensureCapacity_spec h.inv.arr o.array.abs.length hk
  obtain ⟨_, _, a3⟩ := JSObj.setitem_array o o.array.abs.length v e2
  have hput : ∃ o', o.setitem (.idx o.array.abs.length) v = (o', none) ∧ o'.Good := by
    cases v with
    | some w => exact h.put (.idx _) hk w
    | none => exact h.putHole _ hk (by simp [JSObj.lookup])
  obtain ⟨o', h1, h2⟩ := hput
  rw [h1] at habs a3
  exact ⟨o', h1, h2, habs, a3⟩

theorem update_elements (els : List (Option α)) (o : JSObj α) (h : o.Good)
    (hk : o.array.abs.length + els.length ≤ 2 ^ 32 - 1) :
    ∃ o', o.update (els.zipIdx o.array.abs.length |>.map (fun e => (.idx e.2, e.1))) = (o', none) ∧
      o'.Good ∧ o'.array.abs = o.array.abs ++ els ∧ o'.props = o.props := by
  induction els generalizing o with
  | nil => exact ⟨o, rfl, h, by simp, rfl⟩
  | cons v t ih =>
    simp only [List.length_cons] at hk
    obtain ⟨o1, h1, h2, h3, h4⟩ := h.append v (by omega)
    have hl : o1.array.abs.length = o.array.abs.length + 1 := by rw [h3]; simp
    obtain ⟨o', g1, g2, g3, g4⟩ := ih o1 h2 (by omega)
    refine ⟨o', ?_, g2, by rw [g3, h3]; simp, by rw [g4, h4]⟩
    simp only [List.zipIdx_cons, List.map_cons, JSObj.update]
    rw [h1, ← hl]
    exact g1

/-- The items of an object that satisfies the invariant have the expected shape. -/
theorem JSObj.items_shape {o : JSObj α} (h : o.Inv) (hl : o.array.abs.length ≤ 2 ^ 32 - 1) :
    ItemsShape o.items := by
  refine ⟨itemsOf o.array.abs, o.props, JSObj.items_eq h, itemsOf_sorted _, h.names, ?_⟩
  rintro ⟨k, v⟩ he
  rw [mem_itemsOf] at he
  by_contra hk
  simp only at hk
  rw [List.getElem?_eq_none (by omega)] at he
  simp at he

end V8
