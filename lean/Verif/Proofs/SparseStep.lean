import Verif.Proofs.Sparse

namespace V8
open Spec
variable {α : Type}

theorem keys_sorted_of_le_one (d : Dict Nat α) (h : d.length ≤ 1) :
    d.keys.Pairwise (· < ·) := by
  match d, h with
  | [], _ => simp [Dict.keys]
  | [e], _ => simp [Dict.keys]
  | _ :: _ :: _, h => simp at h

theorem Sparse.getitem_eq {s : Sparse α} (h : s.Inv) (i : Int) :
    s.getitem i = match subscript s.abs.length i with
      | some k => .ok (s.abs[k]?).join
      | none => .error .indexError := by
  unfold Sparse.getitem
  rw [Sparse.normaliseIndex_eq h]
  cases hs : subscript s.abs.length i with
  | none => rfl
  | some k =>
    have := subscript_lt hs
    rw [Sparse.length_abs] at this
    simp only
    rw [Sparse.getElem?_abs, if_pos this]; rfl

theorem Sparse.setHole_spec {s : Sparse α} (h : s.Inv) {k : Nat} (hk : k ∈ s.items.keys) :
    (s.setHole k).1.Inv ∧ (s.setHole k).1.len = s.len ∧
    (∀ j, (s.setHole k).1.items.get j = if k = j then none else s.items.get j) ∧
    ((s.setHole k).2 = none ∨
      (s.sortedKeys = none ∧ s.items.length ≤ 2 ∧ (s.setHole k).2 = some .assertionError)) := by
  have hnd := Dict.nodup_del s.items k h.nodup
  have hmem : ∀ x, x ∈ (s.items.del k).keys ↔ x ≠ k ∧ x ∈ s.items.keys :=
    fun x => Dict.mem_keys_del s.items k x h.nodup
  have hbound : ∀ x ∈ (s.items.del k).keys, (x : Int) < s.len :=
    fun x hx => h.bound x ((hmem x).1 hx).2
  have hget := fun j => Dict.get_del s.items k j h.nodup
  have hlen := Dict.length_del_of_mem s.items k hk
  unfold Sparse.setHole
  cases hs : s.sortedKeys with
  | none =>
    simp only
    by_cases hle : (s.items.del k).length ≤ 1
    · rw [if_pos hle]
      refine ⟨⟨hnd, hbound, h.nonneg, ?_⟩, rfl, hget, Or.inr ⟨trivial, by omega, rfl⟩⟩
      intro l hl; simp [hs] at hl
    · rw [if_neg hle]
      refine ⟨⟨hnd, hbound, h.nonneg, ?_⟩, rfl, hget, Or.inl rfl⟩
      intro l hl; simp [hs] at hl
  | some l =>
    obtain ⟨hl1, hl2⟩ := h.sorted l hs
    have hkl : k ∈ l := (hl2 k).2 hk
    simp only
    cases hlast : l.getLast? with
    | none => rw [List.getLast?_eq_none_iff] at hlast; subst hlast; simp at hkl
    | some last =>
      simp only
      by_cases hkk : k = last
      · rw [if_pos hkk]
        refine ⟨⟨hnd, hbound, h.nonneg, ?_⟩, rfl, hget, Or.inl rfl⟩
        intro m hm
        simp only [Option.some.injEq] at hm
        subst hm
        obtain ⟨ini, rfl⟩ : ∃ ini, l = ini ++ [last] := by
          rw [List.getLast?_eq_some_iff] at hlast; exact hlast
        rw [List.dropLast_concat]
        rw [List.pairwise_append] at hl1
        refine ⟨hl1.1, ?_⟩
        intro x
        rw [hmem, ← hl2]
        constructor
        · intro hx
          refine ⟨?_, by simp [hx]⟩
          rintro rfl
          have := hl1.2.2 x hx last (by simp)
          omega
        · rintro ⟨hx1, hx2⟩
          simp only [List.mem_append, List.mem_singleton] at hx2
          rcases hx2 with hx2 | hx2
          · exact hx2
          · omega
      · rw [if_neg hkk]
        refine ⟨⟨hnd, hbound, h.nonneg, ?_⟩, rfl, hget, Or.inl rfl⟩
        intro m hm; simp at hm

theorem Sparse.fillHole_spec {s : Sparse α} (h : s.Inv) {k : Nat} (hk : k ∉ s.items.keys)
    (hb : (k : Int) < s.len) (v : α) :
    (s.fillHole k v).1.Inv ∧ (s.fillHole k v).1.len = s.len ∧
    (∀ j, (s.fillHole k v).1.items.get j = if k = j then some v else s.items.get j) ∧
    ((s.fillHole k v).2 = none ∨
      (s.sortedKeys = none ∧ s.items.length = 0 ∧ (s.fillHole k v).2 = some .assertionError)) := by
  have hnd := Dict.nodup_set s.items k v h.nodup
  have hmem : ∀ x, x ∈ (s.items.set k v).keys ↔ x = k ∨ x ∈ s.items.keys :=
    fun x => Dict.mem_keys_set s.items k v x
  have hbound : ∀ x ∈ (s.items.set k v).keys, (x : Int) < s.len := by
    intro x hx
    rcases (hmem x).1 hx with rfl | hx
    · exact hb
    · exact h.bound x hx
  have hget := fun j => Dict.get_set s.items k v j
  have hlen := Dict.length_set_of_not_mem s.items k v hk
  unfold Sparse.fillHole
  cases hs : s.sortedKeys with
  | none =>
    simp only
    by_cases hle : (s.items.set k v).length ≤ 1
    · rw [if_pos hle]
      refine ⟨⟨hnd, hbound, h.nonneg, ?_⟩, rfl, hget, Or.inr ⟨trivial, by omega, rfl⟩⟩
      intro l hl; simp [hs] at hl
    · rw [if_neg hle]
      refine ⟨⟨hnd, hbound, h.nonneg, ?_⟩, rfl, hget, Or.inl rfl⟩
      intro l hl; simp at hl
  | some l =>
    obtain ⟨hl1, hl2⟩ := h.sorted l hs
    simp only
    by_cases hgt : (k : Int) > lastKey l
    · rw [if_pos hgt]
      refine ⟨⟨hnd, hbound, h.nonneg, ?_⟩, rfl, hget, Or.inl rfl⟩
      intro m hm
      simp only [Option.some.injEq] at hm
      subst hm
      constructor
      · rw [List.pairwise_append]
        refine ⟨hl1, by simp, ?_⟩
        intro a ha b hb'
        simp only [List.mem_singleton] at hb'
        subst hb'
        cases hlast : l.getLast? with
        | none => rw [List.getLast?_eq_none_iff] at hlast; subst hlast; simp at ha
        | some last =>
          rw [lastKey, hlast] at hgt
          simp only at hgt
          rw [List.getLast?_eq_some_iff] at hlast
          obtain ⟨ini, rfl⟩ := hlast
          rw [List.pairwise_append] at hl1
          simp only [List.mem_append, List.mem_singleton] at ha
          rcases ha with ha | ha
          · have := hl1.2.2 a ha last (by simp); omega
          · omega
      · intro x
        rw [hmem, List.mem_append, hl2, List.mem_singleton]; tauto
    · rw [if_neg hgt]
      refine ⟨⟨hnd, hbound, h.nonneg, ?_⟩, rfl, hget, Or.inl rfl⟩
      intro m hm; simp at hm

theorem Sparse.abs_set {s s' : Sparse α} (hlen : s'.len = s.len) {k : Nat} {v : Option α}
    (hget : ∀ j, s'.items.get j = if k = j then v else s.items.get j) :
    s'.abs = s.abs.set k v := by
  apply abs_ext
  · rw [List.length_set, Sparse.length_abs, hlen]
  · intro i hi
    rw [hlen] at hi
    rw [List.getElem?_set, hget]
    by_cases hik : k = i
    · subst hik
      rw [if_pos rfl, if_pos (by rw [Sparse.length_abs]; exact hi), if_pos rfl]
    · rw [if_neg hik, if_neg hik, Sparse.getElem?_abs, if_pos hi]

theorem Sparse.setitem_spec {s : Sparse α} (h : s.Inv) (i : Int) (v : Option α) :
    (s.setitem i v).1.Inv ∧
    (match subscript s.abs.length i with
      | some k => (s.setitem i v).1.abs = s.abs.set k v ∧
          ((s.setitem i v).2 = none ∨
            (s.sortedKeys = none ∧ s.items.length ≤ 2
              ∧ (s.setitem i v).2 = some .assertionError))
      | none => (s.setitem i v) = (s, some .indexError)) := by
  unfold Sparse.setitem
  rw [Sparse.normaliseIndex_eq h]
  cases hs : subscript s.abs.length i with
  | none => exact ⟨h, rfl⟩
  | some k =>
    have hk := subscript_lt hs
    rw [Sparse.length_abs] at hk
    have hk' : (k : Int) < s.len := by have := h.nonneg; omega
    cases hg : s.items.get k with
    | some w =>
      have hmem := (Dict.mem_keys_iff s.items k).2 ⟨w, hg⟩
      cases v with
      | none =>
        obtain ⟨h1, h2, h3, h4⟩ := Sparse.setHole_spec h hmem
        simp only [hg]
        exact ⟨h1, Sparse.abs_set h2 h3, h4⟩
      | some x =>
        simp only [hg]
        refine ⟨⟨?_, ?_, h.nonneg, ?_⟩, Sparse.abs_set (s := s)
          (s' := ⟨s.items.set k x, s.sortedKeys, s.maxIndex⟩) (k := k) (v := some x) rfl
          (fun j => Dict.get_set s.items k x j), Or.inl trivial⟩
        · simp only [Dict.keys_set_of_mem s.items k x hmem]; exact h.nodup
        · simp only [Dict.keys_set_of_mem s.items k x hmem]; exact h.bound
        · simp only [Dict.keys_set_of_mem s.items k x hmem]; exact h.sorted
    | none =>
      have hmem := (Dict.get_eq_none_iff s.items k).1 hg
      cases v with
      | none =>
        simp only [hg]
        refine ⟨h, Sparse.abs_set rfl (fun j => ?_), Or.inl trivial⟩
        split
        · rename_i hj; rw [← hj, hg]
        · rfl
      | some x =>
        obtain ⟨h1, h2, h3, h4⟩ := Sparse.fillHole_spec h hmem hk' x
        simp only [hg]
        refine ⟨h1, Sparse.abs_set h2 h3, ?_⟩
        rcases h4 with h4 | ⟨a, b, c⟩
        · exact Or.inl h4
        · exact Or.inr ⟨a, by omega, c⟩

theorem Sparse.delitem_spec {s : Sparse α} (h : s.Inv) (i : Int) :
    (s.delitem i).1.Inv ∧
    (match subscript s.abs.length i with
      | some k => (s.delitem i).1.abs = s.abs.take k ++ s.abs.drop (k + 1)
          ∧ (s.delitem i).2 = none
      | none => (s.delitem i) = (s, some .indexError)) := by
  unfold Sparse.delitem
  rw [Sparse.normaliseIndex_eq h]
  cases hs : subscript s.abs.length i with
  | none => exact ⟨h, rfl⟩
  | some k =>
    have hk := subscript_lt hs
    rw [Sparse.length_abs] at hk
    simp only
    have hnd := Dict.nodup_del s.items k h.nodup
    have hmem : ∀ x, x ∈ (s.items.del k).keys ↔ x ≠ k ∧ x ∈ s.items.keys :=
      fun x => Dict.mem_keys_del s.items k x h.nodup
    have hinj : ∀ a ∈ (s.items.del k).keys, ∀ b ∈ (s.items.del k).keys,
        (if a ≤ k then a else a - 1) = (if b ≤ k then b else b - 1) → a = b := by
      intro a ha b hb
      have := ((hmem a).1 ha).1
      have := ((hmem b).1 hb).1
      split <;> split <;> omega
    have hkeys := Dict.keys_map_key (s.items.del k) (fun a => if a ≤ k then a else a - 1)
    have hnd' : ((s.items.del k).map (fun e => (if e.1 ≤ k then e.1 else e.1 - 1, e.2))
        |>.map (·.1)).Nodup := by
      have : ((s.items.del k).map (fun e => (if e.1 ≤ k then e.1 else e.1 - 1, e.2))
        |>.map (·.1)) = _ := hkeys
      rw [this]
      exact List.Nodup.map_on hinj hnd
    rw [Dict.ofList_eq _ hnd']
    have hl : s.maxIndex - 1 + 1 = s.len - 1 := by unfold Sparse.len; omega
    refine ⟨⟨?_, ?_, ?_, ?_⟩, ?_, trivial⟩
    · exact hnd'
    · intro x hx
      have hx' : x ∈ ((s.items.del k).keys).map (fun a => if a ≤ k then a else a - 1) := by
        rw [← hkeys]; exact hx
      obtain ⟨a, ha, rfl⟩ := List.mem_map.1 hx'
      obtain ⟨ha1, ha2⟩ := (hmem a).1 ha
      have := h.bound a ha2
      simp only [Sparse.len, hl]
      split <;> omega
    · simp only [Sparse.len, hl]; omega
    · intro l hle
      split at hle
      · rename_i hlen
        simp only [Option.some.injEq] at hle
        subst hle
        refine ⟨?_, fun x => Iff.rfl⟩
        exact keys_sorted_of_le_one _ hlen
      · simp at hle
    · apply abs_ext
      · simp only [Sparse.len, hl, List.length_append, List.length_take, List.length_drop,
          Sparse.length_abs]
        simp only [Sparse.len] at hk ⊢
        omega
      · intro j hj
        simp only [Sparse.len, hl] at hj
        rw [← List.eraseIdx_eq_take_drop_succ, List.getElem?_eraseIdx]
        have hkinj : ∀ b, b ≠ k → ∀ a ∈ (s.items.del k).keys,
            (if a ≤ k then a else a - 1) = (if b ≤ k then b else b - 1) → a = b := by
          intro b hb a ha
          have := ((hmem a).1 ha).1
          split <;> split <;> omega
        by_cases hjk : j < k
        · rw [if_pos hjk, Sparse.getElem?_abs, if_pos (by simp only [Sparse.len] at hj ⊢; omega)]
          congr 1
          have := Dict.get_map_key (s.items.del k) (fun a => if a ≤ k then a else a - 1) hinj j
            (hkinj j (by omega))
          rw [if_pos (by omega)] at this
          rw [this, Dict.get_del _ _ _ h.nodup, if_neg (by omega)]
        · rw [if_neg hjk, Sparse.getElem?_abs, if_pos (by simp only [Sparse.len] at hj ⊢; omega)]
          congr 1
          have := Dict.get_map_key (s.items.del k) (fun a => if a ≤ k then a else a - 1) hinj (j + 1)
            (hkinj (j + 1) (by omega))
          rw [if_neg (by omega), Nat.add_sub_cancel] at this
          rw [this, Dict.get_del _ _ _ h.nodup, if_neg (by omega)]

theorem Sparse.insert_spec {s : Sparse α} (h : s.Inv) (i : Int) (v : Option α) :
    (s.insert i v).1.Inv ∧
    (match subscript s.abs.length i with
      | some k =>
        if s.abs.length < 2 ^ 32 - 1 then
          (s.insert i v).1.abs = s.abs.take k ++ [v] ++ s.abs.drop k ∧ (s.insert i v).2 = none
        else s.insert i v = (s, some .indexError)
      | none => s.insert i v = (s, some .indexError)) := by
  unfold Sparse.insert
  rw [Sparse.normaliseIndex_eq h]
  cases hs : subscript s.abs.length i with
  | none => exact ⟨h, rfl⟩
  | some k =>
    have hk := subscript_lt hs
    rw [Sparse.length_abs] at hk
    have hmax : ((maxArrayLength : Nat) : Int) = 2 ^ 32 - 1 := by decide
    simp only [hmax]
    rw [Sparse.length_abs]
    by_cases hge : s.len ≥ 2 ^ 32 - 1
    · have : ¬ s.len.toNat < 2 ^ 32 - 1 := by omega
      rw [if_pos hge, if_neg this]; exact ⟨h, rfl⟩
    · have : s.len.toNat < 2 ^ 32 - 1 := by omega
      rw [if_neg hge, if_pos this]
      have hinj : ∀ a b : Nat,
          (if a < k then a else a + 1) = (if b < k then b else b + 1) → a = b := by
        intro a b; split <;> split <;> omega
      have hkeys := Dict.keys_map_key s.items (fun a => if a < k then a else a + 1)
      have hnd' : (s.items.map (fun e => (if e.1 < k then e.1 else e.1 + 1, e.2))
          |>.map (·.1)).Nodup := by
        have : (s.items.map (fun e => (if e.1 < k then e.1 else e.1 + 1, e.2))
          |>.map (·.1)) = _ := hkeys
        rw [this]
        exact List.Nodup.map_on (fun a _ b _ => hinj a b) h.nodup
      rw [Dict.ofList_eq _ hnd']
      set sh : Dict Nat α := s.items.map (fun e => (if e.1 < k then e.1 else e.1 + 1, e.2)) with hsh
      have hget : ∀ j, sh.get (if j < k then j else j + 1) = s.items.get j := fun j =>
        Dict.get_map_key s.items (fun a => if a < k then a else a + 1)
          (fun a _ b _ => hinj a b) j (fun a _ => hinj a j)
      have hknot : k ∉ sh.keys := by
        rw [hkeys, List.mem_map]
        rintro ⟨a, _, ha⟩
        split at ha <;> omega
      have hshb : ∀ x ∈ sh.keys, (x : Int) < s.len + 1 := by
        intro x hx
        rw [hkeys, List.mem_map] at hx
        obtain ⟨a, ha, rfl⟩ := hx
        have := h.bound a ha
        split <;> omega
      have hl : s.maxIndex + 1 + 1 = s.len + 1 := by unfold Sparse.len; omega
      -- the final dictionary
      have hfin : ∃ items : Dict Nat α,
          Sparse.putValue sh k v = items ∧
          items.keys.Nodup ∧ (∀ x ∈ items.keys, (x : Int) < s.len + 1) ∧
          items.get k = v ∧ (∀ j, items.get (if j < k then j else j + 1) = s.items.get j) := by
        cases v with
        | none =>
          exact ⟨sh, rfl, hnd', hshb, (Dict.get_eq_none_iff _ _).2 hknot, hget⟩
        | some w =>
          refine ⟨Dict.set sh k w, rfl, Dict.nodup_set _ _ _ hnd', ?_, ?_, ?_⟩
          · intro x hx
            rcases (Dict.mem_keys_set sh k w x).1 hx with rfl | hx
            · omega
            · exact hshb x hx
          · rw [Dict.get_set, if_pos rfl]
          · intro j
            rw [Dict.get_set, if_neg (by split <;> omega), hget]
      obtain ⟨items, hit, hnd2, hb2, hg1, hg2⟩ := hfin
      rw [hit]
      refine ⟨⟨hnd2, ?_, ?_, ?_⟩, ?_, rfl⟩
      · intro x hx
        have := hb2 x hx
        simp only [Sparse.len, hl]; omega
      · simp only [Sparse.len, hl]; omega
      · intro l hle
        split at hle
        · rename_i hlen
          simp only [Option.some.injEq] at hle
          subst hle
          exact ⟨keys_sorted_of_le_one _ hlen.2, fun x => Iff.rfl⟩
        · simp at hle
      · apply abs_ext
        · simp only [Sparse.len, hl, List.length_append, List.length_take, List.length_drop,
            Sparse.length_abs, List.length_singleton]
          simp only [Sparse.len] at hk ⊢
          omega
        · intro j hj
          simp only [Sparse.len, hl] at hj
          have hlk : (s.abs.take k).length = k := by
            rw [List.length_take, Sparse.length_abs]; omega
          rw [List.append_assoc]
          by_cases hjk : j < k
          · rw [List.getElem?_append_left (by omega), List.getElem?_take_of_lt hjk,
              Sparse.getElem?_abs, if_pos (by omega)]
            have := hg2 j
            rw [if_pos hjk] at this
            rw [this]
          · rw [List.getElem?_append_right (by omega), hlk]
            by_cases hjk2 : j = k
            · subst hjk2; simp [hg1]
            · obtain ⟨m, rfl⟩ : ∃ m, j = m + 1 := ⟨j - 1, by omega⟩
              have e : m + 1 - k = (m - k) + 1 := by omega
              rw [e, List.singleton_append, List.getElem?_cons_succ, List.getElem?_drop,
                Sparse.getElem?_abs, if_pos (by simp only [Sparse.len] at hj ⊢; omega)]
              have := hg2 m
              rw [if_neg (by omega)] at this
              rw [this]
              congr 2; omega

theorem Sparse.append_spec {s : Sparse α} (h : s.Inv) (v : α) :
    (s.append (some v)).1.Inv ∧
    (if s.abs.length < 2 ^ 32 - 1 then
      (s.append (some v)).1.abs = s.abs ++ [some v] ∧ (s.append (some v)).2 = none
    else s.append (some v) = (s, some .indexError)) := by
  unfold Sparse.append
  have hmax : ((maxArrayLength : Nat) : Int) = 2 ^ 32 - 1 := by decide
  have h0 := h.nonneg
  simp only [hmax]
  rw [Sparse.length_abs]
  by_cases hge : s.maxIndex + 1 ≥ 2 ^ 32 - 1
  · have : ¬ s.len.toNat < 2 ^ 32 - 1 := by unfold Sparse.len; omega
    rw [if_pos hge, if_neg this]; exact ⟨h, rfl⟩
  · have : s.len.toNat < 2 ^ 32 - 1 := by unfold Sparse.len; omega
    rw [if_neg hge, if_pos this]
    set k := (s.maxIndex + 1).toNat with hkdef
    have hkl : (k : Int) = s.len := by unfold Sparse.len at h0 ⊢; omega
    have hknot : k ∉ s.items.keys := by
      intro hm; have := h.bound k hm; omega
    have hnd := Dict.nodup_set s.items k v h.nodup
    have hmem := fun x => Dict.mem_keys_set s.items k v x
    have hbound : ∀ x ∈ (s.items.set k v).keys, (x : Int) < s.len + 1 := by
      intro x hx
      rcases (hmem x).1 hx with rfl | hx
      · omega
      · have := h.bound x hx; omega
    have hlen := Dict.length_set_of_not_mem s.items k v hknot
    have habs : ∀ so, (⟨s.items.set k v, so, s.maxIndex + 1⟩ : Sparse α).abs
        = s.abs ++ [some v] := by
      intro so
      have hl : (⟨s.items.set k v, so, s.maxIndex + 1⟩ : Sparse α).len = s.len + 1 := rfl
      apply abs_ext
      · rw [hl, List.length_append, Sparse.length_abs, List.length_singleton]; omega
      · intro i hi
        rw [hl] at hi
        simp only
        rw [Dict.get_set]
        by_cases hik : k = i
        · rw [if_pos hik, List.getElem?_append_right (by rw [Sparse.length_abs]; omega),
            Sparse.length_abs]
          have : i - s.len.toNat = 0 := by omega
          rw [this]; rfl
        · rw [if_neg hik, List.getElem?_append_left (by rw [Sparse.length_abs]; omega),
            Sparse.getElem?_abs, if_pos (by omega)]
    cases hs : s.sortedKeys with
    | none =>
      simp only
      refine ⟨⟨hnd, hbound, by show 0 ≤ s.len + 1; omega, ?_⟩, habs _, trivial⟩
      intro l hl
      simp only at hl
      split at hl
      · rename_i h1
        simp only [Option.some.injEq] at hl
        subst hl
        refine ⟨by simp, ?_⟩
        intro x
        rw [hmem, List.mem_singleton]
        have : s.items.keys = [] := by
          have : s.items.length = 0 := by omega
          rw [List.length_eq_zero_iff] at this
          rw [this]; rfl
        rw [this]; simp
      · simp at hl
    | some l =>
      obtain ⟨hl1, hl2⟩ := h.sorted l hs
      have hll : l.length = s.items.length := by
        rw [← Dict.length_keys]
        exact ((List.perm_ext_iff_of_nodup (hl1.imp (fun h => Nat.ne_of_lt h)) h.nodup).2
          hl2).length_eq
      have hlt : ∀ x ∈ l, x < k := by
        intro x hx
        have := h.bound x ((hl2 x).1 hx); omega
      have hlast : lastKey l < s.maxIndex + 1 := by
        unfold lastKey
        cases hg : l.getLast? with
        | none => simp only; unfold Sparse.len at h0; omega
        | some x =>
          have := hlt x (List.mem_of_getLast? hg)
          simp only; unfold Sparse.len at hkl; omega
      simp only
      rw [if_neg (by omega), if_neg (by omega)]
      refine ⟨⟨hnd, hbound, by show 0 ≤ s.len + 1; omega, ?_⟩, habs _, rfl⟩
      intro m hm
      simp only [Option.some.injEq] at hm
      subst hm
      constructor
      · rw [List.pairwise_append]
        refine ⟨hl1, by simp, ?_⟩
        intro a ha b hb
        simp only [List.mem_singleton] at hb
        subst hb; exact hlt a ha
      · intro x
        rw [hmem, List.mem_append, hl2, List.mem_singleton]; tauto

theorem selectKeys_spec (items : Dict Nat α) (l : List Nat) (h : ∀ k ∈ l, k ∈ items.keys) :
    ∃ r, Sparse.selectKeys items l = some r ∧ r.map (·.1) = l ∧
      ∀ k v, (k, v) ∈ r → items.get k = some v := by
  induction l with
  | nil => exact ⟨[], rfl, rfl, by simp⟩
  | cons a t ih =>
    obtain ⟨r, h1, h2, h3⟩ := ih (fun k hk => h k (List.mem_cons_of_mem _ hk))
    obtain ⟨v, hv⟩ := (Dict.mem_keys_iff _ _).1 (h a List.mem_cons_self)
    refine ⟨(a, v) :: r, ?_, by simp [h2], ?_⟩
    · simp only [Sparse.selectKeys, hv, h1]
    · intro k w hk
      rcases List.mem_cons.1 hk with hk | hk
      · simp only [Prod.mk.injEq] at hk; rw [hk.1, hk.2]; exact hv
      · exact h3 k w hk

theorem delKeys_spec (items : Dict Nat α) (l : List Nat) (hn : items.keys.Nodup) :
    (Sparse.delKeys items l).keys.Nodup ∧
    ∀ k, (Sparse.delKeys items l).get k = if k ∈ l then none else items.get k := by
  induction l generalizing items with
  | nil => exact ⟨hn, fun k => by simp [Sparse.delKeys]⟩
  | cons a t ih =>
    obtain ⟨h1, h2⟩ := ih (items.del a) (Dict.nodup_del _ _ hn)
    rw [Sparse.delKeys]
    refine ⟨h1, fun k => ?_⟩
    rw [h2, Dict.get_del _ _ _ hn]
    by_cases hk : k ∈ t
    · simp [hk]
    · by_cases hka : a = k
      · simp [hka]
      · simp [hk, hka, Ne.symm hka]

theorem Sparse.resize_spec {s : Sparse α} (h : s.Inv) (n : Int) :
    (s.resize n).1.Inv ∧
    (if 0 ≤ n ∧ n ≤ 2 ^ 32 - 1 then
      (s.resize n).1.abs = s.abs.take n.toNat ++ List.replicate (n.toNat - s.abs.length) none ∧
        (s.resize n).2 = none
    else s.resize n = (s, some .valueError)) := by
  have hmax : ((maxArrayLength : Nat) : Int) = 2 ^ 32 - 1 := by decide
  unfold Sparse.resize
  simp only [hmax]
  by_cases hb : n < 0 ∨ n > 2 ^ 32 - 1
  · have hb' : ¬ (0 ≤ n ∧ n ≤ 2 ^ 32 - 1) := by omega
    rw [if_pos hb, if_neg hb']; exact ⟨h, rfl⟩
  have hb' : 0 ≤ n ∧ n ≤ 2 ^ 32 - 1 := by omega
  rw [if_neg hb, if_pos hb']
  obtain ⟨hs1, hs2⟩ := Sparse.sortedKeysNow_spec h
  obtain ⟨ht, hd⟩ := bisectLeft_take s.sortedKeysNow n.toNat hs1
  set fr := bisectLeft s.sortedKeysNow n.toNat with hfr
  have hafter_sorted : (s.sortedKeysNow.take fr).Pairwise (· < ·) :=
    hs1.sublist (List.take_sublist _ _)
  -- the new dictionary has the old entries below n
  suffices key : ∀ items : Dict Nat α, items.keys.Nodup →
      (∀ k, items.get k = if k < n.toNat then s.items.get k else none) →
      (⟨items, some (s.sortedKeysNow.take fr), n - 1⟩ : Sparse α).Inv ∧
      (⟨items, some (s.sortedKeysNow.take fr), n - 1⟩ : Sparse α).abs
        = s.abs.take n.toNat ++ List.replicate (n.toNat - s.abs.length) none by
    by_cases hbr : s.sortedKeysNow.length ≠ 0 ∧ ¬ (2 * fr ≤ s.sortedKeysNow.length)
    · rw [if_pos hbr]
      obtain ⟨r, hr1, hr2, hr3⟩ := selectKeys_spec s.items (s.sortedKeysNow.take fr)
        (fun k hk => (hs2 k).1 ((ht k).1 hk).1)
      simp only [hr1]
      have hrn : (r.map (·.1)).Nodup := by
        rw [hr2]; exact hafter_sorted.imp (fun h => Nat.ne_of_lt h)
      rw [Dict.ofList_eq r hrn]
      have := key r hrn (by
        intro k
        by_cases hk : k ∈ s.sortedKeysNow.take fr
        · have hk' := (ht k).1 hk
          rw [if_pos hk'.2]
          rw [← hr2, List.mem_map] at hk
          obtain ⟨⟨k', v⟩, hm, rfl⟩ := hk
          rw [hr3 k' v hm]
          exact Dict.get_of_mem r k' v hrn hm
        · have hno : Dict.get r k = none := by
            rw [Dict.get_eq_none_iff]
            show k ∉ r.map (·.1)
            rw [hr2]; exact hk
          rw [hno]
          by_cases hkn : k < n.toNat
          · rw [if_pos hkn]
            symm
            rw [Dict.get_eq_none_iff]
            intro hm
            exact hk ((ht k).2 ⟨(hs2 k).2 hm, hkn⟩)
          · rw [if_neg hkn])
      exact ⟨this.1, this.2, trivial⟩
    · rw [if_neg hbr]
      obtain ⟨hd1, hd2⟩ := delKeys_spec s.items (s.sortedKeysNow.drop fr) h.nodup
      have := key _ hd1 (by
        intro k
        rw [hd2]
        by_cases hk : k ∈ s.sortedKeysNow.drop fr
        · have hk' := (hd k).1 hk
          rw [if_pos hk, if_neg hk'.2]
        · rw [if_neg hk]
          by_cases hkn : k < n.toNat
          · rw [if_pos hkn]
          · rw [if_neg hkn, Dict.get_eq_none_iff]
            intro hm
            exact hk ((hd k).2 ⟨(hs2 k).2 hm, hkn⟩))
      exact ⟨this.1, this.2, rfl⟩
  intro items hn hg
  have hmem : ∀ k, k ∈ items.keys ↔ k ∈ s.items.keys ∧ k < n.toNat := by
    intro k
    rw [Dict.mem_keys_iff, Dict.mem_keys_iff, hg]
    by_cases hk : k < n.toNat <;> simp [hk]
  have hl : (⟨items, some (s.sortedKeysNow.take fr), n - 1⟩ : Sparse α).len = n := by
    simp [Sparse.len]
  refine ⟨⟨hn, ?_, by rw [hl]; omega, ?_⟩, ?_⟩
  · intro k hk
    have := ((hmem k).1 hk).2
    rw [hl]; omega
  · intro l hle
    simp only [Option.some.injEq] at hle
    subst hle
    refine ⟨hafter_sorted, fun k => ?_⟩
    rw [ht, hs2, hmem]
  · apply abs_ext
    · rw [hl, List.length_append, List.length_take, List.length_replicate]; omega
    · intro i hi
      rw [hl] at hi
      simp only
      rw [hg, if_pos hi]
      by_cases hil : i < s.len.toNat
      · rw [List.getElem?_append_left (by rw [List.length_take, Sparse.length_abs]; omega),
          List.getElem?_take_of_lt hi, Sparse.getElem?_abs, if_pos hil]
      · rw [List.getElem?_append_right (by rw [List.length_take, Sparse.length_abs]; omega),
          List.getElem?_replicate, if_pos (by
            rw [List.length_take, Sparse.length_abs]; omega)]
        congr 1
        symm
        rw [Dict.get_eq_none_iff]
        intro hm
        have := h.bound i hm; omega

/-- The operations on which `SparseArrayProperties` behaves like a list: `insert` must point at an
existing position, only values (not holes) can be appended, and neither may exceed the maximum
length. -/
def sparseDom (l : List (Option α)) : ArrOp α → Prop
  | .insert i _ => -(l.length : Int) ≤ i ∧ i < l.length ∧ l.length < 2 ^ 32 - 1
  | .append v => v.isSome ∧ l.length < 2 ^ 32 - 1
  | _ => True

theorem sparse_step (s : Sparse α) (h : s.Inv) (op : ArrOp α) (hop : sparseDom s.abs op) :
    ∃ s', (arrStep (.sparse s) op).1 = .sparse s' ∧ s'.Inv
      ∧ s'.abs = (listStep s.abs op).1
      ∧ ((arrStep (.sparse s) op).2 = (listStep s.abs op).2 ∨
          ((∃ i v, op = .set i v) ∧ s.sortedKeys = none ∧ s.items.length ≤ 2 ∧
            (arrStep (.sparse s) op).2 = .error .assertionError)) := by
  have hcache : ∀ {s : Sparse α}, s.Inv → s.cacheSorted.Inv ∧ s.cacheSorted.abs = s.abs := by
    intro s h
    refine ⟨⟨h.nodup, h.bound, h.nonneg, ?_⟩, rfl⟩
    intro l hl
    simp only [Sparse.cacheSorted, Option.some.injEq] at hl
    subst hl
    exact Sparse.sortedKeysNow_spec h
  cases op with
  | get i =>
    refine ⟨s, rfl, h, ?_, Or.inl ?_⟩
    · simp only [listStep]; split <;> rfl
    · simp only [arrStep, listStep, Arr.getitem, Sparse.getitem_eq h]
      cases subscript s.abs.length i <;> rfl
  | set i v =>
    simp only [arrStep, arrStep.ret, Arr.setitem, listStep]
    obtain ⟨h1, h2⟩ := Sparse.setitem_spec h i v
    refine ⟨_, rfl, h1, ?_⟩
    cases hs : subscript s.abs.length i with
    | none => rw [hs] at h2; simp only at h2; rw [h2]; exact ⟨rfl, Or.inl rfl⟩
    | some k =>
      rw [hs] at h2
      simp only at h2
      refine ⟨h2.1, ?_⟩
      rcases h2.2 with h3 | ⟨h3, h4, h5⟩
      · rw [h3]; exact Or.inl rfl
      · rw [h5]; exact Or.inr ⟨⟨i, v, rfl⟩, h3, h4, rfl⟩
  | del i =>
    simp only [arrStep, arrStep.ret, Arr.delitem, listStep]
    obtain ⟨h1, h2⟩ := Sparse.delitem_spec h i
    refine ⟨_, rfl, h1, ?_⟩
    cases hs : subscript s.abs.length i with
    | none => rw [hs] at h2; simp only at h2; rw [h2]; exact ⟨rfl, Or.inl rfl⟩
    | some k =>
      rw [hs] at h2
      simp only at h2
      rw [h2.2]; exact ⟨h2.1, Or.inl rfl⟩
  | insert i v =>
    simp only [sparseDom] at hop
    simp only [arrStep, arrStep.ret, Arr.insert, listStep]
    obtain ⟨h1, h2⟩ := Sparse.insert_spec h i v
    refine ⟨_, rfl, h1, ?_⟩
    have hpos : subscript s.abs.length i = some (insertPos s.abs.length i) := by
      unfold insertPos
      by_cases hi : i < 0
      · rw [if_pos hi, subscript_of_neg hi (by omega)]; congr 1; omega
      · rw [if_neg hi, subscript_of_nonneg (by omega) (by omega)]; congr 1; omega
    rw [hpos] at h2
    simp only at h2
    rw [if_pos hop.2.2] at h2
    rw [h2.2]; exact ⟨h2.1, Or.inl rfl⟩
  | append v =>
    simp only [sparseDom] at hop
    simp only [arrStep, arrStep.ret, Arr.append, listStep]
    obtain ⟨w, rfl⟩ := Option.isSome_iff_exists.1 hop.1
    obtain ⟨h1, h2⟩ := Sparse.append_spec h w
    rw [if_pos hop.2] at h2
    refine ⟨_, rfl, h1, ?_⟩
    rw [h2.2]; exact ⟨h2.1, Or.inl rfl⟩
  | pop i =>
    simp only [arrStep, Arr.pop, Arr.getitem, Arr.delitem, listStep, Sparse.getitem_eq h]
    obtain ⟨h1, h2⟩ := Sparse.delitem_spec h i
    cases hs : subscript s.abs.length i with
    | none => exact ⟨s, rfl, h, rfl, Or.inl rfl⟩
    | some k =>
      rw [hs] at h2
      simp only at h2
      simp only [h2.2]
      exact ⟨_, rfl, h1, h2.1, Or.inl rfl⟩
  | resize n =>
    simp only [arrStep, arrStep.ret, Arr.resize, listStep]
    obtain ⟨h1, h2⟩ := Sparse.resize_spec h n
    refine ⟨_, rfl, h1, ?_⟩
    by_cases hb : 0 ≤ n ∧ n ≤ 2 ^ 32 - 1
    · rw [if_pos hb] at h2 ⊢
      rw [h2.2]; exact ⟨h2.1, Or.inl rfl⟩
    · rw [if_neg hb] at h2 ⊢
      rw [h2]; exact ⟨rfl, Or.inl rfl⟩
  | len =>
    refine ⟨s, rfl, h, rfl, Or.inl ?_⟩
    simp only [arrStep, Arr.len, listStep, Sparse.length_abs]
    have := h.nonneg
    congr 2; omega
  | used =>
    refine ⟨s, rfl, h, rfl, Or.inl ?_⟩
    simp only [arrStep, Arr.used, listStep, Sparse.used_eq h]
  | indexes desc =>
    refine ⟨s.cacheSorted, ?_, (hcache h).1, (hcache h).2, Or.inl ?_⟩
    · cases desc <;> rfl
    · simp only [arrStep, listStep, Arr.elementIndexes]
      cases desc <;> simp [Sparse.elementIndexes, Sparse.sortedKeysNow_eq h]
  | iter =>
    refine ⟨s.cacheSorted, rfl, (hcache h).1, (hcache h).2, Or.inl ?_⟩
    simp only [arrStep, listStep, Arr.toList, Sparse.toList_eq h]

end V8
