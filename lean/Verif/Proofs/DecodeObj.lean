import Verif.Model.Decode
import Verif.Proofs.JSObject
import Verif.Proofs.Keys
import Verif.Proofs.Value
import Verif.Proofs.Num
import Mathlib.Data.Nat.Digits.Lemmas

/-!
# Containers under construction

What inserting an entry into a map, set or object does to its size, and which exceptions it can
raise.
-/

namespace V8

/-! ## Sizes -/

/-- Elements stored in an array. -/
def Arr.stored {α : Type} : Arr α → Nat
  | .dense d => d.items.length
  | .sparse s => s.items.length

/-- Elements and named properties stored in an object. -/
def JSObj.stored {α : Type} (o : JSObj α) : Nat := o.array.stored + o.props.length

theorem Dict.length_set_le {κ α : Type} [DecidableEq κ] (d : Dict κ α) (k : κ) (v : α) :
    (d.set k v).length ≤ d.length + 1 := by
  by_cases h : k ∈ d.keys
  · rw [Dict.length_set_of_mem d k v h]; omega
  · rw [Dict.length_set_of_not_mem d k v h]

theorem Dict.length_del_le {κ α : Type} [DecidableEq κ] (d : Dict κ α) (k : κ) :
    (d.del k).length ≤ d.length := by
  induction d with
  | nil => simp [Dict.del]
  | cons e t ih =>
    obtain ⟨k', v⟩ := e
    simp only [Dict.del]
    split
    · simp
    · simp only [List.length_cons]; omega

theorem usedCount_set_le {α : Type} (l : List (Option α)) (k : Nat) (v : Option α) :
    Spec.usedCount (l.set k v) ≤ Spec.usedCount l + 1 := by
  simp only [usedCount_eq]
  by_cases h : k < l.length
  · have hk : l[k]? = some l[k] := List.getElem?_eq_getElem h
    rw [set_split hk, countUsed_split hk, countUsed_append, countUsed_cons]
    split <;> split <;> omega
  · rw [List.set_eq_of_length_le (by omega)]; omega

/-! ## Objects -/

/-- No write of a value (as opposed to a hole) can hit the assertion of the sparse array: the sorted
keys are dropped only when there are two items. -/
def Arr.Tame {α : Type} : Arr α → Prop
  | .dense _ => True
  | .sparse s => s.sortedKeys = none → 2 ≤ s.items.length

/-- What holds of an object after `c` insertions; `holes`: a hole may have been among them. -/
structure JSObj.Bound {α : Type} (holes : Prop) (c : Nat) (o : JSObj α) : Prop where
  inv : o.Inv
  used : o.array.used ≤ c
  stored : o.array.stored ≤ 15 + 4 * c
  props : o.props.length ≤ c
  tame : holes ∨ o.array.Tame

theorem JSObj.empty_bound {α : Type} (holes : Prop) : (JSObj.empty : JSObj α).Bound holes 0 :=
  ⟨JSObj.empty_inv, Int.le_refl _, by simp [JSObj.empty, Arr.stored], by simp [JSObj.empty],
    Or.inr trivial⟩

theorem Sparse.resize_sorted {α : Type} (s : Sparse α) (n : Int) (h : (s.resize n).2 = none) :
    ∃ l, (s.resize n).1.sortedKeys = some l := by
  unfold Sparse.resize at h ⊢
  split
  · rename_i hc
    rw [if_pos hc] at h
    simp at h
  · rename_i hc
    rw [if_neg hc] at h
    simp only at h ⊢
    split
    · rename_i hk
      rw [if_pos hk] at h
      split
      · rename_i hs
        rw [hs] at h
        simp at h
      · exact ⟨_, rfl⟩
    · exact ⟨_, rfl⟩

theorem Sparse.ofEntries_tame {α : Type} (es : List (Int × α)) (n : Int) (s : Sparse α)
    (h : Sparse.ofEntries es n = .ok s) : s.sortedKeys = none → 2 ≤ s.items.length := by
  unfold Sparse.ofEntries at h
  split at h
  · simp at h
  · split at h
    · simp at h
    · simp only [Except.ok.injEq] at h
      subst h
      simp only
      intro h
      split at h
      · omega
      · simp at h

theorem ensureCapacity_tame {α : Type} {a : Arr α} (h : a.Inv) (ht : a.Tame) (k : Nat)
    (hk : k < 2 ^ 32 - 1) : (JSObj.ensureCapacity a k).1.Tame := by
  obtain ⟨_, h2, _⟩ := ensureCapacity_spec h k hk
  unfold JSObj.ensureCapacity at h2 ⊢
  by_cases hlt : (k : Int) < a.len
  · rw [if_pos hlt]; exact ht
  · rw [if_neg hlt] at h2 ⊢
    cases a with
    | dense d =>
      simp only at h2 ⊢
      split
      · rename_i hc
        rw [if_pos hc] at h2
        split
        · rename_i s hs
          exact Sparse.ofEntries_tame _ _ s hs
        · exact trivial
      · exact trivial
    | sparse s =>
      simp only [Arr.resize] at h2 ⊢
      obtain ⟨l, hl⟩ := Sparse.resize_sorted s _ h2
      intro hn
      rw [hl] at hn
      simp at hn

theorem Sparse.setitem_tame {α : Type} {s : Sparse α} (h : s.Inv)
    (ht : s.sortedKeys = none → 2 ≤ s.items.length) (k : Nat) (hk : (k : Int) < s.len) (v : α) :
    (s.setitem k (some v)).2 = none ∧
      ((s.setitem k (some v)).1.sortedKeys = none → 2 ≤ (s.setitem k (some v)).1.items.length) := by
  have hn : s.normaliseIndex k = some k := by
    unfold Sparse.normaliseIndex
    rw [if_neg (by omega), if_neg (by omega)]; simp
  unfold Sparse.setitem
  rw [hn]
  simp only
  cases hg : s.items.get k with
  | some w =>
    have hm : k ∈ s.items.keys := (Dict.mem_keys_iff _ _).2 ⟨w, hg⟩
    simp only [Dict.length_set_of_mem _ _ _ hm]
    exact ⟨trivial, ht⟩
  | none =>
    have hm : k ∉ s.items.keys := (Dict.get_eq_none_iff _ _).1 hg
    have hl := Dict.length_set_of_not_mem s.items k v hm
    simp only
    unfold Sparse.fillHole
    simp only
    cases hs : s.sortedKeys with
    | none =>
      have := ht hs
      simp only
      rw [if_neg (by omega)]
      exact ⟨rfl, fun _ => by simp only; omega⟩
    | some l =>
      simp only
      split
      · exact ⟨rfl, fun h => by simp at h⟩
      · rename_i hlast
        refine ⟨rfl, fun _ => ?_⟩
        simp only
        have hne : s.items ≠ [] := by
          intro he
          obtain ⟨_, h2⟩ := h.sorted l hs
          have : l = [] := by
            rw [List.eq_nil_iff_forall_not_mem]
            intro x hx
            have := (h2 x).1 hx
            rw [he] at this
            simp [Dict.keys] at this
          rw [this] at hlast
          simp only [lastKey, List.getLast?_nil] at hlast
          omega
        have := List.length_pos_iff.2 hne
        omega

theorem JSObj.setitem_array {α : Type} (o : JSObj α) (k : Nat) (v : Option α)
    (he : (JSObj.ensureCapacity o.array k).2 = none) :
    (o.setitem (.idx k) v).1.array = ((JSObj.ensureCapacity o.array k).1.setitem k v).1 ∧
    (o.setitem (.idx k) v).2 = ((JSObj.ensureCapacity o.array k).1.setitem k v).2 ∧
    (o.setitem (.idx k) v).1.props = o.props := by
  unfold JSObj.setitem
  simp only
  cases hc : JSObj.ensureCapacity o.array k with
  | mk a e =>
    rw [hc] at he
    subst he
    exact ⟨rfl, rfl, rfl⟩

theorem ensureCapacity_dense {α : Type} (a : Arr α) (k : Nat) (d : Dense α)
    (h : (JSObj.ensureCapacity a k).1 = .dense d) : (∃ d0, a = .dense d0) ∧
    ((k : Int) < a.len ∨ (k : Int) + 1 < 16 ∨ (k : Int) + 1 ≤ 4 * (a.used + 1) ∨
      (JSObj.ensureCapacity a k).2 ≠ none) := by
  unfold JSObj.ensureCapacity at h ⊢
  by_cases hlt : (k : Int) < a.len
  · rw [if_pos hlt] at h
    exact ⟨⟨d, h⟩, Or.inl hlt⟩
  · rw [if_neg hlt] at h ⊢
    cases a with
    | sparse s => simp [Arr.resize] at h
    | dense d0 =>
      refine ⟨⟨d0, rfl⟩, ?_⟩
      simp only at h ⊢
      split at h
      · rename_i hc
        rw [if_pos hc]
        split at h
        · simp at h
        · simp
      · rename_i hc
        simp only [Arr.used]
        omega

theorem JSObj.Bound.mono {α : Type} {holes holes' : Prop} {c c' : Nat} {o : JSObj α}
    (h : o.Bound holes c) (hc : c ≤ c') (hh : holes → holes') : o.Bound holes' c' :=
  ⟨h.inv, by have := h.used; omega, by have := h.stored; omega, by have := h.props; omega,
    h.tame.imp_left hh⟩

/-- One insertion: the size grows boundedly, and only a hole can raise. -/
theorem JSObj.Bound.setitem {α : Type} {holes : Prop} {c : Nat} {o : JSObj α} (h : o.Bound holes c)
    (k : PKey) (hk : k.Valid) (v : Option α) (hv : v = none → holes) :
    (o.setitem k v).1.Bound holes (c + 1) ∧
    ((o.setitem k v).2 = none ∨ ((o.setitem k v).2 = some .assertionError ∧ holes)) := by
  obtain ⟨h1, h2, h3, h4, h5⟩ := JSObj.setitem_spec h.inv k hk v
  cases k with
  | name s =>
    have h6 : (o.setitem (.name s) v).2 = none := by
      cases v <;> rfl
    refine ⟨⟨h1, ?_, ?_, ?_, ?_⟩, Or.inl h6⟩
    · have : (o.setitem (.name s) v).1.array = o.array := by cases v <;> rfl
      rw [this]; have := h.used; omega
    · have : (o.setitem (.name s) v).1.array = o.array := by cases v <;> rfl
      rw [this]; have := h.stored; omega
    · have h7 := h.props
      cases v with
      | none =>
        simp only [JSObj.setitem]
        have := Dict.length_del_le o.props s
        omega
      | some w =>
        simp only [JSObj.setitem]
        have := Dict.length_set_le o.props s w
        omega
    · have : (o.setitem (.name s) v).1.array = o.array := by cases v <;> rfl
      rw [this]; exact h.tame
  | idx k =>
    have hk' : k < 2 ^ 32 - 1 := hk
    obtain ⟨e1, e2, e3⟩ := ensureCapacity_spec h.inv.arr k hk'
    obtain ⟨a1, a2, a3⟩ := JSObj.setitem_array o k v e2
    have hused : (o.setitem (.idx k) v).1.array.used ≤ (c : Int) + 1 := by
      rw [Arr.used_eq h1.arr, h4]
      have hb := h.used
      rw [Arr.used_eq h.inv.arr] at hb
      have := usedCount_set_le (o.array.abs ++ List.replicate (k + 1 - o.array.abs.length) none) k v
      have h0 : Spec.usedCount (o.array.abs ++ List.replicate (k + 1 - o.array.abs.length) none)
          = Spec.usedCount o.array.abs := by
        simp only [usedCount_eq, countUsed_append, countUsed_replicate, Nat.add_zero]
      rw [h0] at this
      show ((Spec.usedCount ((o.array.abs ++ List.replicate (k + 1 - o.array.abs.length) none).set k v)
        : Nat) : Int) ≤ _
      omega
    refine ⟨⟨h1, by exact_mod_cast hused, ?_, by rw [a3]; have := h.props; omega, ?_⟩, ?_⟩
    · cases ha : (o.setitem (.idx k) v).1.array with
      | sparse s =>
        rw [ha] at hused
        simp only [Arr.used, Sparse.used] at hused
        simp only [Arr.stored]
        omega
      | dense d =>
        simp only [Arr.stored]
        have hlen : d.items.length = max o.array.abs.length (k + 1) := by
          have h6 := congrArg List.length h4
          rw [ha] at h6
          have h7 : (Arr.dense d).abs.length = d.items.length := rfl
          rw [h7, List.length_set, List.length_append, List.length_replicate] at h6
          omega
        rw [a1] at ha
        cases hc : (JSObj.ensureCapacity o.array k).1 with
        | sparse s => rw [hc] at ha; simp [Arr.setitem] at ha
        | dense d' =>
          obtain ⟨⟨d0, hd0⟩, h7⟩ := ensureCapacity_dense o.array k d' hc
          have hst := h.stored
          have hus := h.used
          have habs : o.array.abs.length = o.array.stored := by rw [hd0]; rfl
          have hl := Arr.len_eq h.inv.arr
          rcases h7 with h7 | h7 | h7 | h7
          · omega
          · omega
          · omega
          · exact absurd e2 h7
    · cases v with
      | none => exact Or.inl (hv rfl)
      | some w =>
        refine h.tame.imp_right fun ht => ?_
        have ht' := ensureCapacity_tame h.inv.arr ht k hk'
        rw [a1]
        cases hc : (JSObj.ensureCapacity o.array k).1 with
        | dense d => trivial
        | sparse s =>
          rw [hc] at ht' e1 e3
          have hl : (k : Int) < s.len := by
            have hl := Arr.len_eq e1
            have h6 := congrArg List.length e3
            simp only [List.length_append, List.length_replicate] at h6
            simp only [Arr.len] at hl
            omega
          exact (Sparse.setitem_tame e1 ht' k hl w).2
    · rcases h5 with h5 | h5
      · exact Or.inl h5
      · cases v with
        | none => exact Or.inr ⟨h5, hv rfl⟩
        | some w =>
          rcases h.tame with ht | ht
          · exact Or.inr ⟨h5, ht⟩
          · left
            have ht' := ensureCapacity_tame h.inv.arr ht k hk'
            rw [a2]
            cases hc : (JSObj.ensureCapacity o.array k).1 with
            | dense d =>
              rw [a2, hc] at h5
              rw [hc] at e1 e3
              have hl : k < (Arr.dense d).abs.length := by
                have h6 := congrArg List.length e3
                simp only [List.length_append, List.length_replicate] at h6
                omega
              rcases (Arr.setitem_spec e1 k hl (some w)).2.2 with h6 | ⟨s, hs, _⟩
              · exact h6
              · simp at hs
            | sparse s =>
              rw [hc] at ht' e1 e3
              have hl : (k : Int) < s.len := by
                have hl := Arr.len_eq e1
                have h6 := congrArg List.length e3
                simp only [List.length_append, List.length_replicate] at h6
                simp only [Arr.len] at hl
                omega
              exact (Sparse.setitem_tame e1 ht' k hl w).1

/-- `obj[n - 1] = JSHole` on an empty object never raises and keeps the bounds. -/
theorem JSObj.setitem_empty_hole {α : Type} (k : PKey) (hk : k.Valid) :
    ((JSObj.empty : JSObj α).setitem k none).1.Bound False 1 ∧
    ((JSObj.empty : JSObj α).setitem k none).2 = none := by
  have hb := (JSObj.empty_bound (α := α) True).setitem k hk none (fun _ => trivial)
  obtain ⟨hb, he⟩ := hb
  cases k with
  | name s =>
    exact ⟨⟨hb.inv, hb.used, hb.stored, hb.props, Or.inr trivial⟩, rfl⟩
  | idx k =>
    have hk' : k < 2 ^ 32 - 1 := hk
    obtain ⟨e1, e2, e3⟩ := ensureCapacity_spec (JSObj.empty_inv (α := α)).arr k hk'
    obtain ⟨a1, a2, a3⟩ := JSObj.setitem_array (JSObj.empty : JSObj α) k none e2
    have key : ((JSObj.ensureCapacity (JSObj.empty : JSObj α).array k).1.setitem k none).2 = none ∧
        ((JSObj.ensureCapacity (JSObj.empty : JSObj α).array k).1.setitem k none).1.Tame := by
      have ht := ensureCapacity_tame (JSObj.empty_inv (α := α)).arr trivial k hk'
      cases hc : (JSObj.ensureCapacity (JSObj.empty : JSObj α).array k).1 with
      | dense d =>
        rw [hc] at e1 e3
        have hl : k < (Arr.dense d).abs.length := by
          have h6 := congrArg List.length e3
          simp only [List.length_append, List.length_replicate] at h6
          omega
        rcases (Arr.setitem_spec e1 k hl none).2.2 with h6 | ⟨s, hs, _⟩
        · exact ⟨h6, trivial⟩
        · simp at hs
      | sparse s =>
        rw [hc] at ht e1 e3
        have hl : (k : Int) < s.len := by
          have hl := Arr.len_eq e1
          have h6 := congrArg List.length e3
          simp only [List.length_append, List.length_replicate] at h6
          simp only [Arr.len] at hl
          omega
        have hn : s.normaliseIndex k = some k := by
          unfold Sparse.normaliseIndex
          rw [if_neg (by omega), if_neg (by omega)]; simp
        have hg : s.items.get k = none := by
          have h6 := congrArg (fun l => (l[k]?).join) e3
          simp only [Arr.abs, JSObj.empty, List.nil_append, Sparse.getElem?_abs,
            List.getElem?_replicate] at h6
          rw [if_pos (by omega)] at h6
          split at h6
          · simpa using h6
          · simpa using h6
        simp only [Arr.setitem, Sparse.setitem, hn, hg]
        exact ⟨trivial, ht⟩
    rw [a2]
    exact ⟨⟨hb.inv, hb.used, hb.stored, hb.props, Or.inr (by rw [a1]; exact key.2)⟩, key.1⟩

/-! ## Keys -/

theorem decDigits_length (n k : Nat) (hk : 0 < k) (h : n < 10 ^ k) : (decDigits n).length ≤ k := by
  unfold decDigits
  rw [List.length_reverse]
  rcases Nat.eq_zero_or_pos n with h0 | h0
  · subst h0
    simp only [decDigitsRev]
    simp only [Nat.zero_lt_succ, if_true, List.length_singleton]; omega
  · rw [decDigitsRev_digits _ _ (by omega) h0, List.length_map]
    exact (Nat.digits_length_le_iff (by omega) n).2 h

theorem fInt?_lt (x : F64) (n : Int) (h : fInt? x = some n) : n.natAbs < 2 ^ 1024 := by
  unfold fInt? at h
  cases hv : fval x with
  | nan => rw [hv] at h; simp at h
  | inf b => rw [hv] at h; simp at h
  | fin s =>
    rw [hv] at h
    simp only at h
    split at h
    · rename_i hm
      simp only [Option.some.injEq] at h
      unfold fval at hv
      simp only at hv
      split at hv
      · split at hv <;> simp at hv
      · rename_i he
        simp only [FVal.fin.injEq] at hv
        have hmag : fMag x.toNat < 2 ^ 1024 * 2 ^ 1074 := by
          unfold fMag
          have hf : fFrac x.toNat < 2 ^ 52 := Nat.mod_lt _ (by positivity)
          have hE : fExp x.toNat < 2 ^ 11 := Nat.mod_lt _ (by positivity)
          split
          · calc fFrac x.toNat < 2 ^ 52 := hf
              _ ≤ 2 ^ 1024 * 2 ^ 1074 := by rw [← pow_add]; exact Nat.pow_le_pow_right (by omega) (by omega)
          · calc (2 ^ 52 + fFrac x.toNat) * 2 ^ (fExp x.toNat - 1)
                < 2 ^ 53 * 2 ^ (fExp x.toNat - 1) := by
                  refine Nat.mul_lt_mul_of_pos_right ?_ (by positivity)
                  omega
              _ = 2 ^ (53 + (fExp x.toNat - 1)) := by rw [pow_add]
              _ ≤ 2 ^ (1024 + 1074) := Nat.pow_le_pow_right (by omega) (by omega)
              _ = _ := by rw [pow_add]
        have hs : s.natAbs = fMag x.toNat := by
          rw [← hv]; split <;> simp
        obtain ⟨q, hq⟩ := Int.dvd_of_emod_eq_zero hm
        have hne : (2 : Int) ^ 1074 ≠ 0 := by positivity
        have : n = q := by
          rw [← h, hq, Int.mul_ediv_cancel_left _ hne]
        subst this
        rw [hq, Int.natAbs_mul] at hs
        have h2 : ((2 : Int) ^ 1074).natAbs = 2 ^ 1074 := by
          rw [Int.natAbs_pow]; rfl
        rw [h2] at hs
        rw [← hs, Nat.mul_comm] at hmag
        exact Nat.lt_of_mul_lt_mul_right hmag
    · simp at h

/-- A key whose decimal text is short enough to be converted. -/
def RawKey.Short : RawKey → Prop
  | .int n => n.natAbs < 10 ^ 4300
  | .float _ => True
  | .str s => s.length ≤ 4300

theorem normaliseInt_valid {n : Int} {k : PKey} (h : normaliseInt n = .ok k) : k.Valid := by
  unfold normaliseInt at h
  have hmax : maxArrayLength = 2 ^ 32 - 1 := rfl
  split at h
  · simp only [Except.ok.injEq] at h
    subst h
    simp only [PKey.Valid]
    omega
  · cases hp : pyIntStr n with
    | error e => rw [hp] at h; simp [Except.map] at h
    | ok s =>
      rw [hp] at h
      simp only [Except.map, Except.ok.injEq] at h
      subst h
      trivial

theorem normaliseInt_short {n : Int} (h : n.natAbs < 10 ^ 4300) : ∃ k, normaliseInt n = .ok k := by
  unfold normaliseInt
  split
  · exact ⟨_, rfl⟩
  · unfold pyIntStr
    have := decDigits_length n.natAbs 4300 (by decide) h
    simp only
    rw [if_neg (by unfold maxStrDigits; omega)]
    exact ⟨_, rfl⟩

theorem normaliseInt_error {n : Int} {e : PyExc} (h : normaliseInt n = .error e) : e = .valueError := by
  unfold normaliseInt at h
  split at h
  · simp at h
  · unfold pyIntStr at h
    simp only at h
    split at h
    · simp only [Except.map, Except.error.injEq] at h; exact h.symm
    · simp [Except.map] at h

theorem two_pow_lt_ten_pow : (2 : Nat) ^ 1024 < 10 ^ 4300 :=
  calc (2 : Nat) ^ 1024 < 10 ^ 1024 := Nat.pow_lt_pow_left (by omega) (by omega)
    _ ≤ 10 ^ 4300 := Nat.pow_le_pow_right (by omega) (by omega)

theorem canonical_error {s : Str} {e : PyExc} (h : canonicalNumericIndexString s = .error e) :
    e = .valueError ∧ 4300 < s.length := by
  unfold canonicalNumericIndexString at h
  split at h
  · cases hp : pyIntParse s with
    | error e' =>
      rw [hp] at h
      simp only [Except.error.injEq] at h
      subst h
      unfold pyIntParse at hp
      split at hp
      · rename_i hl
        simp only [Except.error.injEq] at hp
        exact ⟨hp.symm, hl⟩
      · simp at hp
    | ok n => rw [hp] at h; simp at h
  · simp at h

theorem canonical_some {s : Str} {n : Nat} (h : canonicalNumericIndexString s = .ok (some n)) :
    decDigits n = s ∧ s.length ≤ 4300 := by
  unfold canonicalNumericIndexString at h
  split at h
  · rename_i hd
    cases hp : pyIntParse s with
    | error e' => rw [hp] at h; simp at h
    | ok m =>
      rw [hp] at h
      simp only [Except.ok.injEq] at h
      split at h
      · simp at h
      · rename_i hz
        simp only [Option.some.injEq] at h
        subst h
        unfold pyIntParse at hp
        split at hp
        · simp at hp
        · rename_i hl
          simp only [Except.ok.injEq] at hp
          subst hp
          refine ⟨decDigits_parseDec s hd ?_, by unfold maxStrDigits at hl; omega⟩
          exact hz
  · simp at h

theorem normaliseKey_error {fs : F64 → Str} {key : RawKey} {e : PyExc}
    (h : normaliseKey fs key = .error e) : e = .valueError ∧ ¬ key.Short := by
  cases key with
  | int n =>
    simp only [normaliseKey] at h
    refine ⟨normaliseInt_error h, fun hs => ?_⟩
    obtain ⟨k, hk⟩ := normaliseInt_short hs
    rw [hk] at h
    simp at h
  | float x =>
    simp only [normaliseKey] at h
    cases hf : fInt? x with
    | none => rw [hf] at h; simp at h
    | some n =>
      rw [hf] at h
      simp only at h
      obtain ⟨k, hk⟩ := normaliseInt_short (Nat.lt_trans (fInt?_lt x n hf) two_pow_lt_ten_pow)
      rw [hk] at h
      simp at h
  | str s =>
    simp only [normaliseKey] at h
    cases hc : canonicalNumericIndexString s with
    | error e' =>
      rw [hc] at h
      simp only [Except.error.injEq] at h
      subst h
      obtain ⟨h1, h2⟩ := canonical_error hc
      exact ⟨h1, fun h => by simp only [RawKey.Short] at h; omega⟩
    | ok o =>
      cases o with
      | none => rw [hc] at h; simp at h
      | some n =>
        rw [hc] at h
        simp only at h
        obtain ⟨h1, h2⟩ := canonical_some hc
        exfalso
        unfold normaliseInt at h
        split at h
        · simp at h
        · unfold pyIntStr at h
          simp only [Int.natAbs_natCast] at h
          rw [h1, if_neg (by unfold maxStrDigits; omega)] at h
          simp [Except.map] at h

theorem normaliseKey_valid {fs : F64 → Str} {key : RawKey} {k : PKey}
    (h : normaliseKey fs key = .ok k) : k.Valid := by
  cases key with
  | int n => exact normaliseInt_valid h
  | float x =>
    simp only [normaliseKey] at h
    cases hf : fInt? x with
    | none =>
      rw [hf] at h
      simp only [Except.ok.injEq] at h
      subst h; trivial
    | some n => rw [hf] at h; exact normaliseInt_valid h
  | str s =>
    simp only [normaliseKey] at h
    cases hc : canonicalNumericIndexString s with
    | error e' => rw [hc] at h; simp at h
    | ok o =>
      rw [hc] at h
      cases o with
      | none =>
        simp only [Except.ok.injEq] at h
        subst h; trivial
      | some n => exact normaliseInt_valid h

end V8
