import Verif.Spec.Copies
import Mathlib.Data.List.Forall2

/-! # Lemmas about copies of containers (`Model/Copies`) -/

namespace V8.Copies

open V8.Spec

/-! ## `copy.copy` -/

theorem mapStep_objs (s : Maps) (op : MapOp) {i c : Nat} (h : s.objs[i]? = some c) :
    (s.step op).objs[i]? = some c := by
  have hlt := (List.getElem?_eq_some_iff.1 h).1
  cases op with
  | new => simp only [Maps.step]; rw [List.getElem?_append_left hlt]; exact h
  | copy k =>
    simp only [Maps.step]
    split
    · exact h
    · simp only
      rw [List.getElem?_append_left hlt]
      exact h
  | set k key v =>
    simp only [Maps.step]
    split
    · exact h
    · split <;> exact h
  | del k key =>
    simp only [Maps.step]
    split
    · exact h
    · split <;> exact h

theorem mapRun_objs : ∀ (ops : List MapOp) (s : Maps) {i c : Nat}, s.objs[i]? = some c →
    (s.run ops).objs[i]? = some c
  | [], _, _, _, h => h
  | op :: t, s, _, _, h => mapRun_objs t (s.step op) (mapStep_objs s op h)

theorem objStep_dict (s : Objects) (op : ObjOp) {i a d : Nat} (h : s.objs[i]? = some (a, d)) :
    ∃ a', (s.step op).objs[i]? = some (a', d) := by
  have hlt := (List.getElem?_eq_some_iff.1 h).1
  cases op with
  | new => exact ⟨a, by simp only [Objects.step]; rw [List.getElem?_append_left hlt]; exact h⟩
  | copy k =>
    simp only [Objects.step]
    split
    · exact ⟨a, h⟩
    · exact ⟨a, by simp only; rw [List.getElem?_append_left hlt]; exact h⟩
  | set k key v =>
    simp only [Objects.step]
    split
    · exact ⟨a, h⟩
    · rename_i a₂ d₂ hk
      split
      · split
        · exact ⟨a, h⟩
        · split
          · by_cases hik : k = i
            · subst hik
              rw [h] at hk
              cases hk
              exact ⟨_, List.getElem?_set_self hlt⟩
            · exact ⟨a, (List.getElem?_set_ne hik).trans h⟩
          · exact ⟨a, h⟩
      · exact ⟨a, h⟩
  | del k key =>
    simp only [Objects.step]
    split
    · exact ⟨a, h⟩
    · split
      · split <;> exact ⟨a, h⟩
      · exact ⟨a, h⟩

theorem objRun_dict : ∀ (ops : List ObjOp) (s : Objects) {i a d : Nat}, s.objs[i]? = some (a, d) →
    ∃ a', (s.run ops).objs[i]? = some (a', d)
  | [], _, _, a, _, h => ⟨a, h⟩
  | op :: t, s, _, _, _, h => by
    obtain ⟨a', h'⟩ := objStep_dict s op h
    exact objRun_dict t (s.step op) h'

/-! ## `copy.deepcopy` -/

theorem copyVal_ok {φ : Id → Except PyExc Id} {v v' : Val} (h : copyVal φ v = .ok v') : CopyOf φ v v' := by
  cases v with
  | obj i =>
    simp only [copyVal] at h
    split at h
    · cases h
    · rename_i j q
      cases h
      exact .object q
  | _ =>
    cases h
    exact .value (by simp)

theorem copyVal_error (φ : Id → Except PyExc Id) (v : Val) :
    (∃ e, copyVal φ v = .error e) ↔ ∃ i e, v = .obj i ∧ φ i = .error e := by
  cases v with
  | obj i =>
    simp only [copyVal]
    cases h : φ i with
    | error e => exact ⟨fun _ => ⟨i, e, rfl, h⟩, fun _ => ⟨e, rfl⟩⟩
    | ok j =>
      refine ⟨by simp, ?_⟩
      rintro ⟨i', e, q, r⟩
      cases q
      rw [h] at r
      cases r
  | _ => simp [copyVal]

/-- The entries of a copied map beside those of the original. -/
theorem deepMap_ok {φ : Id → Except PyExc Id} : ∀ {m m' : JSMap Val}, deepMap φ m = .ok m' →
    List.Forall₂ (fun e e' => e'.1 = e.1 ∧ CopyOf φ e.2.1 e'.2.1 ∧ CopyOf φ e.2.2 e'.2.2) m m'
  | [], _, h => by
    cases h
    exact .nil
  | (key, k, v) :: t, m', h => by
    simp only [deepMap] at h
    split at h
    · cases h
    · rename_i k' hk
      split at h
      · cases h
      · rename_i v' hv
        split at h
        · cases h
        · rename_i t' ht
          cases h
          exact .cons ⟨rfl, copyVal_ok hk, copyVal_ok hv⟩ (deepMap_ok ht)

theorem deepMap_error (φ : Id → Except PyExc Id) : ∀ m : JSMap Val,
    (∃ e, deepMap φ m = .error e) ↔
      ∃ p ∈ m.items, ∃ i e, (p.1 = .obj i ∨ p.2 = .obj i) ∧ φ i = .error e
  | [] => by simp [deepMap, JSMap.items]
  | (key, k, v) :: t => by
    have ih := deepMap_error φ t
    have hk := copyVal_error φ k
    have hv := copyVal_error φ v
    simp only [JSMap.items, List.map_cons, List.mem_cons, exists_eq_or_imp]
    simp only [deepMap]
    cases h1 : copyVal φ k with
    | error e =>
      obtain ⟨i, e', q, r⟩ := hk.1 ⟨e, h1⟩
      exact ⟨fun _ => .inl ⟨i, e', .inl q, r⟩, fun _ => ⟨e, rfl⟩⟩
    | ok k' =>
      have nk : ¬ ∃ i e, k = .obj i ∧ φ i = .error e := by
        rw [← hk, h1]
        simp
      cases h2 : copyVal φ v with
      | error e =>
        obtain ⟨i, e', q, r⟩ := hv.1 ⟨e, h2⟩
        exact ⟨fun _ => .inl ⟨i, e', .inr q, r⟩, fun _ => ⟨e, rfl⟩⟩
      | ok v' =>
        have nv : ¬ ∃ i e, v = .obj i ∧ φ i = .error e := by
          rw [← hv, h2]
          simp
        have none : ¬ ∃ i e, (k = .obj i ∨ v = .obj i) ∧ φ i = .error e := by
          rintro ⟨i, e, q | q, r⟩
          · exact nk ⟨i, e, q, r⟩
          · exact nv ⟨i, e, q, r⟩
        simp only [none, false_or]
        simp only [JSMap.items] at ih
        rw [← ih]
        cases deepMap φ t <;> simp

/-- A lookup in the dict of the copy. -/
theorem deepMap_get {φ : Id → Except PyExc Id} {m m' : JSMap Val}
    (h : List.Forall₂ (fun e e' => e'.1 = e.1 ∧ CopyOf φ e.2.1 e'.2.1 ∧ CopyOf φ e.2.2 e'.2.2) m m') (key : SvzKey) :
    (Dict.get m key = none ∧ Dict.get m' key = none) ∨
      ∃ p p', Dict.get m key = some p ∧ Dict.get m' key = some p' ∧ CopyOf φ p.1 p'.1 ∧ CopyOf φ p.2 p'.2 := by
  induction h with
  | nil => exact .inl ⟨rfl, rfl⟩
  | @cons e e' t t' he _ ih =>
    obtain ⟨key₁, p⟩ := e
    obtain ⟨key₂, p'⟩ := e'
    simp only at he
    obtain ⟨rfl, h1, h2⟩ := he
    simp only [Dict.get]
    by_cases q : key₂ = key
    · simp only [q, if_true]
      exact .inr ⟨p, p', rfl, rfl, h1, h2⟩
    · simp only [q, if_false]
      exact ih

theorem dictSet_mem {α : Type} {d : Dict SvzKey α} {key : SvzKey} {v : α} {e : SvzKey × α}
    (h : e ∈ Dict.set d key v) : e ∈ d ∨ e = (key, v) := by
  induction d with
  | nil => simpa [Dict.set] using h
  | cons x t ih =>
    obtain ⟨k', v'⟩ := x
    simp only [Dict.set] at h
    split at h
    · rename_i q
      rcases List.mem_cons.1 h with h | h
      · exact .inr (by rw [h, q])
      · exact .inl (List.mem_cons_of_mem _ h)
    · rcases List.mem_cons.1 h with h | h
      · exact .inl (by rw [h]; exact List.mem_cons_self ..)
      · rcases ih h with h | h
        · exact .inl (List.mem_cons_of_mem _ h)
        · exact .inr h

theorem dictDel_mem {α : Type} {d : Dict SvzKey α} {key : SvzKey} {e : SvzKey × α}
    (h : e ∈ Dict.del d key) : e ∈ d := by
  induction d with
  | nil => simp [Dict.del] at h
  | cons x t ih =>
    obtain ⟨k', v'⟩ := x
    simp only [Dict.del] at h
    split at h
    · exact List.mem_cons_of_mem _ h
    · rcases List.mem_cons.1 h with h | h
      · rw [h]
        exact List.mem_cons_self ..
      · exact List.mem_cons_of_mem _ (ih h)

theorem dictGet_mem {α : Type} {d : Dict SvzKey α} {key : SvzKey} {v : α} (h : Dict.get d key = some v) :
    (key, v) ∈ d := by
  induction d with
  | nil => simp [Dict.get] at h
  | cons x t ih =>
    obtain ⟨k', v'⟩ := x
    simp only [Dict.get] at h
    split at h
    · rename_i q
      cases h
      rw [q]
      exact List.mem_cons_self ..
    · exact List.mem_cons_of_mem _ (ih h)

/-- In a JSMap that a program has made every entry is stored under the surrogate of its key. -/
theorem madeMap_keys {m : JSMap Val} (h : MadeMap m) : ∀ e ∈ m, sameValueZero e.2.1 = .ok e.1 := by
  induction h with
  | empty => simp
  | @set m k v _ ih =>
    intro e he
    simp only [JSMap.setitem] at he
    split at he
    · exact ih e he
    · rename_i key hk
      rcases dictSet_mem he with q | rfl
      · exact ih e q
      · exact hk
  | @del m k _ ih =>
    intro e he
    simp only [JSMap.delitem] at he
    split at he
    · exact ih e he
    · split at he
      · exact ih e he
      · exact ih e (dictDel_mem he)

theorem madeSet_keys {s : JSSet} (h : MadeSet s) : ∀ e ∈ s, sameValueZero e.2 = .ok e.1 := by
  induction h with
  | empty => simp
  | @add s v _ ih =>
    intro e he
    simp only [JSSet.add] at he
    split at he
    · exact ih e he
    · rename_i key hk
      rcases dictSet_mem he with q | rfl
      · exact ih e q
      · exact hk
  | @discard s v _ ih =>
    intro e he
    simp only [JSSet.discard] at he
    split at he
    · exact ih e he
    · split at he
      · exact ih e he
      · exact ih e (dictDel_mem he)

/-- Only objects have surrogates of objects. -/
theorem svz_obj {v : Val} {i : Id} (h : sameValueZero v = .ok (.obj i)) : v = .obj i := by
  cases v with
  | obj j =>
    simp only [sameValueZero, Except.ok.injEq, SvzKey.obj.injEq] at h
    rw [h]
  | int n =>
    simp only [sameValueZero] at h
    split at h <;> simp at h
  | float x =>
    simp only [sameValueZero] at h
    split at h <;> simp at h
  | _ => simp [sameValueZero] at h

theorem deepSet_ok {φ : Id → Except PyExc Id} : ∀ {s s' : JSSet}, deepSet φ s = .ok s' →
    List.Forall₂ (fun e e' => e'.1 = e.1 ∧ CopyOf φ e.2 e'.2) s s'
  | [], _, h => by
    cases h
    exact .nil
  | (key, v) :: t, s', h => by
    simp only [deepSet] at h
    split at h
    · cases h
    · rename_i v' hv
      split at h
      · cases h
      · rename_i t' ht
        cases h
        exact .cons ⟨rfl, copyVal_ok hv⟩ (deepSet_ok ht)

theorem deepSet_get {φ : Id → Except PyExc Id} {s s' : JSSet}
    (h : List.Forall₂ (fun e e' => e'.1 = e.1 ∧ CopyOf φ e.2 e'.2) s s') (key : SvzKey) :
    (Dict.get s' key).isSome = (Dict.get s key).isSome := by
  induction h with
  | nil => rfl
  | @cons e e' t t' he _ ih =>
    obtain ⟨key₁, p⟩ := e
    obtain ⟨key₂, p'⟩ := e'
    simp only at he
    obtain ⟨rfl, _⟩ := he
    simp only [Dict.get]
    by_cases q : key₂ = key
    · simp [q]
    · simp only [q, if_false]
      exact ih

theorem dictGet_isSome {α : Type} {d : Dict SvzKey α} {e : SvzKey × α} (h : e ∈ d) :
    ∃ v, Dict.get d e.1 = some v := by
  induction d with
  | nil => simp at h
  | cons x t ih =>
    obtain ⟨k', v'⟩ := x
    simp only [Dict.get]
    by_cases q : k' = e.1
    · exact ⟨v', by simp [q]⟩
    · simp only [q, if_false]
      rcases List.mem_cons.1 h with h | h
      · exact absurd (by rw [h]) q
      · exact ih h

theorem mem_copied {α β : Type} {R : α → β → Prop} {l : List α} {l' : List β} (h : List.Forall₂ R l l') {a : α}
    (ha : a ∈ l) : ∃ b ∈ l', R a b := by
  induction h with
  | nil => simp at ha
  | @cons x y t t' hxy _ ih =>
    rcases List.mem_cons.1 ha with rfl | ha
    · exact ⟨y, List.mem_cons_self .., hxy⟩
    · obtain ⟨b, h1, h2⟩ := ih ha
      exact ⟨b, List.mem_cons_of_mem _ h1, h2⟩

theorem copyOf_obj {φ : Id → Except PyExc Id} {i j : Id} {v : Val} (h : CopyOf φ (.obj i) v) (hj : φ i = .ok j) :
    v = .obj j := by
  cases h with
  | object q =>
    rw [hj] at q
    cases q
    rfl
  | value q => exact absurd rfl (q i)

/-- In a dict whose keys went through `pickle`. -/
theorem pickled_get (m : JSMap Val) (key : SvzKey) :
    Dict.get (m.map fun e => (pickledKey e.1, e.2)) (some key) = if key = .nan then none else Dict.get m key := by
  induction m with
  | nil => simp [Dict.get]
  | cons x t ih =>
    obtain ⟨k', v'⟩ := x
    rw [List.map_cons]
    simp only [Dict.get]
    rw [ih]
    by_cases hn : k' = .nan
    · subst hn
      simp only [pickledKey, reduceCtorEq, if_false]
      by_cases q : key = .nan
      · simp [q]
      · simp [q, Ne.symm q]
    · have : pickledKey k' = some k' := by
        cases k' with
        | nan => exact absurd rfl hn
        | _ => rfl
      rw [this]
      by_cases q : k' = key
      · subst q
        simp [hn]
      · simp [q]

theorem copyVals_ok {φ : Id → Except PyExc Id} : ∀ {l : List Val},
    (∀ i, .obj i ∈ l → ∃ j, φ i = .ok j) → ∃ l', copyVals φ l = .ok l'
  | [], _ => ⟨[], rfl⟩
  | v :: t, h => by
    obtain ⟨t', ht⟩ := copyVals_ok (l := t) fun i hi => h i (List.mem_cons_of_mem _ hi)
    have hv : ∃ v', copyVal φ v = .ok v' := by
      cases v with
      | obj i =>
        obtain ⟨j, hj⟩ := h i (List.mem_cons_self ..)
        exact ⟨.obj j, by simp [copyVal, hj]⟩
      | _ => exact ⟨_, rfl⟩
    obtain ⟨v', hv⟩ := hv
    exact ⟨v' :: t', by simp only [copyVals, hv, ht]⟩

end V8.Copies
