import Verif.Model.Dict
import Mathlib.Data.List.Basic
import Mathlib.Data.List.Nodup

namespace V8.Dict
variable {κ α : Type} [DecidableEq κ]
set_option linter.unusedSectionVars false

theorem keys_cons (k : κ) (v : α) (t : Dict κ α) : keys ((k, v) :: t) = k :: keys t := rfl

theorem get_eq_none_iff (d : Dict κ α) (k : κ) : d.get k = none ↔ k ∉ d.keys := by
  induction d with
  | nil => simp [get, keys]
  | cons e t ih =>
    obtain ⟨k', v⟩ := e
    rw [keys_cons, get]
    by_cases h : k' = k
    · simp [h]
    · simp [h, ih, Ne.symm h]

theorem mem_keys_iff (d : Dict κ α) (k : κ) : k ∈ d.keys ↔ ∃ v, d.get k = some v := by
  have := get_eq_none_iff d k
  cases h : d.get k with
  | none => simp [h] at this; simp [this]
  | some v => simp [h] at this; simp [this]

theorem get_set (d : Dict κ α) (k : κ) (v : α) (k' : κ) :
    (d.set k v).get k' = if k = k' then some v else d.get k' := by
  induction d with
  | nil => simp [set, get]
  | cons e t ih =>
    obtain ⟨a, b⟩ := e
    rw [set]
    by_cases h : a = k
    · subst h; simp only [if_true, get]; split <;> rfl
    · simp only [h, if_false, get, ih]
      by_cases h2 : a = k'
      · subst h2; simp [Ne.symm h]
      · simp [h2]

theorem keys_set_of_mem (d : Dict κ α) (k : κ) (v : α) (h : k ∈ d.keys) :
    (d.set k v).keys = d.keys := by
  induction d with
  | nil => simp [keys] at h
  | cons e t ih =>
    obtain ⟨a, b⟩ := e
    rw [set]
    by_cases h2 : a = k
    · simp [h2, keys_cons]
    · rw [keys_cons] at h
      have : k ∈ keys t := by
        rcases List.mem_cons.1 h with h | h
        · exact absurd h.symm h2
        · exact h
      simp [h2, keys_cons, ih this]

theorem set_of_not_mem (d : Dict κ α) (k : κ) (v : α) (h : k ∉ d.keys) :
    d.set k v = d ++ [(k, v)] := by
  induction d with
  | nil => rfl
  | cons e t ih =>
    obtain ⟨a, b⟩ := e
    rw [keys_cons] at h
    simp only [List.mem_cons, not_or] at h
    rw [set, if_neg (Ne.symm h.1), ih h.2]; rfl

theorem keys_append (d e : Dict κ α) : keys (d ++ e) = d.keys ++ e.keys := by
  simp [keys]

theorem keys_set_of_not_mem (d : Dict κ α) (k : κ) (v : α) (h : k ∉ d.keys) :
    (d.set k v).keys = d.keys ++ [k] := by
  rw [set_of_not_mem d k v h, keys_append]; rfl

theorem mem_keys_set (d : Dict κ α) (k : κ) (v : α) (x : κ) :
    x ∈ (d.set k v).keys ↔ x = k ∨ x ∈ d.keys := by
  by_cases h : k ∈ d.keys
  · rw [keys_set_of_mem d k v h]
    constructor
    · exact Or.inr
    · rintro (rfl | h')
      · exact h
      · exact h'
  · rw [keys_set_of_not_mem d k v h]
    simp [or_comm]

theorem nodup_set (d : Dict κ α) (k : κ) (v : α) (h : d.keys.Nodup) :
    (d.set k v).keys.Nodup := by
  by_cases hk : k ∈ d.keys
  · rw [keys_set_of_mem d k v hk]; exact h
  · rw [keys_set_of_not_mem d k v hk, List.nodup_append]
    refine ⟨h, by simp, ?_⟩
    intro a ha b hb
    simp only [List.mem_singleton] at hb
    subst hb
    rintro rfl
    exact hk ha

theorem length_keys (d : Dict κ α) : d.keys.length = d.length := by simp [keys]

theorem keys_del (d : Dict κ α) (k : κ) : (d.del k).keys = d.keys.erase k := by
  induction d with
  | nil => rfl
  | cons e t ih =>
    obtain ⟨a, b⟩ := e
    rw [del, keys_cons, List.erase_cons]
    by_cases h : a = k
    · simp [h]
    · simp [h, keys_cons, ih]

theorem keys_del_filter (d : Dict κ α) (k : κ) (h : d.keys.Nodup) :
    (d.del k).keys = d.keys.filter (fun x => decide (x ≠ k)) := by
  induction d with
  | nil => rfl
  | cons e t ih =>
    obtain ⟨a, b⟩ := e
    rw [keys_cons, List.nodup_cons] at h
    rw [del, keys_cons, List.filter_cons]
    by_cases hk : a = k
    · subst hk
      simp only [if_true, ne_eq, not_true_eq_false, decide_false, Bool.false_eq_true, if_false]
      symm
      rw [List.filter_eq_self]
      intro x hx
      simp only [decide_eq_true_eq]
      rintro rfl
      exact h.1 hx
    · simp only [hk, if_false, keys_cons, ne_eq, not_false_eq_true, decide_true, if_true, ih h.2]

theorem nodup_del (d : Dict κ α) (k : κ) (h : d.keys.Nodup) : (d.del k).keys.Nodup := by
  rw [keys_del]; exact h.erase k

theorem mem_keys_del (d : Dict κ α) (k x : κ) (h : d.keys.Nodup) :
    x ∈ (d.del k).keys ↔ x ≠ k ∧ x ∈ d.keys := by
  rw [keys_del, h.mem_erase_iff]

theorem get_del (d : Dict κ α) (k k' : κ) (h : d.keys.Nodup) :
    (d.del k).get k' = if k = k' then none else d.get k' := by
  induction d with
  | nil => simp [del, get]
  | cons e t ih =>
    obtain ⟨a, b⟩ := e
    rw [keys_cons, List.nodup_cons] at h
    rw [del]
    by_cases h1 : a = k
    · subst h1
      simp only [if_true, get]
      by_cases h2 : a = k'
      · subst h2; simp [get_eq_none_iff, h.1]
      · simp [h2]
    · simp only [h1, if_false, get, ih h.2]
      by_cases h2 : a = k'
      · subst h2; simp [Ne.symm h1]
      · simp [h2]

theorem length_del_of_mem (d : Dict κ α) (k : κ) (h : k ∈ d.keys) :
    (d.del k).length = d.length - 1 := by
  rw [← length_keys, keys_del, List.length_erase_of_mem h, length_keys]

theorem length_set_of_not_mem (d : Dict κ α) (k : κ) (v : α) (h : k ∉ d.keys) :
    (d.set k v).length = d.length + 1 := by
  rw [set_of_not_mem d k v h]; simp

theorem length_set_of_mem (d : Dict κ α) (k : κ) (v : α) (h : k ∈ d.keys) :
    (d.set k v).length = d.length := by
  rw [← length_keys, keys_set_of_mem d k v h, length_keys]

theorem foldl_set_eq (l : List (κ × α)) (d : Dict κ α)
    (h : (d.keys ++ l.map (·.1)).Nodup) :
    l.foldl (fun d p => set d p.1 p.2) d = d ++ l := by
  induction l generalizing d with
  | nil => simp
  | cons e t ih =>
    obtain ⟨k, v⟩ := e
    rw [List.foldl_cons]
    have hk : k ∉ d.keys := by
      intro hm
      rw [List.nodup_append] at h
      exact h.2.2 k hm k (by simp) rfl
    rw [set_of_not_mem d k v hk, ih]
    · simp
    · rw [keys_append]
      simpa [keys] using h

/-- Building a dict from pairs with distinct keys keeps them as they are. -/
theorem ofList_eq (l : List (κ × α)) (h : (l.map (·.1)).Nodup) : ofList l = l := by
  unfold ofList
  rw [foldl_set_eq l [] (by simpa [keys] using h)]
  simp

theorem nodup_ofList (l : List (κ × α)) : (ofList l).keys.Nodup := by
  unfold ofList
  suffices ∀ d : Dict κ α, d.keys.Nodup →
      (l.foldl (fun d p => set d p.1 p.2) d).keys.Nodup from this [] (by simp [keys])
  induction l with
  | nil => intro d h; exact h
  | cons e t ih => intro d h; exact ih _ (nodup_set d _ _ h)

theorem mem_of_get (d : Dict κ α) (k : κ) (v : α) (h : d.get k = some v) : (k, v) ∈ d := by
  induction d with
  | nil => simp [get] at h
  | cons e t ih =>
    obtain ⟨a, b⟩ := e
    rw [get] at h
    by_cases hk : a = k
    · simp only [hk, if_true, Option.some.injEq] at h
      subst h; subst hk; exact List.mem_cons_self
    · simp only [hk, if_false] at h
      exact List.mem_cons_of_mem _ (ih h)

theorem get_of_mem (d : Dict κ α) (k : κ) (v : α) (hd : d.keys.Nodup) (h : (k, v) ∈ d) :
    d.get k = some v := by
  induction d with
  | nil => simp at h
  | cons e t ih =>
    obtain ⟨a, b⟩ := e
    rw [keys_cons, List.nodup_cons] at hd
    rw [get]
    rcases List.mem_cons.1 h with h | h
    · simp only [Prod.mk.injEq] at h; simp [h.1, h.2]
    · have : a ≠ k := by
        rintro rfl
        exact hd.1 (List.mem_map.2 ⟨(a, v), h, rfl⟩)
      simp [this, ih hd.2 h]

/-- Renaming the keys of a dict by a function that is injective on them. -/
theorem get_map_key {κ' : Type} [DecidableEq κ'] (d : Dict κ α) (f : κ → κ')
    (hf : ∀ a ∈ d.keys, ∀ b ∈ d.keys, f a = f b → a = b) (k : κ) (hk : ∀ a ∈ d.keys, f a = f k → a = k) :
    get (d.map (fun e => (f e.1, e.2))) (f k) = d.get k := by
  induction d with
  | nil => rfl
  | cons e t ih =>
    obtain ⟨a, b⟩ := e
    simp only [List.map_cons, get]
    by_cases h : a = k
    · simp [h]
    · have : f a ≠ f k := fun he => h (hk a (by simp [keys_cons]) he)
      simp only [this, h, if_false]
      exact ih (fun a ha b hb => hf a (by simp [keys_cons, ha]) b (by simp [keys_cons, hb]))
        (fun a ha => hk a (by simp [keys_cons, ha]))

theorem keys_map_key {κ' : Type} (d : Dict κ α) (f : κ → κ') :
    keys (d.map (fun e => (f e.1, e.2))) = d.keys.map f := by
  simp [keys, Function.comp_def]

end V8.Dict
