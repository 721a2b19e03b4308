import Verif.Proofs.JSObject
import Mathlib.Data.List.Induction

/-! # A sparse array created from index/value pairs -/

namespace V8
open Spec
variable {α : Type}

theorem Dict.get_ofList {κ : Type} [DecidableEq κ] (l : List (κ × α)) (k : κ) :
    Dict.get (Dict.ofList l) k = (l.reverse.find? (fun e => e.1 == k)).map (·.2) := by
  induction l using List.reverseRecOn with
  | nil => rfl
  | append_singleton l e ih =>
    unfold Dict.ofList at ih ⊢
    rw [List.foldl_append, List.foldl_cons, List.foldl_nil, Dict.get_set, List.reverse_append, List.reverse_singleton,
      List.singleton_append, List.find?_cons]
    by_cases h : e.1 = k
    · simp [h]
    · rw [if_neg h, ih]
      have : (e.1 == k) = false := by simpa using h
      rw [this]

theorem find?_entries (es : List (Int × α)) (n : Int) (h0 : ∀ e ∈ es, 0 ≤ e.1) (k : Nat) (hk : (k : Int) < n) :
    (((es.filter (fun e => decide (e.1 < n))).map (fun e => (e.1.toNat, e.2))).reverse.find? (fun e => e.1 == k)).map (·.2)
      = (es.reverse.find? (fun e => e.1 == (k : Int))).map (·.2) := by
  induction es using List.reverseRecOn with
  | nil => rfl
  | append_singleton l e ih =>
    have hl := ih (fun x hx => h0 x (List.mem_append_left _ hx))
    have he := h0 e (by simp)
    rw [List.filter_append, List.map_append, List.reverse_append, List.reverse_append, List.find?_append, List.find?_append]
    by_cases hek : e.1 = (k : Int)
    · simp [hek, hk]
    · have h1 : ([e].reverse.find? fun e => e.1 == (k : Int)) = none := by simp [hek]
      have h2 : ((List.map (fun e : Int × α => (e.1.toNat, e.2)) (List.filter (fun e => decide (e.1 < n)) [e])).reverse.find?
          fun e => e.1 == k) = none := by
        simp only [List.find?_eq_none]
        intro x hx
        simp only [List.mem_reverse, List.mem_map, List.mem_filter, List.mem_singleton] at hx
        obtain ⟨y, ⟨rfl, _⟩, rfl⟩ := hx
        simp; omega
      rw [h1, h2]
      simpa using hl

theorem Sparse.ofEntries_spec (es : List (Int × α)) (n : Int) (s : Sparse α) (h : Sparse.ofEntries es n = .ok s) :
    s.Inv ∧ s.abs = fromEntries es n.toNat := by
  unfold Sparse.ofEntries at h
  by_cases hn : n < 0 ∨ n > maxArrayLength
  · rw [if_pos hn] at h; simp at h
  rw [if_neg hn] at h
  by_cases hneg : es.any (fun e => decide (e.1 < 0)) = true
  · rw [if_pos hneg] at h; simp at h
  rw [if_neg hneg] at h
  have h0 : ∀ e ∈ es, 0 ≤ e.1 := by
    intro e he
    by_contra hc
    exact hneg (List.any_eq_true.2 ⟨e, he, by simpa using hc⟩)
  simp only [Except.ok.injEq] at h
  subst h
  have hget : ∀ k : Nat, (k : Int) < n → Dict.get (Dict.ofList ((es.filter (fun e => decide (e.1 < n))).map
      (fun e => (e.1.toNat, e.2)))) k = (es.reverse.find? (fun e => e.1 == (k : Int))).map (·.2) := by
    intro k hk
    rw [Dict.get_ofList, find?_entries es n h0 k hk]
  refine ⟨⟨Dict.nodup_ofList _, ?_, ?_, ?_⟩, ?_⟩
  · intro k hk
    obtain ⟨v, hv⟩ := (Dict.mem_keys_iff _ _).1 hk
    rw [Dict.get_ofList] at hv
    simp only [Option.map_eq_some_iff] at hv
    obtain ⟨e, he, _⟩ := hv
    have hm := List.mem_of_find?_eq_some he
    have hp := List.find?_some he
    simp only [List.mem_reverse, List.mem_map, List.mem_filter, decide_eq_true_eq] at hm
    obtain ⟨y, ⟨hy0, hy⟩, rfl⟩ := hm
    have := h0 y hy0
    simp only [beq_iff_eq] at hp
    simp only [Sparse.len]
    omega
  · simp only [Sparse.len]; omega
  · intro m hm
    simp only at hm
    split at hm
    · simp at hm
    · rename_i hle
      simp only [Option.some.injEq] at hm
      subst hm
      exact ⟨keys_sorted_of_le_one _ (by omega), fun _ => Iff.rfl⟩
  · apply abs_ext
    · simp only [Sparse.len, fromEntries, List.length_map, List.length_range]; omega
    · intro i hi
      simp only [Sparse.len] at hi
      rw [hget i (by omega), fromEntries, List.getElem?_map, List.getElem?_range (by omega)]; rfl

theorem lastKey_max {l : List Nat} (h : l.Pairwise (· < ·)) : ∀ k ∈ l, (k : Int) ≤ lastKey l := by
  induction l using List.reverseRecOn with
  | nil => simp
  | append_singleton l e ih =>
    intro k hk
    rw [List.pairwise_append] at h
    simp only [lastKey, List.getLast?_concat]
    rw [List.mem_append] at hk
    rcases hk with hk | hk
    · have := h.2.2 k hk e (by simp); omega
    · simp only [List.mem_singleton] at hk; omega

theorem lastKey_mem (l : List Nat) : lastKey l = -1 ∧ l = [] ∨ ∃ k ∈ l, lastKey l = (k : Int) := by
  cases hl : l.getLast? with
  | none => left; simp only [lastKey, hl]; exact ⟨trivial, List.getLast?_eq_none_iff.1 hl⟩
  | some k => right; exact ⟨k, List.mem_of_getLast? hl, by simp only [lastKey, hl]⟩

/-- Without a length, the array ends at the largest index. -/
theorem Sparse.ofEntriesNoLength_spec (es : List (Int × α)) (s : Sparse α) (h : Sparse.ofEntriesNoLength es = .ok s) :
    s.Inv ∧ ∃ n : Nat, s.abs = fromEntries es n ∧ (∀ e ∈ es, e.1 < n) ∧ (es = [] → n = 0) ∧
      (es ≠ [] → ∃ e ∈ es, e.1 + 1 = n) := by
  unfold Sparse.ofEntriesNoLength at h
  by_cases hneg : es.any (fun e => decide (e.1 < 0)) = true
  · rw [if_pos hneg] at h; simp at h
  rw [if_neg hneg] at h
  by_cases hmax : es.any (fun e => decide (e.1 ≥ (maxArrayLength : Int))) = true
  · rw [if_pos hmax] at h; simp at h
  rw [if_neg hmax] at h
  have h0 : ∀ e ∈ es, 0 ≤ e.1 := by
    intro e he
    by_contra hc
    exact hneg (List.any_eq_true.2 ⟨e, he, by simpa using hc⟩)
  simp only [Except.ok.injEq] at h
  subst h
  set d : Dict Nat α := Dict.ofList (es.map (fun e => (e.1.toNat, e.2))) with hd
  have hnd : d.keys.Nodup := Dict.nodup_ofList _
  have hget : ∀ k : Nat, Dict.get d k = (es.reverse.find? (fun e => e.1 == (k : Int))).map (·.2) := by
    intro k
    obtain ⟨n, hn, hk⟩ : ∃ n : Int, (∀ e ∈ es, e.1 < n) ∧ (k : Int) < n := by
      clear hd hnd h0 hneg hmax d
      induction es with
      | nil => exact ⟨k + 1, by simp, by omega⟩
      | cons x t ih =>
        obtain ⟨n, h1, h2⟩ := ih
        refine ⟨max n (x.1 + 1), ?_, by omega⟩
        intro e he
        rcases List.mem_cons.1 he with rfl | he
        · omega
        · have := h1 e he; omega
    have := find?_entries es n h0 k hk
    rw [List.filter_eq_self.2 (fun e he => by simpa using hn e he)] at this
    rw [hd, Dict.get_ofList, this]
  have hkeys : ∀ k : Nat, k ∈ d.keys ↔ ∃ e ∈ es, e.1 = (k : Int) := by
    intro k
    rw [Dict.mem_keys_iff]
    constructor
    · rintro ⟨v, hv⟩
      rw [hget] at hv
      simp only [Option.map_eq_some_iff] at hv
      obtain ⟨e, he, _⟩ := hv
      exact ⟨e, by simpa using List.mem_of_find?_eq_some he, by simpa using List.find?_some he⟩
    · rintro ⟨e, he, hek⟩
      rw [hget]
      cases hf : es.reverse.find? (fun e => e.1 == (k : Int)) with
      | some e' => exact ⟨e'.2, rfl⟩
      | none =>
        rw [List.find?_eq_none] at hf
        exact absurd hek (by simpa using hf e (by simpa using he))
  have hsort := sortNat_sorted d.keys hnd
  have hlast := lastKey_max hsort
  have hge : -1 ≤ lastKey (sortNat d.keys) := by
    rcases lastKey_mem (sortNat d.keys) with ⟨h1, _⟩ | ⟨k, _, h1⟩ <;> omega
  refine ⟨⟨hnd, ?_, ?_, ?_⟩, (lastKey (sortNat d.keys) + 1).toNat, ?_, ?_, ?_, ?_⟩
  · intro k hk
    have := hlast k ((mem_sortNat k d.keys).2 hk)
    simp only [Sparse.len]; omega
  · simp only [Sparse.len]; omega
  · intro m hm
    simp only [Option.some.injEq] at hm
    subst hm
    exact ⟨hsort, fun k => mem_sortNat k d.keys⟩
  · apply abs_ext
    · simp only [Sparse.len, fromEntries, List.length_map, List.length_range]
    · intro i hi
      simp only [Sparse.len] at hi
      rw [hget i, fromEntries, List.getElem?_map, List.getElem?_range (by omega)]; rfl
  · intro e he
    have := hlast e.1.toNat ((mem_sortNat _ d.keys).2 ((hkeys _).2 ⟨e, he, by have := h0 e he; omega⟩))
    omega
  · intro hes
    subst hes
    rfl
  · intro hes
    rcases lastKey_mem (sortNat d.keys) with ⟨_, h1⟩ | ⟨k, hk, h1⟩
    · exfalso
      obtain ⟨e, he⟩ := List.exists_mem_of_ne_nil es hes
      have := (mem_sortNat e.1.toNat d.keys).2 ((hkeys _).2 ⟨e, he, by have := h0 e he; omega⟩)
      rw [h1] at this; simp at this
    · obtain ⟨e, he, hek⟩ := (hkeys k).1 ((mem_sortNat k d.keys).1 hk)
      exact ⟨e, he, by omega⟩

end V8
