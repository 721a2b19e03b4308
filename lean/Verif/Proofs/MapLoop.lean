import Verif.Spec.MapLoop

/-!
# Lemmas about loops over dicts that change (C92)
-/

namespace V8.MapLoop
open V8 V8.Spec.MapLoop
variable {κ β : Type} [DecidableEq κ]

omit [DecidableEq κ] in
theorem dict_none (t : Table κ β) : dict (none :: t) = dict t := rfl
omit [DecidableEq κ] in
theorem dict_some (e : κ × β) (t : Table κ β) : dict (some e :: t) = e :: dict t := rfl

omit [DecidableEq κ] in
theorem dict_append (s t : Table κ β) : dict (s ++ t) = dict s ++ dict t := List.filterMap_append

omit [DecidableEq κ] in
theorem dict_map_some (l : List (κ × β)) : dict (l.map some) = l := by
  induction l with
  | nil => rfl
  | cons e l ih => rw [List.map_cons, dict_some, ih]

theorem get_none (d : Dict κ β) (k : κ) : Dict.get d k = none ↔ k ∉ d.keys := by
  induction d with
  | nil => simp [Dict.get, Dict.keys]
  | cons e d ih =>
    obtain ⟨k', b⟩ := e
    simp only [Dict.get, Dict.keys, List.map_cons, List.mem_cons, not_or]
    by_cases h : k' = k
    · subst h; simp
    · rw [if_neg h, ih]
      constructor
      · exact fun q => ⟨fun e => h e.symm, q⟩
      · exact fun q => q.2

theorem set_new (d : Dict κ β) (k : κ) (b : β) (h : Dict.get d k = none) : Dict.set d k b = d ++ [(k, b)] := by
  induction d with
  | nil => rfl
  | cons e d ih =>
    obtain ⟨k', b'⟩ := e
    simp only [Dict.get] at h
    by_cases hk : k' = k
    · rw [if_pos hk] at h; cases h
    · rw [if_neg hk] at h
      simp only [Dict.set, if_neg hk, ih h, List.cons_append]

theorem dict_overwrite (t : Table κ β) (k : κ) (b : β) (h : (Dict.get (dict t) k).isSome) :
    dict (overwrite t k b) = Dict.set (dict t) k b := by
  induction t with
  | nil => cases h
  | cons s t ih =>
    cases s with
    | none => simp only [overwrite, dict_none]; exact ih h
    | some e =>
      obtain ⟨k', b'⟩ := e
      simp only [overwrite, dict_some, Dict.set]
      simp only [dict_some, Dict.get] at h
      by_cases hk : k' = k
      · simp only [if_pos hk, dict_some]
      · rw [if_neg hk] at h
        simp only [if_neg hk, dict_some, ih h]

theorem dict_put (t : Table κ β) (k : κ) (b : β) (r : Bool) : dict (put t k b r) = Dict.set (dict t) k b := by
  unfold put
  by_cases h : (Dict.get (dict t) k).isSome
  · rw [if_pos h, dict_overwrite t k b h]
  · rw [if_neg h, set_new _ _ _ (by simpa using h), dict_append]
    cases r
    · rfl
    · simp only [if_true, dict_map_some]; rfl

theorem dict_erase (t : Table κ β) (k : κ) : dict (erase t k) = Dict.del (dict t) k := by
  induction t with
  | nil => rfl
  | cons s t ih =>
    cases s with
    | none => simp only [erase, dict_none]; exact ih
    | some e =>
      obtain ⟨k', b'⟩ := e
      simp only [erase, dict_some, Dict.del]
      by_cases hk : k' = k
      · simp only [if_pos hk, dict_none]
      · simp only [if_neg hk, dict_some, ih]

theorem keys_del_sub (d : Dict κ β) (k : κ) : (Dict.del d k).Sublist d := by
  induction d with
  | nil => exact List.Sublist.refl _
  | cons e d ih =>
    obtain ⟨k', b'⟩ := e
    simp only [Dict.del]
    split
    · exact List.sublist_cons_self _ _
    · exact ih.cons_cons _

theorem del_absent (d : Dict κ β) (k : κ) (h : k ∉ d.keys) : Dict.del d k = d := by
  induction d with
  | nil => rfl
  | cons e d ih =>
    obtain ⟨k', b'⟩ := e
    simp only [Dict.keys, List.map_cons, List.mem_cons, not_or] at h
    have hk : ¬ k' = k := fun q => h.1 q.symm
    simp only [Dict.del, if_neg hk]
    rw [ih h.2]

theorem keys_set_present (d : Dict κ β) (k : κ) (b : β) (h : k ∈ d.keys) : (Dict.set d k b).keys = d.keys := by
  induction d with
  | nil => cases h
  | cons e d ih =>
    obtain ⟨k', b'⟩ := e
    simp only [Dict.set]
    by_cases hk : k' = k
    · rw [if_pos hk]; rfl
    · rw [if_neg hk]
      simp only [Dict.keys, List.map_cons, List.mem_cons] at h ⊢
      rw [show List.map (·.1) (Dict.set d k b) = List.map (·.1) d from ih (h.resolve_left (fun q => hk q.symm))]

theorem nodup_apply (t : Table κ β) (c : Change κ β) (h : (dict t).keys.Nodup) : (dict (c.apply t)).keys.Nodup := by
  cases c with
  | put k b r =>
    simp only [Change.apply, dict_put]
    by_cases hk : k ∈ (dict t).keys
    · rw [keys_set_present _ _ _ hk]; exact h
    · rw [set_new _ _ _ ((get_none _ _).2 hk)]
      simp only [Dict.keys, List.map_append, List.map_cons, List.map_nil]
      refine List.nodup_append.2 ⟨h, by simp, ?_⟩
      intro a ha b hb q
      simp only [List.mem_singleton] at hb
      subst hb; subst q
      exact hk ha
  | erase k =>
    simp only [Change.apply, dict_erase]
    exact h.sublist ((keys_del_sub _ _).map _)
  | clear => exact List.nodup_nil

theorem nodup_foldl (cs : List (Change κ β)) (t : Table κ β) (h : (dict t).keys.Nodup) :
    (dict (cs.foldl Change.apply t)).keys.Nodup := by
  induction cs generalizing t with
  | nil => exact h
  | cons c cs ih => exact ih _ (nodup_apply t c h)

theorem nodup_built (cs : List (Change κ β)) : (dict (built cs)).keys.Nodup := nodup_foldl cs [] List.nodup_nil

/-! ## The iterator -/

omit [DecidableEq κ] in
/-- Where the scan finds something, and what is before. -/
theorem scan_some {t : Table κ β} {p i : Nat} {e : κ × β} (h : scan t p = some (i, e)) :
    ∃ j, i = p + j ∧ t[j]? = some (some e) ∧ dict (t.take j) = [] := by
  induction t generalizing p with
  | nil => cases h
  | cons s t ih =>
    cases s with
    | some e' =>
      simp only [scan, Option.some.injEq, Prod.mk.injEq] at h
      exact ⟨0, h.1.symm, by rw [← h.2]; rfl, rfl⟩
    | none =>
      obtain ⟨j, h1, h2, h3⟩ := ih (p := p + 1) h
      exact ⟨j + 1, by omega, h2, h3⟩

omit [DecidableEq κ] in
theorem scan_none {t : Table κ β} {p : Nat} (h : scan t p = none) : dict t = [] := by
  induction t generalizing p with
  | nil => rfl
  | cons s t ih =>
    cases s with
    | some e => cases h
    | none => exact ih h

omit [DecidableEq κ] in
/-- What the next entry is, in terms of the entries before and after the place. -/
theorem next_entry {t : Table κ β} {c c' : Cursor} {e : κ × β} (h : next t c = .entry e c') :
    (dict t).length = c.used ∧ c.left = c'.left + 1 ∧ c'.used = c.used ∧ c'.pos ≤ t.length ∧
      dict (t.take c'.pos) = dict (t.take c.pos) ++ [e] ∧ dict (t.drop c.pos) = e :: dict (t.drop c'.pos) := by
  unfold next at h
  split at h
  · cases h
  · rename_i hu
    split at h
    · cases h
    · rename_i i e' hs
      split at h
      · cases h
      · rename_i hl
        simp only [Outcome.entry.injEq] at h
        obtain ⟨rfl, rfl⟩ := h
        obtain ⟨j, h1, h2, h3⟩ := scan_some hs
        have hj : j < (t.drop c.pos).length := (List.getElem?_eq_some_iff.1 h2).1
        have hj' : (t.drop c.pos)[j] = some e' := (List.getElem?_eq_some_iff.1 h2).2
        have hlen : c.pos + j < t.length := by rw [List.length_drop] at hj; omega
        have hd : t.drop c.pos = (t.drop c.pos).take j ++ some e' :: t.drop (c.pos + j + 1) := by
          conv => lhs; rw [← List.take_append_drop j (t.drop c.pos)]
          rw [List.drop_eq_getElem_cons hj, hj', List.drop_drop]
          rfl
        subst h1
        refine ⟨by simpa using hu, by simp only; omega, rfl, hlen, ?_, ?_⟩
        · have : t.take (c.pos + j + 1) = t.take c.pos ++ ((t.drop c.pos).take j ++ [some e']) := by
            have e1 : c.pos + j + 1 = c.pos + (j + 1) := rfl
            rw [e1, List.take_add, List.take_succ_eq_append_getElem hj, hj']
          simp only [this, dict_append, h3, List.nil_append]
          rfl
        · simp only
          conv => lhs; rw [hd]
          rw [dict_append, h3, dict_some]
          rfl

omit [DecidableEq κ] in
theorem next_stop {t : Table κ β} {c : Cursor} (h : next t c = .ended .stop) :
    (dict t).length = c.used ∧ dict (t.drop c.pos) = [] := by
  unfold next at h
  split at h
  · cases h
  · rename_i hu
    split at h
    · rename_i hs
      exact ⟨by simpa using hu, scan_none hs⟩
    · split at h <;> cases h

/-! ## Changes that leave entries in their places -/

theorem overwrite_keys (t : Table κ β) (k : κ) (b : β) :
    (overwrite t k b).map (Option.map (·.1)) = t.map (Option.map (·.1)) := by
  induction t with
  | nil => rfl
  | cons s t ih =>
    cases s with
    | none => simp only [overwrite, List.map_cons, ih]
    | some e =>
      obtain ⟨k', b'⟩ := e
      simp only [overwrite]
      split
      · rfl
      · simp only [List.map_cons, ih]

omit [DecidableEq κ] in
theorem dict_keys_map (t : Table κ β) : (dict t).keys = (t.map (Option.map (·.1))).filterMap id := by
  induction t with
  | nil => rfl
  | cons s t ih =>
    cases s with
    | none => exact ih
    | some e =>
      show e.1 :: (dict t).keys = _
      rw [ih]; rfl

theorem keys_take_overwrite (t : Table κ β) (k : κ) (b : β) (p : Nat) :
    (dict ((overwrite t k b).take p)).keys = (dict (t.take p)).keys := by
  rw [dict_keys_map, dict_keys_map, List.map_take, List.map_take, overwrite_keys]

theorem keys_drop_overwrite (t : Table κ β) (k : κ) (b : β) (p : Nat) :
    (dict ((overwrite t k b).drop p)).keys = (dict (t.drop p)).keys := by
  rw [dict_keys_map, dict_keys_map, List.map_drop, List.map_drop, overwrite_keys]

theorem overwrite_length (t : Table κ β) (k : κ) (b : β) : (overwrite t k b).length = t.length := by
  have := congrArg List.length (overwrite_keys t k b)
  simpa using this

theorem erase_length (t : Table κ β) (k : κ) : (erase t k).length = t.length := by
  induction t with
  | nil => rfl
  | cons s t ih =>
    cases s with
    | none => simp only [erase, List.length_cons, ih]
    | some e =>
      obtain ⟨k', b'⟩ := e
      simp only [erase]
      split
      · rfl
      · simp only [List.length_cons, ih]

theorem take_erase (t : Table κ β) (k : κ) (p : Nat) : (dict ((erase t k).take p)).Sublist (dict (t.take p)) := by
  induction t generalizing p with
  | nil => exact List.Sublist.refl _
  | cons s t ih =>
    cases p with
    | zero => exact List.Sublist.refl _
    | succ p =>
      cases s with
      | none => simp only [erase, List.take_succ_cons, dict_none]; exact ih p
      | some e =>
        obtain ⟨k', b'⟩ := e
        simp only [erase]
        split
        · simp only [List.take_succ_cons, dict_none, dict_some]
          exact List.sublist_cons_self _ _
        · simp only [List.take_succ_cons, dict_some]
          exact (ih p).cons_cons _

theorem erase_absent (t : Table κ β) (k : κ) (h : k ∉ (dict t).keys) : erase t k = t := by
  induction t with
  | nil => rfl
  | cons s t ih =>
    cases s with
    | none => simp only [erase, ih h]
    | some e =>
      obtain ⟨k', b'⟩ := e
      simp only [dict_some, Dict.keys, List.map_cons, List.mem_cons, not_or] at h
      have hk : ¬ k' = k := fun q => h.1 q.symm
      simp only [erase, if_neg hk]
      rw [ih h.2]

/-- The keys before the place only get fewer. -/
theorem take_apply (t : Table κ β) (c : Change κ β) (hc : InPlace c) (p : Nat) (hp : p ≤ t.length) :
    ((dict ((c.apply t).take p)).keys).Sublist (dict (t.take p)).keys ∧ p ≤ (c.apply t).length := by
  cases c with
  | clear => exact absurd hc id
  | erase k => exact ⟨(take_erase t k p).map _, by simp only [Change.apply, erase_length]; exact hp⟩
  | put k b r =>
    have hr : r = false := hc
    subst hr
    simp only [Change.apply, put]
    split
    · rw [keys_take_overwrite, overwrite_length]
      exact ⟨List.Sublist.refl _, hp⟩
    · rw [if_neg (by decide), List.take_append_of_le_length hp, List.length_append]
      exact ⟨List.Sublist.refl _, by omega⟩

theorem take_foldl (cs : List (Change κ β)) (t : Table κ β) (hc : ∀ c ∈ cs, InPlace c) (p : Nat) (hp : p ≤ t.length) :
    ((dict ((cs.foldl Change.apply t).take p)).keys).Sublist (dict (t.take p)).keys ∧
      p ≤ (cs.foldl Change.apply t).length := by
  induction cs generalizing t with
  | nil => exact ⟨List.Sublist.refl _, hp⟩
  | cons c cs ih =>
    obtain ⟨h1, h2⟩ := take_apply t c (hc c (by simp)) p hp
    obtain ⟨h3, h4⟩ := ih (c.apply t) (fun x hx => hc x (by simp [hx])) h2
    exact ⟨h3.trans h1, h4⟩

omit [DecidableEq κ] in
theorem dict_split (t : Table κ β) (p : Nat) : dict t = dict (t.take p) ++ dict (t.drop p) := by
  rw [← dict_append, List.take_append_drop]

/-- The main lemma: entries before the place have come, and no more come than there are. -/
theorem run_complete (script : List (List (Change κ β))) :
    ∀ (t : Table κ β) (c : Cursor) (before : List κ), (∀ cs ∈ script, ∀ x ∈ cs, InPlace x) → c.pos ≤ t.length →
      ((dict (t.take c.pos)).keys).Sublist before → before.length + c.left = c.used →
      (run t c script).ending = some .stop → before ++ keys (run t c script) = (dict (run t c script).final).keys := by
  induction script with
  | nil => intro t c before _ _ _ _ h; cases h
  | cons cs script ih =>
    intro t c before hs hp hb hl h
    unfold run at h ⊢
    cases hn : next t c with
    | ended e =>
      simp only [hn, Option.some.injEq] at h
      subst h
      obtain ⟨h1, h2⟩ := next_stop hn
      simp only [keys, List.map_nil, List.append_nil]
      have h3 : dict t = dict (t.take c.pos) := by
        conv => lhs; rw [dict_split t c.pos, h2, List.append_nil]
      rw [← h3] at hb
      have : (dict t).keys.length = (dict t).length := List.length_map _
      exact (hb.eq_of_length_le (by omega)).symm
    | entry e c' =>
      simp only [hn] at h ⊢
      obtain ⟨h1, h2, h3, h4, h5, _⟩ := next_entry hn
      obtain ⟨g1, g2⟩ := take_foldl cs t (fun x hx => hs cs (by simp) x hx) c'.pos h4
      have := ih (cs.foldl Change.apply t) c' (before ++ [e.1]) (fun d hd x hx => hs d (by simp [hd]) x hx) g2
        (g1.trans (by
          rw [h5]
          simp only [Dict.keys, List.map_append, List.map_cons, List.map_nil]
          exact List.Sublist.append hb (List.Sublist.refl _)))
        (by simp only [List.length_append, List.length_singleton]; omega) h
      rw [← this]
      simp only [keys, List.map_cons, List.append_assoc, List.singleton_append]

theorem apply_keeps {ks : List κ} (t : Table κ β) (c : Change κ β) (hc : KeepsKeys ks c) (hk : (dict t).keys = ks)
    (p : Nat) : (dict (c.apply t)).keys = ks ∧ (dict ((c.apply t).drop p)).keys = (dict (t.drop p)).keys := by
  cases c with
  | clear => exact absurd hc id
  | erase k =>
    have : k ∉ (dict t).keys := by rw [hk]; exact hc
    simp only [Change.apply, erase_absent t k this]
    exact ⟨hk, trivial⟩
  | put k b r =>
    have hm : k ∈ (dict t).keys := by rw [hk]; exact hc
    have hg : (Dict.get (dict t) k).isSome := by
      cases h : Dict.get (dict t) k with
      | none => exact absurd hm ((get_none _ _).1 h)
      | some _ => rfl
    simp only [Change.apply]
    constructor
    · rw [dict_put, keys_set_present _ _ _ hm, hk]
    · unfold put
      rw [if_pos hg, keys_drop_overwrite]

theorem foldl_keeps {ks : List κ} (cs : List (Change κ β)) (t : Table κ β) (hc : ∀ c ∈ cs, KeepsKeys ks c)
    (hk : (dict t).keys = ks) (p : Nat) :
    (dict (cs.foldl Change.apply t)).keys = ks ∧
      (dict ((cs.foldl Change.apply t).drop p)).keys = (dict (t.drop p)).keys := by
  induction cs generalizing t with
  | nil => exact ⟨hk, rfl⟩
  | cons c cs ih =>
    obtain ⟨h1, h2⟩ := apply_keeps t c (hc c (by simp)) hk p
    obtain ⟨h3, h4⟩ := ih (c.apply t) (fun x hx => hc x (by simp [hx])) h1
    exact ⟨h3, h4.trans h2⟩

theorem run_keeps {ks : List κ} (script : List (List (Change κ β))) :
    ∀ (t : Table κ β) (c : Cursor), (∀ cs ∈ script, ∀ x ∈ cs, KeepsKeys ks x) → (dict t).keys = ks →
      c.used = ks.length → c.left = (dict (t.drop c.pos)).length → c.left < script.length →
      keys (run t c script) = (dict (t.drop c.pos)).keys ∧ (run t c script).ending = some .stop := by
  induction script with
  | nil => intro t c _ _ _ _ h; cases h
  | cons cs script ih =>
    intro t c hs hk hu hl hlt
    unfold run
    have hlen : (dict t).length = c.used := by
      rw [hu, ← hk]; exact (List.length_map _).symm
    cases hn : next t c with
    | ended e =>
      unfold next at hn
      rw [if_neg (by omega)] at hn
      split at hn
      · rename_i hsc
        have := scan_none hsc
        cases hn
        simp only [keys, List.map_nil, this]
        exact ⟨rfl, trivial⟩
      · rename_i i e' hsc
        split at hn
        · rename_i h0
          exfalso
          obtain ⟨j, _, h2, _⟩ := scan_some hsc
          rw [h0] at hl
          have hnil : dict (t.drop c.pos) = [] := List.length_eq_zero_iff.1 hl.symm
          have hm : e' ∈ dict (t.drop c.pos) :=
            List.mem_filterMap.2 ⟨some e', List.mem_of_getElem? h2, rfl⟩
          rw [hnil] at hm
          cases hm
        · cases hn
    | entry e c' =>
      obtain ⟨h1, h2, h3, h4, _, h6⟩ := next_entry hn
      obtain ⟨g1, g2⟩ := foldl_keeps cs t (fun x hx => hs cs (by simp) x hx) hk c'.pos
      have gl : (dict ((cs.foldl Change.apply t).drop c'.pos)).length = (dict (t.drop c'.pos)).length := by
        have := congrArg List.length g2
        simpa [Dict.keys] using this
      rw [h6] at hl
      simp only [List.length_cons] at hl hlt
      obtain ⟨q1, q2⟩ := ih (cs.foldl Change.apply t) c' (fun d hd x hx => hs d (by simp [hd]) x hx) g1 (by omega)
        (by omega) (by omega)
      refine ⟨?_, q2⟩
      simp only [keys, List.map_cons] at q1 ⊢
      rw [q1, h6, g2]
      rfl

/-! ## Keys that stay come at most once -/

/-- `k` has no entry from the place `p` on. -/
def Past (k : κ) (t : Table κ β) (p : Nat) : Prop := k ∈ (dict t).keys ∧ k ∉ (dict (t.drop p)).keys

theorem drop_erase (t : Table κ β) (k : κ) (p : Nat) : (dict ((erase t k).drop p)).Sublist (dict (t.drop p)) := by
  induction t generalizing p with
  | nil => exact List.Sublist.refl _
  | cons s t ih =>
    cases p with
    | zero =>
      simp only [List.drop_zero, dict_erase]
      exact keys_del_sub _ _
    | succ p =>
      cases s with
      | none => simp only [erase, List.drop_succ_cons]; exact ih p
      | some e =>
        obtain ⟨k', b'⟩ := e
        simp only [erase]
        split
        · simp only [List.drop_succ_cons]
          exact List.Sublist.refl _
        · simp only [List.drop_succ_cons]
          exact ih p

theorem mem_del {d : Dict κ β} {k k' : κ} (h : k ∈ d.keys) (hk : k' ≠ k) : k ∈ (Dict.del d k').keys := by
  induction d with
  | nil => cases h
  | cons e d ih =>
    obtain ⟨a, b⟩ := e
    simp only [Dict.keys, List.map_cons, List.mem_cons] at h
    simp only [Dict.del]
    split
    · rename_i ha
      rcases h with h | h
      · exact absurd (ha.symm.trans h.symm) hk
      · exact h
    · simp only [Dict.keys, List.map_cons, List.mem_cons]
      rcases h with h | h
      · exact .inl h
      · exact .inr (ih h)

omit [DecidableEq κ] in
theorem drop_dict_length (t : Table κ β) (p : Nat) : ∃ q, (dict t).drop p = (dict (t.drop p)).drop q := by
  refine ⟨p - (dict (t.take p)).length, ?_⟩
  have hle : (dict (t.take p)).length ≤ p :=
    Nat.le_trans (List.length_filterMap_le _ _) (by rw [List.length_take]; omega)
  conv => lhs; rw [dict_split t p, List.drop_append, List.drop_eq_nil_of_le hle, List.nil_append]

theorem past_apply (k : κ) (t : Table κ β) (c : Change κ β) (hc : ¬ Removes k c) (p : Nat) (h : Past k t p) :
    Past k (c.apply t) p := by
  obtain ⟨h1, h2⟩ := h
  cases c with
  | clear => exact absurd trivial hc
  | erase k' =>
    refine ⟨?_, fun q => h2 (((drop_erase t k' p).map _).subset q)⟩
    simp only [Change.apply, dict_erase]
    exact mem_del h1 hc
  | put k' b r =>
    constructor
    · simp only [Change.apply, dict_put]
      by_cases hk : k' ∈ (dict t).keys
      · rw [keys_set_present _ _ _ hk]; exact h1
      · rw [set_new _ _ _ ((get_none _ _).2 hk)]
        simp only [Dict.keys, List.map_append, List.mem_append]
        exact .inl h1
    · simp only [Change.apply, put]
      split
      · rw [keys_drop_overwrite]; exact h2
      · rename_i hg
        have hne : k ≠ k' := by
          rintro rfl
          exact (get_none _ _).1 (by simpa using hg) h1
        intro hq
        rw [List.drop_append, dict_append] at hq
        simp only [Dict.keys, List.map_append, List.mem_append] at hq
        rcases hq with hq | hq
        · cases r with
          | false => exact h2 hq
          | true =>
            simp only [if_true] at hq
            rw [← List.map_drop, dict_map_some] at hq
            obtain ⟨q, hd⟩ := drop_dict_length t p
            rw [hd] at hq
            exact h2 (((List.drop_sublist q _).map _).subset hq)
        · have hs : (List.drop (p - (if r = true then List.map some (dict t) else t).length) [some (k', b)]).Sublist
              [some (k', b)] := List.drop_sublist _ _
          have := ((hs.filterMap id).map (·.1)).subset hq
          simp only [List.filterMap_cons, id, List.filterMap_nil, List.map_cons, List.map_nil, List.mem_singleton] at this
          exact hne this

theorem past_foldl (k : κ) (cs : List (Change κ β)) (t : Table κ β) (hc : ∀ c ∈ cs, ¬ Removes k c) (p : Nat)
    (h : Past k t p) : Past k (cs.foldl Change.apply t) p := by
  induction cs generalizing t with
  | nil => exact h
  | cons c cs ih => exact ih _ (fun x hx => hc x (by simp [hx])) (past_apply k t c (hc c (by simp)) p h)

theorem run_past (k : κ) (script : List (List (Change κ β))) :
    ∀ (t : Table κ β) (c : Cursor), (∀ cs ∈ script, ∀ x ∈ cs, ¬ Removes k x) → Past k t c.pos →
      k ∉ keys (run t c script) := by
  induction script with
  | nil => intro t c _ _ h; cases h
  | cons cs script ih =>
    intro t c hs hp
    unfold run
    cases hn : next t c with
    | ended e => intro h; cases h
    | entry e c' =>
      obtain ⟨_, _, _, _, _, h6⟩ := next_entry hn
      have hp' : Past k t c'.pos := ⟨hp.1, fun q => hp.2 (by
        rw [h6]; exact List.mem_cons_of_mem _ q)⟩
      have := ih (cs.foldl Change.apply t) c' (fun d hd x hx => hs d (by simp [hd]) x hx)
        (past_foldl k cs t (hs cs (by simp)) _ hp')
      simp only [keys, List.map_cons, List.mem_cons, not_or] at this ⊢
      refine ⟨fun q => hp.2 ?_, this⟩
      rw [h6, q]
      exact List.mem_cons_self

theorem run_once (k : κ) (script : List (List (Change κ β))) :
    ∀ (t : Table κ β) (c : Cursor), (∀ cs ∈ script, ∀ x ∈ cs, ¬ Removes k x) → (dict t).keys.Nodup →
      (keys (run t c script)).count k ≤ 1 := by
  induction script with
  | nil => intro t c _ _; exact Nat.zero_le _
  | cons cs script ih =>
    intro t c hs hd
    unfold run
    cases hn : next t c with
    | ended e => exact Nat.zero_le _
    | entry e c' =>
      simp only [keys, List.map_cons]
      obtain ⟨_, _, _, _, h5, h6⟩ := next_entry hn
      have hs' : ∀ d ∈ script, ∀ x ∈ d, ¬ Removes k x := fun d hd x hx => hs d (by simp [hd]) x hx
      by_cases hk : e.1 = k
      · have hspl : (dict t).keys = (dict (t.take c.pos)).keys ++ (e.1 :: (dict (t.drop c'.pos)).keys) := by
          rw [dict_split t c.pos, h6]
          simp only [Dict.keys, List.map_append, List.map_cons]
        rw [hspl] at hd
        have hno : k ∉ (dict (t.drop c'.pos)).keys := by
          have := (List.nodup_append.1 hd).2.1
          rw [hk] at this
          exact (List.nodup_cons.1 this).1
        have hp : Past k t c'.pos := ⟨by rw [hspl, hk]; simp, hno⟩
        have := run_past k script (cs.foldl Change.apply t) c' hs' (past_foldl k cs t (hs cs (by simp)) _ hp)
        have h0 : List.count k (List.map (·.1.1) (run (cs.foldl Change.apply t) c' script).came) = 0 :=
          List.count_eq_zero.2 this
        rw [hk, List.count_cons_self, h0]
        exact Nat.le_refl _
      · rw [List.count_cons_of_ne hk]
        exact ih _ _ hs' (nodup_foldl cs t hd)

omit [DecidableEq κ] in
theorem entry_mem {t : Table κ β} {c c' : Cursor} {e : κ × β} (h : next t c = .entry e c') : e ∈ dict t := by
  obtain ⟨_, _, _, _, _, h6⟩ := next_entry h
  rw [dict_split t c.pos, h6]
  simp

theorem run_now (script : List (List (Change κ β))) :
    ∀ (t : Table κ β) (c : Cursor), ∀ x ∈ (run t c script).came, x.1 ∈ dict x.2 ∧ (dict x.2).length = c.used := by
  induction script with
  | nil => intro t c x hx; cases hx
  | cons cs script ih =>
    intro t c x hx
    unfold run at hx
    cases hn : next t c with
    | ended e => simp only [hn] at hx; cases hx
    | entry e c' =>
      simp only [hn, List.mem_cons] at hx
      obtain ⟨h1, _, h3, _⟩ := next_entry hn
      rcases hx with rfl | hx
      · exact ⟨entry_mem hn, h1⟩
      · obtain ⟨g1, g2⟩ := ih _ c' x hx
        exact ⟨g1, g2.trans h3⟩

theorem run_final (script : List (List (Change κ β))) :
    ∀ (t : Table κ β) (c : Cursor), (run t c script).ending = some .stop →
      (dict (run t c script).final).length = c.used := by
  induction script with
  | nil => intro t c h; cases h
  | cons cs script ih =>
    intro t c h
    unfold run at h ⊢
    cases hn : next t c with
    | ended e =>
      simp only [hn, Option.some.injEq] at h
      subst h
      exact (next_stop hn).1
    | entry e c' =>
      simp only [hn] at h ⊢
      rw [ih _ c' h, (next_entry hn).2.2.1]

theorem run_length (script : List (List (Change κ β))) :
    ∀ (t : Table κ β) (c : Cursor), (run t c script).came.length ≤ c.left := by
  induction script with
  | nil => intro t c; exact Nat.zero_le _
  | cons cs script ih =>
    intro t c
    unfold run
    cases hn : next t c with
    | ended e => exact Nat.zero_le _
    | entry e c' =>
      have := ih (cs.foldl Change.apply t) c'
      have h2 := (next_entry hn).2.1
      simp only [List.length_cons]
      omega

theorem run_ends (script : List (List (Change κ β))) :
    ∀ (t : Table κ β) (c : Cursor), c.left < script.length → (run t c script).ending ≠ none := by
  induction script with
  | nil => intro t c h; cases h
  | cons cs script ih =>
    intro t c h
    unfold run
    cases hn : next t c with
    | ended e => simp
    | entry e c' =>
      have h2 := (next_entry hn).2.1
      simp only [List.length_cons] at h
      exact ih _ c' (by omega)

/-! ## JSMap -/

/-- Each entry is under the key that `same_value_zero` gives for it. -/
def Keyed (t : Table SvzKey (Val × Val)) : Prop := ∀ e ∈ dict t, sameValueZero e.2.1 = .ok e.1

theorem mem_set {d : Dict κ β} {k : κ} {b : β} {e : κ × β} (h : e ∈ Dict.set d k b) : e ∈ d ∨ e = (k, b) := by
  induction d with
  | nil => exact .inr (List.mem_singleton.1 h)
  | cons x d ih =>
    obtain ⟨a, b'⟩ := x
    simp only [Dict.set] at h
    split at h
    · rename_i ha
      simp only [List.mem_cons] at h
      rcases h with h | h
      · exact .inr (by rw [h, ha])
      · exact .inl (List.mem_cons_of_mem _ h)
    · simp only [List.mem_cons] at h
      rcases h with h | h
      · exact .inl (by rw [h]; exact List.mem_cons_self)
      · rcases ih h with h | h
        · exact .inl (List.mem_cons_of_mem _ h)
        · exact .inr h

theorem get_mem {d : Dict κ β} {k : κ} {b : β} (hd : d.keys.Nodup) (h : (k, b) ∈ d) : Dict.get d k = some b := by
  induction d with
  | nil => cases h
  | cons x d ih =>
    obtain ⟨a, b'⟩ := x
    simp only [Dict.keys, List.map_cons, List.nodup_cons] at hd
    simp only [List.mem_cons, Prod.mk.injEq] at h
    simp only [Dict.get]
    rcases h with ⟨rfl, rfl⟩ | h
    · rw [if_pos rfl]
    · rw [if_neg]
      · exact ih hd.2 h
      · rintro rfl
        exact hd.1 (List.mem_map.2 ⟨_, h, rfl⟩)

theorem keyed_change (t : Table SvzKey (Val × Val)) (c : MapChange) (h : Keyed t) :
    Keyed (c.change.foldl Change.apply t) := by
  cases c with
  | clear => intro e he; cases he
  | set k v r =>
    simp only [MapChange.change]
    cases hk : sameValueZero k with
    | error x => exact h
    | ok key =>
      intro e he
      simp only [List.foldl, Change.apply, dict_put] at he
      rcases mem_set he with he | he
      · exact h e he
      · rw [he]; exact hk
  | del k =>
    simp only [MapChange.change]
    cases hk : sameValueZero k with
    | error x => exact h
    | ok key =>
      intro e he
      simp only [List.foldl, Change.apply, dict_erase] at he
      exact h e ((keys_del_sub _ _).subset he)

theorem changeMap_cons (t : Table SvzKey (Val × Val)) (c : MapChange) (cs : List MapChange) :
    changeMap t (c :: cs) = changeMap (c.change.foldl Change.apply t) cs := by
  unfold changeMap
  rw [List.flatMap_cons, List.foldl_append]

theorem keyed_changeMap (cs : List MapChange) (t : Table SvzKey (Val × Val)) (h : Keyed t) : Keyed (changeMap t cs) := by
  induction cs generalizing t with
  | nil => exact h
  | cons c cs ih => rw [changeMap_cons]; exact ih _ (keyed_change t c h)

theorem nodup_changeMap (cs : List MapChange) (t : Table SvzKey (Val × Val)) (h : (dict t).keys.Nodup) :
    (dict (changeMap t cs)).keys.Nodup := nodup_foldl _ t h

end V8.MapLoop
