import Verif.Spec.Iteration
import Verif.Proofs.JSObject

namespace V8.Iter
open V8.Spec.Iter
variable {α : Type}

/-! ## What a change does to a dense and to a sparse array -/

theorem denseSet_items (d : Dense α) (k : Nat) (v : Option α) (hk : k < d.items.length) :
    (d.setitem k v).1.items = d.items.set k v := by
  unfold Dense.setitem Dense.normaliseIndex
  rw [if_neg (by omega)]
  simp only [Int.toNat_natCast, List.getElem?_eq_getElem hk]

theorem dense_apply {o : JSObj α} {d : Dense α} (ho : o.array = .dense d) (c : Change α) :
    (∃ d', (c.apply o).array = .dense d' ∧ (d'.items = d.items ∨
      ∃ k v n, ((v.isSome ∧ c = .set (.idx k) v) ∨ (v = none ∧ Removes (.idx k) c)) ∧
        d'.items = (d.items ++ List.replicate n none).set k v ∧ (k < d.items.length → n = 0))) ∨
    ∃ s k v, (c.apply o).array = .sparse s ∧ c = .set (.idx k) v ∧ d.items.length ≤ k := by
  cases c with
  | set key v =>
    cases key with
    | name s => left; cases v <;> exact ⟨d, ho, Or.inl rfl⟩
    | idx k =>
      have which : ((v.isSome ∧ Change.set (PKey.idx k) v = .set (.idx k) v) ∨
          (v = none ∧ Removes (.idx k) (Change.set (PKey.idx k) v))) := by
        cases v with
        | none => exact Or.inr ⟨rfl, Or.inr rfl⟩
        | some v => exact Or.inl ⟨rfl, rfl⟩
      simp only [Change.apply, JSObj.setitem, ho, JSObj.ensureCapacity, Arr.len, Dense.len]
      by_cases hk : (k : Int) < (d.items.length : Int)
      · rw [if_pos hk]
        left
        refine ⟨_, rfl, Or.inr ⟨k, v, 0, which, ?_, fun _ => rfl⟩⟩
        simp only [List.replicate_zero, List.append_nil]
        exact denseSet_items d k v (by omega)
      · rw [if_neg hk]
        split
        · rename_i a e h1
          split at h1
          · split at h1
            · cases h1
            · cases h1; left; exact ⟨d, rfl, Or.inl rfl⟩
          · simp only [Arr.resize, Dense.resize] at h1
            split at h1
            · cases h1; left; exact ⟨d, rfl, Or.inl rfl⟩
            · split at h1 <;> cases h1
        · rename_i a h1
          split at h1
          · split at h1
            · cases h1
              right
              exact ⟨_, k, v, rfl, rfl, by omega⟩
            · cases h1
          · simp only [Arr.resize, Dense.resize] at h1
            split at h1
            · cases h1
            · rw [if_neg (by omega)] at h1
              cases h1
              left
              refine ⟨_, rfl, Or.inr ⟨k, v, k + 1 - d.items.length, which, ?_, fun h => by omega⟩⟩
              simp only
              rw [denseSet_items _ k v (by simp; omega)]
              have : (((k : Int) + 1).toNat - d.items.length) = k + 1 - d.items.length := by omega
              simp only [this]
  | del key =>
    left
    cases key with
    | name s =>
      simp only [Change.apply, JSObj.delitem]
      split <;> exact ⟨d, ho, Or.inl rfl⟩
    | idx k =>
      simp only [Change.apply, JSObj.delitem, ho, Arr.len, Dense.len]
      by_cases hk : (k : Int) < (d.items.length : Int)
      · rw [if_pos hk]
        split
        · exact ⟨d, ho, Or.inl rfl⟩
        · refine ⟨_, rfl, Or.inr ⟨k, none, 0, Or.inr ⟨rfl, Or.inl rfl⟩, ?_, fun _ => rfl⟩⟩
          simp only [List.replicate_zero, List.append_nil]
          exact denseSet_items d k none (by omega)
        · exact ⟨d, ho, Or.inl rfl⟩
      · rw [if_neg hk]; exact ⟨d, ho, Or.inl rfl⟩

/-- How the list of sorted keys can change in place. -/
def Edits (c : Change α) (l : List Nat) (r : Option (List Nat)) : Prop :=
  r = none ∨ r = some l ∨ (∃ k, Removes (.idx k) c ∧ l.getLast? = some k ∧ r = some l.dropLast) ∨
    ∃ k v, c = .set (.idx k) (some v) ∧ lastKey l < k ∧ r = some (l ++ [k])

theorem setHole_edits (s : Sparse α) (k : Nat) :
    (s.setHole k).1.maxIndex = s.maxIndex ∧ ∀ l, s.sortedKeys = some l →
      ((s.setHole k).1.sortedKeys = none ∨ (s.setHole k).1.sortedKeys = some l ∨
        (l.getLast? = some k ∧ (s.setHole k).1.sortedKeys = some l.dropLast)) := by
  unfold Sparse.setHole
  cases hs : s.sortedKeys with
  | none => refine ⟨?_, fun l h => by cases h⟩; simp only; split <;> rfl
  | some l =>
    simp only
    cases hl : l.getLast? with
    | none => exact ⟨rfl, fun l' h => by cases h; exact Or.inr (Or.inl rfl)⟩
    | some last =>
      simp only
      split
      · next h => exact ⟨rfl, fun l' h' => by cases h'; exact Or.inr (Or.inr ⟨by rw [hl, h], rfl⟩)⟩
      · exact ⟨rfl, fun l' h' => Or.inl rfl⟩

theorem fillHole_edits (s : Sparse α) (k : Nat) (v : α) :
    (s.fillHole k v).1.maxIndex = s.maxIndex ∧ ∀ l, s.sortedKeys = some l →
      ((s.fillHole k v).1.sortedKeys = none ∨ (lastKey l < k ∧ (s.fillHole k v).1.sortedKeys = some (l ++ [k]))) := by
  unfold Sparse.fillHole
  cases hs : s.sortedKeys with
  | none => refine ⟨?_, fun l h => by cases h⟩; simp only; split <;> rfl
  | some l =>
    simp only
    split
    · next h => exact ⟨rfl, fun l' h' => by cases h'; exact Or.inr ⟨h, rfl⟩⟩
    · exact ⟨rfl, fun l' h' => Or.inl rfl⟩

theorem sparseSet_edits (s : Sparse α) (k : Nat) (v : Option α) (c : Change α)
    (hc : (v.isSome ∧ c = .set (.idx k) v) ∨ (v = none ∧ Removes (.idx k) c)) :
    (s.setitem k v).1.maxIndex = s.maxIndex ∧ ∀ l, s.sortedKeys = some l → Edits c l (s.setitem k v).1.sortedKeys := by
  unfold Sparse.setitem
  cases hn : s.normaliseIndex k with
  | none => exact ⟨rfl, fun l h => Or.inr (Or.inl h)⟩
  | some k' =>
    have hk : k' = k := by
      unfold Sparse.normaliseIndex at hn
      rw [if_neg (by omega)] at hn
      split at hn
      · cases hn
      · simp at hn; exact hn.symm
    subst hk
    simp only
    cases hg : s.items.get k' with
    | none =>
      cases v with
      | none => exact ⟨rfl, fun l h => Or.inr (Or.inl h)⟩
      | some v =>
        obtain ⟨h1, h2⟩ := fillHole_edits s k' v
        refine ⟨h1, fun l h => ?_⟩
        rcases h2 l h with h3 | ⟨h3, h4⟩
        · exact Or.inl h3
        · rcases hc with ⟨_, rfl⟩ | ⟨h, _⟩
          · exact Or.inr (Or.inr (Or.inr ⟨k', v, rfl, h3, h4⟩))
          · cases h
    | some w =>
      cases v with
      | some v => exact ⟨rfl, fun l h => Or.inr (Or.inl h)⟩
      | none =>
        obtain ⟨h1, h2⟩ := setHole_edits s k'
        refine ⟨h1, fun l h => ?_⟩
        rcases h2 l h with h3 | h3 | ⟨h3, h4⟩
        · exact Or.inl h3
        · exact Or.inr (Or.inl h3)
        · rcases hc with ⟨h, _⟩ | ⟨_, hr⟩
          · cases h
          · exact Or.inr (Or.inr (Or.inl ⟨k', hr, h3, h4⟩))

theorem sparse_apply {o : JSObj α} {s : Sparse α} (ho : o.array = .sparse s) (c : Change α) :
    ∃ s', (c.apply o).array = .sparse s' ∧
      (grows o c = false → s'.maxIndex = s.maxIndex ∧ ∀ l, s.sortedKeys = some l → Edits c l s'.sortedKeys) := by
  have same : ∃ s', o.array = .sparse s' ∧
      (grows o c = false → s'.maxIndex = s.maxIndex ∧ ∀ l, s.sortedKeys = some l → Edits c l s'.sortedKeys) :=
    ⟨s, ho, fun _ => ⟨rfl, fun l h => Or.inr (Or.inl h)⟩⟩
  cases c with
  | set key v =>
    cases key with
    | name n => cases v <;> exact same
    | idx k =>
      have which : ((v.isSome ∧ Change.set (PKey.idx k) v = .set (.idx k) v) ∨
          (v = none ∧ Removes (.idx k) (Change.set (PKey.idx k) v))) := by
        cases v with
        | none => exact Or.inr ⟨rfl, Or.inr rfl⟩
        | some v => exact Or.inl ⟨rfl, rfl⟩
      by_cases hk : (k : Int) < s.len
      · have : (Change.apply o (.set (.idx k) v)).array = .sparse (s.setitem k v).1 := by
          simp only [Change.apply, JSObj.setitem, ho, JSObj.ensureCapacity, Arr.len]
          rw [if_pos hk]
          rfl
        exact ⟨_, this, fun _ => sparseSet_edits s k v _ which⟩
      · have hm : ((maxArrayLength : Nat) : Int) = 2 ^ 32 - 1 := by decide
        by_cases hg : k + 1 ≤ maxArrayLength
        · have hgr : grows o (.set (.idx k) v) = true := by
            simp only [grows, ho, Arr.len, decide_eq_true_eq]
            exact ⟨hk, hg⟩
          simp only [Change.apply, JSObj.setitem, ho, JSObj.ensureCapacity, Arr.len]
          rw [if_neg hk]
          simp only [Arr.resize]
          cases hr : (s.resize ((k : Int) + 1)).2 with
          | some e => exact ⟨(s.resize ((k : Int) + 1)).1, rfl, fun h => by rw [hgr] at h; cases h⟩
          | none => exact ⟨((s.resize ((k : Int) + 1)).1.setitem k v).1, rfl, fun h => by rw [hgr] at h; cases h⟩
        · have : (Change.apply o (.set (.idx k) v)).array = .sparse s := by
            simp only [Change.apply, JSObj.setitem, ho, JSObj.ensureCapacity, Arr.len]
            rw [if_neg hk]
            simp only [Arr.resize, Sparse.resize]
            rw [if_pos (by omega)]
          exact ⟨s, this, fun _ => ⟨rfl, fun l h => Or.inr (Or.inl h)⟩⟩
  | del key =>
    cases key with
    | name n =>
      simp only [Change.apply, JSObj.delitem]
      split <;> exact same
    | idx k =>
      simp only [Change.apply, JSObj.delitem]
      split
      · split
        · exact same
        · refine ⟨(s.setitem k none).1, by rw [ho]; rfl, fun _ => ?_⟩
          exact sparseSet_edits s k none _ (Or.inr ⟨rfl, Or.inl rfl⟩)
        · exact same
      · exact same

/-! ## What a change does to the names -/

theorem apply_idx_props (o : JSObj α) (k : Nat) (v : Option α) :
    (Change.apply o (.set (.idx k) v)).props = o.props ∧ (Change.apply o (.del (.idx k))).props = o.props := by
  constructor
  · simp only [Change.apply, JSObj.setitem]; split <;> rfl
  · simp only [Change.apply, JSObj.delitem]
    split
    · split <;> rfl
    · rfl

theorem apply_names_nodup {o : JSObj α} (h : o.props.keys.Nodup) (c : Change α) : (c.apply o).props.keys.Nodup := by
  cases c with
  | set key v =>
    cases key with
    | idx k => rw [(apply_idx_props o k v).1]; exact h
    | name n =>
      cases v with
      | none => exact Dict.nodup_del _ _ h
      | some v => exact Dict.nodup_set _ _ _ h
  | del key =>
    cases key with
    | idx k => rw [(apply_idx_props o k none).2]; exact h
    | name n =>
      simp only [Change.apply, JSObj.delitem]
      split
      · exact Dict.nodup_del _ _ h
      · exact h

theorem apply_keeps_name {o : JSObj α} (h : o.props.keys.Nodup) {n : Str} (hn : n ∈ o.props.keys) (c : Change α)
    (hc : ¬ Removes (.name n) c) : n ∈ (c.apply o).props.keys := by
  cases c with
  | set key v =>
    cases key with
    | idx k => rw [(apply_idx_props o k v).1]; exact hn
    | name m =>
      cases v with
      | none =>
        refine (Dict.mem_keys_del _ _ _ h).2 ⟨?_, hn⟩
        rintro rfl; exact hc (Or.inr rfl)
      | some v => exact (Dict.mem_keys_set _ _ _ _).2 (Or.inr hn)
  | del key =>
    cases key with
    | idx k => rw [(apply_idx_props o k none).2]; exact hn
    | name m =>
      simp only [Change.apply, JSObj.delitem]
      split
      · refine (Dict.mem_keys_del _ _ _ h).2 ⟨?_, hn⟩
        rintro rfl; exact hc (Or.inl rfl)
      · exact hn

/-! ## The cursor and the object belong together -/

/-- What the cursor holds is what the object holds, if it is live. -/
def Live (o : JSObj α) : Cursor α → Prop
  | .items true l _ => ∃ d, o.array = .dense d ∧ d.items = l
  | .items false _ _ => ∃ s, o.array = .sparse s
  | .keys true l _ => ∃ s, o.array = .sparse s ∧ s.sortedKeys = some l
  | .keys false _ _ => ∃ s, o.array = .sparse s
  | _ => True

theorem live_start (o : JSObj α) : Live (start o).1 (start o).2 := by
  unfold start
  cases h : o.array with
  | dense d => exact ⟨d, h, rfl⟩
  | sparse s => exact ⟨_, rfl, rfl⟩

theorem live_change {o : JSObj α} {cur : Cursor α} (h : Live o cur) (c : Change α) :
    Live (c.apply o) (track o c cur) := by
  cases cur with
  | items live l pos =>
    cases live with
    | true =>
      obtain ⟨d, hd, rfl⟩ := h
      simp only [track]
      rcases dense_apply hd c with ⟨d', h1, _⟩ | ⟨s, k, v, h1, _⟩
      · rw [h1]; exact ⟨d', h1, rfl⟩
      · rw [h1]; exact ⟨s, h1⟩
    | false =>
      obtain ⟨s, hs⟩ := h
      obtain ⟨s', h1, _⟩ := sparse_apply hs c
      exact ⟨s', h1⟩
  | keys live l pos =>
    cases live with
    | true =>
      obtain ⟨s, hs, hl⟩ := h
      obtain ⟨s', h1, _⟩ := sparse_apply hs c
      simp only [track]
      cases hk : sameKeys o c with
      | none => exact ⟨s', h1⟩
      | some l' =>
        refine ⟨s', h1, ?_⟩
        simp only [sameKeys, h1] at hk
        split at hk
        · cases hk
        · exact hk
    | false =>
      obtain ⟨s, hs⟩ := h
      obtain ⟨s', h1, _⟩ := sparse_apply hs c
      exact ⟨s', h1⟩
  | names l pos => trivial
  | finished => trivial

theorem live_changes (cs : List (Change α)) : ∀ (s : JSObj α × Cursor α), Live s.1 s.2 →
    Live (cs.foldl change s).1 (cs.foldl change s).2 := by
  induction cs with
  | nil => exact fun s h => h
  | cons c cs ih => exact fun s h => ih (change s c) (live_change h c)

/-- How the dict iterator goes on. -/
theorem nextName_cases (o : JSObj α) (l : List Str) (pos : Nat) :
    (∃ e, nextName o l pos = (.finished, .ended e) ∧ (e = .stop → o.props.keys = l ∧ l.length ≤ pos)) ∨
    ∃ n, nextName o l pos = (.names l (pos + 1), .key (.name n)) ∧ l[pos]? = some n ∧ o.props.keys = l := by
  unfold nextName
  split
  · exact Or.inl ⟨_, rfl, fun h => by cases h⟩
  · split
    · exact Or.inl ⟨_, rfl, fun h => by cases h⟩
    · rename_i h1 h2
      have h2 : o.props.keys = l := by simpa using h2
      cases hp : l[pos]? with
      | none => exact Or.inl ⟨_, rfl, fun _ => ⟨h2, List.getElem?_eq_none_iff.1 hp⟩⟩
      | some n => exact Or.inr ⟨n, rfl, rfl, h2⟩

theorem scan_spec (l : List (Option α)) (st : Nat) :
    match scan l st with
    | none => ∀ (j : Nat) v, l[j]? ≠ some (some v)
    | some i => st ≤ i ∧ (∃ v, l[i - st]? = some (some v)) ∧ ∀ (j : Nat) v, j < i - st → l[j]? ≠ some (some v) := by
  induction l generalizing st with
  | nil => simp [scan]
  | cons a t ih =>
    cases a with
    | some w => simp [scan]
    | none =>
      have := ih (st + 1)
      simp only [scan]
      cases hs : scan t (st + 1) with
      | none =>
        rw [hs] at this
        intro j v
        cases j with
        | zero => simp
        | succ j => simpa using this j v
      | some i =>
        rw [hs] at this
        obtain ⟨h1, ⟨v, h2⟩, h3⟩ := this
        have he : i - st = (i - (st + 1)) + 1 := by omega
        refine ⟨by omega, ⟨v, by rw [he]; simpa using h2⟩, ?_⟩
        intro j v hj
        cases j with
        | zero => simp
        | succ j => simpa using h3 j v (by omega)

theorem scan_drop (l : List (Option α)) (pos : Nat) :
    match scan (l.drop pos) pos with
    | none => ∀ j v, pos ≤ j → l[j]? ≠ some (some v)
    | some i => pos ≤ i ∧ (∃ v, l[i]? = some (some v)) ∧ ∀ j v, pos ≤ j → j < i → l[j]? ≠ some (some v) := by
  have := scan_spec (l.drop pos) pos
  cases hs : scan (l.drop pos) pos with
  | none =>
    rw [hs] at this
    intro j v hj
    have h := this (j - pos) v
    rw [List.getElem?_drop] at h
    rwa [show pos + (j - pos) = j by omega] at h
  | some i =>
    rw [hs] at this
    obtain ⟨h1, ⟨v, h2⟩, h3⟩ := this
    refine ⟨h1, ⟨v, ?_⟩, ?_⟩
    · rw [List.getElem?_drop] at h2
      rwa [show pos + (i - pos) = i by omega] at h2
    · intro j v hj hi
      have h := h3 (j - pos) v (by omega)
      rw [List.getElem?_drop] at h
      rwa [show pos + (j - pos) = j by omega] at h

theorem live_next {o : JSObj α} {cur cur' : Cursor α} {r : Outcome} (h : Live o cur) (hn : next o cur = (cur', r)) :
    Live o cur' := by
  have names : ∀ l pos, nextName o l pos = (cur', r) → Live o cur' := by
    intro l pos hn
    rcases nextName_cases o l pos with ⟨e, h1, _⟩ | ⟨n, h1, _⟩
    · rw [h1] at hn; cases hn; trivial
    · rw [h1] at hn; cases hn; trivial
  cases cur with
  | items live l pos =>
    simp only [next] at hn
    split at hn
    · cases hn
      cases live with
      | true => exact h
      | false => exact h
    · exact names _ _ hn
  | keys live l pos =>
    simp only [next] at hn
    split at hn
    · cases hn
      cases live with
      | true => exact h
      | false => exact h
    · exact names _ _ hn
  | names l pos => exact names _ _ hn
  | finished => simp only [next] at hn; cases hn; trivial

/-! ## Induction over the loop -/

theorem changes_obj (cs : List (Change α)) : ∀ (s : JSObj α × Cursor α),
    (cs.foldl change s).1 = cs.foldl Change.apply s.1 := by
  induction cs with
  | nil => exact fun s => rfl
  | cons c cs ih => exact fun s => ih (change s c)

theorem run_ended {o : JSObj α} {cur cur' : Cursor α} {e : Ending} (h : next o cur = (cur', .ended e))
    (cs : List (Change α)) (script : List (List (Change α))) : run o cur (cs :: script) = ([], some e) := by
  rw [run, h]

theorem run_key {o : JSObj α} {cur cur' : Cursor α} {k : PKey} (h : next o cur = (cur', .key k))
    (cs : List (Change α)) (script : List (List (Change α))) :
    run o cur (cs :: script) =
      ((k, o) :: (run (cs.foldl change (o, cur')).1 (cs.foldl change (o, cur')).2 script).1,
        (run (cs.foldl change (o, cur')).1 (cs.foldl change (o, cur')).2 script).2) := by
  rw [run, h]

end V8.Iter
