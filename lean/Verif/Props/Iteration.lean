import Verif.Proofs.Iteration

/-!
# C88: changing a JSObject in a loop over it
-/

namespace V8.Props
open V8.Iter V8.Spec.Iter
variable {α : Type}

/-! ### Reaching what stays -/

/-- The cursor has the index `k` still before it. -/
def Ahead (k : Nat) : Cursor α → Prop
  | .items _ l pos => pos ≤ k ∧ ∃ v, l[k]? = some (some v)
  | .keys _ l pos => ∃ j, pos ≤ j ∧ l[j]? = some k
  | _ => False

theorem ahead_change {o : JSObj α} {cur : Cursor α} (h : Live o cur) {k : Nat} (ha : Ahead k cur) {c : Change α}
    (hc : ¬ Removes (.idx k) c) : Ahead k (track o c cur) := by
  cases cur with
  | items live l pos =>
    cases live with
    | false => exact ha
    | true =>
      obtain ⟨d, hd, rfl⟩ := h
      obtain ⟨hp, v, hv⟩ := ha
      have hlt : k < d.items.length := (List.getElem?_eq_some_iff.1 hv).1
      simp only [track]
      rcases dense_apply hd c with ⟨d', h1, h2⟩ | ⟨s, k', v', h1, _⟩
      · rw [h1]
        refine ⟨hp, ?_⟩
        rcases h2 with h2 | ⟨k', v', n, h3, h4, _⟩
        · rw [h2]; exact ⟨v, hv⟩
        · rw [h4, List.getElem?_set]
          split
          · next he =>
            subst he
            rw [if_pos (by simp; omega)]
            rcases h3 with ⟨hs, _⟩ | ⟨_, hr⟩
            · obtain ⟨w, rfl⟩ := Option.isSome_iff_exists.1 hs
              exact ⟨w, rfl⟩
            · exact absurd hr hc
          · exact ⟨v, by rw [List.getElem?_append_left hlt]; exact hv⟩
      · rw [h1]; exact ⟨hp, v, hv⟩
  | keys live l pos =>
    cases live with
    | false => exact ha
    | true =>
      obtain ⟨s, hs, hl⟩ := h
      obtain ⟨j, hj, hv⟩ := ha
      obtain ⟨s', h1, h2⟩ := sparse_apply hs c
      simp only [track]
      cases hk : sameKeys o c with
      | none => exact ⟨j, hj, hv⟩
      | some l' =>
        simp only [sameKeys, h1] at hk
        cases hg : grows o c with
        | true => rw [hg] at hk; cases hk
        | false =>
          rw [hg] at hk
          simp only [Bool.false_eq_true, if_false] at hk
          rcases (h2 hg).2 l hl with h3 | h3 | ⟨k', hr, hlast, h3⟩ | ⟨k', v, _, _, h3⟩
          · rw [hk] at h3; cases h3
          · rw [hk] at h3; cases h3; exact ⟨j, hj, hv⟩
          · rw [hk] at h3; cases h3
            refine ⟨j, hj, ?_⟩
            have hlt : j < l.length := (List.getElem?_eq_some_iff.1 hv).1
            have hne : j ≠ l.length - 1 := by
              intro he
              rw [List.getLast?_eq_getElem?, ← he, hv] at hlast
              cases hlast
              exact hc hr
            rw [List.getElem?_dropLast, if_pos (by omega)]
            exact hv
          · rw [hk] at h3; cases h3
            exact ⟨j, hj, by rw [List.getElem?_append_left (List.getElem?_eq_some_iff.1 hv).1]; exact hv⟩
  | names l pos => exact ha
  | finished => exact ha

theorem ahead_changes {k : Nat} (cs : List (Change α)) (hc : ∀ c ∈ cs, ¬ Removes (.idx k) c) :
    ∀ (s : JSObj α × Cursor α), Live s.1 s.2 → Ahead k s.2 → Ahead k (cs.foldl change s).2 := by
  induction cs with
  | nil => exact fun s _ h => h
  | cons c cs ih =>
    exact fun s h ha => ih (fun c' h' => hc c' (List.mem_cons_of_mem _ h')) (change s c) (live_change h c)
      (ahead_change h ha (hc c List.mem_cons_self))

theorem ahead_next {o : JSObj α} {cur : Cursor α} {k : Nat} (ha : Ahead k cur) :
    ∃ cur' k', next o cur = (cur', .key k') ∧ (k' = .idx k ∨ Ahead k cur') := by
  cases cur with
  | items live l pos =>
    obtain ⟨hp, v, hv⟩ := ha
    have := scan_drop l pos
    simp only [next]
    cases hs : scan (l.drop pos) pos with
    | none => rw [hs] at this; exact absurd hv (this k v hp)
    | some i =>
      rw [hs] at this
      obtain ⟨h1, h2, h3⟩ := this
      refine ⟨_, _, rfl, ?_⟩
      rcases Nat.lt_trichotomy i k with h | h | h
      · exact Or.inr ⟨h, v, hv⟩
      · exact Or.inl (by rw [h])
      · exact absurd hv (h3 k v hp h)
  | keys live l pos =>
    obtain ⟨j, hj, hv⟩ := ha
    simp only [next]
    cases hs : l[pos]? with
    | none =>
      have h1 := List.getElem?_eq_none_iff.1 hs
      have h2 := (List.getElem?_eq_some_iff.1 hv).1
      omega
    | some i =>
      refine ⟨_, _, rfl, ?_⟩
      rcases Nat.eq_or_lt_of_le hj with h | h
      · subst h; rw [hs] at hv; cases hv; exact Or.inl rfl
      · exact Or.inr ⟨j, h, hv⟩
  | names l pos => exact absurd ha (by simp [Ahead])
  | finished => exact absurd ha (by simp [Ahead])

theorem run_reaches {k : Nat} (script : List (List (Change α))) (hc : ∀ cs ∈ script, ∀ c ∈ cs, ¬ Removes (.idx k) c) :
    ∀ (o : JSObj α) (cur : Cursor α), Live o cur → Ahead k cur → (run o cur script).2 ≠ none →
      .idx k ∈ came (run o cur script) := by
  induction script with
  | nil => exact fun o cur _ _ h => absurd rfl h
  | cons cs script ih =>
    intro o cur hl ha hend
    obtain ⟨cur', k', hn, hk⟩ := ahead_next (o := o) ha
    rw [run_key hn] at hend ⊢
    rcases hk with rfl | hk
    · exact List.mem_cons_self
    · refine List.mem_cons_of_mem _ ?_
      have hl' := live_next hl hn
      exact ih (fun cs' h' => hc cs' (List.mem_cons_of_mem _ h')) _ _ (live_changes cs (o, cur') hl')
        (ahead_changes cs (hc cs List.mem_cons_self) (o, cur') hl' hk) hend

/-- The cursor has the name `n` still before it. -/
def AheadName (n : Str) (o : JSObj α) : Cursor α → Prop
  | .names l pos => n ∈ o.props.keys ∧ ∃ j, pos ≤ j ∧ l[j]? = some n
  | .finished => False
  | _ => n ∈ o.props.keys

theorem aheadName_changes {n : Str} (cs : List (Change α)) (hc : ∀ c ∈ cs, ¬ Removes (.name n) c) :
    ∀ (s : JSObj α × Cursor α), s.1.props.keys.Nodup → AheadName n s.1 s.2 →
      (cs.foldl change s).1.props.keys.Nodup ∧ AheadName n (cs.foldl change s).1 (cs.foldl change s).2 := by
  induction cs with
  | nil => exact fun s h ha => ⟨h, ha⟩
  | cons c cs ih =>
    intro s h ha
    refine ih (fun c' h' => hc c' (List.mem_cons_of_mem _ h')) (change s c) (apply_names_nodup h c) ?_
    have hk := hc c List.mem_cons_self
    obtain ⟨o, cur⟩ := s
    simp only [change]
    cases cur with
    | items live l pos =>
      have := apply_keeps_name h ha c hk
      cases live with
      | true => simp only [track]; split <;> exact this
      | false => exact this
    | keys live l pos =>
      have := apply_keeps_name h ha c hk
      cases live with
      | true => simp only [track]; split <;> exact this
      | false => exact this
    | names l pos => exact ⟨apply_keeps_name h ha.1 c hk, ha.2⟩
    | finished => exact ha

theorem aheadName_next {o : JSObj α} {cur : Cursor α} {n : Str} (ha : AheadName n o cur) :
    (∃ cur' e, next o cur = (cur', .ended e) ∧ e ≠ .stop) ∨
    ∃ cur' k', next o cur = (cur', .key k') ∧ (k' = .name n ∨ AheadName n o cur') := by
  have names : ∀ l pos, n ∈ o.props.keys → (∃ j, pos ≤ j ∧ l[j]? = some n) →
      (∃ cur' e, nextName o l pos = (cur', .ended e) ∧ e ≠ .stop) ∨
      ∃ cur' k', nextName o l pos = (cur', .key k') ∧ (k' = .name n ∨ AheadName n o cur') := by
    rintro l pos hn ⟨j, hj, hv⟩
    rcases nextName_cases o l pos with ⟨e, h1, h2⟩ | ⟨m, h1, h2, _⟩
    · refine Or.inl ⟨_, e, h1, fun he => ?_⟩
      have := (h2 he).2
      have := (List.getElem?_eq_some_iff.1 hv).1
      omega
    · refine Or.inr ⟨_, _, h1, ?_⟩
      rcases Nat.eq_or_lt_of_le hj with h | h
      · subst h; rw [h2] at hv; cases hv; exact Or.inl rfl
      · exact Or.inr ⟨hn, j, h, hv⟩
  have fresh : n ∈ o.props.keys → ∃ j, 0 ≤ j ∧ o.props.keys[j]? = some n := fun h => by
    obtain ⟨j, hj⟩ := List.mem_iff_getElem?.1 h
    exact ⟨j, Nat.zero_le _, hj⟩
  cases cur with
  | items live l pos =>
    simp only [next]
    split
    · exact Or.inr ⟨_, _, rfl, Or.inr ha⟩
    · exact names _ _ ha (fresh ha)
  | keys live l pos =>
    simp only [next]
    split
    · exact Or.inr ⟨_, _, rfl, Or.inr ha⟩
    · exact names _ _ ha (fresh ha)
  | names l pos => exact names _ _ ha.1 ha.2
  | finished => exact absurd ha (by simp [AheadName])

theorem run_reaches_name {n : Str} (script : List (List (Change α)))
    (hc : ∀ cs ∈ script, ∀ c ∈ cs, ¬ Removes (.name n) c) :
    ∀ (o : JSObj α) (cur : Cursor α), o.props.keys.Nodup → AheadName n o cur → (run o cur script).2 = some .stop →
      .name n ∈ came (run o cur script) := by
  induction script with
  | nil => intro o cur _ _ h; cases h
  | cons cs script ih =>
    intro o cur hd ha hend
    rcases aheadName_next ha with ⟨cur', e, hn, he⟩ | ⟨cur', k', hn, hk⟩
    · rw [run_ended hn] at hend; cases hend; exact absurd rfl he
    · rw [run_key hn] at hend ⊢
      rcases hk with rfl | hk
      · exact List.mem_cons_self
      · refine List.mem_cons_of_mem _ ?_
        obtain ⟨h1, h2⟩ := aheadName_changes cs (hc cs List.mem_cons_self) (o, cur') hd hk
        exact ih (fun cs' h' => hc cs' (List.mem_cons_of_mem _ h')) _ _ h1 h2 hend

/-! ### Objects that programs have -/

theorem Change.apply_inv {o : JSObj α} (h : o.Inv) {c : Change α} (hc : Proper c) : (c.apply o).Inv := by
  cases c with
  | set k v =>
    refine (JSObj.setitem_spec h k ?_ v).1
    cases k with
    | idx n => exact hc
    | name s => trivial
  | del k =>
    have hk : k.Valid := by
      cases k with
      | idx n => exact hc
      | name s => trivial
    have := JSObj.delitem_spec h k hk
    simp only [Change.apply]
    cases hl : o.lookup k with
    | none => rw [hl] at this; rw [this]; exact h
    | some v => rw [hl] at this; exact this.1

theorem built_inv (before : List (Change α)) (hb : ∀ c ∈ before, Proper c) : (built before).Inv := by
  have : ∀ (cs : List (Change α)), (∀ c ∈ cs, Proper c) → ∀ o : JSObj α, o.Inv → (cs.foldl Change.apply o).Inv := by
    intro cs
    induction cs with
    | nil => exact fun _ o h => h
    | cons c cs ih =>
      exact fun hp o h => ih (fun c' h' => hp c' (List.mem_cons_of_mem _ h')) _ (Change.apply_inv h (hp c List.mem_cons_self))
  exact this before hb _ JSObj.empty_inv

theorem has_iff {o : JSObj α} (h : o.Inv) (k : PKey) : Has o k ↔ ∃ v, o.lookup k = some v := by
  unfold Has
  rw [JSObj.getitem_eq h k]
  cases o.lookup k <;> simp

theorem start_props (o : JSObj α) : (start o).1.props = o.props := by
  unfold start; split <;> rfl

theorem ahead_start {o : JSObj α} (h : o.Inv) {k : Nat} (hk : Has o (.idx k)) : Ahead k (start o).2 := by
  obtain ⟨v, hv⟩ := (has_iff h _).1 hk
  simp only [JSObj.lookup] at hv
  have hm : k ∈ Spec.occupied o.array.abs := by
    rw [mem_occupied]
    refine ⟨v, ?_⟩
    cases hx : o.array.abs[k]? with
    | none => rw [hx] at hv; cases hv
    | some y => rw [hx] at hv; rw [show y = some v from hv]
  unfold start
  cases ha : o.array with
  | dense d =>
    rw [ha] at hm
    obtain ⟨w, hw⟩ := mem_occupied.1 hm
    exact ⟨Nat.zero_le _, w, hw⟩
  | sparse s =>
    have hi : s.Inv := by have := h.arr; rw [ha] at this; exact this
    rw [ha] at hm
    have : k ∈ s.sortedKeysNow := by rw [Sparse.sortedKeysNow_eq hi]; exact hm
    obtain ⟨j, hj⟩ := List.mem_iff_getElem?.1 this
    exact ⟨j, Nat.zero_le _, hj⟩

/-- C88: a loop that has come to its end has come by every property that was there at the start and that the loop body did
not take away, whatever else the body did: overwrite, add and delete properties, also far beyond the end, where the array
becomes a sparse one.  (If the loop ends with a RuntimeError this is so for the index keys.) -/
theorem C88_reaches (before : List (Change α)) (hb : ∀ c ∈ before, Proper c) (script : List (List (Change α))) (k : PKey)
    (hk : Has (built before) k) (hs : ∀ c, Within script c → ¬ Removes k c)
    (hend : (loop (built before) script).2 = some .stop ∨ (∃ n, k = .idx n) ∧ (loop (built before) script).2 ≠ none) :
    k ∈ came (loop (built before) script) := by
  have hi := built_inv before hb
  cases k with
  | idx n =>
    refine run_reaches script (fun cs h c h' => hs c ⟨cs, h, h'⟩) _ _ (live_start _) (ahead_start hi hk) ?_
    rcases hend with h | h
    · unfold loop at h; rw [h]; simp
    · exact h.2
  | name n =>
    have hend : (loop (built before) script).2 = some .stop := by
      rcases hend with h | ⟨⟨m, h⟩, _⟩
      · exact h
      · cases h
    obtain ⟨v, hv⟩ := (has_iff hi _).1 hk
    have hn : n ∈ (start (built before)).1.props.keys := by
      rw [start_props]; exact (Dict.mem_keys_iff _ _).2 ⟨v, hv⟩
    refine run_reaches_name script (fun cs h c h' => hs c ⟨cs, h, h'⟩) _ _ (by rw [start_props]; exact hi.names) ?_ hend
    unfold start at hn ⊢
    split <;> simp_all [AheadName]

/-- A loop over an object with an element far away, which the body deletes from and adds to. -/
example : let before : List (Change Nat) := [.set (.idx 0) (some 1), .set (.idx 9) (some 2), .set (.name [97]) (some 3),
      .set (.idx 40) (some 4)]
    let script : List (List (Change Nat)) := [[.del (.idx 0), .set (.idx 90) (some 5)], [.del (.idx 90)], [], [], []]
    Has (built before) (.idx 40) ∧ (loop (built before) script).2 = some .stop ∧
    came (loop (built before) script) = [.idx 0, .idx 9, .idx 40, .name [97]] :=
  ⟨⟨4, by decide +kernel⟩, by decide +kernel, by decide +kernel⟩

/-! ### Only what is there -/

theorem has_dense {o : JSObj α} {d : Dense α} (hd : o.array = .dense d) {k : Nat} {v : α}
    (hv : d.items[k]? = some (some v)) : Has o (.idx k) := by
  have hlt : k < d.items.length := (List.getElem?_eq_some_iff.1 hv).1
  refine ⟨v, ?_⟩
  simp only [JSObj.getitem, hd, Arr.len, Dense.len]
  rw [if_pos (by omega)]
  simp only [Arr.getitem, Dense.getitem, pyIndex]
  rw [if_neg (by omega), if_pos (by omega)]
  simp only [Int.toNat_natCast, hv]

theorem has_name {o : JSObj α} {n : Str} (hn : n ∈ o.props.keys) : Has o (.name n) := by
  obtain ⟨v, hv⟩ := (Dict.mem_keys_iff _ _).1 hn
  exact ⟨v, by simp only [JSObj.getitem, hv]⟩

theorem nextName_has {o : JSObj α} {l : List Str} {pos : Nat} {cur' : Cursor α} {k : PKey}
    (h : nextName o l pos = (cur', .key k)) : ∃ n, k = .name n ∧ Has o k := by
  rcases nextName_cases o l pos with ⟨e, h1, _⟩ | ⟨n, h1, h2, h3⟩
  · rw [h1] at h; cases h
  · rw [h1] at h; cases h
    exact ⟨n, rfl, has_name (by rw [h3]; exact List.mem_of_getElem? h2)⟩

theorem next_has {o : JSObj α} {cur cur' : Cursor α} (hl : Live o cur) {k : PKey} (h : next o cur = (cur', .key k))
    (hk : (∃ d, o.array = .dense d) ∨ ∃ n, k = .name n) : Has o k := by
  cases cur with
  | items live l pos =>
    have hs := scan_drop l pos
    simp only [next] at h
    split at h
    · rename_i i hi
      cases h
      rw [hi] at hs
      obtain ⟨_, ⟨v, hv⟩, _⟩ := hs
      rcases hk with ⟨d, hd⟩ | ⟨n, hn⟩
      · cases live with
        | true =>
          obtain ⟨d', hd', rfl⟩ := hl
          exact has_dense hd' hv
        | false =>
          obtain ⟨s, hs'⟩ := hl
          rw [hd] at hs'; cases hs'
      · cases hn
    · exact (nextName_has h).choose_spec.2
  | keys live l pos =>
    simp only [next] at h
    split at h
    · cases h
      rcases hk with ⟨d, hd⟩ | ⟨n, hn⟩
      · cases live with
        | true =>
          obtain ⟨s, hs', _⟩ := hl
          rw [hd] at hs'; cases hs'
        | false =>
          obtain ⟨s, hs'⟩ := hl
          rw [hd] at hs'; cases hs'
      · cases hn
    · exact (nextName_has h).choose_spec.2
  | names l pos => exact (nextName_has h).choose_spec.2
  | finished => simp only [next] at h; cases h

theorem run_has (script : List (List (Change α))) : ∀ (o : JSObj α) (cur : Cursor α), Live o cur →
    ∀ e ∈ (run o cur script).1, ((∃ d, e.2.array = .dense d) ∨ ∃ n, e.1 = .name n) → Has e.2 e.1 := by
  induction script with
  | nil => intro o cur _ e he; cases he
  | cons cs script ih =>
    intro o cur hl e he hk
    cases hn : next o cur with
    | mk cur' r =>
      cases r with
      | ended x => rw [run_ended hn] at he; cases he
      | key k =>
        rw [run_key hn] at he
        rcases List.mem_cons.1 he with rfl | he
        · exact next_has hl hn hk
        · exact ih _ _ (live_changes cs (o, cur') (live_next hl hn)) e he hk

/-- C88: whatever the loop body does, a name that comes is the name of a property the object has at that moment, and so is
an index key as long as the array of the object is a dense one.  (Not so for a sparse array, see
`C88_sparse_stale`, and after an array has become sparse, see `C88_switch_stale`.) -/
theorem C88_present_partial (before : List (Change α)) (script : List (List (Change α))) (k : PKey) (o : JSObj α)
    (he : (k, o) ∈ (loop (built before) script).1) (hk : (∃ d, o.array = .dense d) ∨ ∃ n, k = .name n) : Has o k :=
  run_has script _ _ (live_start _) (k, o) he hk

/-- The second key is deleted when the first one comes; it does not come. -/
example : let before : List (Change Nat) := [.set (.idx 0) (some 1), .set (.idx 1) (some 2), .set (.idx 5) (some 4),
      .set (.name [97]) (some 3)]
    let r := loop (built before) [[.del (.idx 1), .set (.idx 7) (some 9)], [], [.del (.name [97])], [], []]
    came r = [.idx 0, .idx 5, .idx 7] ∧ r.2 = some .stop ∧ ∀ e ∈ r.1, ∃ d, e.2.array = .dense d := by
  refine ⟨by decide +kernel, by decide +kernel, ?_⟩
  intro e he
  have : ∀ e ∈ (loop (built ([.set (.idx 0) (some 1), .set (.idx 1) (some 2), .set (.idx 5) (some 4),
      .set (.name [97]) (some 3)] : List (Change Nat)))
      [[.del (.idx 1), .set (.idx 7) (some 9)], [], [.del (.name [97])], [], []]).1,
      (match e.2.array with | .dense _ => true | .sparse _ => false) = true := by decide +kernel
  have h := this e he
  cases ha : e.2.array with
  | dense d => exact ⟨d, rfl⟩
  | sparse s => rw [ha] at h; cases h

/-! ### Only once -/

theorem names_came (script : List (List (Change α))) : ∀ (o : JSObj α) (l : List Str) (pos : Nat),
    ∃ m, came (run o (.names l pos) script) = ((l.drop pos).take m).map .name := by
  induction script with
  | nil => exact fun o l pos => ⟨0, by simp [run, came]⟩
  | cons cs script ih =>
    intro o l pos
    have tr : ∀ (cs : List (Change α)) (o : JSObj α), (cs.foldl change (o, .names l (pos + 1))).2 = .names l (pos + 1) := by
      intro cs
      induction cs with
      | nil => exact fun o => rfl
      | cons c cs ih => exact fun o => ih _
    rcases nextName_cases o l pos with ⟨e, h1, _⟩ | ⟨n, h1, h2, _⟩
    · exact ⟨0, by rw [run_ended (cur := .names l pos) h1]; simp [came]⟩
    · rw [run_key (cur := .names l pos) h1, tr]
      obtain ⟨m, hm⟩ := ih (cs.foldl change (o, .names l (pos + 1))).1 l (pos + 1)
      refine ⟨m + 1, ?_⟩
      have hlt := (List.getElem?_eq_some_iff.1 h2)
      have hd : l.drop pos = n :: l.drop (pos + 1) := by rw [← hlt.2]; exact List.drop_eq_getElem_cons hlt.1
      rw [hd, List.take_succ_cons, List.map_cons]
      simp only [came, List.map_cons] at hm ⊢
      rw [hm]

theorem names_nodup (script : List (List (Change α))) (o : JSObj α) (l : List Str) (hl : l.Nodup) (pos : Nat) :
    (came (run o (.names l pos) script)).Nodup ∧ ∀ k ∈ came (run o (.names l pos) script), ∃ n, k = .name n := by
  obtain ⟨m, hm⟩ := names_came script o l pos
  rw [hm]
  refine ⟨?_, ?_⟩
  · refine List.Nodup.map (fun a b h => by cases h; rfl) ?_
    exact ((List.take_sublist _ _).trans (List.drop_sublist _ _)).nodup hl
  · intro k hk
    obtain ⟨n, _, rfl⟩ := List.mem_map.1 hk
    exact ⟨n, rfl⟩

theorem changes_items (cs : List (Change α)) (pos : Nat) : ∀ (o : JSObj α) (live : Bool) (l : List (Option α)),
    ∃ live' l', (cs.foldl change (o, .items live l pos)).2 = .items live' l' pos := by
  induction cs with
  | nil => exact fun o live l => ⟨live, l, rfl⟩
  | cons c cs ih =>
    intro o live l
    have : ∃ live' l', track o c (.items live l pos) = .items live' l' pos := by
      cases live with
      | false => exact ⟨_, _, rfl⟩
      | true =>
        simp only [track]
        split
        · exact ⟨_, _, rfl⟩
        · exact ⟨_, _, rfl⟩
    obtain ⟨live', l', h⟩ := this
    simp only [List.foldl_cons, change, h]
    exact ih _ live' l'

theorem changes_nodup (cs : List (Change α)) : ∀ (s : JSObj α × Cursor α), s.1.props.keys.Nodup →
    (cs.foldl change s).1.props.keys.Nodup := by
  induction cs with
  | nil => exact fun s h => h
  | cons c cs ih => exact fun s h => ih _ (apply_names_nodup h c)

theorem items_once (script : List (List (Change α))) : ∀ (o : JSObj α) (live : Bool) (l : List (Option α)) (pos : Nat),
    o.props.keys.Nodup →
    (came (run o (.items live l pos) script)).Nodup ∧
      ∀ k, .idx k ∈ came (run o (.items live l pos) script) → pos ≤ k := by
  induction script with
  | nil => intro o live l pos _; exact ⟨List.nodup_nil, fun k h => by cases h⟩
  | cons cs script ih =>
    intro o live l pos hd
    have hs := scan_drop l pos
    cases hi : scan (l.drop pos) pos with
    | some i =>
      rw [hi] at hs
      have hn : next o (.items live l pos) = (.items live l (i + 1), .key (.idx i)) := by simp only [next, hi]
      rw [run_key hn]
      obtain ⟨live', l', he⟩ := changes_items cs (i + 1) o live l
      rw [he]
      obtain ⟨h1, h2⟩ := ih (cs.foldl change (o, .items live l (i + 1))).1 live' l' (i + 1) (changes_nodup cs _ hd)
      refine ⟨?_, ?_⟩
      · refine List.nodup_cons.2 ⟨fun hm => ?_, h1⟩
        have := h2 i hm
        omega
      · intro k hk
        rcases List.mem_cons.1 hk with h | h
        · cases h; exact hs.1
        · have := h2 k h; omega
    | none =>
      rcases nextName_cases o o.props.keys 0 with ⟨e, h1, _⟩ | ⟨n, h1, h2, _⟩
      · have hn : next o (.items live l pos) = (.finished, .ended e) := by simp only [next, hi, h1]
        rw [run_ended hn]
        exact ⟨List.nodup_nil, fun k h => by cases h⟩
      · have hn : next o (.items live l pos) = next o (.names o.props.keys 0) := by simp only [next, hi]
        have hr : run o (.items live l pos) (cs :: script) = run o (.names o.props.keys 0) (cs :: script) := by
          rw [run, run, hn]
        rw [hr]
        obtain ⟨h3, h4⟩ := names_nodup (cs :: script) o o.props.keys hd 0
        refine ⟨h3, fun k hk => ?_⟩
        obtain ⟨m, hm⟩ := h4 _ hk
        cases hm

/-- C88: if the array of the object is a dense one when the loop starts, no key comes twice, whatever the loop body does,
even if the array becomes a sparse one.  (Not so if it is a sparse one, see `C88_sparse_twice`.) -/
theorem C88_once_partial (before : List (Change α)) (hb : ∀ c ∈ before, Proper c) (script : List (List (Change α)))
    (hd : ∃ d, (built before).array = .dense d) : (came (loop (built before) script)).Nodup := by
  obtain ⟨d, hd⟩ := hd
  have : start (built before) = (built before, .items true d.items 0) := by unfold start; rw [hd]
  unfold loop
  rw [this]
  exact (items_once script _ _ _ _ (built_inv before hb).names).1

/-- A loop that adds an element after each one, until the array becomes a sparse one. -/
example : let before : List (Change Nat) := [.set (.idx 0) (some 1)]
    (built before).array = .dense ⟨[some 1], 1⟩ ∧
    came (loop (built before) [[.set (.idx 3) (some 1)], [.set (.idx 5) (some 1)], [.set (.idx 90) (some 1)], [], []])
      = [.idx 0, .idx 3, .idx 5] := by
  decide +kernel

/-! ### Where it fails -/

/-- C88: in a sparse array an element comes though it was deleted when the loop was at an earlier one; reading it then is a
KeyError.  (`for key, value in obj.items()` reads each key that comes, so such a loop ends with the KeyError.)  If the
deleted element is the last one it does not come. -/
theorem C88_sparse_stale :
    let before : List (Change Nat) := [.set (.idx 0) (some 1), .set (.idx 50) (some 2), .set (.idx 100) (some 3)]
    let r := loop (built before) [[.del (.idx 50)], [], [], []]
    came r = [.idx 0, .idx 50, .idx 100] ∧ r.2 = some .stop ∧
    (r.1.map fun e => e.2.getitem e.1) = [.ok 1, .error .keyError, .ok 3] ∧
    came (loop (built before) [[.del (.idx 100)], [], [], []]) = [.idx 0, .idx 50] := by
  decide +kernel

/-- C88: in a sparse array a key can come twice: the last element is deleted and set again after others were set below
it. -/
theorem C88_sparse_twice :
    let before : List (Change Nat) := [.set (.idx 0) (some 1), .set (.idx 100) (some 3)]
    let r := loop (built before) [[], [.del (.idx 100), .set (.idx 50) (some 5), .set (.idx 60) (some 6),
      .set (.idx 100) (some 7)], [], [], []]
    came r = [.idx 0, .idx 100, .idx 60, .idx 100] ∧ r.2 = some .stop := by
  decide +kernel

/-- C88: once the array has become a sparse one, the loop goes on with the elements of the old array: deleted elements
come. -/
theorem C88_switch_stale :
    let before : List (Change Nat) := [.set (.idx 0) (some 1), .set (.idx 1) (some 2), .set (.idx 2) (some 3)]
    let r := loop (built before) [[.set (.idx 100) (some 9), .del (.idx 1)], [], [], []]
    came r = [.idx 0, .idx 1, .idx 2] ∧ (r.1.map fun e => e.2.getitem e.1) = [.ok 1, .error .keyError, .ok 3] := by
  decide +kernel

/-! ### Names -/

theorem changes_names (cs : List (Change α)) (l : List Str) (pos : Nat) : ∀ (o : JSObj α),
    (cs.foldl change (o, .names l pos)).2 = .names l pos := by
  induction cs with
  | nil => exact fun o => rfl
  | cons c cs ih => exact fun o => ih _

theorem next_name {o : JSObj α} {cur cur' : Cursor α} {n : Str} (h : next o cur = (cur', .key (.name n))) :
    ∃ pos, cur' = .names o.props.keys pos := by
  have names : ∀ l pos, nextName o l pos = (cur', .key (.name n)) → ∃ pos, cur' = .names o.props.keys pos := by
    intro l pos hn
    rcases nextName_cases o l pos with ⟨e, h1, _⟩ | ⟨n, h1, _, h3⟩
    · rw [h1] at hn; cases hn
    · rw [h1] at hn; cases hn; exact ⟨_, by rw [h3]⟩
  cases cur with
  | items live l pos =>
    simp only [next] at h
    split at h
    · cases h
    · exact names _ _ h
  | keys live l pos =>
    simp only [next] at h
    split at h
    · cases h
    · exact names _ _ h
  | names l pos => exact names _ _ h
  | finished => simp only [next] at h; cases h

theorem run_names_error (script : List (List (Change α))) : ∀ (o : JSObj α) (cur : Cursor α) (i : Nat) (n : Str)
    (oi : JSObj α) (cs : List (Change α)), (run o cur script).1[i]? = some (.name n, oi) → script[i]? = some cs →
    (cs.foldl Change.apply oi).props.length ≠ oi.props.length → i + 1 < script.length →
    (run o cur script).1.length = i + 1 ∧ (run o cur script).2 = some .runtimeError := by
  induction script with
  | nil => intro o cur i n oi cs h; cases h
  | cons c script ih =>
    intro o cur i n oi cs h1 h2 h3 h4
    cases hn : next o cur with
    | mk cur' r =>
      cases r with
      | ended x => rw [run_ended hn] at h1; cases h1
      | key k =>
        rw [run_key hn] at h1 ⊢
        cases i with
        | succ i =>
          obtain ⟨h5, h6⟩ := ih _ _ i n oi cs (by simpa using h1) (by simpa using h2) h3 (by simpa using h4)
          exact ⟨by simpa using h5, h6⟩
        | zero =>
          simp only [List.getElem?_cons_zero, Option.some.injEq, Prod.mk.injEq] at h1 h2
          obtain ⟨rfl, rfl⟩ := h1
          subst h2
          obtain ⟨pos, rfl⟩ := next_name hn
          rw [changes_names, changes_obj]
          cases script with
          | nil => simp at h4
          | cons c' script =>
            have : next (c.foldl Change.apply o) (.names o.props.keys pos) = (.finished, .ended .runtimeError) := by
              simp only [next, nextName]
              rw [if_pos (by rw [Dict.length_keys]; exact h3)]
            rw [run_ended this]
            exact ⟨rfl, rfl⟩

/-- C88: when the loop has come to the names and its body adds or deletes names, so that there are more or fewer of them,
the loop ends with a RuntimeError instead of the next key. -/
theorem C88_names_error (before : List (Change α)) (script : List (List (Change α))) (i : Nat) (n : Str) (o : JSObj α)
    (cs : List (Change α)) (hi : (loop (built before) script).1[i]? = some (.name n, o)) (hs : script[i]? = some cs)
    (hn : (cs.foldl Change.apply o).props.length ≠ o.props.length) (hl : i + 1 < script.length) :
    (loop (built before) script).1.length = i + 1 ∧ (loop (built before) script).2 = some .runtimeError :=
  run_names_error script _ _ i n o cs hi hs hn hl

/-- Deleting each key as it comes works for index keys and is a RuntimeError at the first name. -/
example : let before : List (Change Nat) := [.set (.idx 0) (some 1), .set (.idx 1) (some 2), .set (.name [97]) (some 3),
      .set (.name [98]) (some 4)]
    let r := loop (built before) [[.del (.idx 0)], [.del (.idx 1)], [.del (.name [97])], [.del (.name [98])], []]
    came r = [.idx 0, .idx 1, .name [97]] ∧ r.2 = some .runtimeError := by
  decide +kernel

/-! ### Deleting what has come -/

/-- What a tidy loop body may do after `n` keys have come: give a value to a property that was there at the start, and take
away elements that have come. -/
def Tidy (K : List Nat) (N : List Str) (n : Nat) (c : Change α) : Prop :=
  (∃ k v, c = .set (.idx k) (some v) ∧ k ∈ K) ∨ (∃ m v, c = .set (.name m) (some v) ∧ m ∈ N) ∨
    ∃ j, Removes (.idx j) c ∧ j ∈ K.take n

/-- Where a loop is after `n` keys have come, if all is tidy. -/
def Place (K : List Nat) (N : List Str) (n : Nat) : Cursor α → Prop
  | .items _ l pos => n ≤ K.length ∧ (∀ k : Nat, (pos ≤ k ∧ ∃ v, l[k]? = some (some v)) ↔ k ∈ K.drop n) ∧
      ∀ k ∈ K.take n, k < pos
  | .keys live l pos => n ≤ K.length ∧ pos = n ∧ l.drop n = K.drop n ∧
      (live = true → l.Pairwise (· < ·) ∧ ∀ x ∈ l, x ∈ K)
  | .names l pos => l = N ∧ n = K.length + pos
  | .finished => False

structure Orderly (K : List Nat) (N : List Str) (n : Nat) (o : JSObj α) (cur : Cursor α) : Prop where
  names : o.props.keys = N
  below : ∀ k ∈ K, (k : Int) < o.array.len
  live : Live o cur
  place : Place K N n cur

theorem tidy_idx {K : List Nat} {N : List Str} {n : Nat} {c : Change α} (h : Tidy K N n c) {k : Nat}
    (hk : (∃ v, c = .set (.idx k) v) ∨ Removes (.idx k) c) : k ∈ K := by
  rcases h with ⟨k', v, rfl, h⟩ | ⟨m, v, rfl, h⟩ | ⟨j, hr, h⟩
  · rcases hk with ⟨v', e⟩ | e | e
    · cases e; exact h
    · cases e
    · cases e
  · rcases hk with ⟨v', e⟩ | e | e <;> cases e
  · have := List.mem_of_mem_take h
    rcases hr with rfl | rfl <;> rcases hk with ⟨v', e⟩ | e | e <;> cases e <;> exact this

theorem tidy_grows {K : List Nat} {N : List Str} {n : Nat} {c : Change α} (h : Tidy K N n c) {o : JSObj α}
    (hb : ∀ k ∈ K, (k : Int) < o.array.len) : grows o c = false := by
  cases c with
  | del k => rfl
  | set key v =>
    cases key with
    | name m => rfl
    | idx k =>
      have := hb k (tidy_idx h (Or.inl ⟨v, rfl⟩))
      simp [grows, this]

theorem tidy_names {K : List Nat} {N : List Str} {n : Nat} {c : Change α} (h : Tidy K N n c) {o : JSObj α}
    (hN : o.props.keys = N) : (c.apply o).props.keys = N := by
  rcases h with ⟨k', v, rfl, h⟩ | ⟨m, v, rfl, h⟩ | ⟨j, rfl | rfl, h⟩
  · rw [(apply_idx_props o k' _).1]; exact hN
  · simp only [Change.apply, JSObj.setitem]
    rw [Dict.keys_set_of_mem _ _ _ (by rw [hN]; exact h)]; exact hN
  · rw [(apply_idx_props o j none).2]; exact hN
  · rw [(apply_idx_props o j none).1]; exact hN

/-- A tidy change leaves the length of the array alone. -/
theorem tidy_len {K : List Nat} {N : List Str} {n : Nat} {c : Change α} (h : Tidy K N n c) {o : JSObj α}
    (hb : ∀ k ∈ K, (k : Int) < o.array.len) : (c.apply o).array.len = o.array.len := by
  cases ha : o.array with
  | dense d =>
    rw [ha] at hb
    simp only [Arr.len, Dense.len] at hb
    rcases dense_apply ha c with ⟨d', h1, h2⟩ | ⟨s, k, v, _, h2, h3⟩
    · rw [h1]
      simp only [Arr.len, Dense.len]
      rcases h2 with h2 | ⟨k, v, m, h3, h4, h5⟩
      · rw [h2]
      · have hk : k ∈ K := tidy_idx h (by
          rcases h3 with ⟨_, h3⟩ | ⟨_, h3⟩
          · exact Or.inl ⟨_, h3⟩
          · exact Or.inr h3)
        rw [h4, h5 (by have := hb k hk; omega)]
        simp
    · have := hb k (tidy_idx h (Or.inl ⟨v, h2⟩))
      omega
  | sparse s =>
    obtain ⟨s', h1, h2⟩ := sparse_apply ha c
    rw [h1]
    simp only [Arr.len, Sparse.len, (h2 (tidy_grows h hb)).1]

theorem orderly_change {K : List Nat} (hK : K.Pairwise (· < ·)) {N : List Str} {n : Nat} {o : JSObj α} {cur : Cursor α}
    (h : Orderly K N n o cur) {c : Change α} (hc : Tidy K N n c) : Orderly K N n (c.apply o) (track o c cur) := by
  refine ⟨tidy_names hc h.names, fun k hk => by rw [tidy_len hc h.below]; exact h.below k hk, live_change h.live c, ?_⟩
  have hnd : K.Nodup := hK.imp (fun h => Nat.ne_of_lt h)
  have apart : ∀ j, j ∈ K.take n → j ∈ K.drop n → False := by
    intro j h1 h2
    have := List.nodup_append.1 (show (K.take n ++ K.drop n).Nodup by rw [List.take_append_drop]; exact hnd)
    exact this.2.2 j h1 j h2 rfl
  have hp := h.place
  have hl := h.live
  cases cur with
  | items live l pos =>
    cases live with
    | false => exact hp
    | true =>
      obtain ⟨d, hd, rfl⟩ := hl
      simp only [track]
      rcases dense_apply hd c with ⟨d', h1, h2⟩ | ⟨s, k, v, h1, h2, h3⟩
      · rw [h1]
        obtain ⟨p1, p2, p3⟩ := hp
        refine ⟨p1, ?_, p3⟩
        rcases h2 with h2 | ⟨k, v, m, h3, h4, h5⟩
        · rw [h2]; exact p2
        · have hkl : k < d.items.length := by
            have := h.below k (tidy_idx hc (by
              rcases h3 with ⟨_, h3⟩ | ⟨_, h3⟩
              · exact Or.inl ⟨_, h3⟩
              · exact Or.inr h3))
            rw [hd] at this
            simp only [Arr.len, Dense.len] at this
            omega
          rw [h4, h5 hkl, List.replicate_zero, List.append_nil]
          intro x
          rw [List.getElem?_set]
          by_cases he : k = x
          · subst he
            rw [if_pos rfl, if_pos hkl]
            rcases h3 with ⟨hs, rfl⟩ | ⟨rfl, hr⟩
            · obtain ⟨w, rfl⟩ := Option.isSome_iff_exists.1 hs
              have hkK : k ∈ K := tidy_idx hc (Or.inl ⟨_, rfl⟩)
              constructor
              · rintro ⟨q1, _⟩
                rw [← List.take_append_drop n K] at hkK
                rcases List.mem_append.1 hkK with q | q
                · have := p3 k q; omega
                · exact q
              · intro q
                exact ⟨((p2 k).2 q).1, w, rfl⟩
            · constructor
              · rintro ⟨_, v, q⟩; cases q
              · intro q
                rcases hc with ⟨k', v, rfl, hc⟩ | ⟨m', v, rfl, hc⟩ | ⟨j, hr', hc⟩
                · rcases hr with e | e <;> cases e
                · rcases hr with e | e <;> cases e
                · have : j = k := by
                    rcases hr' with rfl | rfl <;> rcases hr with e | e <;> cases e <;> rfl
                  subst this
                  exact (apart j hc q).elim
          · rw [if_neg he]; exact p2 x
      · rw [h1]; exact hp
  | keys live l pos =>
    cases live with
    | false => exact hp
    | true =>
      obtain ⟨s, hs, hl⟩ := hl
      obtain ⟨p1, rfl, p2, p3⟩ := hp
      obtain ⟨p3, p4⟩ := p3 rfl
      obtain ⟨s', h1, h2⟩ := sparse_apply hs c
      have hg := tidy_grows hc h.below
      simp only [track]
      cases hk : sameKeys o c with
      | none => exact ⟨p1, rfl, p2, fun h => by cases h⟩
      | some l' =>
        simp only [sameKeys, h1, hg, Bool.false_eq_true, if_false] at hk
        rcases (h2 hg).2 l hl with h3 | h3 | ⟨k, hr, hlast, h3⟩ | ⟨k, v, rfl, hlast, h3⟩
        · rw [hk] at h3; cases h3
        · rw [hk] at h3; cases h3; exact ⟨p1, rfl, p2, fun _ => ⟨p3, p4⟩⟩
        · rw [hk] at h3; cases h3
          have hkt : k ∈ K.take pos := by
            rcases hc with ⟨k', v, rfl, hc⟩ | ⟨m', v, rfl, hc⟩ | ⟨j, hr', hc⟩
            · rcases hr with e | e <;> cases e
            · rcases hr with e | e <;> cases e
            · have : j = k := by
                rcases hr' with rfl | rfl <;> rcases hr with e | e <;> cases e <;> rfl
              rw [← this]; exact hc
          have hlen : l.length ≤ pos := by
            by_contra hlt
            have hk2 : k ∈ l.drop pos := by
              rw [List.getLast?_eq_getElem?] at hlast
              refine List.mem_iff_getElem?.2 ⟨l.length - 1 - pos, ?_⟩
              rw [List.getElem?_drop, show pos + (l.length - 1 - pos) = l.length - 1 by omega]
              exact hlast
            exact apart k hkt (by rw [← p2]; exact hk2)
          refine ⟨p1, rfl, ?_, fun _ => ⟨p3.sublist (List.dropLast_sublist l), fun x hx => p4 x (List.dropLast_subset l hx)⟩⟩
          rw [← p2, List.drop_eq_nil_of_le hlen, List.drop_eq_nil_of_le (by simp; omega)]
        · rw [hk] at h3; cases h3
          have hkK : k ∈ K := tidy_idx hc (Or.inl ⟨_, rfl⟩)
          have hall : ∀ x ∈ l, x < k := by
            intro x hx
            unfold lastKey at hlast
            obtain ⟨j, hj⟩ := List.mem_iff_getElem?.1 hx
            have hjl := (List.getElem?_eq_some_iff.1 hj).1
            have hll : l.getLast? = some l[l.length - 1] := by
              rw [List.getLast?_eq_getElem?, List.getElem?_eq_getElem (by omega)]
            rw [hll] at hlast
            simp only at hlast
            have hxe : l[j] = x := (List.getElem?_eq_some_iff.1 hj).2
            rcases Nat.eq_or_lt_of_le (show j ≤ l.length - 1 by omega) with e | e
            · subst e; omega
            · have := List.pairwise_iff_getElem.1 p3 j (l.length - 1) hjl (by omega) e
              omega
          have hsort : (l ++ [k]).Pairwise (· < ·) := by
            rw [List.pairwise_append]
            exact ⟨p3, by simp, fun a ha b hb => by simp at hb; subst hb; exact hall a ha⟩
          have hsub : ∀ x ∈ l ++ [k], x ∈ K := by
            intro x hx
            rcases List.mem_append.1 hx with hx | hx
            · exact p4 x hx
            · simp at hx; subst hx; exact hkK
          have hdrop : K.drop pos = [] := by
            by_contra hne
            have hkd : k ∈ K.drop pos := by
              have hkK' := hkK
              rw [← List.take_append_drop pos K] at hkK'
              rcases List.mem_append.1 hkK' with q | q
              · exfalso
                obtain ⟨x, hx⟩ := List.exists_mem_of_ne_nil _ hne
                have hxl : x ∈ l := List.mem_of_mem_drop (by rw [p2]; exact hx)
                have h5 := hall x hxl
                have h6 := (List.pairwise_append.1 (show (K.take pos ++ K.drop pos).Pairwise (· < ·) by
                  rw [List.take_append_drop]; exact hK)).2.2 k q x hx
                omega
              · exact q
            have : k ∈ l := List.mem_of_mem_drop (by rw [p2]; exact hkd)
            exact Nat.lt_irrefl _ (hall k this)
          refine ⟨p1, rfl, ?_, fun _ => ⟨hsort, hsub⟩⟩
          rw [hdrop]
          refine List.drop_eq_nil_of_le ?_
          have hle : (l ++ [k]).length ≤ K.length :=
            (List.subperm_of_subset (hsort.imp (fun h => Nat.ne_of_lt h)) hsub).length_le
          have : K.length ≤ pos := List.drop_eq_nil_iff.1 hdrop
          omega
  | names l pos => exact hp
  | finished => exact hp

theorem orderly_changes {K : List Nat} (hK : K.Pairwise (· < ·)) {N : List Str} {n : Nat} (cs : List (Change α))
    (hc : ∀ c ∈ cs, Tidy K N n c) : ∀ s : JSObj α × Cursor α, Orderly K N n s.1 s.2 →
      Orderly K N n (cs.foldl change s).1 (cs.foldl change s).2 := by
  induction cs with
  | nil => exact fun s h => h
  | cons c cs ih =>
    exact fun s h => ih (fun c' h' => hc c' (List.mem_cons_of_mem _ h')) (change s c)
      (orderly_change hK h (hc c List.mem_cons_self))

theorem orderly_next {K : List Nat} (hK : K.Pairwise (· < ·)) {N : List Str} {n : Nat} {o : JSObj α} {cur : Cursor α}
    (h : Orderly K N n o cur) :
    match (K.map PKey.idx ++ N.map PKey.name)[n]? with
    | some k => ∃ cur', next o cur = (cur', .key k) ∧ Orderly K N (n + 1) o cur'
    | none => ∃ cur', next o cur = (cur', .ended .stop) := by
  have names : ∀ pos, n = K.length + pos →
      match (K.map PKey.idx ++ N.map PKey.name)[n]? with
      | some k => ∃ cur', nextName o N pos = (cur', .key k) ∧ Orderly K N (n + 1) o cur'
      | none => ∃ cur', nextName o N pos = (cur', .ended .stop) := by
    intro pos hn
    rw [List.getElem?_append_right (by simp; omega)]
    simp only [List.length_map, List.getElem?_map]
    have : n - K.length = pos := by omega
    rw [this]
    unfold nextName
    rw [if_neg (by rw [← h.names, Dict.length_keys]; simp), if_neg (by rw [h.names]; simp)]
    cases hp : N[pos]? with
    | none => exact ⟨_, rfl⟩
    | some m => exact ⟨_, rfl, h.names, h.below, trivial, rfl, by omega⟩
  have hp := h.place
  have hl := h.live
  have elem : ∀ k, K[n]? = some k → (K.map PKey.idx ++ N.map PKey.name)[n]? = some (.idx k) := by
    intro k hk
    rw [List.getElem?_append_left (by simpa using (List.getElem?_eq_some_iff.1 hk).1), List.getElem?_map, hk]
    rfl
  have step : ∀ k, K[n]? = some k → K.drop n = k :: K.drop (n + 1) ∧ K.take (n + 1) = K.take n ++ [k] := by
    intro k hk
    have hlt := List.getElem?_eq_some_iff.1 hk
    refine ⟨by rw [← hlt.2]; exact List.drop_eq_getElem_cons hlt.1, ?_⟩
    rw [List.take_add_one, hk]; rfl
  cases cur with
  | items live l pos =>
    obtain ⟨p1, p2, p3⟩ := hp
    have hs := scan_drop l pos
    cases hk : K[n]? with
    | some k =>
      rw [elem k hk]
      obtain ⟨q1, q2⟩ := step k hk
      have hkd : k ∈ K.drop n := by rw [q1]; exact List.mem_cons_self
      obtain ⟨hpk, v, hv⟩ := (p2 k).2 hkd
      have hsd : (k :: K.drop (n + 1)).Pairwise (· < ·) := by rw [← q1]; exact hK.sublist (List.drop_sublist _ _)
      cases hi : scan (l.drop pos) pos with
      | none => rw [hi] at hs; exact absurd hv (hs k v hpk)
      | some i =>
        rw [hi] at hs
        obtain ⟨h1, ⟨w, h2⟩, h3⟩ := hs
        have hid : i ∈ K.drop n := (p2 i).1 ⟨h1, w, h2⟩
        have hik : i = k := by
          have : ¬ k < i := fun hlt => h3 k v hpk hlt hv
          rw [q1] at hid
          rcases List.mem_cons.1 hid with e | e
          · exact e
          · have := (List.pairwise_cons.1 hsd).1 i e; omega
        subst hik
        refine ⟨.items live l (i + 1), by simp only [next, hi], h.names, h.below, ?_, ?_⟩
        · cases live <;> exact hl
        · refine ⟨(List.getElem?_eq_some_iff.1 hk).1, fun x => ?_, fun x hx => ?_⟩
          · constructor
            · rintro ⟨r1, r2⟩
              have := (p2 x).1 ⟨by omega, r2⟩
              rw [q1] at this
              rcases List.mem_cons.1 this with e | e
              · omega
              · exact e
            · intro hx
              have h4 := (List.pairwise_cons.1 hsd).1 x hx
              exact ⟨h4, ((p2 x).2 (by rw [q1]; exact List.mem_cons_of_mem _ hx)).2⟩
          · rw [q2] at hx
            rcases List.mem_append.1 hx with e | e
            · have := p3 x e; omega
            · simp at e; omega
    | none =>
      have hn : K.length ≤ n := List.getElem?_eq_none_iff.1 hk
      cases hi : scan (l.drop pos) pos with
      | some i =>
        rw [hi] at hs
        obtain ⟨h1, h2, _⟩ := hs
        have := (p2 i).1 ⟨h1, h2⟩
        rw [List.drop_eq_nil_of_le hn] at this
        cases this
      | none =>
        have := names 0 (by omega)
        simp only [next, hi, h.names]
        exact this
  | keys live l pos =>
    obtain ⟨p1, rfl, p2, p3⟩ := hp
    have hlk : l[pos]? = K[pos]? := by
      have : (l.drop pos)[0]? = (K.drop pos)[0]? := by rw [p2]
      simpa [List.getElem?_drop] using this
    cases hk : K[pos]? with
    | some k =>
      rw [elem k hk]
      obtain ⟨q1, q2⟩ := step k hk
      rw [hk] at hlk
      refine ⟨.keys live l (pos + 1), by simp only [next, hlk], h.names, h.below, ?_, ?_⟩
      · cases live <;> exact hl
      · refine ⟨(List.getElem?_eq_some_iff.1 hk).1, rfl, ?_, p3⟩
        have : (l.drop pos).drop 1 = (K.drop pos).drop 1 := by rw [p2]
        simpa [List.drop_drop] using this
    | none =>
      have hn : K.length ≤ pos := List.getElem?_eq_none_iff.1 hk
      rw [hk] at hlk
      have := names 0 (by omega)
      simp only [next, hlk, h.names]
      exact this
  | names l pos =>
    obtain ⟨rfl, hn⟩ := hp
    exact names pos hn
  | finished => exact hp.elim

theorem run_orderly {K : List Nat} (hK : K.Pairwise (· < ·)) {N : List Str} (script : List (List (Change α))) :
    ∀ (n : Nat) (o : JSObj α) (cur : Cursor α), Orderly K N n o cur →
    n ≤ (K.map PKey.idx ++ N.map PKey.name).length →
    (∀ (i : Nat) cs, script[i]? = some cs → ∀ c ∈ cs, Tidy K N (n + i + 1) c) →
    came (run o cur script) = ((K.map PKey.idx ++ N.map PKey.name).drop n).take script.length ∧
    (run o cur script).2 = if (K.map PKey.idx ++ N.map PKey.name).length < n + script.length then some .stop else none := by
  induction script with
  | nil =>
    intro n o cur h hle _
    refine ⟨by simp [run, came], ?_⟩
    rw [if_neg (by simp only [List.length_nil]; omega)]
    rfl
  | cons cs script ih =>
    intro n o cur h _ hc
    have hn := orderly_next hK h
    cases hk : (K.map PKey.idx ++ N.map PKey.name)[n]? with
    | none =>
      rw [hk] at hn
      obtain ⟨cur', hn⟩ := hn
      rw [run_ended hn]
      have := List.getElem?_eq_none_iff.1 hk
      refine ⟨by rw [List.drop_eq_nil_of_le this]; simp [came], ?_⟩
      rw [if_pos (by simp only [List.length_cons]; omega)]
    | some k =>
      rw [hk] at hn
      obtain ⟨cur', hn, ho⟩ := hn
      rw [run_key hn]
      have ho' := orderly_changes hK cs (hc 0 cs rfl) (o, cur') ho
      obtain ⟨h1, h2⟩ := ih (n + 1) _ _ ho' (List.getElem?_eq_some_iff.1 hk).1 (fun i cs' hi c hc' => by
        have := hc (i + 1) cs' (by simpa using hi) c hc'
        rwa [show n + (i + 1) + 1 = n + 1 + i + 1 by omega] at this)
      have hlt := List.getElem?_eq_some_iff.1 hk
      refine ⟨?_, ?_⟩
      · have hd : (K.map PKey.idx ++ N.map PKey.name).drop n = k :: (K.map PKey.idx ++ N.map PKey.name).drop (n + 1) := by
          rw [← hlt.2]; exact List.drop_eq_getElem_cons hlt.1
        rw [hd, List.length_cons, List.take_succ_cons, ← h1]
        rfl
      · simp only [h2, List.length_cons]
        rw [show n + 1 + script.length = n + (script.length + 1) by omega]

/-- C88: a loop whose body only gives values to properties that were there at the start and takes away elements that have
come (such as the one it is at) is a loop over the keys as they were at the start: they come in the order of
`list(obj)`, each one once, and then the loop ends.  This is so for dense and for sparse arrays. -/
theorem C88_tidy (before : List (Change α)) (hb : ∀ c ∈ before, Proper c) (script : List (List (Change α)))
    (hs : ∀ (i : Nat) cs, script[i]? = some cs → ∀ c ∈ cs,
      (∃ k v, c = .set k (some v) ∧ k ∈ (built before).keys) ∨
      ∃ j, Removes (.idx j) c ∧ .idx j ∈ (built before).keys.take (i + 1)) :
    came (loop (built before) script) = (built before).keys.take script.length ∧
    (loop (built before) script).2 = if (built before).keys.length < script.length then some .stop else none := by
  have hi := built_inv before hb
  generalize ho : built before = o at hs hi
  have hke : o.keys = ((o.array.elementIndexes .ascending).map PKey.idx ++ o.props.keys.map PKey.name) := rfl
  have hK : (o.array.elementIndexes .ascending) = Spec.occupied o.array.abs := Arr.elementIndexes_eq hi.arr
  have hsort : (o.array.elementIndexes .ascending).Pairwise (· < ·) := by rw [hK]; exact occupied_sorted _
  have hord : Orderly (o.array.elementIndexes .ascending) o.props.keys 0 (start o).1 (start o).2 := by
    refine ⟨by rw [start_props], ?_, live_start o, ?_⟩
    · intro k hk
      rw [hK] at hk
      obtain ⟨v, hv⟩ := mem_occupied.1 hk
      have h1 := (List.getElem?_eq_some_iff.1 hv).1
      have h2 : (start o).1.array.len = o.array.len := by
        unfold start
        cases ha : o.array with
        | dense d => simp only [ha]
        | sparse s => rfl
      rw [h2, Arr.len_eq hi.arr]
      omega
    · unfold start
      cases ha : o.array with
      | dense d =>
        refine ⟨Nat.zero_le _, fun k => ?_, fun k hk => by simp at hk⟩
        rw [List.drop_zero, ← ha, hK, mem_occupied, ha]
        simp [Arr.abs]
      | sparse s =>
        have hsi : s.Inv := by have := hi.arr; rw [ha] at this; exact this
        obtain ⟨h1, h2⟩ := Sparse.sortedKeysNow_spec hsi
        exact ⟨Nat.zero_le _, rfl, rfl, fun _ => ⟨h1, fun x hx => hx⟩⟩
  have := run_orderly hsort script 0 _ _ hord (Nat.zero_le _) (fun i cs h c hc => by
    rcases hs i cs h c hc with ⟨k, v, rfl, hk⟩ | ⟨j, hr, hj⟩
    · rw [hke] at hk
      rcases List.mem_append.1 hk with hk | hk
      · obtain ⟨x, hx, rfl⟩ := List.mem_map.1 hk
        exact Or.inl ⟨x, v, rfl, hx⟩
      · obtain ⟨x, hx, rfl⟩ := List.mem_map.1 hk
        exact Or.inr (Or.inl ⟨x, v, rfl, hx⟩)
    · refine Or.inr (Or.inr ⟨j, hr, ?_⟩)
      rw [hke, List.take_append, List.mem_append] at hj
      rcases hj with hj | hj
      · rw [← List.map_take] at hj
        obtain ⟨x, hx, he⟩ := List.mem_map.1 hj
        cases he
        rw [show 0 + i + 1 = i + 1 by omega]; exact hx
      · obtain ⟨x, _, he⟩ := List.mem_map.1 (List.mem_of_mem_take hj)
        cases he)
  rw [hke]
  simpa [loop] using this

/-- A loop over a sparse array that deletes each element, and the last one first of all that have come. -/
example : let before : List (Change Nat) := [.set (.idx 0) (some 1), .set (.idx 50) (some 2), .set (.idx 100) (some 3),
      .set (.name [97]) (some 4)]
    let script : List (List (Change Nat)) := [[.del (.idx 0)], [.set (.idx 0) (some 5)],
      [.del (.idx 100), .set (.idx 100) (some 6), .del (.idx 50)], [.set (.name [97]) (some 7)], []]
    (∃ s, (built before).array = .sparse s) ∧ (built before).keys = [.idx 0, .idx 50, .idx 100, .name [97]] ∧
    came (loop (built before) script) = [.idx 0, .idx 50, .idx 100, .name [97]] ∧
    (loop (built before) script).2 = some .stop := by
  refine ⟨⟨⟨[(0, 1), (50, 2), (100, 3)], some [0, 50, 100], 100⟩, by decide +kernel⟩, by decide +kernel, by decide +kernel, by decide +kernel⟩

end V8.Props
