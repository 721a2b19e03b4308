import Verif.Proofs.Views
import Verif.Props.PlainEq
import Verif.Props.SetAlgebra

/-!
# C80: the views of a JSMap, and JSSet against Python sets

`Spec/JSCollections.lean` has `hasMember` (some member is the same by SameValueZero), `Spec/SetAlgebra.lean` has `Within`,
`Spec/PlainEq.lean` says how Python compares values and `Spec/Views.lean` what a Python set keeps of the values put
into it.
-/

namespace V8.Props
open V8 V8.Spec

variable {β : Type}

/-- A JSMap as the API makes them: by some history of operations on a new one. -/
def BuiltMap (m : JSMap β) : Prop := ∃ ops, m = (runHist jsMapStep [] ops).1

theorem BuiltMap.inv {m : JSMap β} (h : BuiltMap m) : m.Inv := by
  obtain ⟨ops, rfl⟩ := h
  exact (jsMap_hist ops [] JSMap.inv_empty).1

/-- The keys of a JSMap in order. -/
def keysOf (m : JSMap β) : List Val := m.items.map (·.1)

theorem once_keys {m : JSMap β} (h : m.Inv) : Once (keysOf m) := by
  unfold Once keysOf
  rw [List.pairwise_map]
  exact KeyedInv.pairwise h

theorem keys_fit {m : JSMap β} (h : m.Inv) {k : Val} (hk : k ∈ keysOf m) : ¬ TooBig k := by
  unfold keysOf JSMap.items at hk
  rw [List.map_map] at hk
  obtain ⟨e, he, rfl⟩ := List.mem_map.1 hk
  intro hb
  have h1 := h.2 e he
  have h2 := (svz_error_iff e.2.1 .overflowError).2 ⟨hb, rfl⟩
  exact absurd (h1.symm.trans h2) (by simp)

theorem map_contains {m : JSMap β} (h : m.Inv) {k : Val} (hk : ¬ TooBig k) :
    m.contains k = .ok (hasMember k (keysOf m)) := by
  unfold JSMap.contains
  rw [getitem_eq h, if_neg hk]
  cases hl : mapLookup k m.items with
  | none =>
    have := mapLookup_none.1 hl
    simp only
    rw [show hasMember k (keysOf m) = false from this]
  | some v =>
    have : hasMember k (keysOf m) ≠ false := fun hn => by
      rw [mapLookup_none.2 hn] at hl
      cases hl
    simp only
    rw [Bool.eq_true_of_not_eq_false this]

theorem map_get {m : JSMap β} (h : m.Inv) {e : Val × β} (he : e ∈ m.items) : m.getitem e.1 = .ok e.2 := by
  have hk : ¬ TooBig e.1 := keys_fit h (List.mem_map_of_mem he)
  rw [getitem_eq h, if_neg hk]
  have : mapLookup e.1 m.items = some e.2 := (mapLookup_some (once_keys h)).2 ⟨e, he, svz_refl _, rfl⟩
  rw [this]

/-! ## Going through the views -/

/-- **C80.** Looking every key up again, the views of the items and of the values go through the entries of the JSMap
in order, without an exception. -/
theorem C80_iteration (m : JSMap β) (h : BuiltMap m) :
    m.itemsIter = .ok m.items ∧ m.valuesIter = .ok (m.items.map (·.2)) := by
  have key : ∀ l : List (Val × β), (∀ e ∈ l, e ∈ m.items) → m.lookUp (l.map (·.1)) = .ok l := by
    intro l
    induction l with
    | nil => intro _; rfl
    | cons e t ih =>
      intro hl
      have h1 := map_get h.inv (hl e List.mem_cons_self)
      have h2 := ih (fun x hx => hl x (List.mem_cons_of_mem _ hx))
      simp only [List.map_cons, JSMap.lookUp, h1, h2]
  have hi : m.itemsIter = .ok m.items := key m.items (fun _ he => he)
  refine ⟨hi, ?_⟩
  unfold JSMap.valuesIter
  rw [hi]
  rfl

/-! ## Membership -/

/-- **C80.** `k in m.keys()`: some key is the same as `k`. -/
theorem C80_key_in (m : JSMap β) (h : BuiltMap m) (k : Val) (hk : ¬ TooBig k) :
    (SetView.ofKeys m).has k = .ok (hasMember k (m.items.map (·.1))) :=
  map_contains h.inv hk

/-- **C80.** `(k, x) in m.items()`: some entry has the same key as `k`, and its value is `x` or equals it. -/
theorem C80_item_in (py : PyCompare) (m : JSMap Val) (h : BuiltMap m) (k x : Val) (hk : ¬ TooBig k) :
    m.itemsHas py (k, x) = .ok true ↔ ∃ e ∈ m.items, SameValueZero e.1 k ∧ Equal py e.2 x := by
  unfold JSMap.itemsHas
  simp only
  rw [getitem_eq h.inv, if_neg hk]
  cases hl : mapLookup k m.items with
  | none =>
    simp only [Except.ok.injEq, Bool.false_eq_true, false_iff]
    rintro ⟨e, he, hs, _⟩
    have := mapLookup_none.1 hl
    rw [hasMember_iff.2 ⟨e.1, List.mem_map_of_mem he, hs⟩] at this
    cases this
  | some v =>
    simp only
    rw [same_or_eq_true]
    obtain ⟨e, he, hs, rfl⟩ := (mapLookup_some (once_keys h.inv)).1 hl
    constructor
    · exact fun hq => ⟨e, he, hs, hq⟩
    · rintro ⟨e', he', hs', hq⟩
      have : mapLookup k m.items = some e'.2 := (mapLookup_some (once_keys h.inv)).2 ⟨e', he', hs', rfl⟩
      rw [hl] at this
      rw [Option.some.inj this]
      exact hq

/-- **C80.** A key that is an int too big for a double cannot be looked for: `in` raises OverflowError, for keys as for
items. -/
theorem C80_too_big (py : PyCompare) (m : JSMap Val) (h : BuiltMap m) (k x : Val) (hk : TooBig k) :
    (SetView.ofKeys m).has k = .error .overflowError ∧ m.itemsHas py (k, x) = .error .overflowError := by
  have hg : m.getitem k = .error .overflowError := by rw [getitem_eq h.inv, if_pos hk]
  constructor
  · show m.contains k = _
    unfold JSMap.contains
    rw [hg]
  · unfold JSMap.itemsHas
    simp only
    rw [hg]

example : TooBig (.int (2 ^ 1024)) := by decide +kernel

/-- **C80.** `x in m.values()`: some value is `x` or equals it (where comparing values raises nothing). -/
theorem C80_value_in (py : PyCompare) (m : JSMap Val) (h : BuiltMap m) (x : Val)
    (ht : ∀ e ∈ m.items, ∃ b, py.eq e.2 x = .ok b) :
    ∃ b, m.valuesHas py x = .ok b ∧ (b = true ↔ ∃ e ∈ m.items, Equal py e.2 x) := by
  have key : ∀ l : List (Val × Val), (∀ e ∈ l, e ∈ m.items) →
      ∃ b, m.valuesHasIn py x (l.map (·.1)) = .ok b ∧ (b = true ↔ ∃ e ∈ l, Equal py e.2 x) := by
    intro l
    induction l with
    | nil => intro _; exact ⟨false, rfl, by simp⟩
    | cons e t ih =>
      intro hl
      obtain ⟨c, hc, hcq⟩ := ih (fun x hx => hl x (List.mem_cons_of_mem _ hx))
      have h1 := map_get h.inv (hl e List.mem_cons_self)
      obtain ⟨d, hd⟩ : ∃ d, py.same_or_eq e.2 x = .ok d := by
        unfold PyCompare.same_or_eq
        by_cases hs : py.same e.2 x = true
        · exact ⟨true, by rw [if_pos hs]⟩
        · rw [if_neg hs]; exact ht e (hl e List.mem_cons_self)
      have hq := same_or_eq_true (py := py) (v := e.2) (w := x)
      rw [hd] at hq
      simp only [List.map_cons, JSMap.valuesHasIn, h1, hd]
      cases d with
      | true => exact ⟨true, rfl, by simp [hq.1 rfl]⟩
      | false =>
        refine ⟨c, hc, hcq.trans ?_⟩
        have hn : ¬ Equal py e.2 x := fun hh => by have := hq.2 hh; cases this
        simp [hn]
  exact key m.items (fun _ he => he)

/-! ## Comparing the keys of two JSMaps -/

theorem view_le {m m' : JSMap β} (h : m.Inv) (h' : m'.Inv) :
    ∃ b, (SetView.ofKeys m).le (SetView.ofKeys m') = .ok b ∧ (b = true ↔ Within (keysOf m) (keysOf m')) := by
  unfold SetView.le
  by_cases hl : (SetView.ofKeys m).els.length > (SetView.ofKeys m').els.length
  · refine ⟨false, by rw [if_pos hl], ?_⟩
    simp only [Bool.false_eq_true, false_iff]
    intro hw
    have := Once.length_le (once_keys h) (fun v hv => hw v (hasMember_of_mem hv))
    exact absurd hl (by simpa [SetView.ofKeys, keysOf] using this)
  · rw [if_neg hl]
    obtain ⟨b, hb, hq⟩ := allE_iff (test := (SetView.ofKeys m').has) (l := (SetView.ofKeys m).els)
      (P := fun v => hasMember v (keysOf m') = true)
      (fun v hv => ⟨_, map_contains h' (keys_fit h hv), Iff.rfl⟩)
    refine ⟨b, hb, hq.trans ?_⟩
    rw [← within_iff, List.all_eq_true]
    rfl

theorem view_ge {m m' : JSMap β} : (SetView.ofKeys m).ge (SetView.ofKeys m') =
    (SetView.ofKeys m').le (SetView.ofKeys m) := rfl

/-- **C80.** The keys of two JSMaps compare as sets of keys, where keys are the same by SameValueZero: `<=` and `>=`
are inclusion, `<` and `>` proper inclusion, and they are `==` when both have the same keys, in any order. -/
theorem C80_compare_keys (m m' : JSMap β) (h : BuiltMap m) (h' : BuiltMap m') :
    let a := m.items.map (·.1)
    let a' := m'.items.map (·.1)
    (∃ b, (SetView.ofKeys m).le (SetView.ofKeys m') = .ok b ∧ (b = true ↔ Within a a')) ∧
    (∃ b, (SetView.ofKeys m).ge (SetView.ofKeys m') = .ok b ∧ (b = true ↔ Within a' a)) ∧
    (∃ b, (SetView.ofKeys m).lt (SetView.ofKeys m') = .ok b ∧ (b = true ↔ Within a a' ∧ ¬ Within a' a)) ∧
    (∃ b, (SetView.ofKeys m).gt (SetView.ofKeys m') = .ok b ∧ (b = true ↔ Within a' a ∧ ¬ Within a a')) ∧
    (∃ b, (SetView.ofKeys m).eqv (SetView.ofKeys m') = .ok b ∧ (b = true ↔ Within a a' ∧ Within a' a)) := by
  intro a a'
  have hi := h.inv
  have hi' := h'.inv
  have ha : (SetView.ofKeys m).els = a := rfl
  have ha' : (SetView.ofKeys m').els = a' := rfl
  have sub : Within a a' → a.length ≤ a'.length := fun hw =>
    Once.length_le (once_keys hi) (fun v hv => hw v (hasMember_of_mem hv))
  have sub' : Within a' a → a'.length ≤ a.length := fun hw =>
    Once.length_le (once_keys hi') (fun v hv => hw v (hasMember_of_mem hv))
  have full : Within a a' → a.length = a'.length → Within a' a := fun hw hl =>
    Once.within_of_length (once_keys hi) hw hl.ge
  have full' : Within a' a → a'.length = a.length → Within a a' := fun hw hl =>
    Once.within_of_length (once_keys hi') hw hl.ge
  obtain ⟨b, hb, hq⟩ := view_le hi hi'
  obtain ⟨c, hc, hr⟩ := view_le hi' hi
  refine ⟨⟨b, hb, hq⟩, ⟨c, hc, hr⟩, ?_, ?_, ?_⟩
  · unfold SetView.lt
    rw [ha, ha']
    by_cases hl : a.length < a'.length
    · rw [if_pos hl]
      refine ⟨b, hb, hq.trans ⟨fun hw => ⟨hw, fun hw' => ?_⟩, fun hw => hw.1⟩⟩
      have := sub' hw'
      omega
    · rw [if_neg hl]
      refine ⟨false, rfl, ?_⟩
      simp only [Bool.false_eq_true, false_iff]
      rintro ⟨h1, h2⟩
      have := sub h1
      exact h2 (full h1 (by omega))
  · unfold SetView.gt
    rw [ha, ha', view_ge]
    by_cases hl : a.length > a'.length
    · rw [if_pos hl]
      refine ⟨c, hc, hr.trans ⟨fun hw => ⟨hw, fun hw' => ?_⟩, fun hw => hw.1⟩⟩
      have := sub hw'
      omega
    · rw [if_neg hl]
      refine ⟨false, rfl, ?_⟩
      simp only [Bool.false_eq_true, false_iff]
      rintro ⟨h1, h2⟩
      have := sub' h1
      exact h2 (full' h1 (by omega))
  · unfold SetView.eqv
    rw [ha, ha']
    by_cases hl : a.length = a'.length
    · rw [if_pos hl]
      exact ⟨b, hb, hq.trans ⟨fun hw => ⟨hw, full hw hl⟩, fun hw => hw.1⟩⟩
    · rw [if_neg hl]
      refine ⟨false, rfl, ?_⟩
      simp only [Bool.false_eq_true, false_iff]
      rintro ⟨h1, h2⟩
      have := sub h1
      have := sub' h2
      omega

/-! ## Comparing the items of two JSMaps -/

theorem items_le {py : PyCompare} (ht : ∀ v w, ∃ b, py.eq v w = .ok b) {m m' : JSMap Val} (h : BuiltMap m)
    (h' : BuiltMap m') :
    ∃ b, m.itemsLe py m' = .ok b ∧ (b = true ↔ ∀ e ∈ m.items, ∃ e' ∈ m'.items, SameEntry py e e') := by
  unfold JSMap.itemsLe
  have hlen : ∀ n : JSMap Val, n.len = (keysOf n).length := fun n => by simp [JSMap.len, keysOf, JSMap.items]
  by_cases hl : m.len > m'.len
  · refine ⟨false, by rw [if_pos hl], ?_⟩
    simp only [Bool.false_eq_true, false_iff]
    intro hall
    have := Once.length_le (once_keys h.inv) (l' := keysOf m') (fun v hv => by
      obtain ⟨e, he, rfl⟩ := List.mem_map.1 hv
      obtain ⟨e', he', hs⟩ := hall e he
      exact hasMember_iff.2 ⟨e'.1, List.mem_map_of_mem he', hs.1⟩)
    rw [hlen, hlen] at hl
    omega
  · rw [if_neg hl, (C80_iteration m h).1]
    have key : ∀ l : List (Val × Val), (∀ e ∈ l, e ∈ m.items) →
        ∃ b, m'.allItems py l = .ok b ∧ (b = true ↔ ∀ e ∈ l, ∃ e' ∈ m'.items, SameEntry py e e') := by
      intro l
      induction l with
      | nil => intro _; exact ⟨true, rfl, by simp⟩
      | cons e t ih =>
        intro hl
        obtain ⟨c, hc, hcq⟩ := ih (fun x hx => hl x (List.mem_cons_of_mem _ hx))
        have hk : ¬ TooBig e.1 := keys_fit h.inv (List.mem_map_of_mem (hl e List.mem_cons_self))
        have hin := C80_item_in py m' h' e.1 e.2 hk
        obtain ⟨d, hd⟩ : ∃ d, m'.itemsHas py (e.1, e.2) = .ok d := by
          unfold JSMap.itemsHas
          simp only
          rw [getitem_eq h'.inv, if_neg hk]
          cases mapLookup e.1 m'.items with
          | none => exact ⟨false, rfl⟩
          | some v =>
            simp only
            unfold PyCompare.same_or_eq
            by_cases hs : py.same v e.2 = true
            · exact ⟨true, by rw [if_pos hs]⟩
            · rw [if_neg hs]; exact ht _ _
        rw [hd] at hin
        unfold JSMap.allItems
        rw [show m'.itemsHas py e = .ok d from hd]
        cases d with
        | false =>
          refine ⟨false, rfl, ?_⟩
          simp only [Bool.false_eq_true, false_iff]
          intro hall
          have := hin.2 (hall e List.mem_cons_self)
          cases this
        | true =>
          refine ⟨c, hc, ?_⟩
          rw [hcq, List.forall_mem_cons]
          exact ⟨fun hh => ⟨hin.1 rfl, hh⟩, fun hh => hh.2⟩
    exact key m.items (fun _ he => he)

/-- **C80.** The items of a JSMap are `<=` the items of another one when each is in the other, with the same key and an
equal value; they are `==` when the items match one to one in any order (where comparing values raises nothing). -/
theorem C80_compare_items {py : PyCompare} (ht : ∀ v w, ∃ b, py.eq v w = .ok b) (m m' : JSMap Val)
    (h : BuiltMap m) (h' : BuiltMap m') :
    (∃ b, m.itemsLe py m' = .ok b ∧ (b = true ↔ ∀ e ∈ m.items, ∃ e' ∈ m'.items, SameEntry py e e')) ∧
    ∃ b, m.itemsEq py m' = .ok b ∧ (b = true ↔ AgreeInAnyOrder (SameEntry py) m.items m'.items) := by
  have hlen : ∀ n : JSMap Val, n.len = n.items.length := fun n => by simp [JSMap.len, JSMap.items]
  obtain ⟨b, hb, hq⟩ := items_le ht h h'
  refine ⟨⟨b, hb, hq⟩, ?_⟩
  unfold JSMap.itemsEq
  by_cases hl : m.len = m'.len
  · rw [if_pos hl]
    refine ⟨b, hb, hq.trans ⟨fun hall => ?_, fun hag => (mem_of_agree hag).2⟩⟩
    rw [hlen, hlen] at hl
    refine agree_of_inj _ _ hl hall ?_
    have ho := once_keys h.inv
    unfold Once keysOf at ho
    rw [List.pairwise_map] at ho
    exact ho.imp (fun hn b hb hb' => hn (svz_trans (svz_symm hb.1) hb'.1))
  · rw [if_neg hl]
    refine ⟨false, rfl, ?_⟩
    simp only [Bool.false_eq_true, false_iff]
    intro hag
    rw [hlen, hlen] at hl
    exact hl (mem_of_agree hag).1

/-! ## `&`, `|`, `-` and `^` -/

/-- **C80.** `keys & other`: what a Python set keeps of the values of the other side that are keys of the JSMap.  Only these have
to be hashable. -/
theorem C80_and_partial {py : PyCompare} (hw : HashesWell py) (m : JSMap β) (h : BuiltMap m) (l : List Val)
    (hl : ∀ v ∈ l, ¬ TooBig v) (hh : ∀ v ∈ l, hasMember v (m.items.map (·.1)) = true → CanHash py v) :
    ∃ r, SetView.and py (.ofKeys m) l = .ok r ∧
      Keeps py (l.filter fun v => hasMember v (m.items.map (·.1))) r :=
  makeSet_ok hw (fun v hv => map_contains h.inv (hl v hv)) hh

/-- **C80.** `keys | other`: what a Python set keeps of the keys and the values of the other side, if all are hashable. -/
theorem C80_or_partial {py : PyCompare} (hw : HashesWell py) (m : JSMap β) (l : List Val)
    (hh : ∀ v ∈ m.items.map (·.1) ++ l, CanHash py v) :
    ∃ r, SetView.or py (.ofKeys m) l = .ok r ∧ Keeps py (m.items.map (·.1) ++ l) r := by
  obtain ⟨r, h1, h2⟩ := makeSet_ok hw (test := fun _ => .ok true) (b := fun _ => true)
    (l := m.items.map (·.1) ++ l) (fun _ _ => rfl) (fun v hv _ => hh v hv)
  exact ⟨r, h1, by rwa [List.filter_eq_self.2 (fun _ _ => rfl)] at h2⟩

open Classical in
theorem sub_set {py : PyCompare} (hw : HashesWell py) (m : JSMap β) (l : List Val) (hl : DistinctKeys py l)
    (hh : ∀ v ∈ m.items.map (·.1), CanHash py v) :
    ∃ r, SetView.sub py (.ofKeys m) (.ofSet py l) = .ok r ∧
      Keeps py ((m.items.map (·.1)).filter fun v => decide (¬ ∃ w ∈ l, Equal py w v)) r := by
  refine makeSet_ok hw (fun v hv => ?_) (fun v hv _ => hh v hv)
  obtain ⟨b, hb, hq⟩ := ofSet_has hw hl (hh v hv)
  unfold JSSet.notIn
  rw [hb]
  show Except.ok (!b) = _
  congr 1
  rw [Bool.eq_iff_iff, decide_eq_true_eq, ← hq]
  cases b <;> simp

open Classical in
/-- **C80.** `keys - other` with a Python set: what a Python set keeps of the keys that equal no member of the other
set.  All keys have to be hashable. -/
theorem C80_sub_partial {py : PyCompare} (hw : HashesWell py) (m : JSMap β) (l : List Val)
    (hl : DistinctKeys py l) (hh : ∀ v ∈ m.items.map (·.1), CanHash py v) :
    ∃ r, SetView.sub py (.ofKeys m) (.ofSet py l) = .ok r ∧
      Keeps py ((m.items.map (·.1)).filter fun v => decide (¬ ∃ w ∈ l, Equal py w v)) r :=
  sub_set hw m l hl hh

open Classical in
/-- **C80.** `keys - other` with an iterable that is no set.  Its values have to be hashable, too. -/
theorem C80_sub_iterable_partial {py : PyCompare} (hw : HashesWell py) (m : JSMap β) (l : List Val)
    (hl : ∀ v ∈ l, CanHash py v) (hh : ∀ v ∈ m.items.map (·.1), CanHash py v) :
    ∃ r, SetView.subIter py (.ofKeys m) l = .ok r ∧
      Keeps py ((m.items.map (·.1)).filter fun v => decide (¬ ∃ w ∈ l, Equal py w v)) r := by
  obtain ⟨s, h1, h2⟩ := makeSet_ok hw (test := fun _ => .ok true) (b := fun _ => true) (l := l) (fun _ _ => rfl)
    (fun v hv _ => hl v hv)
  rw [List.filter_eq_self.2 (fun _ _ => rfl)] at h2
  obtain ⟨r, h3, h4⟩ := sub_set hw m s h2.2.1 hh
  refine ⟨r, ?_, ?_⟩
  · unfold SetView.subIter
    rw [h1]
    exact h3
  · refine Eq.mp (congrArg (Keeps py · r) (List.filter_congr fun v hv => ?_)) h4
    refine decide_eq_decide.2 (not_congr ⟨?_, ?_⟩)
    · rintro ⟨w, hw', he⟩
      exact ⟨w, h2.1.subset hw', he⟩
    · rintro ⟨w, hw', he⟩
      obtain ⟨x, hx, hxw⟩ := keeps_member h2 hw'
      exact ⟨x, hx, hw.trans _ _ _ (h2.2.1.1 x hx) (hl w hw') (hh v hv) hxw he⟩

theorem rsub_set {py : PyCompare} (hw : HashesWell py) (m : JSMap β) (h : BuiltMap m) (l : List Val)
    (hl : DistinctKeys py l) (hb : ∀ v ∈ l, ¬ TooBig v) :
    SetView.sub py (.ofSet py l) (.ofKeys m) = .ok (l.filter fun v => !hasMember v (m.items.map (·.1))) := by
  obtain ⟨r, h1, h2⟩ := makeSet_ok hw (test := JSSet.notIn (SetView.ofKeys m).has)
    (b := fun v => !hasMember v (m.items.map (·.1))) (l := l) (fun v hv => by
      unfold JSSet.notIn
      rw [show (SetView.ofKeys m).has v = _ from map_contains h.inv (hb v hv)]
      rfl) (fun v hv _ => hl.1 v hv)
  rw [keeps_distinct hw ⟨fun k hk => hl.1 k (List.mem_filter.1 hk).1, hl.2.sublist List.filter_sublist⟩ h2] at h1
  exact h1

/-- **C80.** `other - keys` with a Python set, which is `KeysView.__rsub__`: the members of the set that are no keys of
the JSMap. -/
theorem C80_rsub {py : PyCompare} (hw : HashesWell py) (m : JSMap β) (h : BuiltMap m) (l : List Val)
    (hl : DistinctKeys py l) (hb : ∀ v ∈ l, ¬ TooBig v) :
    SetView.sub py (.ofSet py l) (.ofKeys m) = .ok (l.filter fun v => !hasMember v (m.items.map (·.1))) :=
  rsub_set hw m h l hl hb

/-- **C80.** `keys & other` and `other & keys` with a Python set: the members of the set that are keys of the JSMap. -/
theorem C80_and_set {py : PyCompare} (hw : HashesWell py) (m : JSMap β) (h : BuiltMap m) (l : List Val)
    (hl : DistinctKeys py l) (hb : ∀ v ∈ l, ¬ TooBig v) :
    SetView.and py (.ofKeys m) l = .ok (l.filter fun v => hasMember v (m.items.map (·.1))) := by
  obtain ⟨r, h1, h2⟩ := C80_and_partial hw m h l hb (fun v hv _ => hl.1 v hv)
  rw [keeps_distinct hw ⟨fun k hk => hl.1 k (List.mem_filter.1 hk).1, hl.2.sublist List.filter_sublist⟩ h2] at h1
  exact h1

open Classical in
/-- **C80.** `keys ^ other` with a Python set: the keys that equal no member of the set, then the members of the set that
are no keys; with equal ones merged. -/
theorem C80_xor_partial {py : PyCompare} (hw : HashesWell py) (m : JSMap β) (h : BuiltMap m) (l : List Val)
    (hl : DistinctKeys py l) (hb : ∀ v ∈ l, ¬ TooBig v) (hh : ∀ v ∈ m.items.map (·.1), CanHash py v) :
    ∃ a r, SetView.xor py (.ofKeys m) (.ofSet py l) = .ok r ∧
      Keeps py ((m.items.map (·.1)).filter fun v => decide (¬ ∃ w ∈ l, Equal py w v)) a ∧
      Keeps py (a ++ l.filter fun v => !hasMember v (m.items.map (·.1))) r := by
  obtain ⟨a, h1, h2⟩ := sub_set hw m l hl hh
  have h3 := rsub_set hw m h l hl hb
  obtain ⟨r, h4, h5⟩ := makeSet_ok hw (test := fun _ => .ok true) (b := fun _ => true)
    (l := a ++ l.filter fun v => !hasMember v (m.items.map (·.1))) (fun _ _ => rfl) (fun v hv _ => by
      rcases List.mem_append.1 hv with hv | hv
      · exact h2.2.1.1 v hv
      · exact hl.1 v (List.mem_filter.1 hv).1)
  rw [List.filter_eq_self.2 (fun _ _ => rfl)] at h5
  refine ⟨a, r, ?_, h2, h5⟩
  unfold SetView.xor
  rw [h1]
  simp only
  rw [h3]
  exact h4

/-- **C80.** A JSMap can have keys that are not hashable, but a set of them cannot be made: `|` raises TypeError as soon
as there is one, `&` if it is a key of the JSMap and occurs on the other side. -/
theorem C80_unhashable {py : PyCompare} (hw : HashesWell py) (m : JSMap β) (h : BuiltMap m) (l : List Val) :
    ((∃ v ∈ m.items.map (·.1) ++ l, ¬ CanHash py v) → SetView.or py (.ofKeys m) l = .error .typeError) ∧
    ((∀ v ∈ l, ¬ TooBig v) → (∃ v ∈ l, hasMember v (m.items.map (·.1)) = true ∧ ¬ CanHash py v) →
      SetView.and py (.ofKeys m) l = .error .typeError) :=
  ⟨fun ⟨v, hv, hn⟩ => makeSet_unhashable hw (test := fun _ => .ok true) (b := fun _ => true) (fun _ _ => rfl)
      ⟨v, hv, rfl, hn⟩,
    fun hl hu => makeSet_unhashable hw (fun v hv => map_contains h.inv (hl v hv)) hu⟩

/-! ## JSSet and Python sets -/

/-- **C80.** A JSSet with hashable members is `<=` a Python set when it has no more members and each equals a member of
the Python set, compared as Python does.  It is `>=` when it has no fewer members and each member of the Python set is in
the JSSet, compared as JavaScript does. -/
theorem C80_jsset_set_partial {py : PyCompare} (hw : HashesWell py) (s : JSSet) (hs : Built s)
    (hh : ∀ v ∈ s.members, CanHash py v) (l : List Val) (hl : DistinctKeys py l) (hb : ∀ v ∈ l, ¬ TooBig v) :
    (∃ b, (SetView.ofJSSet s).le (.ofSet py l) = .ok b ∧
      (b = true ↔ s.members.length ≤ l.length ∧ ∀ v ∈ s.members, ∃ w ∈ l, Equal py w v)) ∧
    (∃ b, (SetView.ofJSSet s).ge (.ofSet py l) = .ok b ∧
      (b = true ↔ l.length ≤ s.members.length ∧ ∀ w ∈ l, hasMember w s.members = true)) ∧
    (∃ b, (SetView.ofJSSet s).lt (.ofSet py l) = .ok b ∧
      (b = true ↔ s.members.length < l.length ∧ ∀ v ∈ s.members, ∃ w ∈ l, Equal py w v)) ∧
    (∃ b, (SetView.ofJSSet s).gt (.ofSet py l) = .ok b ∧
      (b = true ↔ l.length < s.members.length ∧ ∀ w ∈ l, hasMember w s.members = true)) := by
  obtain ⟨b, hle, hq⟩ := allE_iff (test := (SetView.ofSet py l).has) (l := s.members)
    (P := fun v => ∃ w ∈ l, Equal py w v) (fun v hv => ofSet_has hw hl (hh v hv))
  obtain ⟨c, hge, hr⟩ := allE_iff (test := (SetView.ofJSSet s).has) (l := l)
    (P := fun w => hasMember w s.members = true)
    (fun v hv => ⟨_, JSSet.contains_eq (Built.inv hs) (hb v hv), Iff.rfl⟩)
  have e1 : (SetView.ofJSSet s).els = s.members := rfl
  have e2 : (SetView.ofSet py l).els = l := rfl
  simp only [SetView.lt, SetView.gt, SetView.le, SetView.ge, e1, e2]
  refine ⟨?_, ?_, ?_, ?_⟩
  · by_cases hn : s.members.length > l.length
    · rw [if_pos hn]
      exact ⟨false, rfl, by simp; omega⟩
    · rw [if_neg hn]
      exact ⟨b, hle, hq.trans ⟨fun h => ⟨by omega, h⟩, fun h => h.2⟩⟩
  · by_cases hn : s.members.length < l.length
    · rw [if_pos hn]
      exact ⟨false, rfl, by simp; omega⟩
    · rw [if_neg hn]
      exact ⟨c, hge, hr.trans ⟨fun h => ⟨by omega, h⟩, fun h => h.2⟩⟩
  · by_cases hn : s.members.length < l.length
    · rw [if_pos hn, if_neg (by omega)]
      exact ⟨b, hle, hq.trans ⟨fun h => ⟨by omega, h⟩, fun h => h.2⟩⟩
    · rw [if_neg hn]
      exact ⟨false, rfl, by simp; omega⟩
  · by_cases hn : s.members.length > l.length
    · rw [if_pos hn, if_neg (by omega)]
      exact ⟨c, hge, hr.trans ⟨fun h => ⟨by omega, h⟩, fun h => h.2⟩⟩
    · rw [if_neg hn]
      exact ⟨false, rfl, by simp; omega⟩

open Classical in
/-- **C56.** What `-` does with any Python set: it leaves the members that equal no member of it, compared as Python does.
All members have to be hashable. -/
theorem C56_difference_python_set {py : PyCompare} (hw : HashesWell py) (s : JSSet) (hs : Built s)
    (hh : ∀ v ∈ s.members, CanHash py v) (l : List Val) (hl : DistinctKeys py l) :
    ∃ r, s.diff (.pyset l (SetView.ofSet py l).has) = .ok r ∧ Built r ∧
      r.members = s.members.filter fun v => decide (¬ ∃ w ∈ l, Equal py w v) := by
  have hi := Built.inv hs
  have hf : JSSet.filterE (JSSet.notIn (SetView.ofSet py l).has) s.members =
      .ok (s.members.filter fun v => decide (¬ ∃ w ∈ l, Equal py w v)) :=
    JSSet.filterE_ok fun v hv => by
      obtain ⟨b, hb, hq⟩ := ofSet_has hw hl (hh v hv)
      unfold JSSet.notIn
      rw [hb]
      show Except.ok (!b) = _
      congr 1
      rw [Bool.eq_iff_iff, decide_eq_true_eq, ← hq]
      cases b <;> simp
  obtain ⟨r, h1, h2, h3⟩ := JSSet.fromIterable_ok
    (l := s.members.filter fun v => decide (¬ ∃ w ∈ l, Equal py w v))
    (fun v hv => JSSet.mem_fits hi (List.mem_filter.1 hv).1)
  refine ⟨r, ?_, built_of_inv h2, ?_⟩
  · unfold JSSet.diff
    simp only [JSSet.asSet]
    rw [hf]
    exact h1
  · rw [h3, collected_once (hi.once.filter _)]

/-! ## Where these are not sets -/

/-- **C56** fails for Python sets: `JSSet([1]) - {True}` is empty, though `True` and `1` are not the same. -/
theorem C56_python_membership : ∃ (py : PyCompare) (s : JSSet) (l : List Val), HashesWell py ∧ Built s ∧
    hasMember (.int 1) s.members = true ∧ hasMember (.int 1) l = false ∧
    s.diff (.pyset l (SetView.ofSet py l).has) = .ok [] :=
  ⟨exampleCompare, (runHist jsSetStep [] [.add (.int 1)]).1, [.bool true],
    exampleCompare_hashesWell, ⟨_, rfl⟩, by decide +kernel, by decide +kernel, by decide +kernel⟩

/-- A Python set can hold two NaNs.  `s ^= {nan1, nan2}` adds the first one and removes it again. -/
theorem C56_nan_twice : ∃ (py : PyCompare) (l : List Val), HashesWell py ∧ DistinctKeys py l ∧
    hasMember (.float 0x7ff8000000000000) l = true ∧
    JSSet.ixor [] (some (.pyset l (SetView.ofSet py l).has)) = ([], none) := by
  refine ⟨exampleCompare, [.float 0x7ff8000000000000, .float 0x7ff8000000000001],
    exampleCompare_hashesWell, ⟨?_, ?_⟩, by decide +kernel, by decide +kernel⟩
  · unfold CanHash; decide +kernel
  · simp only [List.pairwise_cons, List.mem_singleton, forall_eq]
    refine ⟨?_, by simp⟩
    unfold Equal; decide +kernel

/-- The claim that a set operation of the keys has the members it should have fails: the keys `1` and `True` of a JSMap
are two keys, and `m.keys() | set()` has one member.  So `m.keys() == m.keys() | set()` is false. -/
theorem C80_keys_merged : ∃ (py : PyCompare) (m : JSMap Val) (r : List Val), HashesWell py ∧ BuiltMap m ∧
    SetView.or py (.ofKeys m) [] = .ok r ∧ (SetView.ofKeys m).els.length = 2 ∧ r.length = 1 ∧
    (SetView.ofKeys m).eqv (.ofSet py r) = .ok false :=
  ⟨exampleCompare, (runHist jsMapStep [] [.set (.int 1) .null, .set (.bool true) .undef]).1, [.int 1],
    exampleCompare_hashesWell, ⟨_, rfl⟩, by decide +kernel, by decide +kernel, rfl, by decide +kernel⟩

/-- `&` uses the keys of JavaScript and `-` the ones of Python: with `m = JSMap([(1, None)])` and `s = {True}` the
member `True` is not in `m.keys() & s`, and the key `1` is not in `m.keys() - s` either. -/
theorem C80_key_lost : ∃ (py : PyCompare) (m : JSMap Val) (l : List Val), HashesWell py ∧ BuiltMap m ∧
    (SetView.ofKeys m).els.length = 1 ∧
    SetView.and py (.ofKeys m) l = .ok [] ∧ SetView.sub py (.ofKeys m) (.ofSet py l) = .ok [] :=
  ⟨exampleCompare, (runHist jsMapStep [] [.set (.int 1) .null]).1, [.bool true],
    exampleCompare_hashesWell, ⟨_, rfl⟩, by decide +kernel, by decide +kernel, by decide +kernel⟩

/-- `JSSet([1]) == {True}` and `JSSet([1]) <= {True}` hold, `JSSet([1]) >= {True}` does not. -/
theorem C80_equal_not_superset : ∃ (py : PyCompare) (s : JSSet) (l : List Val), HashesWell py ∧ Built s ∧
    s.pyEq py (.set l) = .ok (some true) ∧ (SetView.ofJSSet s).le (.ofSet py l) = .ok true ∧
    (SetView.ofJSSet s).ge (.ofSet py l) = .ok false :=
  ⟨exampleCompare, (runHist jsSetStep [] [.add (.int 1)]).1, [.bool true],
    exampleCompare_hashesWell, ⟨_, rfl⟩, by decide +kernel, by decide +kernel, by decide +kernel⟩

/-- Comparing a JSSet that has a member which is not hashable with a Python set raises TypeError, though `==` does not. -/
theorem C80_compare_unhashable : ∃ (py : PyCompare) (s : JSSet) (l : List Val), HashesWell py ∧ Built s ∧
    (SetView.ofJSSet s).le (.ofSet py l) = .error .typeError ∧ (SetView.ofJSSet s).ge (.ofSet py l) = .ok false ∧
    s.pyEq py (.set l) = .ok (some false) :=
  ⟨exampleCompare, (runHist jsSetStep [] [.add (.obj 0)]).1, [.int 1],
    exampleCompare_hashesWell, ⟨_, rfl⟩, by decide +kernel, by decide +kernel, by decide +kernel⟩

/-! ## Examples -/

/-- `JSMap([("k", 1), (obj, None)])` -/
def exampleViewed : JSMap Val :=
  (runHist jsMapStep [] [.set (.str [107]) (.int 1), .set (.obj 0) .null]).1

theorem exampleViewed_built : BuiltMap exampleViewed := ⟨_, rfl⟩

example : exampleViewed.itemsIter = .ok [(.str [107], .int 1), (.obj 0, .null)] ∧
    exampleViewed.itemsHas exampleCompare (.str [107], .bool true) = .ok true ∧
    exampleViewed.itemsHas exampleCompare (.obj 1, .null) = .ok false ∧
    exampleViewed.valuesHas exampleCompare (.float 0x3ff0000000000000) = .ok true := by decide +kernel

example : SetView.and exampleCompare (.ofKeys exampleViewed) [.int 7, .str [107], .str [107]] = .ok [.str [107]] ∧
    SetView.or exampleCompare (.ofKeys exampleViewed) [.int 7] = .error .typeError ∧
    SetView.and exampleCompare (.ofKeys exampleViewed) [.obj 0] = .error .typeError := by decide +kernel

/-- Keys in another order, one of them `1.0` instead of `1`. -/
example : (SetView.ofKeys (runHist jsMapStep ([] : JSMap Val) [.set (.int 1) .null, .set (.str [107]) .null]).1).eqv
    (SetView.ofKeys (runHist jsMapStep ([] : JSMap Val) [.set (.str [107]) .null,
      .set (.float 0x3ff0000000000000) .undef]).1) = .ok true := by decide +kernel

example : SetView.xor exampleCompare
    (.ofKeys (runHist jsMapStep ([] : JSMap Val) [.set (.int 1) .null, .set (.str [107]) .null]).1)
    (.ofSet exampleCompare [.int 2, .str [107]]) = .ok [.int 1, .int 2] ∧
    SetView.subIter exampleCompare
      (.ofKeys (runHist jsMapStep ([] : JSMap Val) [.set (.int 1) .null, .set (.str [107]) .null]).1)
      [.int 2, .int 2, .str [107]] = .ok [.int 1] := by decide +kernel

end V8.Props
