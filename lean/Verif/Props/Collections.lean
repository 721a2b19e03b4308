import Verif.Proofs.Value
import Verif.Spec.PyList

/-!
# C32, C33: JSMap and JSSet

The specification (`Spec/JSCollections.lean`) is a plain list of entries searched with JavaScript's
SameValueZero.
-/

namespace V8.Props
open V8 V8.Spec

variable {β : Type}

theorem jsMap_hist (ops : List (MapOp β)) (m : JSMap β) (h : m.Inv) :
    (runHist jsMapStep m ops).1.Inv ∧
    JSMap.items (runHist jsMapStep m ops).1 = (runHist mapSpecStep (JSMap.items m) ops).1 ∧
    (runHist jsMapStep m ops).2 = (runHist mapSpecStep (JSMap.items m) ops).2 := by
  induction ops generalizing m with
  | nil => exact ⟨h, rfl, rfl⟩
  | cons op ops ih =>
    obtain ⟨h1, h2, h3⟩ := jsMap_step m h op
    obtain ⟨i1, i2, i3⟩ := ih _ h1
    simp only [runHist]
    rw [← h2, ← h3]
    exact ⟨i1, i2, by rw [i3]⟩

/-- C32: after every history of operations on a new JSMap, the results returned and the entries in
iteration order are those of a list searched with SameValueZero. -/
theorem C32_jsmap_is_a_js_map (ops : List (MapOp β)) :
    (runHist jsMapStep [] ops).2 = (runHist mapSpecStep [] ops).2 ∧
    JSMap.items (runHist jsMapStep [] ops).1 = (runHist mapSpecStep [] ops).1 := by
  obtain ⟨_, h2, h3⟩ := jsMap_hist ops ([] : JSMap β) JSMap.inv_empty
  exact ⟨h3, h2⟩

/-- C32: at most one entry per class of keys. -/
theorem C32_one_entry_per_class (ops : List (MapOp β)) :
    (JSMap.items (runHist jsMapStep [] ops).1).Pairwise (fun a b => ¬ SameValueZero a.1 b.1) := by
  obtain ⟨h1, _, _⟩ := jsMap_hist ops ([] : JSMap β) JSMap.inv_empty
  exact KeyedInv.pairwise h1

/-- The value last written for the class of `k` in a history, `none` when it was removed since (or
never written).  Writes with a key the code cannot hash do nothing. -/
def lastWrite (k : Val) : Option β → List (MapOp β) → Option β
  | acc, [] => acc
  | acc, .set k' v :: t => lastWrite k (if SameValueZero k' k ∧ ¬ TooBig k' then some v else acc) t
  | acc, .del k' :: t => lastWrite k (if SameValueZero k' k ∧ ¬ TooBig k' then none else acc) t
  | acc, .get _ :: t => lastWrite k acc t
  | _, .clear :: t => lastWrite k none t

theorem svz_symm {a b : Val} (h : SameValueZero a b) : SameValueZero b a := by
  cases a <;> cases b <;> simp only [SameValueZero] at h ⊢ <;> first | exact h.symm | exact h

theorem svz_trans_iff {a b c : Val} (h : SameValueZero a b) : SameValueZero a c ↔ SameValueZero b c := by
  cases a <;> cases b <;> simp only [SameValueZero] at h <;>
    first
    | exact Iff.rfl
    | (subst h; exact Iff.rfl)
    | (cases c <;> simp only [SameValueZero] <;>
        first
        | exact Iff.rfl
        | (simp only [h, FVal.fin.injEq, scale_inj] <;> first | exact eq_comm | exact Iff.rfl)
        | (simp only [← h, FVal.fin.injEq, scale_inj] <;> first | exact eq_comm | exact Iff.rfl))

theorem mapLookup_store (k k' : Val) (v : β) (l : List (Val × β)) :
    mapLookup k (mapStore k' v l) = if SameValueZero k' k then some v else mapLookup k l := by
  induction l with
  | nil => simp [mapStore, mapLookup]
  | cons p t ih =>
    obtain ⟨pk, pv⟩ := p
    unfold mapStore
    by_cases hp : SameValueZero pk k'
    · rw [if_pos hp]
      unfold mapLookup
      by_cases hk : SameValueZero k' k
      · rw [if_pos hk, if_pos hk]
      · rw [if_neg hk, if_neg hk, if_neg (fun h => hk ((svz_trans_iff hp).1 h))]
    · rw [if_neg hp]
      unfold mapLookup
      rw [ih]
      by_cases hk : SameValueZero k' k
      · rw [if_pos hk, if_pos hk, if_neg]
        intro h
        exact hp (svz_symm ((svz_trans_iff (svz_symm hk)).1 (svz_symm h)))
      · rw [if_neg hk, if_neg hk]

theorem mapLookup_remove (k k' : Val) (l : List (Val × β)) :
    mapLookup k (mapRemove k' l) = if SameValueZero k' k then none else mapLookup k l := by
  induction l with
  | nil => simp [mapRemove, mapLookup]
  | cons p t ih =>
    obtain ⟨pk, pv⟩ := p
    unfold mapRemove at ih ⊢
    by_cases hp : SameValueZero pk k'
    · rw [List.filter_cons_of_neg (by simpa using hp), ih]
      by_cases hk : SameValueZero k' k
      · rw [if_pos hk, if_pos hk]
      · rw [if_neg hk, if_neg hk]
        conv => rhs; unfold mapLookup
        rw [if_neg (fun h => hk ((svz_trans_iff hp).1 h))]
    · rw [List.filter_cons_of_pos (by simpa using hp)]
      unfold mapLookup
      rw [ih]
      by_cases hk : SameValueZero k' k
      · rw [if_pos hk, if_pos hk, if_neg]
        intro h
        exact hp (svz_symm ((svz_trans_iff (svz_symm hk)).1 (svz_symm h)))
      · rw [if_neg hk, if_neg hk]

theorem mapLookup_hist (k : Val) (ops : List (MapOp β)) (l : List (Val × β)) :
    mapLookup k (runHist mapSpecStep l ops).1 = lastWrite k (mapLookup k l) ops := by
  induction ops generalizing l with
  | nil => rfl
  | cons op ops ih =>
    simp only [runHist]
    rw [ih]
    cases op with
    | clear => rfl
    | get k' =>
      simp only [lastWrite, mapSpecStep]
      split
      · rfl
      · split <;> rfl
    | set k' v =>
      simp only [lastWrite, mapSpecStep]
      by_cases hb : TooBig k'
      · rw [if_pos hb, if_neg (fun h => h.2 hb)]
      · rw [if_neg hb]
        simp only
        rw [mapLookup_store]
        simp only [hb, not_false_eq_true, and_true]
    | del k' =>
      simp only [lastWrite, mapSpecStep]
      by_cases hb : TooBig k'
      · rw [if_pos hb, if_neg (fun h => h.2 hb)]
      · rw [if_neg hb]
        by_cases hs : (mapLookup k' l).isSome
        · rw [if_pos hs]
          simp only
          rw [mapLookup_remove]
          simp only [hb, not_false_eq_true, and_true]
        · rw [if_neg hs]
          simp only
          by_cases hk : SameValueZero k' k
          · rw [if_pos ⟨hk, hb⟩]
            have : ∀ l : List (Val × β), mapLookup k l = mapLookup k' l := by
              intro l
              induction l with
              | nil => rfl
              | cons p t ih =>
                obtain ⟨pk, pv⟩ := p
                unfold mapLookup
                have : SameValueZero pk k ↔ SameValueZero pk k' :=
                  ⟨fun h => svz_symm ((svz_trans_iff (svz_symm hk)).1 (svz_symm h)),
                   fun h => svz_symm ((svz_trans_iff hk).1 (svz_symm h))⟩
                simp only [this, ih]
            rw [this l]
            simp only [Bool.not_eq_true, Option.isSome_eq_false_iff, Option.isNone_iff_eq_none] at hs
            rw [hs]
          · rw [if_neg (fun h => hk h.1)]

/-- C32: a lookup returns the last value set for the key's class, and KeyError when there is none. -/
theorem C32_lookup_is_last_write (ops : List (MapOp β)) (k : Val) (hk : ¬ TooBig k) :
    JSMap.getitem (runHist jsMapStep [] ops).1 k =
      match lastWrite k none ops with
      | some v => .ok v
      | none => .error .keyError := by
  obtain ⟨h1, h2, _⟩ := jsMap_hist ops ([] : JSMap β) JSMap.inv_empty
  obtain ⟨key, hkey⟩ := svz_ok_of k hk
  have hl := JSMap.lookup_eq _ h1 k key hkey
  rw [h2] at hl
  have hh := mapLookup_hist k ops ([] : List (Val × β))
  simp only [JSMap.items, List.map_nil] at hl
  rw [hh] at hl
  simp only [mapLookup] at hl
  simp only [JSMap.getitem, hkey]
  rw [← hl]
  cases Dict.get (runHist jsMapStep ([] : JSMap β) ops).1 key <;> rfl

/-- C32: `get(k, default)` returns the value last written for the key, and the default if there is none. -/
theorem C32_get_is_last_write (ops : List (MapOp β)) (k : Val) (hk : ¬ TooBig k) (default : β) :
    JSMap.getDefault (runHist jsMapStep [] ops).1 k default = .ok ((lastWrite k none ops).getD default) := by
  have h := C32_lookup_is_last_write ops k hk
  obtain ⟨key, hkey⟩ := svz_ok_of k hk
  simp only [JSMap.getitem, JSMap.getDefault, hkey] at h ⊢
  cases hd : Dict.get (runHist jsMapStep ([] : JSMap β) ops).1 key <;> rw [hd] at h <;>
    cases hl : lastWrite k none ops <;> rw [hl] at h <;> simp at h ⊢
  exact h

/-- C32, the surrogate keys: two keys share an entry exactly when they are the same value. -/
theorem C32_same_value_zero (a b : Val) (ha : ¬ TooBig a) (hb : ¬ TooBig b) :
    sameValueZero a = sameValueZero b ↔ SameValueZero a b := by
  obtain ⟨ka, hka⟩ := svz_ok_of a ha
  obtain ⟨kb, hkb⟩ := svz_ok_of b hb
  rw [hka, hkb, ← svz_iff a b ka kb hka hkb]
  exact ⟨Except.ok.inj, fun h => by rw [h]⟩

/-- Concrete: `NaN`, `-0.0`, `1`/`True` and object keys in one history. -/
example :
    JSMap.items (runHist jsMapStep [] [
      MapOp.set (.float 0x7FF8000000000000) "nan", .set (.int 0) "zero", .set (.int 1) "one",
      .set (.bool true) "yes", .set (.obj 5) "a", .set (.obj 6) "b",
      .set (.float 0x7FF8000000000001) "nan2", .set (.float 0x8000000000000000) "negzero",
      .del (.obj 5), .set (.obj 5) "a2"]).1
    = [(.float 0x7FF8000000000001, "nan2"), (.float 0x8000000000000000, "negzero"), (.int 1, "one"),
       (.bool true, "yes"), (.obj 6, "b"), (.obj 5, "a2")] := by decide +kernel

/-- What the code does beyond JavaScript: storing under an equal key replaces the stored key object
(a JavaScript Map keeps the first one), so iteration shows the new one. -/
example :
    JSMap.items (runHist jsMapStep [] [MapOp.set (.int 1) "a", .set (.float 0x3FF0000000000000) "b"]).1
    = [(.float 0x3FF0000000000000, "b")] := by decide +kernel

/-- Not covered by JavaScript: an int that does not fit a double cannot be a key at all. -/
theorem C32_huge_int_key (m : JSMap β) (v : β) :
    m.setitem (.int (2 ^ 1024)) v = (m, some .overflowError) := by
  have : TooBig (.int (2 ^ 1024)) := by
    change ((2 : Int) ^ 1024).natAbs ≥ 2 ^ 1024 - 2 ^ 970
    rw [Int.natAbs_pow]
    exact Nat.sub_le _ _
  have := (svz_error_iff (.int (2 ^ 1024)) .overflowError).2 ⟨this, rfl⟩
  unfold JSMap.setitem
  rw [this]

theorem jsSet_hist (ops : List SetOp) (s : JSSet) (h : s.Inv) :
    (runHist jsSetStep s ops).1.Inv ∧
    JSSet.members (runHist jsSetStep s ops).1 = (runHist setSpecStep (JSSet.members s) ops).1 ∧
    (runHist jsSetStep s ops).2 = (runHist setSpecStep (JSSet.members s) ops).2 := by
  induction ops generalizing s with
  | nil => exact ⟨h, rfl, rfl⟩
  | cons op ops ih =>
    obtain ⟨h1, h2, h3⟩ := jsSet_step s h op
    obtain ⟨i1, i2, i3⟩ := ih _ h1
    simp only [runHist]
    rw [← h2, ← h3]
    exact ⟨i1, i2, by rw [i3]⟩

/-- C33: after every history of operations on a new JSSet, the results returned and the members in
iteration order are those of a list searched with SameValueZero. -/
theorem C33_jsset_is_a_js_set (ops : List SetOp) :
    (runHist jsSetStep [] ops).2 = (runHist setSpecStep [] ops).2 ∧
    JSSet.members (runHist jsSetStep [] ops).1 = (runHist setSpecStep [] ops).1 := by
  obtain ⟨_, h2, h3⟩ := jsSet_hist ops ([] : JSSet) JSSet.inv_empty
  exact ⟨h3, h2⟩

/-- C33: each class of values occurs at most once. -/
theorem C33_once_each (ops : List SetOp) :
    (JSSet.members (runHist jsSetStep [] ops).1).Pairwise (fun a b => ¬ SameValueZero a b) := by
  obtain ⟨h1, _, _⟩ := jsSet_hist ops ([] : JSSet) JSSet.inv_empty
  exact KeyedInv.pairwise h1

/-- Whether the class of `v` was last added rather than removed. -/
def lastAdded (v : Val) : Bool → List SetOp → Bool
  | acc, [] => acc
  | acc, .add w :: t => lastAdded v (if SameValueZero w v ∧ ¬ TooBig w then true else acc) t
  | acc, .discard w :: t => lastAdded v (if SameValueZero w v ∧ ¬ TooBig w then false else acc) t
  | acc, .contains _ :: t => lastAdded v acc t
  | _, .clear :: t => lastAdded v false t

theorem hasMember_store (v w : Val) (l : List Val) :
    hasMember v (setStore w l) = (decide (SameValueZero w v) || hasMember v l) := by
  induction l with
  | nil => simp [setStore, hasMember]
  | cons x t ih =>
    unfold setStore
    by_cases hx : SameValueZero x w
    · rw [if_pos hx]
      simp only [hasMember, List.any_cons]
      rw [decide_eq_decide.2 (svz_trans_iff hx)]
      cases decide (SameValueZero w v) <;> simp
    · rw [if_neg hx]
      simp only [hasMember, List.any_cons] at ih ⊢
      rw [ih]
      cases decide (SameValueZero x v) <;> simp

theorem hasMember_filter (v w : Val) (l : List Val) :
    hasMember v (l.filter (fun x => decide (¬ SameValueZero x w))) =
      (!decide (SameValueZero w v) && hasMember v l) := by
  induction l with
  | nil => simp [hasMember]
  | cons x t ih =>
    by_cases hx : SameValueZero x w
    · rw [List.filter_cons_of_neg (by simpa using hx), ih]
      simp only [hasMember, List.any_cons]
      rw [decide_eq_decide.2 (svz_trans_iff hx)]
      cases decide (SameValueZero w v) <;> simp
    · rw [List.filter_cons_of_pos (by simpa using hx)]
      simp only [hasMember, List.any_cons] at ih ⊢
      rw [ih]
      by_cases hxv : SameValueZero x v
      · have : ¬ SameValueZero w v := fun h =>
          hx (svz_symm ((svz_trans_iff (svz_symm h)).1 (svz_symm hxv)))
        simp [this]
      · simp [hxv]

theorem hasMember_hist (v : Val) (ops : List SetOp) (l : List Val) :
    hasMember v (runHist setSpecStep l ops).1 = lastAdded v (hasMember v l) ops := by
  induction ops generalizing l with
  | nil => rfl
  | cons op ops ih =>
    simp only [runHist]
    rw [ih]
    cases op with
    | clear => rfl
    | contains w =>
      simp only [lastAdded, setSpecStep]
      split <;> rfl
    | add w =>
      simp only [lastAdded, setSpecStep]
      by_cases hb : TooBig w
      · rw [if_pos hb, if_neg (fun h => h.2 hb)]
      · rw [if_neg hb]
        simp only [hasMember_store, hb, not_false_eq_true, and_true]
        by_cases hw : SameValueZero w v <;> simp [hw]
    | discard w =>
      simp only [lastAdded, setSpecStep]
      by_cases hb : TooBig w
      · rw [if_pos hb, if_neg (fun h => h.2 hb)]
      · rw [if_neg hb]
        simp only [hasMember_filter, hb, not_false_eq_true, and_true]
        by_cases hw : SameValueZero w v <;> simp [hw]

/-- C33: membership means the value's class was last added rather than removed. -/
theorem C33_membership (ops : List SetOp) (v : Val) (hv : ¬ TooBig v) :
    JSSet.contains (runHist jsSetStep [] ops).1 v = .ok (lastAdded v false ops) := by
  obtain ⟨h1, h2, _⟩ := jsSet_hist ops ([] : JSSet) JSSet.inv_empty
  obtain ⟨key, hkey⟩ := svz_ok_of v hv
  have hl := JSSet.has_eq _ h1 v key hkey
  rw [h2] at hl
  have hh := hasMember_hist v ops []
  simp only [JSSet.members, List.map_nil] at hl
  rw [hh] at hl
  simp only [JSSet.contains, hkey, hl]
  rfl

/-- Concrete history. -/
example :
    JSSet.members (runHist jsSetStep [] [
      .add (.str (str "a")), .add (.int 1), .add (.bool true), .add (.obj 3),
      .add (.float 0x7FF8000000000000), .discard (.int 1), .add (.float 0x7FF8000000000000),
      .add (.int 1)]).1
    = [.str (str "a"), .bool true, .obj 3, .float 0x7FF8000000000000, .int 1] := by
  decide +kernel

end V8.Props
