import Verif.Model.SetAlgebra
import Verif.Spec.SetAlgebra
import Verif.Props.Collections

/-!
# Lemmas for the inherited methods of JSSet and JSMap
-/

namespace V8
open V8.Spec V8.Props

theorem JSSet.contains_eq {s : JSSet} (h : s.Inv) {v : Val} (hv : ¬ TooBig v) :
    s.contains v = .ok (hasMember v s.members) := by
  obtain ⟨key, hk⟩ := svz_ok_of v hv
  unfold JSSet.contains
  rw [hk, ← JSSet.has_eq s h v key hk]

theorem JSSet.contains_big (s : JSSet) {v : Val} (hv : TooBig v) : s.contains v = .error .overflowError := by
  unfold JSSet.contains
  rw [(svz_error_iff v .overflowError).2 ⟨hv, rfl⟩]

theorem JSSet.mem_fits {s : JSSet} (h : s.Inv) {v : Val} (hv : v ∈ s.members) : ¬ TooBig v := by
  unfold JSSet.members at hv
  obtain ⟨e, he, rfl⟩ := List.mem_map.1 hv
  intro hb
  have := h.2 e he
  rw [(svz_error_iff e.2 .overflowError).2 ⟨hb, rfl⟩] at this
  cases this

theorem JSSet.add_ok {s : JSSet} (h : s.Inv) {v : Val} (hv : ¬ TooBig v) :
    ∃ s', s.add v = (s', none) ∧ s'.Inv ∧ s'.members = setStore v s.members := by
  obtain ⟨key, hk⟩ := svz_ok_of v hv
  refine ⟨Dict.set s key v, ?_, KeyedInv.set h v key hk, JSSet.store_eq s h v key hk⟩
  unfold JSSet.add
  rw [hk]

theorem JSSet.add_big (s : JSSet) {v : Val} (hv : TooBig v) : s.add v = (s, some .overflowError) := by
  unfold JSSet.add
  rw [(svz_error_iff v .overflowError).2 ⟨hv, rfl⟩]

theorem JSSet.discard_ok {s : JSSet} (h : s.Inv) {v : Val} (hv : ¬ TooBig v) :
    ∃ s', s.discard v = (s', none) ∧ s'.Inv ∧
      s'.members = s.members.filter (fun w => decide (¬ SameValueZero w v)) := by
  obtain ⟨h1, h2, h3⟩ := jsSet_step s h (.discard v)
  simp only [jsSetStep, jsSetStep.ret, setSpecStep, if_neg hv] at h1 h2 h3
  refine ⟨(s.discard v).1, ?_, h1, h2⟩
  cases hd : s.discard v with
  | mk s' e =>
    rw [hd] at h3
    cases e with
    | none => rfl
    | some e => simp at h3

theorem JSSet.ior_all (l : List Val) : ∀ {s : JSSet}, s.Inv → (∀ v ∈ l, ¬ TooBig v) →
    ∃ s', s.ior l = (s', none) ∧ s'.Inv ∧ s'.members = l.foldl (fun acc v => setStore v acc) s.members := by
  induction l with
  | nil => intro s h _; exact ⟨s, rfl, h, rfl⟩
  | cons v t ih =>
    intro s h hl
    obtain ⟨s1, h1, hi, hm⟩ := JSSet.add_ok h (hl v List.mem_cons_self)
    obtain ⟨s2, h2, hi2, hm2⟩ := ih hi (fun w hw => hl w (List.mem_cons_of_mem _ hw))
    refine ⟨s2, ?_, hi2, ?_⟩
    · unfold JSSet.ior
      rw [h1]
      exact h2
    · rw [hm2, hm, List.foldl_cons]

theorem JSSet.ior_big (l : List Val) : ∀ (s : JSSet), (∃ v ∈ l, TooBig v) →
    (s.ior l).2 = some .overflowError := by
  induction l with
  | nil => intro s h; simp at h
  | cons v t ih =>
    intro s h
    unfold JSSet.ior
    by_cases hv : TooBig v
    · rw [JSSet.add_big s hv]
    · obtain ⟨key, hk⟩ := svz_ok_of v hv
      have ha : s.add v = (Dict.set s key v, none) := by unfold JSSet.add; rw [hk]
      rw [ha]
      refine ih _ ?_
      obtain ⟨w, hw, hb⟩ := h
      rcases List.mem_cons.1 hw with rfl | hw
      · exact absurd hb hv
      · exact ⟨w, hw, hb⟩

theorem JSSet.fromIterable_ok {l : List Val} (hl : ∀ v ∈ l, ¬ TooBig v) :
    ∃ s, JSSet.fromIterable l = .ok s ∧ s.Inv ∧ s.members = collected l := by
  obtain ⟨s, h1, h2, h3⟩ := JSSet.ior_all l JSSet.inv_empty hl
  refine ⟨s, ?_, h2, h3⟩
  unfold JSSet.fromIterable
  rw [h1]

theorem JSSet.fromIterable_big {l : List Val} (h : ∃ v ∈ l, TooBig v) :
    JSSet.fromIterable l = .error .overflowError := by
  have := JSSet.ior_big l [] h
  unfold JSSet.fromIterable
  cases hi : JSSet.ior [] l with
  | mk s e =>
    rw [hi] at this
    simp only at this
    subst this
    rfl

theorem JSSet.filterE_ok {test : Val → Except PyExc Bool} {b : Val → Bool} {l : List Val}
    (h : ∀ v ∈ l, test v = .ok (b v)) : JSSet.filterE test l = .ok (l.filter b) := by
  induction l with
  | nil => rfl
  | cons v t ih =>
    unfold JSSet.filterE
    rw [h v List.mem_cons_self]
    simp only
    rw [ih (fun w hw => h w (List.mem_cons_of_mem _ hw))]
    simp only [List.filter_cons]

theorem JSSet.filterE_error {test : Val → Except PyExc Bool} {l : List Val} {e : PyExc}
    (h : ∀ v ∈ l, (∃ b, test v = .ok b) ∨ test v = .error e) (hv : ∃ v ∈ l, test v = .error e) :
    JSSet.filterE test l = .error e := by
  induction l with
  | nil => simp at hv
  | cons v t ih =>
    unfold JSSet.filterE
    rcases h v List.mem_cons_self with ⟨b, hb⟩ | hb
    · rw [hb]
      simp only
      rw [ih (fun w hw => h w (List.mem_cons_of_mem _ hw))]
      obtain ⟨w, hw, hwe⟩ := hv
      rcases List.mem_cons.1 hw with rfl | hw
      · rw [hb] at hwe; cases hwe
      · exact ⟨w, hw, hwe⟩
    · rw [hb]

/-! ## Lists with each class once -/

theorem svz_refl (a : Val) : SameValueZero a a := by
  cases a <;> simp [SameValueZero]

theorem svz_trans {a b c : Val} (h : SameValueZero a b) (h' : SameValueZero b c) : SameValueZero a c :=
  (svz_trans_iff h).2 h'

theorem hasMember_iff {v : Val} {l : List Val} : hasMember v l = true ↔ ∃ w ∈ l, SameValueZero w v := by
  simp [hasMember]

theorem hasMember_congr {v w : Val} (h : SameValueZero v w) (l : List Val) : hasMember v l = hasMember w l := by
  rw [Bool.eq_iff_iff, hasMember_iff, hasMember_iff]
  exact ⟨fun ⟨x, hx, hs⟩ => ⟨x, hx, svz_trans hs h⟩, fun ⟨x, hx, hs⟩ => ⟨x, hx, svz_trans hs (svz_symm h)⟩⟩

theorem hasMember_of_mem {v : Val} {l : List Val} (h : v ∈ l) : hasMember v l = true :=
  hasMember_iff.2 ⟨v, h, svz_refl v⟩

theorem hasMember_append (v : Val) (a b : List Val) : hasMember v (a ++ b) = (hasMember v a || hasMember v b) := by
  simp [hasMember]

theorem setStore_absent {v : Val} {l : List Val} (h : hasMember v l = false) : setStore v l = l ++ [v] := by
  induction l with
  | nil => rfl
  | cons w t ih =>
    simp only [hasMember, List.any_cons, Bool.or_eq_false_iff, decide_eq_false_iff_not] at h
    unfold setStore
    rw [if_neg h.1, ih h.2]
    rfl

theorem setStore_append_left {v : Val} {a : List Val} (b : List Val) (h : hasMember v a = true) :
    setStore v (a ++ b) = setStore v a ++ b := by
  induction a with
  | nil => simp [hasMember] at h
  | cons w t ih =>
    simp only [List.cons_append]
    unfold setStore
    by_cases hw : SameValueZero w v
    · rw [if_pos hw, if_pos hw]
      rfl
    · rw [if_neg hw, if_neg hw, ih]
      · rfl
      · simpa [hasMember, hw] using h

theorem setStore_append_right {v : Val} {a : List Val} (b : List Val) (h : hasMember v a = false) :
    setStore v (a ++ b) = a ++ setStore v b := by
  induction a with
  | nil => rfl
  | cons w t ih =>
    simp only [hasMember, List.any_cons, Bool.or_eq_false_iff, decide_eq_false_iff_not] at h
    simp only [List.cons_append]
    conv => lhs; unfold setStore
    rw [if_neg h.1, ih h.2]

theorem setStore_same {v : Val} {a : List Val} (h : hasMember v a = true) :
    List.Forall₂ SameValueZero a (setStore v a) := by
  induction a with
  | nil => simp [hasMember] at h
  | cons w t ih =>
    unfold setStore
    by_cases hw : SameValueZero w v
    · rw [if_pos hw]
      exact .cons hw (List.forall₂_same.2 fun x _ => svz_refl x)
    · rw [if_neg hw]
      exact .cons (svz_refl w) (ih (by simpa [hasMember, hw] using h))

theorem forall₂_svz_trans {a b c : List Val} (h : List.Forall₂ SameValueZero a b) (h' : List.Forall₂ SameValueZero b c) :
    List.Forall₂ SameValueZero a c := by
  induction h generalizing c with
  | nil => cases h'; exact .nil
  | cons hx _ ih =>
    cases h' with
    | cons hy ht => exact .cons (svz_trans hx hy) (ih ht)

theorem hasMember_forall₂ {a b : List Val} (h : List.Forall₂ SameValueZero a b) (v : Val) :
    hasMember v a = hasMember v b := by
  induction h with
  | nil => rfl
  | cons hx _ ih =>
    simp only [hasMember, List.any_cons] at ih ⊢
    rw [ih, decide_eq_decide.2 (svz_trans_iff hx)]

theorem hasMember_foldl (v : Val) (l : List Val) : ∀ acc : List Val,
    hasMember v (l.foldl (fun acc v => setStore v acc) acc) = (hasMember v acc || hasMember v l) := by
  induction l with
  | nil => intro acc; simp [hasMember]
  | cons w t ih =>
    intro acc
    rw [List.foldl_cons, ih, hasMember_store]
    have : hasMember v (w :: t) = (decide (SameValueZero w v) || hasMember v t) := rfl
    rw [this]
    cases decide (SameValueZero w v) <;> cases hasMember v acc <;> simp

theorem hasMember_collected (v : Val) (l : List Val) : hasMember v (collected l) = hasMember v l := by
  unfold collected
  rw [hasMember_foldl]
  simp [hasMember]

/-- Storing into a list that starts with `a`. -/
theorem foldl_store_append (l : List Val) : ∀ (a p q : List Val), List.Forall₂ SameValueZero a p →
    ∃ p', List.Forall₂ SameValueZero a p' ∧
      l.foldl (fun acc v => setStore v acc) (p ++ q) =
        p' ++ (l.filter (fun v => !hasMember v a)).foldl (fun acc v => setStore v acc) q := by
  induction l with
  | nil => intro a p q h; exact ⟨p, h, rfl⟩
  | cons v t ih =>
    intro a p q h
    rw [List.foldl_cons]
    by_cases hv : hasMember v a = true
    · have hp : hasMember v p = true := by rw [← hasMember_forall₂ h]; exact hv
      rw [setStore_append_left q hp]
      obtain ⟨p', h1, h2⟩ := ih a (setStore v p) q (forall₂_svz_trans h (setStore_same hp))
      refine ⟨p', h1, ?_⟩
      rw [h2, List.filter_cons_of_neg (by simp [hv])]
    · rw [Bool.not_eq_true] at hv
      have hp : hasMember v p = false := by rw [← hasMember_forall₂ h]; exact hv
      rw [setStore_append_right q hp]
      obtain ⟨p', h1, h2⟩ := ih a p (setStore v q) h
      refine ⟨p', h1, ?_⟩
      rw [h2, List.filter_cons_of_pos (by simp [hv]), List.foldl_cons]

/-- Each class once. -/
def Once (l : List Val) : Prop := l.Pairwise (fun a b => ¬ SameValueZero a b)

theorem foldl_store_once (l : List Val) : ∀ acc : List Val, Once (acc ++ l) →
    l.foldl (fun acc v => setStore v acc) acc = acc ++ l := by
  induction l with
  | nil => intro acc _; simp
  | cons v t ih =>
    intro acc h
    have hn : hasMember v acc = false := by
      cases hb : hasMember v acc
      · rfl
      · obtain ⟨w, hw, hs⟩ := hasMember_iff.1 hb
        exact absurd hs ((List.pairwise_append.1 h).2.2 w hw v List.mem_cons_self)
    rw [List.foldl_cons, setStore_absent hn, ih]
    · simp
    · simpa using h

theorem collected_once {l : List Val} (h : Once l) : collected l = l := by
  unfold collected
  rw [foldl_store_once l [] h]
  rfl

theorem Once.filter {l : List Val} (h : Once l) (b : Val → Bool) : Once (l.filter b) :=
  List.Pairwise.sublist List.filter_sublist h

theorem JSSet.Inv.once {s : JSSet} (h : s.Inv) : Once s.members := KeyedInv.pairwise h

theorem setStore_once (v : Val) {l : List Val} (h : Once l) : Once (setStore v l) := by
  induction l with
  | nil => exact List.pairwise_singleton _ _
  | cons w t ih =>
    obtain ⟨h1, h2⟩ := List.pairwise_cons.1 h
    unfold setStore
    by_cases hw : SameValueZero w v
    · rw [if_pos hw]
      exact List.pairwise_cons.2 ⟨fun x hx hs => h1 x hx (svz_trans hw hs), h2⟩
    · rw [if_neg hw]
      refine List.pairwise_cons.2 ⟨fun x hx hs => ?_, ih h2⟩
      have hm : hasMember w (setStore v t) = true := hasMember_iff.2 ⟨x, hx, svz_symm hs⟩
      rw [hasMember_store] at hm
      simp only [Bool.or_eq_true, decide_eq_true_eq] at hm
      rcases hm with hm | hm
      · exact hw (svz_symm hm)
      · obtain ⟨y, hy, hys⟩ := hasMember_iff.1 hm
        exact h1 y hy (svz_symm hys)

theorem foldl_once (l : List Val) : ∀ acc, Once acc → Once (l.foldl (fun acc v => setStore v acc) acc) := by
  induction l with
  | nil => intro acc h; exact h
  | cons v t ih => intro acc h; exact ih _ (setStore_once v h)

theorem once_collected (l : List Val) : Once (collected l) := foldl_once l [] .nil

theorem mem_setStore {v w : Val} {l : List Val} (h : w ∈ setStore v l) : w = v ∨ w ∈ l := by
  induction l with
  | nil => simp only [setStore, List.mem_singleton] at h; exact .inl h
  | cons x t ih =>
    unfold setStore at h
    split at h
    · rcases List.mem_cons.1 h with rfl | h
      · exact .inl rfl
      · exact .inr (List.mem_cons_of_mem _ h)
    · rcases List.mem_cons.1 h with rfl | h
      · exact .inr List.mem_cons_self
      · exact (ih h).imp_right (List.mem_cons_of_mem _)

theorem mem_foldl_store {w : Val} (l : List Val) : ∀ acc : List Val,
    w ∈ l.foldl (fun acc v => setStore v acc) acc → w ∈ acc ∨ w ∈ l := by
  induction l with
  | nil => intro acc h; exact .inl h
  | cons v t ih =>
    intro acc h
    rcases ih _ h with h | h
    · rcases mem_setStore h with rfl | h
      · exact .inr List.mem_cons_self
      · exact .inl h
    · exact .inr (List.mem_cons_of_mem _ h)

theorem mem_collected {w : Val} {l : List Val} (h : w ∈ collected l) : w ∈ l :=
  (mem_foldl_store l [] h).resolve_left (by simp)

/-- A list with each class once is no longer than one that has all its classes. -/
theorem Once.length_le : ∀ {l l' : List Val}, Once l → (∀ v ∈ l, hasMember v l' = true) → l.length ≤ l'.length := by
  intro l
  induction l with
  | nil => intro l' _ _; simp
  | cons v t ih =>
    intro l' h hs
    obtain ⟨h1, h2⟩ := List.pairwise_cons.1 h
    obtain ⟨w, hw, hwv⟩ := hasMember_iff.1 (hs v List.mem_cons_self)
    have := ih (l' := l'.erase w) h2 (fun x hx => by
      obtain ⟨y, hy, hyx⟩ := hasMember_iff.1 (hs x (List.mem_cons_of_mem _ hx))
      refine hasMember_iff.2 ⟨y, ?_, hyx⟩
      refine (List.mem_erase_of_ne ?_).2 hy
      rintro rfl
      exact h1 x hx (svz_trans (svz_symm hwv) hyx))
    rw [List.length_erase_of_mem hw] at this
    have : l'.length ≠ 0 := fun h0 => by
      rw [List.length_eq_zero_iff] at h0
      rw [h0] at hw
      simp at hw
    simp only [List.length_cons]
    omega

end V8
