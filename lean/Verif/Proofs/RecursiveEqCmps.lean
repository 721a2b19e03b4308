import Verif.Proofs.RecursiveEq

/-! The comparisons that `__eq__` makes, against structural equality. -/

namespace V8
open Spec

/-- A comparison succeeds, given `R` for `==`. -/
def Cmp.Holds (R : Val → Val → Prop) : Cmp → Prop
  | .pair s v w => (s = true ∧ isSame v w = true) ∨ R v w
  | .differ => False
  | .raise _ => False

theorem isSame_iff {v w : Val} : isSame v w = true ↔ ∃ i, v = .obj i ∧ w = .obj i := by
  cases v <;> cases w <;> simp [isSame, eq_comm]

theorem holds_true {R : Val → Val → Prop} {v w : Val} : (Cmp.pair true v w).Holds R ↔ SameOr R v w := by
  simp only [Cmp.Holds, SameOr, isSame_iff, true_and]

theorem holds_false {R : Val → Val → Prop} {v w : Val} : (Cmp.pair false v w).Holds R ↔ R v w := by
  simp [Cmp.Holds]

/-! ## Arrays -/

theorem Arr.mem_unordered {α : Type} {a : Arr α} (h : a.Inv) (i : Nat) :
    i ∈ a.elementIndexes .unordered ↔ i ∈ occupied a.abs := by
  cases a with
  | dense d => simp only [Arr.elementIndexes, Dense.elementIndexes, Arr.abs, usedIndexes_zero]
  | sparse s => exact Sparse.mem_keys_abs h i

theorem mem_arrayCmps {a b : Arr Val} (ha : a.Inv) (hb : b.Inv) (hl : a.len = b.len) (hu : a.used = b.used)
    (c : Cmp) :
    c ∈ arrayCmps a b ↔ ∃ (i : Nat) (v : Val), a.abs[i]? = some (some v) ∧
      c = .pair false v (elemVal (b.abs[i]?).join) := by
  have hlen : a.abs.length = b.abs.length := by
    have h1 := Arr.len_eq ha; have h2 := Arr.len_eq hb; omega
  unfold arrayCmps
  rw [if_neg (by simp [hl]), if_neg (by simp [hu]), List.mem_map]
  constructor
  · rintro ⟨i, hi, hc⟩
    rw [Arr.mem_unordered ha, mem_occupied] at hi
    obtain ⟨v, hv⟩ := hi
    have hlt : i < a.abs.length := (List.getElem?_eq_some_iff.1 hv).1
    rw [Arr.getitem_nat ha i hlt, Arr.getitem_nat hb i (by omega), hv] at hc
    exact ⟨i, v, hv, hc.symm⟩
  · rintro ⟨i, v, hv, rfl⟩
    have hlt : i < a.abs.length := (List.getElem?_eq_some_iff.1 hv).1
    refine ⟨i, (Arr.mem_unordered ha i).2 (mem_occupied.2 ⟨v, hv⟩), ?_⟩
    rw [Arr.getitem_nat ha i hlt, Arr.getitem_nat hb i (by omega), hv]
    rfl

theorem occupied_nodup {α : Type} (l : List (Option α)) : (occupied l).Nodup :=
  (occupied_sorted l).imp (fun h => Nat.ne_of_lt h)

theorem join_some {α : Type} {o : Option (Option α)} {v : α} : o.join = some v ↔ o = some (some v) := by
  cases o with
  | none => simp
  | some x => simp

theorem arrayCmps_sound {R : Val → Val → Prop} (hole : ∀ v, v ≠ .hole → ¬ R v .hole) {a b : Arr Val}
    (ha : a.Inv) (hb : b.Inv) (hah : ∀ i : Nat, a.abs[i]? ≠ some (some Val.hole))
    (h : ∀ c ∈ arrayCmps a b, c.Holds R) :
    a.len = b.len ∧ ∀ k : Nat, BothOr R (a.abs[k]?).join (b.abs[k]?).join := by
  by_cases hl : a.len = b.len
  swap
  · exact absurd (h .differ (by unfold arrayCmps; rw [if_pos hl]; simp)) id
  by_cases hu : a.used = b.used
  swap
  · exact absurd (h .differ (by unfold arrayCmps; rw [if_neg (by simp [hl]), if_pos hu]; simp)) id
  refine ⟨hl, ?_⟩
  have key : ∀ (i : Nat) (v : Val), a.abs[i]? = some (some v) → ∃ w, b.abs[i]? = some (some w) ∧ R v w := by
    intro i v hv
    have := h _ ((mem_arrayCmps ha hb hl hu _).2 ⟨i, v, hv, rfl⟩)
    rw [holds_false] at this
    cases hy : (b.abs[i]?).join with
    | none =>
      rw [hy] at this
      exact absurd this (hole v (fun e => hah i (e ▸ hv)))
    | some w =>
      rw [hy] at this
      exact ⟨w, join_some.1 hy, this⟩
  have hsub : (occupied a.abs) ⊆ (occupied b.abs) := by
    intro i hi
    obtain ⟨v, hv⟩ := mem_occupied.1 hi
    obtain ⟨w, hw, _⟩ := key i v hv
    exact mem_occupied.2 ⟨w, hw⟩
  have hcount : (occupied b.abs).length ≤ (occupied a.abs).length := by
    rw [length_occupied, length_occupied]
    have h1 := Arr.used_eq ha; have h2 := Arr.used_eq hb; omega
  have hperm : (occupied a.abs).Perm (occupied b.abs) :=
    ((occupied_nodup a.abs).subperm hsub).perm_of_length_le hcount
  intro k
  cases hx : (a.abs[k]?).join with
  | some v =>
    obtain ⟨w, hw, hr⟩ := key k v (join_some.1 hx)
    rw [hw]
    exact hr
  | none =>
    cases hy : (b.abs[k]?).join with
    | none => trivial
    | some w =>
      have : k ∈ occupied a.abs := hperm.mem_iff.2 (mem_occupied.2 ⟨w, join_some.1 hy⟩)
      obtain ⟨v, hv⟩ := mem_occupied.1 this
      rw [hv] at hx
      cases hx

theorem used_of_both {R : Val → Val → Prop} {a b : Arr Val} (ha : a.Inv) (hb : b.Inv)
    (h : ∀ k : Nat, BothOr R (a.abs[k]?).join (b.abs[k]?).join) : a.used = b.used := by
  rw [Arr.used_eq ha, Arr.used_eq hb, ← length_occupied, ← length_occupied]
  have : (occupied a.abs).Perm (occupied b.abs) := by
    refine (List.perm_ext_iff_of_nodup (occupied_nodup _) (occupied_nodup _)).2 (fun k => ?_)
    rw [mem_occupied, mem_occupied]
    have hk := h k
    constructor
    · rintro ⟨v, hv⟩
      rw [hv] at hk
      cases hy : (b.abs[k]?).join with
      | none => rw [hy] at hk; exact absurd hk id
      | some w => exact ⟨w, join_some.1 hy⟩
    · rintro ⟨v, hv⟩
      rw [hv] at hk
      cases hy : (a.abs[k]?).join with
      | none => rw [hy] at hk; exact absurd hk id
      | some w => exact ⟨w, join_some.1 hy⟩
  rw [this.length_eq]

theorem arrayCmps_complete {R : Val → Val → Prop} {a b : Arr Val} (ha : a.Inv) (hb : b.Inv) (hl : a.len = b.len)
    (h : ∀ k : Nat, BothOr R (a.abs[k]?).join (b.abs[k]?).join) :
    ∀ c ∈ arrayCmps a b, c.Holds R := by
  intro c hc
  obtain ⟨i, v, hv, rfl⟩ := (mem_arrayCmps ha hb hl (used_of_both ha hb h) c).1 hc
  rw [holds_false]
  have hk := h i
  rw [hv] at hk
  cases hy : (b.abs[i]?).join with
  | none => rw [hy] at hk; exact absurd hk id
  | some w => rw [hy] at hk; exact hk

/-! ## Dicts -/

theorem dictCmps_sound {R : Val → Val → Prop} {p q : Dict Str Val} (hp : p.keys.Nodup)
    (h : ∀ c ∈ dictCmps p q, c.Holds R) :
    p.length = q.length ∧ ∀ s, BothOr (SameOr R) (p.get s) (q.get s) := by
  by_cases hl : p.length = q.length
  swap
  · exact absurd (h .differ (by unfold dictCmps; rw [if_pos hl]; simp)) id
  refine ⟨hl, ?_⟩
  unfold dictCmps at h
  rw [if_neg (by simp [hl])] at h
  have key : ∀ e ∈ p, ∃ w, q.get e.1 = some w ∧ SameOr R e.2 w := by
    intro e he
    have := h _ (List.mem_map.2 ⟨e, he, rfl⟩)
    cases hg : q.get e.1 with
    | none => rw [hg] at this; exact absurd this id
    | some w => rw [hg] at this; exact ⟨w, rfl, holds_true.1 this⟩
  have hsub : p.keys ⊆ q.keys := by
    intro s hs
    obtain ⟨e, he, rfl⟩ := List.mem_map.1 hs
    obtain ⟨w, hw, _⟩ := key e he
    exact (Dict.mem_keys_iff _ _).2 ⟨w, hw⟩
  have hperm : p.keys.Perm q.keys :=
    (hp.subperm hsub).perm_of_length_le (by rw [Dict.length_keys, Dict.length_keys]; omega)
  intro s
  cases hx : p.get s with
  | some v =>
    have hm : (s, v) ∈ p := Dict.mem_of_get _ _ _ hx
    obtain ⟨w, hw, hr⟩ := key _ hm
    rw [hw]
    exact hr
  | none =>
    cases hy : q.get s with
    | none => trivial
    | some w =>
      have : s ∈ p.keys := hperm.mem_iff.2 ((Dict.mem_keys_iff _ _).2 ⟨w, hy⟩)
      exact absurd this ((Dict.get_eq_none_iff _ _).1 hx)

theorem length_of_both {R : Val → Val → Prop} {p q : Dict Str Val} (hp : p.keys.Nodup) (hq : q.keys.Nodup)
    (h : ∀ s, BothOr R (p.get s) (q.get s)) : p.length = q.length := by
  rw [← Dict.length_keys, ← Dict.length_keys]
  refine List.Perm.length_eq ((List.perm_ext_iff_of_nodup hp hq).2 (fun s => ?_))
  rw [Dict.mem_keys_iff, Dict.mem_keys_iff]
  have hs := h s
  constructor
  · rintro ⟨v, hv⟩
    rw [hv] at hs
    cases hy : q.get s with
    | none => rw [hy] at hs; exact absurd hs id
    | some w => exact ⟨w, rfl⟩
  · rintro ⟨v, hv⟩
    rw [hv] at hs
    cases hy : p.get s with
    | none => rw [hy] at hs; exact absurd hs id
    | some w => exact ⟨w, rfl⟩

theorem dictCmps_complete {R : Val → Val → Prop} {p q : Dict Str Val} (hp : p.keys.Nodup) (hq : q.keys.Nodup)
    (h : ∀ s, BothOr (SameOr R) (p.get s) (q.get s)) : ∀ c ∈ dictCmps p q, c.Holds R := by
  intro c hc
  unfold dictCmps at hc
  rw [if_neg (by simp [length_of_both hp hq h])] at hc
  obtain ⟨e, he, rfl⟩ := List.mem_map.1 hc
  have hs := h e.1
  rw [Dict.get_of_mem p e.1 e.2 hp he] at hs
  cases hg : q.get e.1 with
  | none => rw [hg] at hs; exact absurd hs id
  | some w => rw [hg] at hs; exact holds_true.2 hs

/-! ## Objects -/

/-- What is asked of the contents of an object. -/
def NodeSane : Node → Prop
  | .jsobj o | .jsarr o => o.Inv ∧ ∀ k, o.lookup k ≠ some .hole
  | _ => True

theorem objCmps_sound {R : Val → Val → Prop} (hole : ∀ v, v ≠ .hole → ¬ R v .hole) {o p : JSObj Val}
    (ho : o.Inv ∧ ∀ k, o.lookup k ≠ some .hole) (hp : p.Inv) (h : ∀ c ∈ objCmps o p, c.Holds R) :
    SameProps R o p := by
  by_cases hl : o.len = p.len
  swap
  · exact absurd (h .differ (by unfold objCmps; rw [if_pos hl]; simp)) id
  unfold objCmps at h
  rw [if_neg (by simp [hl])] at h
  obtain ⟨h1, h2⟩ := arrayCmps_sound hole ho.1.arr hp.arr
    (fun i hi => ho.2 (.idx i) (by simp only [JSObj.lookup, hi]; rfl))
    (fun c hc => h c (List.mem_append_left _ hc))
  obtain ⟨_, h3⟩ := dictCmps_sound ho.1.names (fun c hc => h c (List.mem_append_right _ hc))
  exact ⟨h1, h2, h3⟩

theorem objCmps_complete {R : Val → Val → Prop} {o p : JSObj Val} (ho : o.Inv) (hp : p.Inv)
    (h : SameProps R o p) : ∀ c ∈ objCmps o p, c.Holds R := by
  obtain ⟨h1, h2, h3⟩ := h
  have hlen : o.len = p.len := by
    unfold JSObj.len
    rw [used_of_both ho.arr hp.arr h2, length_of_both ho.names hp.names h3]
  intro c hc
  unfold objCmps at hc
  rw [if_neg (by simp [hlen])] at hc
  rcases List.mem_append.1 hc with hc | hc
  · exact arrayCmps_complete ho.arr hp.arr h1 h2 c hc
  · exact dictCmps_complete ho.names hp.names h3 c hc

theorem forall₂_of_zip {α β : Type} {P : α → β → Prop} : ∀ {l : List α} {l' : List β}, l.length = l'.length →
    (∀ x ∈ l.zip l', P x.1 x.2) → List.Forall₂ P l l'
  | [], [], _, _ => .nil
  | [], _ :: _, h, _ => by simp at h
  | _ :: _, [], h, _ => by simp at h
  | a :: t, b :: t', h, hp =>
    .cons (hp (a, b) (by simp)) (forall₂_of_zip (by simpa using h) (fun x hx => hp x (by simp [hx])))

theorem zip_of_forall₂ {α β : Type} {P : α → β → Prop} {l : List α} {l' : List β} (h : List.Forall₂ P l l') :
    l.length = l'.length ∧ ∀ x ∈ l.zip l', P x.1 x.2 := by
  induction h with
  | nil => simp
  | cons h1 _ ih =>
    refine ⟨by simp [ih.1], ?_⟩
    intro x hx
    rw [List.zip_cons_cons, List.mem_cons] at hx
    rcases hx with rfl | hx
    · exact h1
    · exact ih.2 x hx

theorem optStr_eq {a b : Option Str} (h : EqualScalars (optStr a) (optStr b)) : a = b := by
  rcases h with ⟨x, hx, _⟩ | ⟨_, h⟩
  · cases a <;> cases hx
  · cases a <;> cases b <;> simp_all [optStr]

theorem sameOr_scalar {R : Val → Val → Prop} {v w : Val} (hv : IsScalar v) (h : SameOr R v w) : R v w := by
  rcases h with ⟨i, rfl, _⟩ | h
  · exact absurd hv id
  · exact h

theorem optStr_scalar (a : Option Str) : IsScalar (optStr a) := by cases a <;> trivial

theorem nodeCmps_sound {R : Val → Val → Prop} (hole : ∀ v, v ≠ .hole → ¬ R v .hole)
    (hsc : ∀ v w, IsScalar v → IsScalar w → R v w → EqualScalars v w) {n m : Node} (hn : NodeSane n)
    (hm : NodeSane m) {cmps : List Cmp} (hc : nodeCmps n m = some cmps) (h : ∀ c ∈ cmps, c.Holds R) :
    AlikeNode R n m := by
  cases n <;> cases m <;> simp only [nodeCmps, Option.some.injEq, reduceCtorEq] at hc
  case jsobj.jsobj o p => subst hc; exact .object (objCmps_sound hole hn hm.1 h)
  case jsarr.jsarr o p => subst hc; exact .array (objCmps_sound hole hn hm.1 h)
  case jsmap.jsobj => subst hc; exact absurd (h .differ (by simp)) id
  case jsmap.jsarr => subst hc; exact absurd (h .differ (by simp)) id
  case jsmap.jsmap es fs =>
    by_cases hl : es.length = fs.length
    · rw [if_neg (by simp [hl])] at hc
      simp only [Option.some.injEq] at hc
      subst hc
      refine .map (forall₂_of_zip hl (fun x hx => ⟨?_, ?_⟩))
      · exact holds_true.1 (h _ (List.mem_flatMap.2 ⟨x, hx, by simp⟩))
      · exact holds_true.1 (h _ (List.mem_flatMap.2 ⟨x, hx, by simp⟩))
    · rw [if_pos hl] at hc
      simp only [Option.some.injEq] at hc
      subst hc
      exact absurd (h .differ (by simp)) id
  case jsset.jsset ms ns =>
    by_cases hl : ms.length = ns.length
    · rw [if_neg (by simp [hl])] at hc
      simp only [Option.some.injEq] at hc
      subst hc
      exact .set (forall₂_of_zip hl (fun x hx => holds_false.1 (h _ (List.mem_map.2 ⟨x, hx, rfl⟩))))
    · rw [if_pos hl] at hc
      simp only [Option.some.injEq] at hc
      subst hc
      exact absurd (h .differ (by simp)) id
  case error.error name msg stack c name' msg' stack' d =>
    subst hc
    have h1 := hsc (.str name) (.str name') trivial trivial (sameOr_scalar (v := .str name) trivial (holds_true.1 (h (.pair true (.str name) (.str name')) (by simp))))
    have h2 := hsc _ _ (optStr_scalar _) (optStr_scalar _)
      (sameOr_scalar (optStr_scalar _) (holds_true.1 (h (.pair true (optStr msg) (optStr msg')) (by simp))))
    have h3 := hsc _ _ (optStr_scalar _) (optStr_scalar _)
      (sameOr_scalar (optStr_scalar _) (holds_true.1 (h (.pair true (optStr stack) (optStr stack')) (by simp))))
    have h4 := holds_true.1 (h (.pair true c d) (by simp))
    have e1 : some name = some name' := optStr_eq h1
    simp only [Option.some.injEq] at e1
    rw [← e1, ← optStr_eq h2, ← optStr_eq h3]
    exact .error h4

theorem equalScalars_optStr (a : Option Str) : EqualScalars (optStr a) (optStr a) := by
  cases a <;> exact Or.inr ⟨rfl, rfl⟩

theorem nodeCmps_complete {R : Val → Val → Prop}
    (hsc : ∀ v w, IsScalar v → IsScalar w → EqualScalars v w → R v w) {n m : Node} (hn : NodeSane n)
    (hm : NodeSane m) (h : AlikeNode R n m) :
    ∃ cmps, nodeCmps n m = some cmps ∧ ∀ c ∈ cmps, c.Holds R := by
  cases h with
  | object h => exact ⟨_, rfl, objCmps_complete hn.1 hm.1 h⟩
  | array h => exact ⟨_, rfl, objCmps_complete hn.1 hm.1 h⟩
  | map h =>
    obtain ⟨hl, hz⟩ := zip_of_forall₂ h
    simp only [nodeCmps]
    rw [if_neg (by simp [hl])]
    refine ⟨_, rfl, fun c hc => ?_⟩
    obtain ⟨x, hx, hc⟩ := List.mem_flatMap.1 hc
    simp only [List.mem_cons, List.not_mem_nil, or_false] at hc
    rcases hc with rfl | rfl
    · exact holds_true.2 (hz x hx).1
    · exact holds_true.2 (hz x hx).2
  | set h =>
    obtain ⟨hl, hz⟩ := zip_of_forall₂ h
    simp only [nodeCmps]
    rw [if_neg (by simp [hl])]
    refine ⟨_, rfl, fun c hc => ?_⟩
    obtain ⟨x, hx, rfl⟩ := List.mem_map.1 hc
    exact holds_false.2 (hz x hx)
  | @error name msg stack c d h =>
    refine ⟨_, rfl, fun x hx => ?_⟩
    simp only [List.mem_cons, List.not_mem_nil, or_false] at hx
    rcases hx with rfl | rfl | rfl | rfl
    · exact holds_true.2 (Or.inr (hsc _ _ trivial trivial (Or.inr ⟨rfl, rfl⟩)))
    · exact holds_true.2 (Or.inr (hsc _ _ (optStr_scalar _) (optStr_scalar _) (equalScalars_optStr _)))
    · exact holds_true.2 (Or.inr (hsc _ _ (optStr_scalar _) (optStr_scalar _) (equalScalars_optStr _)))
    · exact holds_true.2 h

end V8
