import Verif.Model.Value
import Verif.Spec.JSCollections
import Verif.Proofs.Dict
import Mathlib.Tactic.Ring
import Mathlib.Tactic.Linarith

namespace V8
open Spec

theorem scale_inj (m n : Int) : m * 2 ^ 1074 = n * 2 ^ 1074 ↔ m = n := by
  constructor
  · intro h
    have h2 : (2 : Int) ^ 1074 ≠ 0 := pow_ne_zero _ (by decide)
    exact mul_right_cancel₀ h2 h
  · rintro rfl; rfl

theorem svz_error_iff (a : Val) (e : PyExc) :
    sameValueZero a = .error e ↔ (TooBig a ∧ e = .overflowError) := by
  cases a with
  | int n =>
    unfold sameValueZero TooBig
    by_cases h : n.natAbs < isnanIntLimit
    · simp only [if_pos h]
      unfold isnanIntLimit at h
      constructor
      · intro h'; cases h'
      · rintro ⟨h', _⟩; exact absurd h (Nat.not_lt.2 h')
    · simp only [if_neg h]
      unfold isnanIntLimit at h
      constructor
      · intro h'
        cases h'
        exact ⟨Nat.not_lt.1 h, rfl⟩
      · rintro ⟨_, rfl⟩; rfl
  | float x =>
    simp only [sameValueZero, TooBig]
    cases fval x <;> simp
  | _ => simp [sameValueZero, TooBig]

theorem svz_ok_of (a : Val) (h : ¬ TooBig a) : ∃ k, sameValueZero a = .ok k := by
  cases h' : sameValueZero a with
  | ok k => exact ⟨k, rfl⟩
  | error e => exact absurd ((svz_error_iff a e).1 h').1 h

theorem svz_int {n : Int} {k : SvzKey} (h : sameValueZero (.int n) = .ok k) :
    k = .num (n * 2 ^ 1074) := by
  unfold sameValueZero at h
  simp only at h
  split at h
  · exact (Except.ok.inj h).symm
  · cases h

theorem svz_float (x : F64) :
    sameValueZero (.float x) = .ok (match fval x with | .nan => .nan | .inf b => .inf b | .fin s => .num s) := by
  simp only [sameValueZero]
  cases fval x <;> rfl

/-- Equal surrogate keys mean the same value. -/
theorem svz_iff (a b : Val) (ka kb : SvzKey) (ha : sameValueZero a = .ok ka)
    (hb : sameValueZero b = .ok kb) : ka = kb ↔ SameValueZero a b := by
  have hi : ∀ {n k}, sameValueZero (.int n) = .ok k → k = .num (n * 2 ^ 1074) := svz_int
  cases a with
  | int m =>
    have ha' := svz_int ha
    subst ha'
    cases b with
    | int n =>
      have hb' := svz_int hb
      subst hb'
      simp only [SvzKey.num.injEq, SameValueZero]
      exact scale_inj m n
    | float y =>
      rw [svz_float] at hb
      have hb' := (Except.ok.inj hb).symm
      subst hb'
      simp only [SameValueZero]
      cases fval y with
      | nan => simp
      | inf b => simp
      | fin s =>
        simp only [SvzKey.num.injEq, FVal.fin.injEq]
        exact eq_comm
    | _ => simp only [sameValueZero, Except.ok.injEq] at hb; subst hb; simp [SameValueZero]
  | float x =>
    rw [svz_float] at ha
    have ha' := (Except.ok.inj ha).symm
    subst ha'
    cases b with
    | int n =>
      have hb' := svz_int hb
      subst hb'
      simp only [SameValueZero]
      cases fval x with
      | nan => simp
      | inf b => simp
      | fin s => simp only [SvzKey.num.injEq, FVal.fin.injEq]
    | float y =>
      rw [svz_float] at hb
      have hb' := (Except.ok.inj hb).symm
      subst hb'
      simp only [SameValueZero]
      cases fval x <;> cases fval y <;> simp
    | _ =>
      simp only [sameValueZero, Except.ok.injEq] at hb; subst hb
      simp only [SameValueZero]; cases fval x <;> simp
  | _ =>
    simp only [sameValueZero, Except.ok.injEq] at ha
    subst ha
    cases b with
    | int n =>
      have hb' := svz_int hb
      subst hb'
      simp [SameValueZero]
    | float y =>
      rw [svz_float] at hb
      have hb' := (Except.ok.inj hb).symm
      subst hb'
      simp only [SameValueZero]
      cases fval y <;> simp
    | _ =>
      simp only [sameValueZero, Except.ok.injEq] at hb
      subst hb
      simp [SameValueZero]

/-- Invariant of a keyed dict whose entries carry the value their key was made from. -/
def KeyedInv {α : Type} (key : α → Val) (d : Dict SvzKey α) : Prop :=
  d.keys.Nodup ∧ ∀ e ∈ d, sameValueZero (key e.2) = .ok e.1

theorem mem_set_cases {α : Type} (d : Dict SvzKey α) (k : SvzKey) (a : α) (e : SvzKey × α)
    (h : e ∈ Dict.set d k a) : e = (k, a) ∨ e ∈ d := by
  induction d with
  | nil => simp only [Dict.set, List.mem_singleton] at h; exact Or.inl h
  | cons p t ih =>
    obtain ⟨k', v'⟩ := p
    unfold Dict.set at h
    by_cases hk : k' = k
    · rw [if_pos hk] at h
      rcases List.mem_cons.1 h with rfl | h
      · subst hk; exact Or.inl rfl
      · exact Or.inr (List.mem_cons_of_mem _ h)
    · rw [if_neg hk] at h
      rcases List.mem_cons.1 h with rfl | h
      · exact Or.inr List.mem_cons_self
      · rcases ih h with h | h
        · exact Or.inl h
        · exact Or.inr (List.mem_cons_of_mem _ h)

theorem mem_of_mem_del {α : Type} (d : Dict SvzKey α) (k : SvzKey) (e : SvzKey × α)
    (h : e ∈ Dict.del d k) : e ∈ d := by
  induction d with
  | nil => simp [Dict.del] at h
  | cons p t ih =>
    obtain ⟨k', v'⟩ := p
    unfold Dict.del at h
    by_cases hk : k' = k
    · rw [if_pos hk] at h; exact List.mem_cons_of_mem _ h
    · rw [if_neg hk] at h
      rcases List.mem_cons.1 h with rfl | h
      · exact List.mem_cons_self
      · exact List.mem_cons_of_mem _ (ih h)

theorem KeyedInv.set {α : Type} {key : α → Val} {d : Dict SvzKey α} (h : KeyedInv key d)
    (a : α) (k : SvzKey) (hk : sameValueZero (key a) = .ok k) : KeyedInv key (Dict.set d k a) := by
  refine ⟨Dict.nodup_set d k a h.1, fun e he => ?_⟩
  rcases mem_set_cases d k a e he with rfl | he
  · exact hk
  · exact h.2 e he

theorem KeyedInv.del {α : Type} {key : α → Val} {d : Dict SvzKey α} (h : KeyedInv key d)
    (k : SvzKey) : KeyedInv key (Dict.del d k) :=
  ⟨Dict.nodup_del d k h.1, fun e he => h.2 e (mem_of_mem_del d k e he)⟩

theorem KeyedInv.tail {α : Type} {key : α → Val} {p : SvzKey × α} {d : Dict SvzKey α}
    (h : KeyedInv key (p :: d)) : KeyedInv key d := by
  refine ⟨?_, fun e he => h.2 e (List.mem_cons_of_mem _ he)⟩
  have := h.1
  unfold Dict.keys at this ⊢
  rw [List.map_cons] at this
  exact (List.nodup_cons.1 this).2

theorem KeyedInv.pairwise {α : Type} {key : α → Val} {d : Dict SvzKey α} (h : KeyedInv key d) :
    (d.map (·.2)).Pairwise (fun a b => ¬ SameValueZero (key a) (key b)) := by
  induction d with
  | nil => exact List.Pairwise.nil
  | cons p t ih =>
    rw [List.map_cons, List.pairwise_cons]
    refine ⟨?_, ih h.tail⟩
    intro b hb
    obtain ⟨e, he, rfl⟩ := List.mem_map.1 hb
    rw [← svz_iff _ _ _ _ (h.2 p List.mem_cons_self) (h.2 e (List.mem_cons_of_mem _ he))]
    intro heq
    have hn := h.1
    unfold Dict.keys at hn
    rw [List.map_cons, List.nodup_cons] at hn
    exact hn.1 (heq ▸ List.mem_map_of_mem he)

/-- Deleting one key of a nodup dict is filtering the values. -/
theorem del_values_filter {α : Type} {key : α → Val} {d : Dict SvzKey α} (h : KeyedInv key d)
    (v : Val) (k : SvzKey) (hk : sameValueZero v = .ok k) :
    (Dict.del d k).map (·.2) =
      (d.map (·.2)).filter (fun a => decide (¬ SameValueZero (key a) v)) := by
  induction d with
  | nil => rfl
  | cons p t ih =>
    obtain ⟨k', a⟩ := p
    have hs := svz_iff _ _ _ _ (h.2 (k', a) List.mem_cons_self) hk
    simp only at hs
    unfold Dict.del
    rw [List.map_cons]
    by_cases hkk : k' = k
    · rw [if_pos hkk, List.filter_cons_of_neg (by simp [hs.1 hkk])]
      rw [List.filter_eq_self.2]
      intro b hb
      obtain ⟨e, he, rfl⟩ := List.mem_map.1 hb
      have hs2 := svz_iff _ _ _ _ (h.2 e (List.mem_cons_of_mem _ he)) hk
      simp only [decide_eq_true_eq]
      rw [← hs2]
      intro heq
      have hn := h.1
      unfold Dict.keys at hn
      rw [List.map_cons, List.nodup_cons] at hn
      exact hn.1 (by rw [hkk, ← heq]; exact List.mem_map_of_mem (f := (·.1)) he)
    · rw [if_neg hkk, List.filter_cons_of_pos (by simp; intro hh; exact hkk (hs.2 hh)), List.map_cons,
        ih h.tail]

variable {β : Type}

/-- The invariant of a JSMap. -/
def JSMap.Inv (m : JSMap β) : Prop := KeyedInv (fun p : Val × β => p.1) m
/-- The invariant of a JSSet. -/
def JSSet.Inv (s : JSSet) : Prop := KeyedInv (fun v : Val => v) s

theorem JSMap.inv_empty : JSMap.Inv ([] : JSMap β) := ⟨List.nodup_nil, by simp⟩
theorem JSSet.inv_empty : JSSet.Inv ([] : JSSet) := ⟨List.nodup_nil, by simp⟩

theorem JSMap.lookup_eq (m : JSMap β) (h : m.Inv) (k : Val) (key : SvzKey)
    (hk : sameValueZero k = .ok key) :
    (Dict.get m key).map (·.2) = mapLookup k (JSMap.items m) := by
  induction m with
  | nil => rfl
  | cons p t ih =>
    obtain ⟨k', a⟩ := p
    have hs := svz_iff _ _ _ _ (h.2 (k', a) List.mem_cons_self) hk
    simp only at hs
    unfold Dict.get JSMap.items
    rw [List.map_cons]
    obtain ⟨ak, av⟩ := a
    unfold mapLookup
    by_cases hkk : k' = key
    · rw [if_pos hkk, if_pos (hs.1 hkk)]; rfl
    · rw [if_neg hkk, if_neg (fun hh => hkk (hs.2 hh))]
      exact ih (KeyedInv.tail h)

theorem JSMap.store_eq (m : JSMap β) (h : m.Inv) (k : Val) (v : β) (key : SvzKey)
    (hk : sameValueZero k = .ok key) :
    JSMap.items (Dict.set m key (k, v)) = mapStore k v (JSMap.items m) := by
  induction m with
  | nil => rfl
  | cons p t ih =>
    obtain ⟨k', ak, av⟩ := p
    have hs := svz_iff _ _ _ _ (h.2 (k', ak, av) List.mem_cons_self) hk
    simp only at hs
    unfold Dict.set JSMap.items
    rw [List.map_cons]
    unfold mapStore
    by_cases hkk : k' = key
    · rw [if_pos hkk, if_pos (hs.1 hkk)]; rfl
    · rw [if_neg hkk, if_neg (fun hh => hkk (hs.2 hh))]
      rw [List.map_cons]
      congr 1
      exact ih (KeyedInv.tail h)

theorem JSSet.has_eq (s : JSSet) (h : s.Inv) (v : Val) (key : SvzKey)
    (hk : sameValueZero v = .ok key) :
    (Dict.get s key).isSome = hasMember v (JSSet.members s) := by
  induction s with
  | nil => rfl
  | cons p t ih =>
    obtain ⟨k', w⟩ := p
    have hs := svz_iff _ _ _ _ (h.2 (k', w) List.mem_cons_self) hk
    simp only at hs
    unfold Dict.get JSSet.members hasMember
    rw [List.map_cons, List.any_cons]
    by_cases hkk : k' = key
    · rw [if_pos hkk, decide_eq_true (hs.1 hkk)]; rfl
    · rw [if_neg hkk, decide_eq_false (fun hh => hkk (hs.2 hh))]
      exact ih (KeyedInv.tail h)

theorem JSSet.store_eq (s : JSSet) (h : s.Inv) (v : Val) (key : SvzKey)
    (hk : sameValueZero v = .ok key) :
    JSSet.members (Dict.set s key v) = setStore v (JSSet.members s) := by
  induction s with
  | nil => rfl
  | cons p t ih =>
    obtain ⟨k', w⟩ := p
    have hs := svz_iff _ _ _ _ (h.2 (k', w) List.mem_cons_self) hk
    simp only at hs
    unfold Dict.set JSSet.members
    rw [List.map_cons]
    unfold setStore
    by_cases hkk : k' = key
    · rw [if_pos hkk, if_pos (hs.1 hkk)]; rfl
    · rw [if_neg hkk, if_neg (fun hh => hkk (hs.2 hh))]
      rw [List.map_cons]
      congr 1
      exact ih (KeyedInv.tail h)

theorem filter_no_member (v : Val) (l : List Val) (h : hasMember v l = false) :
    l.filter (fun w => decide (¬ SameValueZero w v)) = l := by
  rw [List.filter_eq_self]
  intro a ha
  unfold hasMember at h
  rw [List.any_eq_false] at h
  simpa using h a ha

theorem jsMap_step (m : JSMap β) (h : m.Inv) (op : MapOp β) :
    (jsMapStep m op).1.Inv ∧
    JSMap.items (jsMapStep m op).1 = (mapSpecStep (JSMap.items m) op).1 ∧
    (jsMapStep m op).2 = (mapSpecStep (JSMap.items m) op).2 := by
  cases op with
  | clear => exact ⟨JSMap.inv_empty, rfl, rfl⟩
  | set k v =>
    by_cases hb : TooBig k
    · have := (svz_error_iff k _).2 ⟨hb, rfl⟩
      simp only [jsMapStep, JSMap.setitem, this, jsMapStep.ret, mapSpecStep, if_pos hb]
      exact ⟨h, by trivial, by trivial⟩
    · obtain ⟨key, hk⟩ := svz_ok_of k hb
      simp only [jsMapStep, JSMap.setitem, hk, jsMapStep.ret, mapSpecStep, if_neg hb]
      exact ⟨KeyedInv.set h (k, v) key hk, JSMap.store_eq m h k v key hk, by trivial⟩
  | del k =>
    by_cases hb : TooBig k
    · have := (svz_error_iff k _).2 ⟨hb, rfl⟩
      simp only [jsMapStep, JSMap.delitem, this, jsMapStep.ret, mapSpecStep, if_pos hb]
      exact ⟨h, by trivial, by trivial⟩
    · obtain ⟨key, hk⟩ := svz_ok_of k hb
      have hl := JSMap.lookup_eq m h k key hk
      simp only [jsMapStep, JSMap.delitem, hk, mapSpecStep, if_neg hb, ← hl]
      cases hg : Dict.get m key with
      | none =>
        simp only [jsMapStep.ret, Option.map_none, Option.isSome_none, Bool.false_eq_true, if_false]
        exact ⟨h, trivial, trivial⟩
      | some p =>
        simp only [jsMapStep.ret, Option.map_some, Option.isSome_some, if_true]
        exact ⟨KeyedInv.del h key, del_values_filter h k key hk, trivial⟩
  | get k =>
    by_cases hb : TooBig k
    · have := (svz_error_iff k _).2 ⟨hb, rfl⟩
      simp only [jsMapStep, JSMap.getitem, this, mapSpecStep, if_pos hb]
      exact ⟨h, by trivial, by trivial⟩
    · obtain ⟨key, hk⟩ := svz_ok_of k hb
      have hl := JSMap.lookup_eq m h k key hk
      simp only [jsMapStep, JSMap.getitem, hk, mapSpecStep, if_neg hb, ← hl]
      cases hg : Dict.get m key with
      | none => exact ⟨h, by trivial, by trivial⟩
      | some p => exact ⟨h, by trivial, by trivial⟩

theorem jsSet_step (s : JSSet) (h : s.Inv) (op : SetOp) :
    (jsSetStep s op).1.Inv ∧
    JSSet.members (jsSetStep s op).1 = (setSpecStep (JSSet.members s) op).1 ∧
    (jsSetStep s op).2 = (setSpecStep (JSSet.members s) op).2 := by
  cases op with
  | clear => exact ⟨JSSet.inv_empty, rfl, rfl⟩
  | add v =>
    by_cases hb : TooBig v
    · have := (svz_error_iff v _).2 ⟨hb, rfl⟩
      simp only [jsSetStep, JSSet.add, this, jsSetStep.ret, setSpecStep, if_pos hb]
      exact ⟨h, by trivial, by trivial⟩
    · obtain ⟨key, hk⟩ := svz_ok_of v hb
      simp only [jsSetStep, JSSet.add, hk, jsSetStep.ret, setSpecStep, if_neg hb]
      exact ⟨KeyedInv.set h v key hk, JSSet.store_eq s h v key hk, by trivial⟩
  | discard v =>
    by_cases hb : TooBig v
    · have := (svz_error_iff v _).2 ⟨hb, rfl⟩
      simp only [jsSetStep, JSSet.discard, this, jsSetStep.ret, setSpecStep, if_pos hb]
      exact ⟨h, by trivial, by trivial⟩
    · obtain ⟨key, hk⟩ := svz_ok_of v hb
      have hl := JSSet.has_eq s h v key hk
      simp only [jsSetStep, JSSet.discard, hk, setSpecStep, if_neg hb]
      cases hg : Dict.get s key with
      | none =>
        rw [hg] at hl
        simp only [jsSetStep.ret]
        exact ⟨h, (filter_no_member v _ hl.symm).symm, trivial⟩
      | some p =>
        simp only [jsSetStep.ret]
        exact ⟨KeyedInv.del h key, del_values_filter h v key hk, trivial⟩
  | contains v =>
    by_cases hb : TooBig v
    · have := (svz_error_iff v _).2 ⟨hb, rfl⟩
      simp only [jsSetStep, JSSet.contains, this, setSpecStep, if_pos hb]
      exact ⟨h, by trivial, by trivial⟩
    · obtain ⟨key, hk⟩ := svz_ok_of v hb
      simp only [jsSetStep, JSSet.contains, hk, setSpecStep, if_neg hb, JSSet.has_eq s h v key hk]
      exact ⟨h, trivial, trivial⟩

end V8
