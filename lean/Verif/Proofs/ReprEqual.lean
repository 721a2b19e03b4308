import Verif.Proofs.Repr
import Verif.Proofs.DecodeMade
import Verif.Props.RecursiveEq

/-!
# Copies are equal
-/

namespace V8
open Spec

theorem copy_lookup {R : Val → Val → Prop} {o p : JSObj Val} (ho : o.Inv) (hp : p.Inv)
    (h : List.Forall₂ (fun a b => a.1 = b.1 ∧ R a.2 b.2) o.items p.items) (k : PKey) : BothOr R (o.lookup k) (p.lookup k) := by
  have left : ∀ v, o.lookup k = some v → ∃ w, p.lookup k = some w ∧ R v w := by
    intro v hv
    have hm := (JSObj.mem_items ho (k, v)).2 hv
    obtain ⟨i, hi⟩ := List.getElem?_of_mem hm
    have hlen := h.length_eq
    have hi' := (List.getElem?_eq_some_iff.mp hi).1
    have hr := List.Forall₂.get h hi' (by omega)
    have e1 : o.items.get ⟨i, hi'⟩ = (k, v) := (List.getElem?_eq_some_iff.mp hi).2
    rw [e1] at hr
    refine ⟨_, ?_, hr.2⟩
    have := (JSObj.mem_items hp (p.items.get ⟨i, by omega⟩)).1 (List.get_mem _ _)
    rw [← hr.1] at this
    exact this
  have right : ∀ w, p.lookup k = some w → ∃ v, o.lookup k = some v := by
    intro w hw
    have hm := (JSObj.mem_items hp (k, w)).2 hw
    obtain ⟨i, hi⟩ := List.getElem?_of_mem hm
    have hlen := h.length_eq
    have hi' := (List.getElem?_eq_some_iff.mp hi).1
    have hr := List.Forall₂.get h (i := i) (by omega) hi'
    have e1 : p.items.get ⟨i, hi'⟩ = (k, w) := (List.getElem?_eq_some_iff.mp hi).2
    rw [e1] at hr
    refine ⟨(o.items.get ⟨i, by omega⟩).2, ?_⟩
    have := (JSObj.mem_items ho (o.items.get ⟨i, by omega⟩)).1 (List.get_mem _ _)
    rw [hr.1] at this
    exact this
  cases h1 : o.lookup k with
  | none =>
    cases h2 : p.lookup k with
    | none => trivial
    | some w => obtain ⟨v, hv⟩ := right w h2; rw [h1] at hv; cases hv
  | some v =>
    obtain ⟨w, hw, hr⟩ := left v h1
    rw [hw]; exact hr

theorem BothOr.mono {R S : Val → Val → Prop} (h : ∀ v w, R v w → S v w) {a b : Option Val} (hr : BothOr R a b) : BothOr S a b := by
  cases a <;> cases b <;> first | exact hr | exact h _ _ hr

/-- A copy is structurally equal. -/
theorem copy_structEq {env : EqEnv} (hh : HeapOK env.heap) {l : Nat} {v w : Val} (h : CopyAt env.heap l v w) : StructEq env v w := by
  refine ⟨fun a b => ∃ l, CopyAt env.heap l a b, ?_, l, h⟩
  rintro a b ⟨l, hl⟩
  cases l with
  | zero => exact hl.elim
  | succ l =>
    rcases hl with ⟨h1, rfl, h2⟩ | ⟨i, j, n, m, rfl, rfl, hi, hj, hn⟩
    · refine .scalars h1 h1 ?_
      cases hv : numOf b with
      | none => exact .inr ⟨hv, rfl⟩
      | some x => exact .inl ⟨x, hv, hv, fun hx => h2 (by rw [hv, hx])⟩
    · refine .objects hi hj ?_
      cases hn with
      | object h1 h2 =>
        have := copy_lookup (hh i _ (.inl hi)).1 (hh j _ (.inl hj)).1 h2
        exact .object ⟨h1, fun k => BothOr.mono (fun _ _ e => ⟨l, e⟩) (this _),
          fun s => BothOr.mono (fun _ _ e => .inr ⟨l, e⟩) (this _)⟩
      | array h1 h2 =>
        have := copy_lookup (hh i _ (.inr hi)).1 (hh j _ (.inr hj)).1 h2
        exact .array ⟨h1, fun k => BothOr.mono (fun _ _ e => ⟨l, e⟩) (this _),
          fun s => BothOr.mono (fun _ _ e => .inr ⟨l, e⟩) (this _)⟩
      | map h1 => exact .map (h1.imp fun _ _ e => ⟨.inr ⟨l, e.1⟩, .inr ⟨l, e.2⟩⟩)
      | set h1 => exact .set (h1.imp fun _ _ e => ⟨l, e⟩)
      | error h1 => exact .error (.inr ⟨l, h1⟩)

/-! ## The heap after evaluation -/

theorem ext_old {H h : Heap} (he : Ext H h) {i : Nat} (hi : i < H.length) : h[i]? = H[i]? := by
  obtain ⟨t, rfl⟩ := he
  exact List.getElem?_append_left hi

theorem fresh_heapOK {H h : Heap} (hH : HeapOK H) (he : Ext H h) (hf : FreshFrom H.length h) : HeapOK h := by
  intro i o hi
  rcases Nat.lt_or_ge i H.length with h1 | h1
  · rw [ext_old he h1] at hi
    exact hH i o hi
  · have hn : o.Inv ∧ ∀ e ∈ o.items, e.2 ≠ .hole ∧ InRange H.length i e.2 := by
      rcases hi with hi | hi <;> exact hf i _ h1 hi
    exact ⟨hn.1, fun k hk => (hn.2 (k, .hole) ((JSObj.mem_items hn.1 (k, .hole)).2 hk)).1 rfl⟩

theorem inside_old {H h : Heap} (he : Ext H h) {i : Id} (hi : (i : Nat) < H.length) {v : Val} (hin : Inside h i v) : Inside H i v := by
  have e := ext_old he hi
  cases hin with
  | prop h1 h2 => rw [e] at h1; exact .prop h1 h2
  | entryKey h1 h2 => rw [e] at h1; exact .entryKey h1 h2
  | entryValue h1 h2 => rw [e] at h1; exact .entryValue h1 h2
  | member h1 h2 => rw [e] at h1; exact .member h1 h2
  | cause h1 => rw [e] at h1; exact .cause h1

theorem inside_new {H h : Heap} (hf : FreshFrom H.length h) {i : Id} (hi : H.length ≤ (i : Nat)) {v : Val} (hin : Inside h i v) :
    InRange H.length i v := by
  cases hin with
  | @prop o k c h1 h2 =>
    have hn : o.Inv ∧ ∀ e ∈ o.items, e.2 ≠ .hole ∧ InRange H.length i e.2 := by
      rcases h1 with h1 | h1 <;> exact hf i _ hi h1
    exact (hn.2 (k, v) ((JSObj.mem_items hn.1 (k, v)).2 h2)).2
  | @entryKey es e h1 h2 => exact (hf i _ hi h1 e h2).1
  | @entryValue es e h1 h2 => exact (hf i _ hi h1 e h2).2
  | @member ms c h1 h2 => exact hf i _ hi h1 v h2
  | cause h1 => exact hf i _ hi h1

theorem fresh_acyclic {H h : Heap} (hH : Acyclic H) (hd : AllExist H) (he : Ext H h) (hf : FreshFrom H.length h) : Acyclic h := by
  obtain ⟨rank, hr⟩ := hH
  refine ⟨fun i => if (i : Nat) < H.length then rank i else i, fun i j hin => ?_⟩
  rcases Nat.lt_or_ge i H.length with h1 | h1
  · have hin' := inside_old he h1 hin
    have hj : (j : Nat) < H.length := hd i j hin'
    simp only [if_pos h1, if_pos hj]
    exact hr i j hin'
  · have hj := inside_new hf h1 hin j rfl
    simp only [if_neg (Nat.not_lt.2 h1), if_neg (Nat.not_lt.2 hj.1)]
    exact hj.2

end V8
