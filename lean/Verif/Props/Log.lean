import Verif.Spec.Log
import Verif.Proofs.Dict
import Mathlib.Data.List.Basic

/-!
# C42: the object log is a faithful numbering
-/

namespace V8.Props
open V8 V8.Spec

theorem find?_congr_mem {α : Type} (l : List α) (p q : α → Bool) (h : ∀ a ∈ l, p a = q a) :
    l.find? p = l.find? q := by
  induction l with
  | nil => rfl
  | cons a t ih =>
    rw [List.find?_cons, List.find?_cons, h a List.mem_cons_self,
      ih (fun b hb => h b (List.mem_cons_of_mem _ hb))]

theorem latestId_append (r : List Val) (v x : Val) :
    latestId (r ++ [v]) x = if v = x then some r.length else latestId r x := by
  unfold latestId
  rw [List.length_append, List.length_singleton, List.range_succ, List.reverse_append]
  simp only [List.reverse_cons, List.reverse_nil, List.nil_append, List.singleton_append]
  rw [List.find?_cons]
  have h1 : (r ++ [v])[r.length]? = some v := by simp
  rw [h1]
  by_cases hv : v = x
  · simp [hv]
  · simp only [Option.some.injEq, hv, decide_false, if_false]
    apply find?_congr_mem
    intro i hi
    have : i < r.length := by simpa using hi
    rw [List.getElem?_append_left this]

theorem latestId_isSome (r : List Val) (x : Val) : (latestId r x).isSome = decide (x ∈ r) := by
  unfold latestId
  rw [Bool.eq_iff_iff, List.find?_isSome]
  simp only [decide_eq_true_eq, List.mem_reverse, List.mem_range]
  constructor
  · rintro ⟨i, _, h⟩; exact List.mem_of_getElem? h
  · intro h
    obtain ⟨i, hi, hx⟩ := List.mem_iff_getElem.1 h
    exact ⟨i, hi, by rw [List.getElem?_eq_getElem hi, hx]⟩

theorem latestId_some {r : List Val} {x : Val} {n : Nat} (h : latestId r x = some n) : r[n]? = some x := by
  have := List.find?_some h
  simpa using this

/-- How the code's log represents a numbering. -/
structure LogRep (l : ObjLog) (s : Numbering) : Prop where
  slots : l.slots = s.now
  len : s.now.length = s.recorded.length
  ids : ∀ v, Dict.get l.ids v = latestId s.recorded v

theorem objLog_step (l : ObjLog) (s : Numbering) (h : LogRep l s) (op : LogOp) :
    LogRep (objLogStep l op).1 (numberingStep s op).1 ∧ (objLogStep l op).2 = (numberingStep s op).2 := by
  have hrec : ∀ v, ∀ x, Dict.get (Dict.set l.ids v l.slots.length) x = latestId (s.recorded ++ [v]) x := by
    intro v x
    rw [Dict.get_set, latestId_append, h.slots, h.len, h.ids]
  cases op with
  | record v =>
    refine ⟨⟨?_, ?_, hrec v⟩, ?_⟩
    · simp [objLogStep, numberingStep, ObjLog.record, h.slots]
    · simp [numberingStep, h.len]
    · simp [objLogStep, numberingStep, ObjLog.record, h.slots, h.len]
  | contains v =>
    refine ⟨h, ?_⟩
    simp only [objLogStep, numberingStep, ObjLog.contains, h.ids, latestId_isSome]
  | idOf v =>
    refine ⟨h, ?_⟩
    simp only [objLogStep, numberingStep, ObjLog.getId, h.ids, h.slots]
    cases latestId s.recorded v with
    | none => rfl
    | some n =>
      simp only
      cases hn : s.now[n]? with
      | none => simp
      | some x =>
        cases x with
        | obj o => simp
        | fwd o => cases o <;> simp
  | objectAt n =>
    refine ⟨h, ?_⟩
    simp only [objLogStep, numberingStep, ObjLog.getObject, h.slots, pyIndex]
    by_cases hn : n < 0
    · rw [if_pos hn, if_neg (show ¬ 0 ≤ n by omega)]
      by_cases hb : (s.now.length : Int) + n < 0
      · rw [if_pos hb, if_neg (show ¬ -n ≤ (s.now.length : Int) by omega)]
      · rw [if_neg hb, if_pos (show -n ≤ (s.now.length : Int) by omega)]
        rw [List.getElem?_reverse (by omega)]
        simp only
        rw [show s.now.length - 1 - ((-n).toNat - 1) = ((s.now.length : Int) + n).toNat by omega]
        cases s.now[((s.now.length : Int) + n).toNat]? <;> rfl
    · rw [if_neg hn, if_pos (show 0 ≤ n by omega)]
      by_cases hb : n < s.now.length
      · rw [if_pos hb]
        simp only
        cases s.now[n.toNat]? <;> rfl
      · rw [if_neg hb]
        rw [List.getElem?_eq_none (by omega)]
  | replace n x =>
    simp only [objLogStep, numberingStep, ObjLog.replace, h.slots, h.len]
    by_cases hn : n + 1 = s.recorded.length
    · rw [if_neg (show ¬ n ≠ (s.recorded.length : Int) - 1 by omega), if_pos hn]
      by_cases h0 : s.recorded = []
      · rw [if_pos (show s.recorded.length = 0 by rw [h0]; rfl), if_pos h0]
        exact ⟨h, rfl⟩
      · have h0' : s.recorded.length ≠ 0 := by simpa using h0
        rw [if_neg h0', if_neg h0]
        have hne : s.now ≠ [] := by
          intro he; have := h.len; rw [he] at this; simp at this; exact h0' this.symm
        have hset : s.now.set (s.recorded.length - 1) (.obj x) = s.now.dropLast ++ [.obj x] := by
          rw [← h.len]
          obtain ⟨u, y, hu⟩ := List.eq_nil_or_concat s.now |>.resolve_left hne
          rw [hu]; simp
        refine ⟨⟨hset, ?_, h.ids⟩, rfl⟩
        show (s.now.dropLast ++ [LogSlot.obj x]).length = s.recorded.length
        rw [← hset, List.length_set, h.len]
    · rw [if_pos (show n ≠ (s.recorded.length : Int) - 1 by omega), if_neg hn]
      exact ⟨h, rfl⟩
  | openAcyclic v =>
    refine ⟨⟨?_, ?_, hrec v⟩, ?_⟩
    · simp [objLogStep, numberingStep, ObjLog.beginAcyclic, ObjLog.record, h.slots]
    · simp [numberingStep, h.len]
    · simp [objLogStep, numberingStep, ObjLog.beginAcyclic, ObjLog.record, h.slots, h.len]
  | closeAcyclic n v =>
    refine ⟨⟨?_, ?_, h.ids⟩, rfl⟩
    · simp [objLogStep, numberingStep, ObjLog.endAcyclic, h.slots]
    · simp [numberingStep, h.len]

theorem objLog_history (l : ObjLog) (s : Numbering) (h : LogRep l s) (ops : List LogOp) :
    LogRep (runHist objLogStep l ops).1 (runHist numberingStep s ops).1 ∧
    (runHist objLogStep l ops).2 = (runHist numberingStep s ops).2 := by
  induction ops generalizing l s with
  | nil => exact ⟨h, rfl⟩
  | cons op ops ih =>
    obtain ⟨h1, h2⟩ := objLog_step l s h op
    obtain ⟨h3, h4⟩ := ih _ _ h1
    simp only [runHist]
    exact ⟨h3, by rw [h2, h4]⟩

theorem logRep_empty : LogRep .empty ⟨[], []⟩ := ⟨rfl, rfl, fun _ => rfl⟩

/-- C42: whatever is recorded, looked up or replaced, in whatever order, the log answers as the
numbering does. -/
theorem C42_log_is_a_numbering (ops : List LogOp) :
    (runHist objLogStep .empty ops).2 = (runHist numberingStep ⟨[], []⟩ ops).2 :=
  (objLog_history _ _ logRep_empty ops).2

/-- The objects a history records, in order. -/
def recordedBy (ops : List LogOp) : List Val :=
  ops.filterMap fun
    | .record v => some v
    | .openAcyclic v => some v
    | _ => none

theorem recorded_run (s : Numbering) (ops : List LogOp) :
    (runHist numberingStep s ops).1.recorded = s.recorded ++ recordedBy ops := by
  induction ops generalizing s with
  | nil => simp [runHist, recordedBy]
  | cons op ops ih =>
    simp only [runHist]
    rw [ih]
    cases op <;> simp only [numberingStep, recordedBy, List.filterMap_cons, List.append_assoc, List.singleton_append]
    split
    · split <;> rfl
    · rfl

theorem now_run (ops : List LogOp)
    (hops : ∀ op ∈ ops, ∃ v, op = .record v ∨ op = .contains v ∨ op = .idOf v) (s : Numbering) :
    (runHist numberingStep s ops).1.now = s.now ++ (recordedBy ops).map .obj := by
  induction ops generalizing s with
  | nil => simp [runHist, recordedBy]
  | cons op ops ih =>
    simp only [runHist]
    rw [ih (fun o ho => hops o (List.mem_cons_of_mem _ ho))]
    obtain ⟨v, rfl | rfl | rfl⟩ := hops op List.mem_cons_self <;>
      simp [numberingStep, recordedBy]

/-- C42: the n-th object recorded gets id n, counting from 0. -/
theorem C42_ids_in_order (ops : List LogOp) (v : Val) :
    ((runHist objLogStep .empty ops).1.record v).2 = (recordedBy ops).length := by
  have h := (objLog_history _ _ logRep_empty ops).1
  show (runHist objLogStep .empty ops).1.slots.length = _
  rw [h.slots, h.len, recorded_run]
  simp

/-- C42: in a history that only records and looks up, an object that has been recorded has an id and
that id stands for the object; an object that has not been recorded has none. -/
theorem C42_get_back (ops : List LogOp)
    (hops : ∀ op ∈ ops, ∃ v, op = .record v ∨ op = .contains v ∨ op = .idOf v) (v : Val) :
    (v ∈ recordedBy ops →
      ∃ n : Nat, (runHist objLogStep .empty ops).1.getId v = .ok n ∧
        (runHist objLogStep .empty ops).1.getObject n = .ok (.obj v)) ∧
    (v ∉ recordedBy ops → (runHist objLogStep .empty ops).1.getId v = .error .notSerialized) := by
  have h := (objLog_history _ _ logRep_empty ops).1
  have hr : (runHist numberingStep ⟨[], []⟩ ops).1.recorded = recordedBy ops := by
    rw [recorded_run]; rfl
  have hn : (runHist numberingStep ⟨[], []⟩ ops).1.now = (recordedBy ops).map .obj := by
    rw [now_run ops hops]; rfl
  generalize (runHist objLogStep .empty ops).1 = l at h
  generalize (runHist numberingStep ⟨[], []⟩ ops).1 = s at h hr hn
  constructor
  · intro hv
    have hs := latestId_isSome (recordedBy ops) v
    rw [decide_eq_true hv] at hs
    obtain ⟨n, hid⟩ := Option.isSome_iff_exists.1 hs
    have hx := latestId_some hid
    have hlt := (List.getElem?_eq_some_iff.1 hx).1
    have hslot : l.slots[n]? = some (.obj v) := by rw [h.slots, hn, List.getElem?_map, hx]; rfl
    refine ⟨n, ?_, ?_⟩
    · simp only [ObjLog.getId, h.ids, hr, hid, hslot]
    · have hl : l.slots.length = (recordedBy ops).length := by rw [h.slots, hn, List.length_map]
      simp only [ObjLog.getObject, pyIndex]
      rw [if_neg (show ¬ (n : Int) < 0 by omega), if_pos (show (n : Int) < (l.slots.length : Int) by omega)]
      simp only [Int.toNat_natCast, hslot]
  · intro hv
    have hs := latestId_isSome (recordedBy ops) v
    rw [decide_eq_false hv] at hs
    have hid : latestId (recordedBy ops) v = none := by simpa using hs
    simp only [ObjLog.getId, h.ids, hr, hid]

/-- C42: only the most recent entry can be replaced, and afterwards its id stands for the new
object. -/
theorem C42_replace_latest_only (ops : List LogOp) (n : Int) (x : Val) :
    let l := (runHist objLogStep .empty ops).1
    (∀ l', l.replace n (.obj x) = .ok l' →
      n + 1 = (recordedBy ops).length ∧ l'.getObject n = .ok (.obj x) ∧
      ∀ m : Nat, (m : Int) < n → l'.getObject m = l.getObject m) ∧
    (n + 1 ≠ (recordedBy ops).length → l.replace n (.obj x) = .error .valueError) := by
  have h := (objLog_history _ _ logRep_empty ops).1
  have hlen : (runHist objLogStep .empty ops).1.slots.length = (recordedBy ops).length := by
    rw [h.slots, h.len, recorded_run]; simp
  simp only
  generalize (runHist objLogStep .empty ops).1 = l at hlen
  constructor
  · intro l' hl'
    unfold ObjLog.replace at hl'
    split at hl'
    · simp at hl'
    · rename_i h1
      split at hl'
      · simp at hl'
      · rename_i h2
        simp only [Except.ok.injEq] at hl'
        subst hl'
        have hn : n = ((l.slots.length - 1 : Nat) : Int) := by omega
        refine ⟨by omega, ?_, ?_⟩
        · simp only [ObjLog.getObject, pyIndex, List.length_set]
          rw [if_neg (show ¬ n < 0 by omega), if_pos (show n < (l.slots.length : Int) by omega)]
          simp only
          rw [show n.toNat = l.slots.length - 1 by omega, List.getElem?_set_self (by omega)]
        · intro m hm
          simp only [ObjLog.getObject, pyIndex, List.length_set]
          rw [if_neg (show ¬ (m : Int) < 0 by omega), if_pos (show (m : Int) < (l.slots.length : Int) by omega)]
          simp only
          rw [List.getElem?_set_ne (by omega)]
  · intro hne
    unfold ObjLog.replace
    rw [if_pos]
    omega

/-- C42 disagreement: an id that was never handed out is not refused when it is a small negative
number; `get_object(-1)` answers with the newest object. -/
theorem C42_negative_id_accepted (l : ObjLog) (v : Val) : (l.record v).1.getObject (-1) = .ok (.obj v) := by
  simp only [ObjLog.record, ObjLog.getObject, pyIndex, List.length_append, List.length_singleton]
  rw [if_pos (show (-1 : Int) < 0 by omega), if_neg (by omega)]
  simp only
  rw [show (((l.slots.length + 1 : Nat) : Int) + -1).toNat = l.slots.length by omega]
  simp

/-- C42: while an acyclic reference is open its object cannot be referred to; once closed it can. -/
theorem C42_acyclic_blocks (l : ObjLog) (v : Val) :
    (l.beginAcyclic v).1.getId v = .error (.forwardRef l.slots.length) ∧
    ((l.beginAcyclic v).1.endAcyclic l.slots.length v).getId v = .ok l.slots.length := by
  constructor <;>
  simp [ObjLog.beginAcyclic, ObjLog.endAcyclic, ObjLog.record, ObjLog.getId, Dict.get_set]

example : (runHist objLogStep .empty
    [.record (.obj 7), .record (.obj 8), .record (.obj 7), .idOf (.obj 7), .objectAt 1, .objectAt 3,
     .replace 0 (.int 1), .replace 2 (.int 1), .objectAt 2, .openAcyclic (.obj 9), .idOf (.obj 9)]).2
  = [.id 0, .id 1, .id 2, .id 2, .slot (.obj (.obj 8)), .err .outOfRange, .err .valueError, .unit,
     .slot (.obj (.int 1)), .id 3, .err (.forwardRef 3)] := by decide

end V8.Props
