import Verif.Proofs.EncodeRuns
import Mathlib.Data.Finset.Card

/-! Helper lemmas: the encoder's nesting depth, and the exceptions that leave it. -/

namespace V8
open Spec

theorem Encodable.wellTyped {env : EEnv} (he : Encodable env) : WellTyped env where
  views := fun i b v hi => (he.nodes i _ hi : ViewOK env b v).1
  buffers := fun i j hij hb => by
    simp only [IsBuffer, he.buffers i j hij hb] at hb ⊢
    exact hb
  objects := fun i o h => by
    rcases h with h | h
    · exact (he.nodes i _ h : ObjOK env o).inv
    · exact (he.nodes i _ h : ObjOK env o).inv

theorem WellTyped.of_dkey {env : EEnv} (ht : WellTyped env) {u v : Val} {k : DKey}
    (hu : dkey env u = some k) (hv : dkey env v = some k) (h : IsBuffer env.heap v) : IsBuffer env.heap u := by
  cases v with
  | obj i =>
    simp only [dkey, Option.map_eq_some_iff] at hv
    obtain ⟨c, hc, rfl⟩ := hv
    cases u with
    | obj j =>
      simp only [dkey, Option.map_eq_some_iff] at hu
      obtain ⟨c', hc', h'⟩ := hu
      cases h'
      exact ht.buffers i j (Or.inr ⟨c, hc, hc'⟩) h
    | float x =>
      simp only [dkey] at hu
      split at hu <;> cases hu
    | _ => simp [dkey] at hu
  | bytes b => simp [dkey] at hv
  | _ => exact h.elim

theorem not_contains_record {l : ObjLog} {v x : Val} (h : l.contains x = false) (hne : x ≠ v) :
    (l.record v).1.contains x = false := by
  cases hc : (l.record v).1.contains x with
  | false => rfl
  | true =>
    rcases contains_record hc with h1 | h1
    · rw [h1] at h; cases h
    · exact absurd h1 hne

/-- Writing a buffer while a value that is not a buffer waits to be recorded. -/
theorem encode_buffer_runs {env : EEnv} (ht : WellTyped env) {A B : ObjLog → Prop} {E : EErr → Prop}
    (H : RunsClosed env A B E) {x : Val} (hx : ¬ IsBuffer env.heap x) {u : Val} (hu : IsBuffer env.heap u) (f : Nat) :
    Runs (St env (Fresh A x)) (St env (Fresh A x)) E (encodeObject env (f + 1) u) := by
  intro ws hP
  rw [encodeObject_succ]
  have hm := deduplicate_memo u hP.1
  have hl : (deduplicate env u ws).2.log = ws.log := by rw [deduplicate_state]
  have hd : IsBuffer env.heap (deduplicate env u ws).1 := by
    rcases deduplicate_key u hP.1 with h1 | ⟨k, h1, h2⟩
    · rw [h1]; exact hu
    · exact WellTyped.of_dkey ht h1 h2 hu
  generalize hdd : deduplicate env u ws = r at *
  obtain ⟨d, w1⟩ := r
  simp only at hm hl hd
  have hPA : St env A w1 := ⟨hm, by rw [hl]; exact hP.2.1⟩
  have hfx : w1.log.contains x = false := by rw [hl]; exact hP.2.2
  unfold V8.refsStep
  simp only [hdd]
  cases hc : w1.log.contains d with
  | true =>
    simp only [if_true]
    obtain ⟨h1, h2⟩ := H.writeReference d w1 hPA
    refine ⟨h1, fun ws' hw => ?_⟩
    have h3 := h2 ws' hw
    exact ⟨h3.1, h3.2, by rw [writeReference_log hw]; exact hfx⟩
  | false =>
    simp only [Bool.false_eq_true, if_false]
    have hne : x ≠ d := fun h => hx (h ▸ hd)
    have hrun : Runs (St env (Fresh A d)) (St env A) E (tagWriter env (encodeObject env f) d unhandledValue) := by
      cases d with
      | bytes b => exact H.writeFixedBuffer _
      | obj i =>
        intro ws hP
        cases hi : env.heap[i]? with
        | none => simp [IsBuffer, hi] at hd
        | some n =>
          simp only [V8.tagWriter, hi]
          cases n with
          | abuf b => exact H.writeArrayBuffer _ _ ws hP
          | rawBuf m b => exact H.writeFixedBuffer _ ws hP
          | sharedBuf id => exact H.writeBufferId _ _ ws hP
          | transferBuf id => exact H.writeBufferId _ _ ws hP
          | _ => simp only [IsBuffer, hi] at hd
      | _ => exact hd.elim
    obtain ⟨h1, h2⟩ := hrun w1 ⟨hm, hPA.2, hc⟩
    refine ⟨h1, fun ws' hw => ?_⟩
    have h3 := h2 ws' hw
    refine ⟨h3.1, h3.2, ?_⟩
    rw [tagWriter_buf_log hd hw]
    exact not_contains_record hfx hne

/-! ## Depth -/

/-- The number of objects of the heap that are not recorded. -/
def freeCount (env : EEnv) (log : ObjLog) : Nat :=
  ((Finset.range env.heap.length).filter (fun i => log.contains (.obj i) = false)).card

theorem contains_set {l : ObjLog} {v x : Val} {n : Nat} (h : l.contains x = true) (slots : List LogSlot) :
    (⟨Dict.set l.ids v n, slots⟩ : ObjLog).contains x = true := by
  unfold ObjLog.contains at *
  rw [Dict.get_set]
  split
  · rfl
  · exact h

theorem freeCount_le {env : EEnv} {l l' : ObjLog} (h : ∀ x, l.contains x = true → l'.contains x = true) :
    freeCount env l' ≤ freeCount env l := by
  refine Finset.card_le_card fun i hi => ?_
  simp only [Finset.mem_filter] at hi ⊢
  refine ⟨hi.1, ?_⟩
  cases hc : l.contains (.obj i) with
  | false => rfl
  | true => rw [h _ hc] at hi; exact absurd hi.2 (by simp)

theorem freeCount_lt {env : EEnv} {l l' : ObjLog} (h : ∀ x, l.contains x = true → l'.contains x = true) {v : Val}
    (hv : l.contains v = false) (hv' : l'.contains v = true) (hi : InHeap env v) :
    freeCount env l' < freeCount env l := by
  cases v with
  | obj i =>
    refine Finset.card_lt_card ?_
    rw [Finset.ssubset_iff_of_subset]
    · refine ⟨i, ?_, ?_⟩
      · simp only [Finset.mem_filter, Finset.mem_range]
        refine ⟨?_, hv⟩
        simp only [InHeap, Option.isSome_iff_exists] at hi
        obtain ⟨n, hn⟩ := hi
        exact (List.getElem?_eq_some_iff.mp hn).1
      · simp [hv']
    · intro j hj
      simp only [Finset.mem_filter] at hj ⊢
      refine ⟨hj.1, ?_⟩
      cases hc : l.contains (.obj j) with
      | false => rfl
      | true => rw [h _ hc] at hj; exact absurd hj.2 (by simp)
  | _ => exact hi.elim

theorem contains_record_self (l : ObjLog) (v : Val) : (l.record v).1.contains v = true := by
  unfold ObjLog.contains ObjLog.record
  simp only
  rw [Dict.get_set]
  simp

theorem depth_closed (env : EEnv) (N : Nat) : RunsClosed env (fun l => freeCount env l ≤ N)
    (fun l => freeCount env l < N) (fun e => e ≠ .fuel) where
  plain := fun e h he => by subst he; exact h
  ref := fun _ _ _ _ _ => by simp
  record := fun l v h _ => le_trans (freeCount_le fun x hx => contains_set hx _) h
  child := fun l v h hv hi =>
    lt_of_lt_of_le (freeCount_lt (fun x hx => contains_set hx _) hv (contains_record_self l v) hi) h
  weak := fun _ h => le_of_lt h

theorem encode_depth {env : EEnv} (ht : WellTyped env) (f : Nat) : ∀ N, N + 2 ≤ f → ∀ v,
    Runs (St env (fun l => freeCount env l ≤ N)) (St env (fun l => freeCount env l ≤ N)) (fun e => e ≠ .fuel)
      (encodeObject env f v) := by
  induction f with
  | zero => intro N h; omega
  | succ f ih =>
    intro N hN v
    rw [encodeObject_succ]
    have H := depth_closed env N
    refine H.refsStep (fun x => H.tagWriter ?_ ?_ ?_) v
    · intro u
      cases N with
      | zero => exact fun ws hP => absurd hP.2 (by simp)
      | succ N =>
        exact (ih N (by omega) u).imp (fun ws h => ⟨h.1, Nat.lt_succ_iff.mp h.2⟩) (fun ws h => ⟨h.1, Nat.lt_succ_iff.mpr h.2⟩)
    · intro _ cause hx ws hP
      simp only [V8.writeCause, Bool.false_eq_true, if_false]
      refine Runs.bind (runs_emit _) (Q := St env (Fresh (fun l => freeCount env l ≤ N) x)) (S := St env fun l => freeCount env l ≤ N) ?_ ws hP
      intro ws hP
      have hlt : freeCount env (ws.log.beginAcyclic x).1 < N :=
        lt_of_lt_of_le (freeCount_lt (fun y hy => contains_set hy _) hP.2.2 (contains_record_self _ x) hx) hP.2.1
      obtain ⟨N', rfl⟩ : ∃ N', N = N' + 1 := ⟨N - 1, by omega⟩
      obtain ⟨h1, h2⟩ := ih N' (by omega) cause { ws with log := (ws.log.beginAcyclic x).1 } ⟨hP.1, Nat.lt_succ_iff.mp hlt⟩
      cases hr : encodeObject env f cause { ws with log := (ws.log.beginAcyclic x).1 } with
      | error e =>
        refine ⟨fun e' he => ?_, fun ws' hw => by simp only [hr] at hw; cases hw⟩
        simp only [hr] at he
        cases he
        have := h1 e hr
        unfold acyclicExc
        split
        · split <;> simp
        · exact this
      | ok w1 =>
        refine ⟨fun e' he => (by simp only [hr] at he; cases he), fun ws' hw => ?_⟩
        simp only [hr] at hw
        cases hw
        obtain ⟨g1, g2⟩ := h2 w1 hr
        exact ⟨g1, Nat.le_succ_of_le g2⟩
    · intro i b u hx hi
      obtain ⟨f', rfl⟩ : ∃ f', f = f' + 1 := ⟨f - 1, by omega⟩
      exact encode_buffer_runs ht H (by rw [hx]; simp [IsBuffer, hi]) (ht.views i b u hi) f'

/-! ## Forward references -/

/-- The log entries that are forward references without value. -/
def openIn (O : Nat → Prop) (log : ObjLog) : Prop := ∀ k, log.slots[k]? = some (.fwd none) → O k

theorem forward_closed (env : EEnv) (O : Nat → Prop) : RunsClosed env (openIn O) (openIn O)
    (fun e => ∀ k, e = .forwardRef k → O k) where
  plain := fun e h k he => by subst he; exact h.elim
  ref := fun log v n h hg k he => by
    cases he
    unfold ObjLog.getId at hg
    cases hid : Dict.get log.ids v with
    | none => rw [hid] at hg; cases hg
    | some m =>
      rw [hid] at hg
      simp only at hg
      split at hg
      · cases hg; exact h _ (by assumption)
      · cases hg
  record := fun l v h _ k hk => by
    simp only [ObjLog.record] at hk
    rw [List.getElem?_append] at hk
    split at hk
    · exact h k hk
    · rw [List.getElem?_cons] at hk
      split at hk <;> simp at hk
  child := fun l v h _ _ k hk => by
    simp only [ObjLog.record] at hk
    rw [List.getElem?_append] at hk
    split at hk
    · exact h k hk
    · rw [List.getElem?_cons] at hk
      split at hk <;> simp at hk
  weak := fun _ h => h

theorem encode_forward {env : EEnv} (ht : WellTyped env) (f : Nat) : ∀ (O : Nat → Prop) v,
    Runs (St env (openIn O)) (St env (openIn O)) (fun e => ∀ k, e = .forwardRef k → O k) (encodeObject env f v) := by
  induction f with
  | zero =>
    intro O v ws hP
    refine ⟨fun e he k hk => ?_, fun ws' hw => ?_⟩
    · subst hk; simp [encodeObject, encodeWith] at he
    · simp [encodeObject, encodeWith] at hw
  | succ f ih =>
    intro O v
    rw [encodeObject_succ]
    have H := forward_closed env O
    refine H.refsStep (fun x => H.tagWriter (ih O) ?_ ?_) v
    · intro _ cause hx ws hP
      simp only [V8.writeCause, Bool.false_eq_true, if_false]
      refine Runs.bind (runs_emit _) (Q := St env (Fresh (openIn O) x)) (S := St env (openIn O)) ?_ ws hP
      intro ws hP
      have hlen : (ws.log.beginAcyclic x).2 = ws.log.slots.length := rfl
      have hopen : openIn (fun k => O k ∨ k = ws.log.slots.length) (ws.log.beginAcyclic x).1 := by
        intro k hk
        simp only [ObjLog.beginAcyclic, ObjLog.record] at hk
        by_cases hkl : k = ws.log.slots.length
        · exact Or.inr hkl
        · left
          rw [List.getElem?_set_ne (by omega), List.getElem?_append] at hk
          split at hk
          · exact hP.2.1 k hk
          · rw [List.getElem?_cons] at hk
            split at hk <;> simp at hk
      obtain ⟨h1, h2⟩ := ih _ cause { ws with log := (ws.log.beginAcyclic x).1 } ⟨hP.1, hopen⟩
      cases hr : encodeObject env f cause { ws with log := (ws.log.beginAcyclic x).1 } with
      | error e =>
        refine ⟨fun e' he k hk => ?_, fun ws' hw => by simp only [hr] at hw; cases hw⟩
        simp only [hr] at he
        cases he
        have h3 := h1 e hr
        unfold acyclicExc at hk
        split at hk
        · rename_i m
          split at hk
          · cases hk
          · rename_i hne
            cases hk
            rcases h3 k rfl with h | h
            · exact h
            · exact absurd h hne
        · rename_i hne
          exact absurd hk (hne k)
      | ok w1 =>
        refine ⟨fun e' he => (by simp only [hr] at he; cases he), fun ws' hw => ?_⟩
        simp only [hr] at hw
        cases hw
        obtain ⟨g1, g2⟩ := h2 w1 hr
        refine ⟨g1, ?_⟩
        intro k hk
        simp only [ObjLog.endAcyclic, hlen] at hk
        by_cases hkl : k = ws.log.slots.length
        · subst hkl
          rw [List.getElem?_set] at hk
          split at hk
          · split at hk <;> simp at hk
          · exact absurd rfl (by assumption)
        · rw [List.getElem?_set_ne (by omega)] at hk
          exact (g2 k hk).resolve_right hkl
    · intro i b u hx hi
      cases f with
      | zero =>
        intro ws hP
        refine ⟨fun e he k hk => ?_, fun ws' hw => ?_⟩
        · subst hk; simp [encodeObject, encodeWith] at he
        · simp [encodeObject, encodeWith] at hw
      | succ f' => exact encode_buffer_runs ht H (by rw [hx]; simp [IsBuffer, hi]) (ht.views i b u hi) f'

/-! ## Errors whose causes may be cyclic -/

theorem circular_closed (env : EEnv) : RunsClosed env (openIn fun _ => False) (openIn fun _ => False)
    (fun e => e ≠ .illegalCyclic ∧ ∀ k, e ≠ .forwardRef k) where
  plain := fun e h => ⟨fun he => by subst he; exact h, fun k he => by subst he; exact h⟩
  ref := fun log v n h hg => ((forward_closed env fun _ => False).ref log v n h hg n rfl).elim
  record := (forward_closed env fun _ => False).record
  child := (forward_closed env fun _ => False).child
  weak := fun _ h => h

theorem encode_circular {env : EEnv} (ht : WellTyped env) (hf : env.feats.circularErrorCause = true) (f : Nat) : ∀ v,
    Runs (St env (openIn fun _ => False)) (St env (openIn fun _ => False))
      (fun e => e ≠ .illegalCyclic ∧ ∀ k, e ≠ .forwardRef k) (encodeObject env f v) := by
  have h0 : ∀ v, Runs (St env (openIn fun _ => False)) (St env (openIn fun _ => False))
      (fun e => e ≠ .illegalCyclic ∧ ∀ k, e ≠ .forwardRef k) (encodeObject env 0 v) := by
    intro v ws hP
    refine ⟨fun e he => ?_, fun ws' hw => ?_⟩
    · simp only [encodeObject, encodeWith, Except.error.injEq] at he; subst he; exact ⟨by simp, by simp⟩
    · simp [encodeObject, encodeWith] at hw
  induction f with
  | zero => exact h0
  | succ f ih =>
    intro v
    rw [encodeObject_succ]
    have H := circular_closed env
    refine H.refsStep (fun x => H.tagWriter ih ?_ ?_) v
    · intro h; rw [hf] at h; cases h
    · intro i b u hx hi
      cases f with
      | zero =>
        intro ws hP
        refine ⟨fun e he => ?_, fun ws' hw => ?_⟩
        · simp only [encodeObject, encodeWith, Except.error.injEq] at he; subst he; exact ⟨by simp, by simp⟩
        · simp [encodeObject, encodeWith] at hw
      | succ f' => exact encode_buffer_runs ht H (by rw [hx]; simp [IsBuffer, hi]) (ht.views i b u hi) f'

end V8
