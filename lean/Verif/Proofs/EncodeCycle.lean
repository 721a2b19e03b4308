import Verif.Proofs.EncodeVisit
import Verif.Spec.Reach

/-! Helper lemmas: when the encoder reports a cyclic cause, there is one. -/

namespace V8
open Spec

/-! ## Only the calls of an object matter -/

section
variable {rec rec' : Val → Wr}

theorem congr_vals : ∀ {l : List Val}, (∀ c ∈ l, rec c = rec' c) → writeVals rec l = writeVals rec' l
  | [], _ => rfl
  | v :: t, h => by
    funext ws
    simp only [writeVals]
    rw [h v (by simp), congr_vals (l := t) fun c hc => h c (by simp [hc])]

theorem congr_entries : ∀ {l : List (Val × Val)}, (∀ c ∈ pairCalls l, rec c = rec' c) →
    writeEntries rec l = writeEntries rec' l
  | [], _ => rfl
  | (k, v) :: t, h => by
    funext ws
    simp only [writeEntries]
    rw [h k (by simp [pairCalls]), h v (by simp [pairCalls]), congr_entries (l := t) fun c hc => h c (by
      simp only [pairCalls, List.flatMap_cons, List.mem_append] at hc ⊢; exact Or.inr hc)]

theorem congr_props : ∀ {l : List (Val × Val)}, (∀ c ∈ pairCalls l, rec c = rec' c) → writeProps rec l = writeProps rec' l
  | [], _ => rfl
  | (k, v) :: t, h => by
    funext ws
    simp only [writeProps, writeKey]
    rw [h k (by simp [pairCalls]), h v (by simp [pairCalls]), congr_props (l := t) fun c hc => h c (by
      simp only [pairCalls, List.flatMap_cons, List.mem_append] at hc ⊢; exact Or.inr hc)]

theorem congr_node {env : EEnv} {x : Val} {n : Node} (h : ∀ c ∈ calls n, rec c = rec' c) :
    serializeNode env rec unhandledValue x n = serializeNode env rec' unhandledValue x n := by
  funext ws
  cases n with
  | jsmap es => simp only [serializeNode, writeJSMap, congr_entries (l := es) h]
  | jsset ms => simp only [serializeNode, writeJSSet, congr_vals (l := ms) h]
  | jsobj o => simp only [serializeNode, writeJSObject, writeObjectProps, congr_props (l := itemVals o.items) h]
  | jsarr o =>
    simp only [calls] at h
    simp only [serializeNode, serializeJSArray]
    split
    · rename_i hs
      rw [if_pos hs] at h
      simp only [writeSparseArray, writeObjectProps, congr_props h]
    · rename_i hs
      rw [if_neg hs] at h
      have h1 := congr_vals (l := o.array.toList.map elemVal) fun c hc => h c (List.mem_append_left _ hc)
      have h2 := congr_props (l := propVals o.props) fun c hc => h c (List.mem_append_right _ hc)
      simp only [writeDenseArray, h1, h2]
  | pylist els => simp only [serializeNode, writeDenseArray, congr_vals (l := els) h, writeProps]
  | error name msg stack cause =>
    by_cases hc : cause = .null
    · simp only [serializeNode, writeError, if_pos hc]
    · simp only [serializeNode, writeError, if_neg hc, writeCause, h cause (by simp [calls, hc])]
  | view b v =>
    simp only [serializeNode]
    split
    · rfl
    · simp only [serializeView, h b (by simp [calls])]
  | _ => rfl

end

/-! ## Calls that are not members -/

theorem calls_members {env : EEnv} (ht : WellTyped env) {i : Id} {n : Node} (hi : env.heap[i]? = some n) {c : Val}
    (hc : c ∈ calls n) : c ∈ members n ∨ ¬ IsObj c := by
  have props : ∀ o : JSObj Val, c ∈ pairCalls (itemVals o.items) → c ∈ o.items.map (·.2) ∨ ¬ IsObj c := by
    intro o hm
    obtain ⟨e', he', hc'⟩ := List.mem_flatMap.mp hm
    obtain ⟨e, he, rfl⟩ := List.mem_map.mp he'
    simp only [List.mem_cons, List.not_mem_nil, or_false] at hc'
    rcases hc' with rfl | rfl
    · right; cases e.1 <;> exact id
    · exact Or.inl (List.mem_map.mpr ⟨e, he, rfl⟩)
  cases n with
  | jsmap es => exact Or.inl hc
  | jsset ms => exact Or.inl hc
  | jsobj o => exact props o hc
  | jsarr o =>
    simp only [calls] at hc
    split at hc
    · exact props o hc
    · have hinv := ht.objects i o (Or.inr hi)
      rw [List.mem_append] at hc
      simp only [members, JSObj.items_eq hinv, List.map_append, List.map_map, List.mem_append]
      rcases hc with hc | hc
      · obtain ⟨a, ha, rfl⟩ := List.mem_map.mp hc
        cases a with
        | none => exact Or.inr id
        | some v =>
          left; left
          rw [Arr.toList_eq hinv.arr] at ha
          obtain ⟨k, hk⟩ := List.mem_iff_getElem?.mp ha
          exact List.mem_map.mpr ⟨(k, v), (by rw [mem_itemsOf, hk]; rfl), rfl⟩
      · obtain ⟨e', he', hc'⟩ := List.mem_flatMap.mp hc
        obtain ⟨e, he, rfl⟩ := List.mem_map.mp he'
        simp only [List.mem_cons, List.not_mem_nil, or_false] at hc'
        rcases hc' with rfl | rfl
        · exact Or.inr id
        · exact Or.inl (Or.inr (List.mem_map.mpr ⟨e, he, rfl⟩))
  | pylist els => exact Or.inl hc
  | error name msg stack cause => exact Or.inl hc
  | view b v => exact Or.inl hc
  | _ => simp [calls] at hc

/-! ## Owners of forward references -/

/-- The forward references without value belong to `own`. -/
def Owned (own : Nat → Val) (log : ObjLog) : Prop :=
  (∀ v k, Dict.get log.ids v = some k → k < log.slots.length) ∧
  ∀ v k, Dict.get log.ids v = some k → log.slots[k]? = some (.fwd none) → v = own k ∧ IsObj v

/-- What an exception says about the value that was being encoded. -/
def Blames (env : EEnv) (own : Nat → Val) (v : Val) (e : EErr) : Prop :=
  (∀ k, e = .forwardRef k → IsObj v ∧ Reaches env v (own k)) ∧
  (e = .illegalCyclic → IsObj v ∧ ∃ i, Reaches env v (.obj i) ∧ InOwnCause env i)

theorem Owned.record {own : Nat → Val} {log : ObjLog} (h : Owned own log) (v : Val) : Owned own (log.record v).1 := by
  constructor
  · intro u k hk
    simp only [ObjLog.record] at hk ⊢
    rw [Dict.get_set] at hk
    rw [List.length_append]
    split at hk
    · cases hk; simp
    · have := h.1 u k hk; omega
  · intro u k hk ho
    simp only [ObjLog.record] at hk
    have ho' := record_open ho
    rw [Dict.get_set] at hk
    split at hk
    · cases hk
      have := (List.getElem?_eq_some_iff.mp ho').1
      omega
    · exact h.2 u k hk ho'

theorem owned_base (env : EEnv) (own : Nat → Val) (v : Val) : RunsBase env (Owned own) (Owned own) (Blames env own v) where
  plain := fun e h => ⟨fun k he => by subst he; exact h.elim, fun he => by subst he; exact h.elim⟩
  record := fun l v h _ => h.record v
  child := fun l v h _ _ => h.record v
  weak := fun _ h => h

theorem Runs.both {P P' Q Q' : WS → Prop} {E E' : EErr → Prop} {w : Wr} (h : Runs P Q E w) (h' : Runs P' Q' E' w) :
    Runs (fun ws => P ws ∧ P' ws) (fun ws => Q ws ∧ Q' ws) E w :=
  fun ws hP => ⟨(h ws hP.1).1, fun ws' hw => ⟨(h ws hP.1).2 ws' hw, (h' ws hP.2).2 ws' hw⟩⟩

theorem Runs.weaken {P Q : WS → Prop} {E E' : EErr → Prop} {w : Wr} (h : Runs P Q E w) (hE : ∀ e, E e → E' e) :
    Runs P Q E' w :=
  fun ws hP => ⟨fun e he => hE e ((h ws hP).1 e he), (h ws hP).2⟩

theorem dkey_isObj {env : EEnv} {a b : Val} {k : DKey} (ha : dkey env a = some k) (hb : dkey env b = some k) :
    IsObj a → IsObj b := by
  cases a with
  | float x => exact False.elim
  | obj i =>
    intro _
    cases b with
    | obj j => trivial
    | float y =>
      simp only [dkey, Option.map_eq_some_iff] at ha hb
      obtain ⟨c, _, rfl⟩ := ha
      split at hb <;> cases hb
    | _ => simp [dkey] at hb
  | _ => simp [dkey] at ha

theorem encode_blames {env : EEnv} (ht : WellTyped env) (f : Nat) : ∀ (own : Nat → Val) v,
    Runs (St env (Owned own)) (St env (Owned own)) (Blames env own v) (encodeObject env f v) := by
  induction f with
  | zero =>
    intro own v ws hP
    refine ⟨fun e he => ?_, fun ws' hw => ?_⟩
    · simp only [encodeObject, encodeWith, Except.error.injEq] at he; subst he; exact ⟨by simp, by simp⟩
    · simp [encodeObject, encodeWith] at hw
  | succ f ih =>
    intro own v ws hP
    rw [encodeObject_succ]
    have hm := deduplicate_memo v hP.1
    have hl : (deduplicate env v ws).2.log = ws.log := by rw [deduplicate_state]
    have hone := oneObject_of_dedup (v := v) hP.1
    have hkey := deduplicate_key v hP.1
    unfold refsStep
    generalize deduplicate env v ws = r at *
    obtain ⟨d, w1⟩ := r
    simp only at *
    have hP1 : St env (Owned own) w1 := ⟨hm, by rw [hl]; exact hP.2⟩
    have hback : IsObj d → IsObj v := by
      intro hd
      rcases hkey with h | ⟨k, h1, h2⟩
      · rw [← h]; exact hd
      · exact dkey_isObj h1 h2 hd
    have hone' : IsObj d → OneObject env v d := fun hd => hone.resolve_right fun hn => hn (hback hd)
    have H := owned_base env own v
    cases hc : w1.log.contains d with
    | true =>
      simp only [if_true]
      have E := hP1.2.2
      unfold V8.writeReference
      cases hg : w1.log.getId d with
      | error e =>
        refine Runs.fail ?_ w1 hP1
        cases e with
        | forwardRef n =>
          refine ⟨fun k hk => ?_, fun h => by cases h⟩
          cases hk
          unfold ObjLog.getId at hg
          cases hid : Dict.get w1.log.ids d with
          | none => rw [hid] at hg; cases hg
          | some m =>
            rw [hid] at hg
            simp only at hg
            split at hg
            · rename_i ho
              cases hg
              obtain ⟨h1, h2⟩ := E d _ hid ho
              rw [← h1]
              exact ⟨hback h2, .here (hone' h2)⟩
            · cases hg
        | _ => exact H.plain _ trivial
      | ok n => exact Runs.bind (runs_note n) (Runs.bind (runs_writeTag H.plain _) (runs_emit _)) w1 hP1
    | false =>
      simp only [Bool.false_eq_true, if_false]
      have hFr : St env (Fresh (Owned own) d) w1 := ⟨hP1.1, hP1.2, hc⟩
      have triv : ∀ {w : Wr}, Runs (St env (Owned own)) (St env (Owned own)) (Blames env own v) w →
          Runs (St env (Fresh (Owned own) d)) (St env (Owned own)) (Blames env own v) w :=
        fun h => h.imp (fun _ h => ⟨h.1, h.2.1⟩) (fun _ h => h)
      cases d with
      | obj i =>
        cases hi : env.heap[i]? with
        | none =>
          simp only [V8.tagWriter, hi]
          exact Runs.fail (H.plain .unhandledValue trivial) w1 hFr
        | some n =>
          have hov := hone' trivial
          have hvo := hback trivial
          have hx : InHeap env (.obj i) := by simp [InHeap, hi]
          have up : ∀ {c : Val}, c ∈ calls n → ∀ e, Blames env own c e → Blames env own v e := by
            intro c hcc e hb
            refine ⟨fun k hk => ?_, fun he => ?_⟩
            · obtain ⟨g1, g2⟩ := hb.1 k hk
              exact ⟨hvo, .inside hov hi ((calls_members ht hi hcc).resolve_right fun h => h g1) g2⟩
            · obtain ⟨g1, j, g2, g3⟩ := hb.2 he
              exact ⟨hvo, j, .inside hov hi ((calls_members ht hi hcc).resolve_right fun h => h g1) g2, g3⟩
          simp only [V8.tagWriter, hi]
          have hcong : ∀ c ∈ calls n, encodeObject env f c = (if c ∈ calls n then encodeObject env f c else fun ws => .ok ws) :=
            fun c hc => by rw [if_pos hc]
          rw [congr_node (rec' := fun c => if c ∈ calls n then encodeObject env f c else fun ws => .ok ws) hcong]
          refine H.serializeNode ?_ hx ?_ ?_ w1 hFr
          · intro c
            split
            · rename_i hcc
              exact (ih own c).weaken (up hcc)
            · exact Runs.done
          · intro hf name msg stack cause hn hcn ws hP
            subst hn
            simp only [V8.writeCause, Bool.false_eq_true, if_false]
            have hcm : cause ∈ calls (.error name msg stack cause) := by simp [calls, hcn]
            simp only [if_pos hcm]
            refine Runs.bind (runs_emit _) (Q := St env (Fresh (Owned own) (.obj i))) (S := St env (Owned own)) ?_ ws hP
            intro ws hP
            have hlen : (ws.log.beginAcyclic (.obj i)).2 = ws.log.slots.length := rfl
            let own' : Nat → Val := fun k => if k = ws.log.slots.length then .obj i else own k
            have hown : Owned own' (ws.log.beginAcyclic (.obj i)).1 := by
              constructor
              · intro u k hk
                simp only [ObjLog.beginAcyclic, ObjLog.record] at hk ⊢
                rw [Dict.get_set] at hk
                simp only [List.length_set, List.length_append, List.length_singleton]
                split at hk
                · cases hk; omega
                · have := hP.2.1.1 u k hk; omega
              · intro u k hk ho
                simp only [ObjLog.beginAcyclic, ObjLog.record] at hk ho
                rw [Dict.get_set] at hk
                split at hk
                · rename_i hu
                  cases hk
                  refine ⟨?_, by rw [← hu]; trivial⟩
                  show u = if _ then _ else _
                  rw [if_pos rfl, hu]
                · have hkl := hP.2.1.1 u k hk
                  rw [List.getElem?_set_ne (by omega)] at ho
                  obtain ⟨g1, g2⟩ := hP.2.1.2 u k hk (record_open (x := .obj i) ho)
                  refine ⟨?_, g2⟩
                  show u = if _ then _ else _
                  rw [if_neg (by omega)]
                  exact g1
            obtain ⟨h1, h2⟩ := ih own' cause { ws with log := (ws.log.beginAcyclic (.obj i)).1 } ⟨hP.1, hown⟩
            cases hr : encodeObject env f cause { ws with log := (ws.log.beginAcyclic (.obj i)).1 } with
            | error e =>
              refine ⟨fun e' he => ?_, fun ws' hw => by simp only [hr] at hw; cases hw⟩
              simp only [hr] at he
              cases he
              have h3 := h1 e hr
              have hmem : cause ∈ members (.error name msg stack cause) := by simp [members, hcn]
              refine ⟨fun k hk => ⟨hvo, ?_⟩, fun he => ⟨hvo, ?_⟩⟩
              · unfold acyclicExc at hk
                split at hk
                · rename_i m
                  split at hk
                  · cases hk
                  · rename_i hne
                    cases hk
                    have := (h3.1 k rfl).2
                    have e' : own' k = own k := if_neg hne
                    rw [e'] at this
                    exact .inside hov hi hmem this
                · rename_i hne
                  exact absurd hk (hne k)
              · unfold acyclicExc at he
                split at he
                · rename_i m
                  split at he
                  · rename_i hm
                    have := (h3.1 m rfl).2
                    have e' : own' m = .obj i := if_pos hm
                    rw [e'] at this
                    exact ⟨i, .here hov, name, msg, stack, cause, hi, hcn, this⟩
                  · cases he
                · obtain ⟨_, j, g2, g3⟩ := h3.2 he
                  exact ⟨j, .inside hov hi hmem g2, g3⟩
            | ok w2 =>
              refine ⟨fun e' he => (by simp only [hr] at he; cases he), fun ws' hw => ?_⟩
              simp only [hr] at hw
              cases hw
              obtain ⟨g1, g2⟩ := h2 w2 hr
              refine ⟨g1, ?_⟩
              constructor
              · intro u k hk
                simp only [ObjLog.endAcyclic, List.length_set] at hk ⊢
                exact g2.1 u k hk
              · intro u k hk ho
                simp only [ObjLog.endAcyclic, hlen] at hk ho
                by_cases hkl : k = ws.log.slots.length
                · subst hkl
                  rw [List.getElem?_set] at ho
                  split at ho
                  · split at ho <;> simp at ho
                  · exact absurd rfl (by assumption)
                · rw [List.getElem?_set_ne (by omega)] at ho
                  obtain ⟨g3, g4⟩ := g2.2 u k hk ho
                  refine ⟨?_, g4⟩
                  rw [g3]
                  exact if_neg hkl
          · intro b vw hn
            subst hn
            have hcb : b ∈ calls (.view b vw) := by simp [calls]
            simp only [if_pos hcb]
            cases f with
            | zero =>
              intro ws hP
              refine ⟨fun e he => ?_, fun ws' hw => ?_⟩
              · simp only [encodeObject, encodeWith, Except.error.injEq] at he; subst he; exact ⟨by simp, by simp⟩
              · simp [encodeObject, encodeWith] at hw
            | succ f' =>
              have t := encode_buffer_runs ht (trivial_closed env) (x := .obj i) (by simp [IsBuffer, hi]) (ht.views i b vw hi) f'
              refine (((ih own b).weaken (up hcb)).both t).imp ?_ ?_
              · exact fun ws h => ⟨⟨h.1, h.2.1⟩, h.1, trivial, h.2.2⟩
              · exact fun ws h => ⟨h.1.1, h.1.2, h.2.2.2⟩
      | hole => exact triv (runs_writeConstant H.plain _) w1 hFr
      | undef => exact triv (runs_writeConstant H.plain _) w1 hFr
      | null => exact triv (runs_writeConstant H.plain _) w1 hFr
      | bool b => cases b <;> exact triv (runs_writeConstant H.plain _) w1 hFr
      | int n => exact triv (H.serializeInt _) w1 hFr
      | float y => exact triv (runs_writeDoubleTagged H.plain _) w1 hFr
      | str s => exact triv (runs_writeTagged H.plain _ fun _ => writeStringUtf8_plain) w1 hFr
      | bytes b => exact H.writeFixedBuffer _ w1 hFr

end V8
