import Verif.Props.RoundTrip
import Verif.Proofs.EncodeCycle
import Verif.Proofs.EncodeFeature
import Verif.Proofs.EncodeFuel

/-! Properties of whole runs of the encoder: C12 (which objects are numbered), C14, C22. -/

namespace V8.Props
open Spec

theorem st_headed {env : EEnv} {A : ObjLog → Prop} (h : A .empty) : St env A WS.headed :=
  ⟨by simp [MemoOK, WS.headed, WS.new, Dict.get], h⟩

theorem dumpsWith_eq (env : EEnv) (f : Nat) (v : Val) :
    dumpsWith (defaultEncodeSteps env) f v = encodeObject env f v WS.headed := rfl

theorem dumpsState_eq (env : EEnv) (v : Val) : dumpsState env v = encodeObject env (encodeFuel env) v WS.headed := rfl

/-! ## C14 -/

/-- C14: nested at most as deep as there are objects (plus a scalar and a buffer), `dumps` reaches a
result or one of the library's or Python's exceptions; `fuel` is the model's mark for going deeper. -/
theorem C14_terminates {env : EEnv} (ht : WellTyped env) (v : Val) {depth : Nat} (hd : env.heap.length + 2 ≤ depth) :
    dumpsWith (defaultEncodeSteps env) depth v ≠ .error .fuel := by
  intro h
  rw [dumpsWith_eq] at h
  have hc : freeCount env .empty ≤ env.heap.length := by
    unfold freeCount
    exact le_trans (Finset.card_filter_le _ _) (by simp)
  exact (encode_depth ht depth env.heap.length hd v _ (st_headed hc)).1 _ h rfl

/-- C14: allowing deeper nesting than that changes nothing. -/
theorem C14_depth_bound {env : EEnv} (ht : WellTyped env) (v : Val) {depth : Nat} (hd : env.heap.length + 2 ≤ depth) :
    dumpsWith (defaultEncodeSteps env) depth v = dumpsState env v := by
  have key : ∀ {d d' : Nat}, env.heap.length + 2 ≤ d → d ≤ d' →
      dumpsWith (defaultEncodeSteps env) d' v = dumpsWith (defaultEncodeSteps env) d v := by
    intro d d' h h'
    exact encode_agree env d d' h' v _ (C14_terminates ht v h)
  rcases Nat.le_total depth (encodeFuel env) with h | h
  · exact (key hd h).symm
  · exact key (by unfold encodeFuel; omega) h

/-- A list containing itself, beside an object reached in two ways. -/
example : WellTyped (exampleEnc exampleGraph) ∧ dumpsWith (defaultEncodeSteps (exampleEnc exampleGraph)) 2 (.obj 0) = .error .fuel ∧
    (dumps (exampleEnc exampleGraph) (.obj 0)).toOption.isSome = true :=
  ⟨Encodable.wellTyped exampleGraph_ok, by decide +kernel, by decide +kernel⟩

/-! ## Representatives -/

theorem rep_dkey {env : EEnv} {ws : WS} {u v : Val} (h : OneObject env u v) (hu : IsRep env u ws) (hv : IsRep env v ws) : u = v := by
  rcases h with h | ⟨i, j, rfl, rfl, h | ⟨c, h1, h2⟩⟩
  · exact h
  · rw [h]
  · have e1 := hu (.cls c) (by simp [dkey, h1])
    have e2 := hv (.cls c) (by simp [dkey, h2])
    rw [e1] at e2
    exact Option.some.inj e2

theorem oneObject_trans {env : EEnv} {a b c : Val} (h1 : OneObject env a b) (h2 : OneObject env a c) : OneObject env b c := by
  rcases h1 with rfl | ⟨i, j, rfl, rfl, h1⟩
  · exact h2
  · rcases h2 with rfl | ⟨i', j', h, rfl, h2⟩
    · refine Or.inr ⟨j, i, rfl, rfl, ?_⟩
      rcases h1 with h1 | ⟨c, h3, h4⟩
      · exact Or.inl h1.symm
      · exact Or.inr ⟨c, h4, h3⟩
    · cases h
      refine Or.inr ⟨j, j', rfl, rfl, ?_⟩
      rcases h1 with rfl | ⟨c, h3, h4⟩
      · exact h2
      · rcases h2 with rfl | ⟨c', h5, h6⟩
        · exact Or.inr ⟨c, h4, h3⟩
        · rw [h3] at h5; cases h5
          exact Or.inr ⟨c, h4, h6⟩

/-- What is seen and recorded is seen by its number. -/
theorem seen_recorded {env : EEnv} {ws : WS} (hr : RepInv env ws) {O : Nat → Prop} {c z : Val} {k : Nat} (hs : Seen env ws O c)
    (hz : IsObj z) (hone : OneObject env c z) (hk : Dict.get ws.log.ids z = some k) (hu : ¬ IsUnlogged env z) :
    k < ws.log.slots.length ∧ ¬ O k := by
  have hc : IsObj c := by
    rcases hone with rfl | ⟨i, j, rfl, rfl, _⟩
    · exact hz
    · trivial
  obtain ⟨r, h1, h2, h3⟩ := hs hc
  have e : r = z := rep_dkey (oneObject_trans h1 hone) h2 (hr.2 z (by rw [hk]; rfl))
  subst e
  rcases h3 with h3 | ⟨m, h3, h4, h5⟩
  · exact absurd h3 hu
  · rw [hk] at h3
    cases h3
    exact ⟨h4, h5⟩

theorem recorded_logged {env : EEnv} {ws : WS} (hv : Visits env WS.headed ws) {u : Val} {n : Nat}
    (h : Dict.get ws.log.ids u = some n) : ¬ IsUnlogged env u := by
  rcases hv.fresh u n h with h1 | h1
  · simp [WS.headed, WS.new, ObjLog.empty, Dict.get] at h1
  · exact h1.2.2

/-! ## C12: what is numbered -/

/-- Where no two objects compare equal, what is reached is seen. -/
theorem reaches_seen {env : EEnv} (ht : WellTyped env) (hn : NoTwins env) {ws : WS} (hv : Visits env WS.headed ws) {a z : Val}
    (h : Reaches env a z) : Seen env ws (fun _ => False) a → Seen env ws (fun _ => False) z := by
  have eq : ∀ {a b}, OneObject env a b → a = b := by
    intro a b h
    rcases h with h | ⟨i, j, rfl, rfl, h⟩
    · exact h
    · rw [hn i j h]
  induction h with
  | here h => intro hs; rw [← eq h]; exact hs
  | @inside a c z i n h hi hc _ ih =>
    intro hs
    refine ih ?_
    have e := eq h
    subst e
    obtain ⟨r, h1, h2, h3⟩ := hs trivial
    have e := eq h1
    subst e
    rcases h3 with h3 | ⟨k, h3, h4, h5⟩
    · simp only [IsUnlogged, hi] at h3
      split at h3
      · rename_i heq; cases heq; simp [members] at hc
      · rename_i heq; cases heq; simp [members] at hc
      · exact h3.elim
    · refine (hv.kids i k n h3 (by simp [WS.headed, WS.new, ObjLog.empty]) hi c (members_calls ht hi hc)).mono (fun _ _ h => h)
        (fun _ _ h => h) (le_refl _) fun _ _ h => h.elim

/-- C12: `dumps` gives a number to everything reachable (RegExp and Error without cause excepted), no
two things have the same number, and no number is left out. -/
theorem C12_numbers {env : EEnv} (ht : WellTyped env) (hn : NoTwins env) {v : Val} {ws : WS} (h : dumpsState env v = .ok ws) :
    (∀ z, Reaches env v z → IsObj z → IsUnlogged env z ∨ ∃ n, Dict.get ws.log.ids z = some n) ∧
    (∀ y z n, Dict.get ws.log.ids y = some n → Dict.get ws.log.ids z = some n → y = z) ∧
    (∀ n, (∃ z, Dict.get ws.log.ids z = some n) ↔ n < ws.log.slots.length) := by
  obtain ⟨hr, hv, hs⟩ := dumps_visits ht h
  refine ⟨fun z hz ho => ?_, fun y z n hy hz => hv.once y z n hy hz (by simp [WS.headed, WS.new, ObjLog.empty]), fun n => ⟨?_, ?_⟩⟩
  · obtain ⟨r, h1, h2, h3⟩ := reaches_seen ht hn hv hz hs ho
    have e : z = r := by
      rcases h1 with h1 | ⟨i, j, rfl, rfl, h1⟩
      · exact h1
      · rw [hn i j h1]
    subst e
    rcases h3 with h3 | ⟨k, h3, _⟩
    · exact Or.inl h3
    · exact Or.inr ⟨k, h3⟩
  · rintro ⟨z, hz⟩
    rcases hv.fresh z n hz with h1 | h1
    · simp [WS.headed, WS.new, ObjLog.empty, Dict.get] at h1
    · exact h1.2.1
  · intro hlt
    exact hv.onto n (by simp [WS.headed, WS.new, ObjLog.empty]) hlt

theorem exampleEnc_noTwins (h : Heap) : NoTwins (exampleEnc h) := fun _ _ => exampleEnc_same

example : ∃ ws, dumpsState (exampleEnc exampleGraph) (.obj 0) = .ok ws ∧ ∃ n, Dict.get ws.log.ids (.obj 3) = some n := by
  have h : (dumpsState (exampleEnc exampleGraph) (.obj 0)).toOption.isSome = true := by decide +kernel
  cases hd : dumpsState (exampleEnc exampleGraph) (.obj 0) with
  | error e => rw [hd] at h; cases h
  | ok ws =>
    refine ⟨ws, rfl, ?_⟩
    have hr : Reaches (exampleEnc exampleGraph) (.obj 0) (.obj 3) :=
      .inside (i := 0) (c := .obj 1) (Or.inl rfl) rfl (by simp [members]) (.inside (i := 1) (c := .obj 2) (Or.inl rfl) rfl
        (by simp [members]) (.inside (i := 2) (c := .obj 3) (Or.inl rfl) rfl (by simp [members]) (.here (Or.inl rfl))))
    exact ((C12_numbers (Encodable.wellTyped exampleGraph_ok) (exampleEnc_noTwins _) hd).1 _ hr trivial).resolve_left id

/-! ## C22 -/

/-- C22: without the feature, where `dumps` succeeds, no Error is mentioned within its own cause:
going into its cause by way of objects that are first written there (those have later numbers) does not
lead back to it. -/
theorem C22_not_in_own_cause {env : EEnv} (ht : WellTyped env) (hf : env.feats.circularErrorCause = false) {v : Val} {ws : WS}
    (h : dumpsState env v = .ok ws) {i : Id} {name : Str} {msg stack : Option Str} {cause : Val} {n : Nat}
    (hi : env.heap[i]? = some (.error name msg stack cause)) (hc : cause ≠ .null)
    (hn : Dict.get ws.log.ids (.obj i) = some n) : ¬ ReachesLater env (Dict.get ws.log.ids) n cause (.obj i) := by
  obtain ⟨hr, hv, hs⟩ := dumps_visits ht h
  obtain ⟨m, hnm, hml, h1, h2⟩ := hv.shut hf i n name msg stack cause hn (by simp [WS.headed, WS.new, ObjLog.empty]) hi hc
  have key : ∀ a, ReachesLater env (Dict.get ws.log.ids) n a (.obj i) → ¬ Seen env ws (fun k => m ≤ k ∨ k = n) a := by
    intro a ha
    generalize hz : Val.obj i = z at ha
    induction ha with
    | here hone =>
      subst hz
      intro hseen
      exact (seen_recorded hr hseen (z := .obj i) trivial hone hn (recorded_logged hv hn)).2 (Or.inr rfl)
    | @inside a c z j k node hone hk hnk hj hcm _ ih =>
      subst hz
      intro hseen
      obtain ⟨_, h4⟩ := seen_recorded hr hseen (z := .obj j) trivial hone hk (recorded_logged hv hk)
      exact ih rfl (h2 j k node hk hnk (by omega) hj c (members_calls ht hj hcm))
  exact fun hx => key cause hx h1

/-- The root, if it is an Error with a cause, gets number 0. -/
theorem root_error_number {env : EEnv} (ht : WellTyped env) (hf : env.feats.circularErrorCause = false) {i : Id} {ws : WS}
    {name : Str} {msg stack : Option Str} {cause : Val} (hnode : env.heap[i]? = some (.error name msg stack cause))
    (hc : cause ≠ .null) (h : dumpsState env (.obj i) = .ok ws) : Dict.get ws.log.ids (.obj i) = some 0 := by
  rw [dumpsState_eq] at h
  have h' : encodeObject env (env.heap.length + 2 + 1) (.obj i) WS.headed = .ok ws := h
  rw [encodeObject_succ] at h'
  have hr0 : RepInv env WS.headed :=
    ⟨by simp [MemoOK, WS.headed, WS.new, Dict.get], by simp [WS.headed, WS.new, ObjLog.empty, Dict.get]⟩
  obtain ⟨_, hr1, hx⟩ := (rep_closed env).dedup WS.headed (.obj i) hr0
  have hd : (deduplicate env (.obj i) WS.headed).1 = .obj i ∧ (deduplicate env (.obj i) WS.headed).2.log = .empty := by
    unfold deduplicate
    cases dkey env (.obj i) <;> exact ⟨rfl, rfl⟩
  unfold refsStep at h'
  generalize deduplicate env (.obj i) WS.headed = r at *
  obtain ⟨d, w1⟩ := r
  obtain ⟨hd1, hl⟩ := hd
  simp only at hd1 hl h' hr1 hx
  subst hd1
  have hcont : w1.log.contains (.obj i) = false := by rw [hl]; rfl
  rw [hcont] at h'
  simp only [Bool.false_eq_true, if_false] at h'
  cases tagWriter_run h' with
  | scalar h1 => exact absurd rfl (h1 i)
  | unlogged h1 hnode' hu =>
    cases h1
    simp only [IsUnlogged, hnode] at hu
    split at hu
    · rename_i heq; cases heq
    · rename_i heq; cases heq; exact absurd rfl hc
    · exact hu.elim
  | bytes h1 => cases h1
  | @logged j node h1 hnode' hu hrun =>
    cases h1
    rw [hnode] at hnode'
    cases hnode'
    have hm : modeOf env (.error name msg stack cause) = .acyclic := by simp [modeOf, hf]
    rw [hm] at hrun
    cases hrun with
    | plain hac => cases hac
    | last hac => cases hac
    | @acyclic a b c w2 w3 hac hcc hq hl1 hm1 hd1 hcall hl2 hm2 hd2 =>
      have hids : w2.log.ids = Dict.set w1.log.ids (.obj i) w1.log.slots.length := by rw [hl1]; rfl
      have hlen : w2.log.slots.length = 1 := by rw [hl1, hl]; rfl
      have hv' := encode_visits ht _ c w2 w3 (hr1.record hx hids hm1) (by
        intro v n hv
        rw [hids, hl, Dict.get_set] at hv
        split at hv
        · cases hv; rw [hlen]; exact Nat.one_pos
        · cases hv) hcall
      rw [hl2]
      refine hv'.2.1.ids _ _ ?_
      rw [hids, hl, Dict.get_set, if_pos rfl]
      rfl

/-- C22: without the feature, `dumps` of an Error that is within its own cause does not succeed; if it
would with the feature, it raises IllegalCyclicReferenceV8SerializeError. -/
theorem C22_own_cause_raises {env : EEnv} (ht : WellTyped env) (hn : NoTwins env) {i : Id} (hi : InOwnCause env i) :
    (∀ ws, dumpsState (env.withCircular false) (.obj i) ≠ .ok ws) ∧
    ∀ ws, dumpsState (env.withCircular true) (.obj i) = .ok ws →
      dumpsState (env.withCircular false) (.obj i) = .error .illegalCyclic := by
  have ht' : ∀ b, WellTyped (env.withCircular b) := fun b => ⟨ht.views, ht.buffers, ht.objects⟩
  obtain ⟨name, msg, stack, cause, hnode, hc, hreach⟩ := hi
  have eq : ∀ {a b}, OneObject env a b → a = b := by
    intro a b h
    rcases h with h | ⟨i, j, rfl, rfl, h⟩
    · exact h
    · rw [hn i j h]
  have fails : ∀ ws, dumpsState (env.withCircular false) (.obj i) ≠ .ok ws := by
    intro ws h
    obtain ⟨hr, hv, hs⟩ := dumps_visits (ht' false) h
    have hi0 := root_error_number (ht' false) rfl hnode hc h
    refine C22_not_in_own_cause (ht' false) rfl h hnode hc hi0 ?_
    have h0 : ∀ k, WS.headed.log.slots.length ≤ k := by simp [WS.headed, WS.new, ObjLog.empty]
    have seenKid : ∀ {j k node c}, Dict.get ws.log.ids (.obj j) = some k → env.heap[j]? = some node → c ∈ members node →
        Seen (env.withCircular false) ws (fun _ => False) c := by
      intro j k node c hk hj hcm
      exact (hv.kids j k node hk (h0 k) hj c (members_calls (ht' false) hj hcm)).mono (fun _ _ h => h) (fun _ _ h => h) (le_refl _)
        fun _ _ h => h.elim
    have key : ∀ a, Reaches env a (.obj i) → Seen (env.withCircular false) ws (fun _ => False) a →
        ReachesLater (env.withCircular false) (Dict.get ws.log.ids) 0 a (.obj i) := by
      intro a ha
      generalize hz : Val.obj i = z at ha
      induction ha with
      | here h1 => intro _; exact .here h1
      | @inside a c z j node h1 hj hcm _ ih =>
        subst hz
        intro hseen
        have e := eq h1
        subst e
        obtain ⟨r, g1, g2, g3⟩ := hseen trivial
        have e := eq g1
        subst e
        rcases g3 with g3 | ⟨k, g3, g4, _⟩
        · have e : (env.withCircular false).heap = env.heap := rfl
          simp only [IsUnlogged, e, hj] at g3
          split at g3
          · rename_i heq; cases heq; simp [members] at hcm
          · rename_i heq; cases heq; simp [members] at hcm
          · exact g3.elim
        · by_cases hk : k = 0
          · subst hk
            have e := hv.once _ _ 0 g3 hi0 (h0 0)
            rw [e]
            exact .here (Or.inl rfl)
          · exact .inside (Or.inl rfl) g3 (by omega) hj hcm (ih rfl (seenKid g3 hj hcm))
    exact key cause hreach (seenKid hi0 hnode (by simp [members, hc]))
  refine ⟨fails, fun ws hok => ?_⟩
  have htw := dumps_circular env (.obj i)
  cases h0 : dumpsState (env.withCircular false) (.obj i) with
  | ok ws' => exact absurd h0 (fails ws')
  | error e =>
    rw [h0, hok] at htw
    rcases htw with (rfl | ⟨k, rfl⟩) | h
    · rfl
    · rw [dumpsState_eq] at h0
      exact ((encode_forward (ht' false) _ (fun _ => False) _ _ (st_headed (by intro k hk; simp [ObjLog.empty] at hk))).1 _ h0
        k rfl).elim
    · cases h

/-- C22: IllegalCyclicReferenceV8SerializeError is raised only if an Error within the data is within its
own cause. -/
theorem C22_raises_only_for_cycles {env : EEnv} (ht : WellTyped env) {v : Val} (h : dumpsState env v = .error .illegalCyclic) :
    ∃ i, Reaches env v (.obj i) ∧ InOwnCause env i := by
  rw [dumpsState_eq] at h
  have h0 : Owned (fun _ => Val.null) ObjLog.empty := ⟨by simp [ObjLog.empty, Dict.get], by simp [ObjLog.empty, Dict.get]⟩
  exact (((encode_blames ht _ (fun _ => Val.null) v _ (st_headed h0)).1 _ h).2 rfl).2

/-- C22: the exceptions of the log for forward references stay inside. -/
theorem C22_no_forward_reference_error {env : EEnv} (ht : WellTyped env) (v : Val) (k : Nat) :
    dumpsState env v ≠ .error (.forwardRef k) := by
  intro h
  rw [dumpsState_eq] at h
  exact (encode_forward ht _ (fun _ => False) _ _ (st_headed (by intro k hk; simp [ObjLog.empty] at hk))).1 _ h k rfl

/-- C22: with the feature no cyclic cause is refused. -/
theorem C22_feature_allows {env : EEnv} (ht : WellTyped env) (hf : env.feats.circularErrorCause = true) (v : Val) :
    dumpsState env v ≠ .error .illegalCyclic := by
  intro h
  rw [dumpsState_eq] at h
  exact ((encode_circular ht hf _ v _ (st_headed (by intro k hk; simp [ObjLog.empty] at hk))).1 _ h).1 rfl

/-- C22: refusing cyclic causes is all that the feature changes. -/
theorem C22_feature_only_allows {env : EEnv} (ht : WellTyped env) (v : Val) :
    dumps (env.withCircular false) v = .error .illegalCyclic ∨
    dumps (env.withCircular false) v = dumps (env.withCircular true) v := by
  have ht' : WellTyped (env.withCircular false) := ⟨ht.views, ht.buffers, ht.objects⟩
  have htw := dumps_circular env v
  unfold dumps
  cases h0 : dumpsState (env.withCircular false) v with
  | ok b =>
    rw [h0] at htw
    obtain ⟨a, h1, h2⟩ := htw
    right
    rw [h1]
    show Except.ok b.data = Except.ok a.data
    rw [h2.data]
  | error e =>
    rw [h0] at htw
    rcases htw with (rfl | ⟨k, rfl⟩) | h
    · exact Or.inl rfl
    · exact absurd h0 (C22_no_forward_reference_error ht' v k)
    · right; rw [h]

/-- C22: references to an Error work as soon as it is complete, that is once `encode_object` returned,
wherever it is in the data.  (`RepInv` and `IdsOK` hold of the states of the encoder: `encode_visits`.) -/
theorem C22_reference_when_complete {env : EEnv} (ht : WellTyped env) {f : Nat} {v : Val} {ws ws' : WS} (hr : RepInv env ws)
    (hi : IdsOK ws) (h : encodeObject env f v ws = .ok ws') {u : Val} {n : Nat} (h1 : ws.log.contains u = false)
    (h2 : Dict.get ws'.log.ids u = some n) : ws'.log.getId u = .ok n := by
  obtain ⟨_, hv, _⟩ := encode_visits ht f v ws ws' hr hi h
  unfold ObjLog.getId
  rw [h2]
  simp only
  split
  · rename_i ho
    have ho' := (List.getElem?_eq_some_iff.mp (hv.closed n ho)).1
    rcases hv.fresh u n h2 with h3 | h3
    · rw [get_none_of_not_contains h1] at h3; cases h3
    · omega
  · rfl

/-- C22 (partial): with the feature an Error that is within its own cause comes back as an Error within
its own cause: what is read is related to what was written object by object, one object for one.
Missing: data with the objects that writer and reader number differently (C12). -/
theorem C22_cyclic_cause_comes_back_partial {env : EEnv} (he : Encodable env) (hn : NumberedAlike env) {denv : DEnv}
    (hpy : denv.py = env.py) {i : Id} {bytes : Bytes} (h : dumps env (.obj i) = .ok bytes) :
    ∃ z P w ds, loads denv bytes = .ok (w, ds) ∧ SameGraph env z P (.obj i) w ds.heap :=
  C11_round_trip_partial he hpy _ (Or.inl hn) bytes h

/-- A list of an Error whose cause is a map that contains the Error. -/
def cyclicCause : Heap := [.pylist [.obj 1], .error [97] none none (.obj 2), .jsmap [(.int 1, .obj 1)]]

theorem cyclicCause_ok : WellTyped (exampleEnc cyclicCause) where
  views := by
    intro i b v hi
    simp only [exampleEnc, cyclicCause] at hi
    rcases i with _ | _ | _ | i <;> cases hi
  buffers := fun i j hij h => by rw [← exampleEnc_same hij]; exact h
  objects := by
    intro i o hi
    simp only [exampleEnc, cyclicCause] at hi
    rcases i with _ | _ | _ | i <;> rcases hi with hi | hi <;> cases hi

theorem cyclicCause_in : InOwnCause (exampleEnc cyclicCause) 1 :=
  ⟨[97], none, none, .obj 2, rfl, by simp, .inside (i := 2) (c := .obj 1) (Or.inl rfl) rfl (by simp [members]) (.here (Or.inl rfl))⟩

example : dumpsState ((exampleEnc cyclicCause).withCircular false) (.obj 1) = .error .illegalCyclic := by
  have h : (dumpsState ((exampleEnc cyclicCause).withCircular true) (.obj 1)).toOption.isSome = true := by decide +kernel
  cases hd : dumpsState ((exampleEnc cyclicCause).withCircular true) (.obj 1) with
  | error e => rw [hd] at h; cases h
  | ok ws => exact (C22_own_cause_raises cyclicCause_ok (exampleEnc_noTwins _) cyclicCause_in).2 ws hd

/-- Inside the list as well; with the feature it is written and comes back. -/
example : dumps ((exampleEnc cyclicCause).withCircular false) (.obj 0) = .error .illegalCyclic ∧
    ∃ bytes, dumps (exampleEnc cyclicCause) (.obj 0) = .ok bytes ∧
      ∃ z P w ds, loads exampleDec bytes = .ok (w, ds) ∧ SameGraph (exampleEnc cyclicCause) z P (.obj 0) w ds.heap := by
  refine ⟨by decide +kernel, ?_⟩
  have h : (dumps (exampleEnc cyclicCause) (.obj 0)).toOption.isSome = true := by decide +kernel
  cases hd : dumps (exampleEnc cyclicCause) (.obj 0) with
  | error e => rw [hd] at h; cases h
  | ok b =>
    refine ⟨b, rfl, C11_round_trip_partial ⟨?_, ?_⟩ rfl _ (Or.inl ?_) b hd⟩
    · intro i n hi
      simp only [exampleEnc, cyclicCause] at hi
      rcases i with _ | _ | _ | i
      · cases hi; simp [NodeOK]
      · cases hi; trivial
      · cases hi
        intro e he
        simp only [List.mem_cons, List.not_mem_nil, or_false] at he
        subst he
        exact ⟨by decide +kernel, by simp⟩
      · cases hi
    · exact fun i j hij _ => by rw [exampleEnc_same hij]
    · intro i n hi
      simp only [exampleEnc, cyclicCause] at hi
      rcases i with _ | _ | _ | i <;> cases hi <;> simp

/-- C22 disagreement: after a RegExp, an Error that is its own cause comes back with the RegExp as its cause. -/
theorem C22_fails_after_regexp : ∃ env : EEnv, Encodable env ∧ env.feats.circularErrorCause = true ∧ InOwnCause env 2 ∧
    ¬ ComesBack env exampleDec (.obj 0) := by
  refine ⟨exampleEnc [.pylist [.obj 1, .obj 2], .regexp ⟨[97], 0⟩, .error [] none none (.obj 2)],
    ⟨?_, fun i j hij _ => by rw [exampleEnc_same hij]⟩, rfl,
    ⟨[], none, none, .obj 2, rfl, by simp, .here (Or.inl rfl)⟩, fun hc => ?_⟩
  · intro i n hi
    simp only [exampleEnc] at hi
    rcases i with _ | _ | _ | i
    · cases hi; simp [NodeOK]
    · cases hi; show mkRegExp _ _ = _; decide +kernel
    · cases hi; trivial
    · cases hi
  · obtain ⟨z, P, hg⟩ := readBack_comesBack (h' := [.jsarr ⟨.dense ⟨[some (.obj 1), some (.obj 2)], 2⟩, []⟩,
      .regexp ⟨[97], 0⟩, .error [69, 114, 114, 111, 114] (some []) none (.obj 1)]) (w := .obj 0) (p := 17) (by decide +kernel) hc
    obtain ⟨j, hj, hP⟩ := hg.root
    cases exampleEnc_same hj
    obtain ⟨n', h1, h2⟩ := hg.objects _ _ hP
    cases h1
    obtain ⟨j', n'', h3, h4, h5⟩ := h2
    cases h3
    cases h4
    have h6 := h5.2.1
    simp only [Arr.toList, Dense.toList, List.map, elemVal] at h6
    cases h6 with | cons ha h6 => cases h6 with | cons hb h6 =>
      obtain ⟨j, hj, ha⟩ := ha
      cases exampleEnc_same hj
      obtain ⟨j, hj, hb⟩ := hb
      cases exampleEnc_same hj
      obtain ⟨n', h1, h2⟩ := hg.objects _ _ hb
      cases h1
      obtain ⟨j', n'', h3, h4, h5⟩ := h2
      cases h3
      cases h4
      obtain ⟨j, hj, hd⟩ := h5.2.2.2
      cases exampleEnc_same hj
      exact absurd (hg.distinct _ _ _ ha hd) (by decide)

/-- References to a complete Error, and to a list that is still open from within a cause, are written. -/
example : (dumps ((exampleEnc [.pylist [.obj 1, .obj 1], .error [97] none none (.obj 0)]).withCircular false)
    (.obj 0)).toOption.isSome = true := by decide +kernel

end V8.Props
