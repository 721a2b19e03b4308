import Verif.Props.EncodeGlobal
import Verif.Proofs.EncodeSize

/-! Property C13: the size of what the encoder writes. -/

namespace V8.Props
open Spec

/-- Bytes for a reference (tag and number) among `n` objects. -/
def refSize (n : Nat) : Nat := 2 + Nat.log 2 n / 7

theorem refSize_cost {n k : Nat} (h : k < n) : 1 + (writeVarint k).length ≤ refSize n := by
  have h1 : k < 2 ^ (7 * (Nat.log 2 n / 7 + 1)) := by
    refine lt_of_lt_of_le (lt_trans h (Nat.lt_pow_succ_log_self (by omega) n)) (Nat.pow_le_pow_right (by omega) ?_)
    omega
  have := writeVarint_length_le _ _ h1
  unfold refSize
  omega

theorem slots_le_ids {env : EEnv} {ws : WS} (hv : Visits env WS.headed ws) :
    ws.log.slots.length ≤ (Dict.keys ws.log.ids).length := by
  classical
  have hex : ∀ n, n < ws.log.slots.length → ∃ z, Dict.get ws.log.ids z = some n :=
    fun n hn => hv.onto n (by simp [WS.headed, WS.new, ObjLog.empty]) hn
  have h : (Finset.range ws.log.slots.length).card ≤ (Dict.keys ws.log.ids).toFinset.card := by
    refine Finset.card_le_card_of_injOn (fun n => if h : n < ws.log.slots.length then (hex n h).choose else .null) ?_ ?_
    · intro n hn
      have hn : n < ws.log.slots.length := by simpa using hn
      simp only [hn, dif_pos, List.coe_toFinset, Set.mem_setOf_eq]
      have := (hex n hn).choose_spec
      by_contra hc
      rw [(Dict.get_eq_none_iff _ _).mpr hc] at this
      cases this
    · intro a ha b hb hab
      have ha : a < ws.log.slots.length := by simpa using ha
      have hb : b < ws.log.slots.length := by simpa using hb
      simp only [ha, hb, dif_pos] at hab
      have h1 := (hex a ha).choose_spec
      have h2 := (hex b hb).choose_spec
      rw [hab, h2] at h1
      exact (Option.some.inj h1).symm
  rw [Finset.card_range] at h
  exact le_trans h (List.toFinset_card_le _)

theorem sum_le_of_subset (f : Val → Nat) {k l : List Val} (hn : k.Nodup) (hs : ∀ x ∈ k, x ∈ l) : (k.map f).sum ≤ (l.map f).sum := by
  obtain ⟨k', hp, hsub⟩ := List.subperm_of_subset hn hs
  rw [← (hp.map f).sum_eq]
  clear hp hn hs
  induction hsub with
  | slnil => exact le_refl _
  | cons a _ ih => simp only [List.map_cons, List.sum_cons]; omega
  | cons_cons a _ ih => simp only [List.map_cons, List.sum_cons]; omega

/-- C13 (partial): `dumps` writes at most a constant for the header, the size of every object once (the
sizes of `Spec/Size.lean`: what is in the object, and `refSize` for each mention of an object in it),
and a mention of the root.  `l` lists what can be reached from `v`.
Missing: RegExp objects and Errors without a cause are written in full at each mention, and so counted in
full at each mention by `mentionSize`; `C13_not_linear` shows that the claim fails for these. -/
theorem C13_linear_size_partial {env : EEnv} (ht : WellTyped env)
    (hf : ∀ i j, Interchangeable env i j → IsUnlogged env (.obj i) → env.heap[j]? = env.heap[i]?)
    {v : Val} {l : List Val} (hl : ∀ z, Reaches env v z → IsObj z → z ∈ l) {bytes : Bytes} (h : dumps env v = .ok bytes) :
    bytes.length ≤ 2 + mentionSize env.heap (refSize l.length) v + (l.map (objectSize env.heap (refSize l.length))).sum := by
  obtain ⟨ws, hws, rfl⟩ := dumps_state h
  obtain ⟨hr, hv, _⟩ := dumps_visits ht hws
  rw [dumpsState_eq] at hws
  have hi : SizeInv env WS.headed := by
    refine ⟨⟨by simp [MemoOK, WS.headed, WS.new, Dict.get], by simp [WS.headed, WS.new, ObjLog.empty, Dict.get]⟩, ?_, ?_, ?_⟩
    · intro u n hu; simp [WS.headed, WS.new, ObjLog.empty, Dict.get] at hu
    · intro u hu; simp [WS.headed, WS.new, ObjLog.empty, ObjLog.contains, Dict.get] at hu
    · simp [WS.headed, WS.new, ObjLog.empty, Dict.keys]
  -- what is recorded, whatever the cost of references
  have key : ∀ r, RefCost r ws → _ := fun r hc => encode_size ht hf r _ v _ _ hi hc hws
  have hsub : ∀ r, RefCost r ws → ∀ x ∈ Dict.keys ws.log.ids, x ∈ l := by
    intro r hc x hx
    have hx' : ws.log.contains x = true := by
      unfold ObjLog.contains
      cases hg : Dict.get ws.log.ids x with
      | none => exact absurd hx ((Dict.get_eq_none_iff _ _).mp hg)
      | some n => rfl
    rcases (key r hc).2.2 x hx' with h1 | ⟨_, h1, h2⟩
    · simp [WS.headed, WS.new, ObjLog.empty, ObjLog.contains, Dict.get] at h1
    · exact hl x h2 h1
  have hlen : ws.log.slots.length ≤ l.length := by
    have hc : RefCost (refSize ws.log.slots.length) ws := fun n hn => refSize_cost hn
    obtain ⟨_, hnd, _⟩ := key _ hc
    have hs := List.subperm_of_subset hnd (hsub _ hc)
    exact le_trans (slots_le_ids hv) hs.length_le
  have hc : RefCost (refSize l.length) ws := fun n hn => refSize_cost (by omega)
  obtain ⟨h1, hnd, _⟩ := key _ hc
  have h2 := sum_le_of_subset (objectSize env.heap (refSize l.length)) hnd (hsub _ hc)
  have h0 : loggedSize env.heap (refSize l.length) WS.headed.log = 0 := rfl
  have h3 : WS.headed.data.length = 2 := by decide +kernel
  unfold loggedSize at h1 h0
  omega

/-- C13: once an object (or one that may stand for it) is recorded, mentioning it adds exactly a tag and
its number, whatever it contains. -/
theorem C13_reference_afterwards {env : EEnv} {f : Nat} {v : Val} {ws ws' : WS}
    (hc : ws.log.contains (deduplicate env v ws).1 = true) (h : encodeObject env (f + 1) v ws = .ok ws') :
    ∃ n, Dict.get ws.log.ids (deduplicate env v ws).1 = some n ∧
      ws'.data = ws.data ++ Tag.kObjectReference.byte :: writeVarint n ∧ ws'.log = ws.log := by
  rw [encodeObject_succ] at h
  have hl : (deduplicate env v ws).2.log = ws.log := by rw [deduplicate_state]
  have hd : (deduplicate env v ws).2.data = ws.data := by rw [deduplicate_state]
  unfold refsStep at h
  generalize deduplicate env v ws = p at *
  obtain ⟨d, w1⟩ := p
  simp only at hl hd hc h
  rw [hl, hc] at h
  simp only [if_true] at h
  unfold writeReference at h
  split at h
  · cases h
  · rename_i n hg
    refine ⟨n, ?_, ?_⟩
    · rw [hl] at hg
      unfold ObjLog.getId at hg
      cases hid : Dict.get ws.log.ids d with
      | none => rw [hid] at hg; cases hg
      | some k =>
        rw [hid] at hg
        simp only at hg
        split at hg
        · cases hg
        · cases hg; rfl
    · simp only [noteRef, writeTag, emit, bind, Except.bind] at h
      cases ha : w1.allowed with
      | none =>
        simp only [ha] at h
        cases h
        exact ⟨by simp [hd], hl⟩
      | some c =>
        simp only [ha] at h
        by_cases hct : c.contains .kObjectReference = true
        · rw [if_pos hct] at h
          cases h
          exact ⟨by simp [hd], hl⟩
        · rw [if_neg hct] at h
          cases h

/-- A list mentioning one object twice, the object containing the list. -/
def twice : Heap := [.pylist [.obj 1, .obj 1, .str [98]], .jsmap [(.str [97, 98, 99], .obj 0)]]

/-- The sizes for `twice`: 2 bytes per mention of an object. -/
example : ∃ bytes, dumps (exampleEnc twice) (.obj 0) = .ok bytes ∧ bytes.length ≤ 2 + 2 + ((5 + 2 * 3 + 2 + 2 + 10) + (3 + 2 + 26 + 2)) := by
  have h : (dumps (exampleEnc twice) (.obj 0)).toOption.isSome = true := by decide +kernel
  cases hd : dumps (exampleEnc twice) (.obj 0) with
  | error e => rw [hd] at h; cases h
  | ok b =>
    refine ⟨b, rfl, ?_⟩
    have ht : WellTyped (exampleEnc twice) := ⟨?_, ?_, ?_⟩
    · have hl : ∀ a z, Reaches (exampleEnc twice) a z → a ∈ [Val.obj 0, .obj 1] ∨ ¬ IsObj a → IsObj z → z ∈ [Val.obj 0, .obj 1] := by
        intro a z hz
        induction hz with
        | here h =>
          intro ha ho
          rcases h with rfl | ⟨i, j, rfl, rfl, h⟩
          · exact ha.resolve_right fun h => h ho
          · rw [← exampleEnc_same h]; exact ha.resolve_right fun h => h trivial
        | @inside a c z i n h hi hc _ ih =>
          intro ha ho
          refine ih ?_ ho
          simp only [exampleEnc, twice] at hi
          rcases i with _ | _ | i
          · cases hi; simp only [members, List.mem_cons, List.not_mem_nil, or_false] at hc
            rcases hc with rfl | rfl | rfl <;> simp [IsObj]
          · cases hi; simp [members] at hc
            rcases hc with rfl | rfl <;> simp [IsObj]
          · cases hi
      exact C13_linear_size_partial ht (fun i j h _ => by rw [exampleEnc_same h]) (fun z hz => hl _ z hz (Or.inl (by simp))) hd
    · intro i b v hi
      simp only [exampleEnc, twice] at hi
      rcases i with _ | _ | i <;> cases hi
    · exact fun i j hij h => by rw [← exampleEnc_same hij]; exact h
    · intro i o hi
      simp only [exampleEnc, twice] at hi
      rcases i with _ | _ | i <;> rcases hi with hi | hi <;> cases hi

/-- `k` mentions of one RegExp in a list. -/
def manyRegExps (k : Nat) : Heap := [.pylist (List.replicate k (.obj 1)), .regexp ⟨List.replicate k 97, 0⟩]

theorem utf8_replicate (k : Nat) : utf8Encode (List.replicate k 97) = some (List.replicate k 97) := by
  induction k with
  | zero => rfl
  | succ k ih =>
    rw [List.replicate_succ, List.replicate_succ, utf8Encode, ih]
    rfl

theorem regexp_in_full (k f : Nat) (ws : WS) (hm : ws.memo = []) (ha : ws.allowed = none) (hc : ws.log.contains (.obj 1) = false) :
    ∃ ws', encodeObject (exampleEnc (manyRegExps k)) (f + 1) (.obj 1) ws = .ok ws' ∧ ws.data.length + k ≤ ws'.data.length ∧
      ws'.memo = [] ∧ ws'.allowed = none ∧ ws'.log = ws.log := by
  rw [encodeObject_succ]
  have e : deduplicate (exampleEnc (manyRegExps k)) (.obj 1) ws = (.obj 1, ws) := rfl
  unfold refsStep
  rw [e]
  simp only [hc, Bool.false_eq_true, if_false]
  show ∃ ws', writeRegExp ⟨List.replicate k 97, 0⟩ ws = .ok ws' ∧ _
  cases hw : writeRegExp ⟨List.replicate k 97, 0⟩ ws with
  | error e =>
    simp only [writeRegExp, markSkew, writeTag, writeTagged, writeStringUtf8, utf8_replicate, ha, emit, bind, Except.bind] at hw
    cases hw
  | ok w =>
    simp only [writeRegExp, markSkew, writeTag, writeTagged, writeStringUtf8, utf8_replicate, ha, emit, bind, Except.bind] at hw
    cases hw
    refine ⟨_, rfl, ?_, hm, rfl, rfl⟩
    simp only [List.length_append, List.length_replicate]
    omega

theorem regexps_in_full (k f : Nat) : ∀ (m : Nat) (ws : WS), ws.memo = [] → ws.allowed = none → ws.log.contains (.obj 1) = false →
    ∃ ws', writeVals (encodeObject (exampleEnc (manyRegExps k)) (f + 1)) (List.replicate m (.obj 1)) ws = .ok ws' ∧
      ws.data.length + m * k ≤ ws'.data.length ∧ ws'.allowed = none
  | 0, ws, _, ha, _ => ⟨ws, rfl, by omega, ha⟩
  | m + 1, ws, hm, ha, hc => by
    obtain ⟨w1, h1, h2, h3, h4, h5⟩ := regexp_in_full k f ws hm ha hc
    obtain ⟨w2, h6, h7, h8⟩ := regexps_in_full k f m w1 h3 h4 (by rw [h5]; exact hc)
    refine ⟨w2, ?_, ?_, h8⟩
    · rw [List.replicate_succ]
      simp only [writeVals, h1, bind, Except.bind]
      exact h6
    · rw [Nat.succ_mul]; omega

/-- C13 fails for RegExp objects: `k` mentions of one RegExp of `k` characters (2k + 2 nodes, edges and
characters) take more than k² bytes. -/
theorem C13_not_linear (k : Nat) : ∃ bytes, dumps (exampleEnc (manyRegExps k)) (.obj 0) = .ok bytes ∧ k * k ≤ bytes.length := by
  have hd : dumpsState (exampleEnc (manyRegExps k)) (.obj 0) =
      writeDenseArray (encodeObject (exampleEnc (manyRegExps k)) 4) (List.replicate k (.obj 1)) [] (.obj 0) WS.headed := by
    rw [dumpsState_eq, show encodeFuel (exampleEnc (manyRegExps k)) = 4 + 1 from rfl, encodeObject_succ]
    rfl
  obtain ⟨ws', h1, h2, h3⟩ := regexps_in_full k 3 k
    { WS.headed with data := WS.headed.data ++ [Tag.kBeginDenseJSArray.byte] ++ writeVarint (List.replicate k (Val.obj 1)).length
                     log := (WS.headed.log.record (.obj 0)).1 } rfl rfl rfl
  have hw : ∃ ws, dumpsState (exampleEnc (manyRegExps k)) (.obj 0) = .ok ws ∧ k * k ≤ ws.data.length := by
    rw [hd]
    have e : writeDenseArray (encodeObject (exampleEnc (manyRegExps k)) 4) (List.replicate k (.obj 1)) [] (.obj 0) WS.headed =
        (writeTag .kEndDenseJSArray ws').bind fun ws => (emit (writeVarint 0) ws).bind fun ws =>
          emit (writeVarint (List.replicate k (Val.obj 1)).length) ws := by
      have e : writeDenseArray (encodeObject (exampleEnc (manyRegExps k)) 4) (List.replicate k (.obj 1)) [] (.obj 0) WS.headed =
          (writeVals (encodeObject (exampleEnc (manyRegExps k)) 4) (List.replicate k (.obj 1))
            { WS.headed with data := WS.headed.data ++ [Tag.kBeginDenseJSArray.byte] ++ writeVarint (List.replicate k (Val.obj 1)).length
                             log := (WS.headed.log.record (.obj 0)).1 }).bind fun ws =>
          (writeTag .kEndDenseJSArray ws).bind fun ws => (emit (writeVarint 0) ws).bind fun ws =>
            emit (writeVarint (List.replicate k (Val.obj 1)).length) ws := rfl
      rw [e, h1]
      rfl
    rw [e]
    simp only [writeTag, h3, emit, Except.bind]
    refine ⟨_, rfl, ?_⟩
    simp only [List.length_append]
    omega
  obtain ⟨ws, h4, h5⟩ := hw
  exact ⟨ws.data, by unfold dumps; rw [h4]; rfl, h5⟩

end V8.Props
