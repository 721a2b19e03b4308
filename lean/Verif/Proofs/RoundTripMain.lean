import Verif.Proofs.RoundTripError
import Verif.Proofs.RoundTripObject

/-! Helper lemmas for the round trip: every value, by induction on the nesting depth. -/

namespace V8
open Spec

/-! ## Deduplication -/

/-- Every cached value is kept under its own key. -/
def MemoOK (env : EEnv) (m : Dict DKey Val) : Prop := ∀ k y, Dict.get m k = some y → dkey env y = some k

theorem deduplicate_state (env : EEnv) (v : Val) (ws : WS) :
    (deduplicate env v ws).2 = { ws with memo := (deduplicate env v ws).2.memo } := by
  unfold deduplicate
  split
  · rfl
  · split <;> rfl

theorem deduplicate_memo {env : EEnv} (v : Val) {ws : WS} (hm : MemoOK env ws.memo) :
    MemoOK env (deduplicate env v ws).2.memo := by
  unfold deduplicate
  split
  · exact hm
  · rename_i k hk
    split
    · exact hm
    · intro k' y hy
      simp only at hy
      rw [Dict.get_set] at hy
      by_cases hkk : k = k'
      · rw [if_pos hkk] at hy
        simp only [Option.some.injEq] at hy
        rw [← hy, ← hkk]; exact hk
      · rw [if_neg hkk] at hy
        exact hm k' y hy

theorem deduplicate_key {env : EEnv} (v : Val) {ws : WS} (hm : MemoOK env ws.memo) :
    (deduplicate env v ws).1 = v ∨ ∃ k, dkey env (deduplicate env v ws).1 = some k ∧ dkey env v = some k := by
  unfold deduplicate
  split
  · exact Or.inl rfl
  · rename_i k hk
    split
    · rename_i w hw
      exact Or.inr ⟨k, hm k w hw, hk⟩
    · exact Or.inl rfl

/-- `v` is what `deduplicate` returns for its class. -/
def IsRep (env : EEnv) (v : Val) (ws : WS) : Prop := ∀ k, dkey env v = some k → Dict.get ws.memo k = some v

theorem deduplicate_grows {env : EEnv} (v : Val) (ws : WS) (k : DKey) (u : Val) (h : Dict.get ws.memo k = some u) :
    Dict.get (deduplicate env v ws).2.memo k = some u := by
  unfold deduplicate
  split
  · exact h
  · rename_i k' hk'
    split
    · exact h
    · rename_i hn
      simp only
      rw [Dict.get_set]
      by_cases hk : k' = k
      · subst hk; rw [h] at hn; simp at hn
      · rw [if_neg hk]; exact h

theorem deduplicate_rep {env : EEnv} (v : Val) (ws : WS) (hm : MemoOK env ws.memo) :
    IsRep env (deduplicate env v ws).1 (deduplicate env v ws).2 := by
  unfold deduplicate
  split
  · rename_i h
    intro k hk
    simp only at hk
    rw [h] at hk; simp at hk
  · rename_i k hk
    split
    · rename_i w hw
      intro k' hk'
      simp only at hk' ⊢
      rw [hm k w hw] at hk'
      simp only [Option.some.injEq] at hk'
      rw [← hk']; exact hw
    · intro k' hk'
      simp only at hk' ⊢
      rw [hk] at hk'
      simp only [Option.some.injEq] at hk'
      rw [Dict.get_set, if_pos hk']

theorem SameVal.of_dkey {env : EEnv} {z : F64} {P : Val → Val → Prop} {u v w : Val} {k : DKey}
    (hu : dkey env u = some k) (hv : dkey env v = some k) (h : SameVal env z P u w) : SameVal env z P v w := by
  cases u with
  | float x =>
    simp only [dkey] at hu
    split at hu
    · rename_i hx
      simp only [Option.some.injEq] at hu
      subst hu
      cases v with
      | float y =>
        simp only [dkey] at hv
        split at hv
        · rename_i hy
          simp only [SameVal, if_pos hx] at h
          simp only [SameVal, if_pos hy, h]
        · simp at hv
      | obj i => cases hh : env.hkey i <;> simp [dkey, hh] at hv
      | _ => simp [dkey] at hv
    · simp at hu
  | obj i =>
    simp only [dkey, Option.map_eq_some_iff] at hu
    obtain ⟨c, hc, rfl⟩ := hu
    cases v with
    | obj j =>
      simp only [dkey, Option.map_eq_some_iff] at hv
      obtain ⟨c', hc', hcc⟩ := hv
      simp only [DKey.cls.injEq] at hcc
      subst hcc
      obtain ⟨j', h1, h2⟩ := h
      refine ⟨j', Or.inr ⟨c', hc', ?_⟩, h2⟩
      rcases h1 with rfl | ⟨c'', h3, h4⟩
      · exact hc
      · rw [hc] at h3
        rw [h4, h3]
    | float y =>
      simp only [dkey] at hv
      split at hv <;> simp at hv
    | _ => simp [dkey] at hv
  | _ => simp [dkey] at hu

theorem IsBuffer.of_dkey {env : EEnv} (he : Encodable env) {u v : Val} {k : DKey}
    (hu : dkey env u = some k) (hv : dkey env v = some k) (h : IsBuffer env.heap v) : IsBuffer env.heap u := by
  cases v with
  | obj i =>
    simp only [dkey, Option.map_eq_some_iff] at hv
    obtain ⟨c, hc, rfl⟩ := hv
    cases u with
    | obj j =>
      simp only [dkey, Option.map_eq_some_iff] at hu
      obtain ⟨c', hc', hcc⟩ := hu
      simp only [DKey.cls.injEq] at hcc
      subst hcc
      have := he.buffers i j (Or.inr ⟨_, hc, hc'⟩) h
      unfold IsBuffer at h ⊢
      simp only [this] at h ⊢
      exact h
    | float y =>
      simp only [dkey] at hu
      split at hu <;> simp at hu
    | _ => simp [dkey] at hu
  | _ => first | exact h.elim | simp [dkey] at hv

theorem SimW.dedup {env : EEnv} {z : F64} {P : Val → Val → Prop} {ws : WS} {ds : DS} (h : SimW env z P ws ds) (v : Val) :
    SimW env z P (deduplicate env v ws).2 ds := by
  have hm := deduplicate_memo v (show MemoOK env ws.memo from h.memo)
  rw [deduplicate_state]
  exact ⟨h.pairs, h.version, h.count, h.skewLe, h.logged, h.seen, hm⟩

theorem Wrote.dedup {env : EEnv} {v : Val} {ws ws' : WS} {bs : Bytes}
    (h : Wrote (deduplicate env v ws).2 ws' bs) : Wrote ws ws' bs := by
  rw [deduplicate_state] at h
  exact ⟨h.data, h.allowed, h.bad, fun u hu => h.zero u (deduplicate_grows v ws _ _ hu)⟩

/-- What is written for the value that stands for `v` reads back as one that stands for `v`. -/
theorem Obl.dedup {env : EEnv} {z : F64} {dec : Tag → RM Val} {v : Val} {ws ws' : WS}
    (h : Obl env z dec (deduplicate env v ws).1 (deduplicate env v ws).2 ws') : Obl env z dec v ws ws' := by
  obtain ⟨t, rest, ht, hw, hb⟩ := h
  refine ⟨t, rest, ht, hw.dedup, ?_⟩
  intro P ds hs hbad
  obtain ⟨P', w, ds', g1, g2, g3, g4, g5⟩ := hb P ds (SimW.dedup hs v) hbad
  refine ⟨P', w, ds', g1, g2, g3, g4, ?_⟩
  rcases deduplicate_key v (show MemoOK env ws.memo from hs.memo) with h1 | ⟨k, h1, h2⟩
  · rw [h1] at g5; exact g5
  · exact SameVal.of_dkey h1 h2 g5

/-! ## Buffers -/

/-- A buffer that was not written before. -/
theorem tagWriter_buf {env : EEnv} {z : F64} (he : Encodable env) {denv : DEnv} {F : Nat} {rec : Val → Wr} {next : Val → Wr}
    {u : Val} {ws ws' : WS} (hu : IsBuffer env.heap u) (h : tagWriter env rec u next ws = .ok ws')
    (ha : ws.allowed = none) (hv : ws.log.contains u = false) :
    BufObl env z (decodeTag denv (F + 1)) u ws ws' := by
  cases u with
  | bytes b =>
    exact writeFixedBuffer_back h ha hv fun P H => ⟨_, rfl, List.getElem?_concat_length⟩
  | obj i =>
    cases hi : env.heap[i]? with
    | none => simp only [IsBuffer, hi] at hu
    | some n =>
      simp only [tagWriter, hi] at h
      cases n with
      | abuf b =>
        simp only [serializeNode, writeArrayBuffer] at h
        by_cases hr : b.resizable = true ∧ env.feats.resizableArrayBuffers = true
        · rw [if_pos (by simp [hr.1, hr.2])] at h
          refine writeResizableBuffer_back h ha hv fun P H => ⟨_, hi, _, _, rfl, List.getElem?_concat_length, ?_⟩
          show _ = _
          rw [if_pos hr]
        · rw [if_neg (by simpa using hr)] at h
          refine writeFixedBuffer_back h ha hv fun P H => ⟨_, hi, _, _, rfl, List.getElem?_concat_length, ?_⟩
          show _ = _
          rw [if_neg hr]
      | rawBuf m b =>
        exact writeFixedBuffer_back h ha hv fun P H => ⟨_, hi, _, _, rfl, List.getElem?_concat_length, rfl⟩
      | sharedBuf id =>
        exact writeBufferId_back (mk := .sharedBuf) h ha hv (he.nodes i _ hi) rfl (by simp [jsArrayBufferTags]) rfl
          fun P H => ⟨_, hi, _, _, rfl, List.getElem?_concat_length, rfl⟩
      | transferBuf id =>
        exact writeBufferId_back (mk := .transferBuf) h ha hv (he.nodes i _ hi) rfl (by simp [jsArrayBufferTags]) rfl
          fun P H => ⟨_, hi, _, _, rfl, List.getElem?_concat_length, rfl⟩
      | _ => simp only [IsBuffer, hi] at hu
  | _ => exact hu.elim

theorem writeFixedBuffer_log {data : Bytes} {v : Val} {ws ws' : WS} (h : writeFixedBuffer data v ws = .ok ws') :
    ws'.log = (ws.log.record v).1 := by
  obtain ⟨w1, h1, h⟩ := Except.bind_eq_ok h
  obtain ⟨w2, h2, h⟩ := Except.bind_eq_ok h
  obtain ⟨w3, h3, h⟩ := Except.bind_eq_ok h
  obtain ⟨b, _, e3⟩ := emitE_ok h3
  rw [emit_ok h, e3, (writeTag_ok h2).1, recordRef_ok h1]

theorem writeResizableBuffer_log {b : ABuf} {v : Val} {ws ws' : WS} (h : writeResizableBuffer b v ws = .ok ws') :
    ws'.log = (ws.log.record v).1 := by
  unfold writeResizableBuffer at h
  by_cases hm : b.max < b.exposed.length
  · rw [if_pos hm] at h; simp at h
  · rw [if_neg hm] at h
    obtain ⟨w1, h1, h⟩ := Except.bind_eq_ok h
    obtain ⟨w2, h2, h⟩ := Except.bind_eq_ok h
    obtain ⟨w3, h3, h⟩ := Except.bind_eq_ok h
    obtain ⟨w4, h4, h⟩ := Except.bind_eq_ok h
    obtain ⟨b, _, e3⟩ := emitE_ok h3
    obtain ⟨b, _, e4⟩ := emitE_ok h4
    rw [emit_ok h, e4, e3, (writeTag_ok h2).1, recordRef_ok h1]

theorem writeBufferId_log {t : Tag} {id : Int} {v : Val} {ws ws' : WS} (h : writeBufferId t id v ws = .ok ws') :
    ws'.log = (ws.log.record v).1 := by
  unfold writeBufferId at h
  by_cases hm : id < 0
  · rw [if_pos hm] at h; simp at h
  · rw [if_neg hm] at h
    obtain ⟨w0, h0, h⟩ := Except.bind_eq_ok h
    obtain ⟨w1, h1, h⟩ := Except.bind_eq_ok h
    obtain ⟨w2, h2, h⟩ := Except.bind_eq_ok h
    rw [emit_ok h, (writeTag_ok h2).1, recordRef_ok h1, markSkew_ok h0]

theorem tagWriter_buf_log {env : EEnv} {rec : Val → Wr} {next : Val → Wr}
    {u : Val} {ws ws' : WS} (hu : IsBuffer env.heap u) (h : tagWriter env rec u next ws = .ok ws') :
    ws'.log = (ws.log.record u).1 := by
  cases u with
  | bytes b => exact writeFixedBuffer_log h
  | obj i =>
    cases hi : env.heap[i]? with
    | none => simp only [IsBuffer, hi] at hu
    | some n =>
      simp only [tagWriter, hi] at h
      cases n with
      | abuf b =>
        simp only [serializeNode, writeArrayBuffer] at h
        split at h
        · exact writeResizableBuffer_log h
        · exact writeFixedBuffer_log h
      | rawBuf m b => exact writeFixedBuffer_log h
      | sharedBuf id => exact writeBufferId_log h
      | transferBuf id => exact writeBufferId_log h
      | _ => simp only [IsBuffer, hi] at hu
  | _ => exact hu.elim

theorem writeReference_log {u : Val} {ws ws' : WS} (h : writeReference u ws = .ok ws') : ws'.log = ws.log := by
  unfold writeReference at h
  cases hg : ws.log.getId u with
  | error e => rw [hg] at h; simp at h
  | ok n =>
    rw [hg] at h
    obtain ⟨w1, h1, h⟩ := Except.bind_eq_ok h
    obtain ⟨w2, h2, h⟩ := Except.bind_eq_ok h
    rw [emit_ok h, (writeTag_ok h2).1]
    simp only [noteRef, Except.ok.injEq] at h1
    rw [← h1]

theorem contains_record {l : ObjLog} {v x : Val} (h : (l.record v).1.contains x = true) :
    l.contains x = true ∨ x = v := by
  unfold ObjLog.contains at h ⊢
  simp only [ObjLog.record] at h
  rw [Dict.get_set] at h
  by_cases hx : v = x
  · exact Or.inr hx.symm
  · rw [if_neg hx] at h; exact Or.inl h

/-- Writing a buffer records nothing but buffers. -/
theorem encode_buf_log {env : EEnv} (he : Encodable env) {f : Nat} {v : Val} {ws ws' : WS} (hv : IsBuffer env.heap v)
    (h : encodeObject env f v ws = .ok ws') (hm : MemoOK env ws.memo) (x : Val) (hx : ws'.log.contains x = true) :
    ws.log.contains x = true ∨ IsBuffer env.heap x := by
  cases f with
  | zero => simp [encodeObject, encodeWith] at h
  | succ f =>
    rw [encodeObject_succ] at h
    have hst := deduplicate_state env v ws
    have hu : IsBuffer env.heap (deduplicate env v ws).1 := by
      rcases deduplicate_key v hm with h1 | ⟨k, h1, h2⟩
      · rw [h1]; exact hv
      · exact IsBuffer.of_dkey he h1 h2 hv
    unfold refsStep at h
    simp only at h
    have hlog : (deduplicate env v ws).2.log = ws.log := by rw [hst]
    split at h
    · rw [writeReference_log h, hlog] at hx
      exact Or.inl hx
    · rw [tagWriter_buf_log hu h, hlog] at hx
      rcases contains_record hx with h1 | rfl
      · exact Or.inl h1
      · exact Or.inr hu

/-! ## One value -/

theorem RecBack.zero (env : EEnv) (z : F64) (dec : Tag → RM Val) : RecBack env z (encodeObject env 0) dec := by
  intro v ws ws' h
  simp [encodeObject, encodeWith] at h

/-- A value not written before, given that nested values are read back. -/
theorem tagWriter_back {env : EEnv} {z : F64} (he : Encodable env) {denv : DEnv} (hpy : denv.py = env.py) {f F : Nat}
    (hrec : RecBack env z (encodeObject env f) (decodeTag denv (F + 1)))
    (hbuf : ∀ u ws ws', IsBuffer env.heap u → encodeObject env f u ws = .ok ws' → ws.allowed = none →
      BufObl env z (decodeTag denv (F + 1 + 1)) u ws ws')
    {u : Val} {ws ws' : WS} (h : tagWriter env (encodeObject env f) u unhandledValue ws = .ok ws')
    (ha : ws.allowed = none) (hv : ws.log.contains u = false) (hrep : MemoOK env ws.memo → IsRep env u ws) :
    Obl env z (decodeTag denv (F + 1 + 1)) u ws ws' := by
  cases u with
  | hole =>
    exact obl_scalar (t := .kTheHole) (rest := []) rfl (writeConstant_ok h) (dec_const fun _ _ => rfl)
      (fun _ _ _ => trivial)
  | undef =>
    exact obl_scalar (t := .kUndefined) (rest := []) rfl (writeConstant_ok h) (dec_const fun _ _ => rfl)
      (fun _ _ _ => trivial)
  | null =>
    exact obl_scalar (t := .kNull) (rest := []) rfl (writeConstant_ok h) (dec_const fun _ _ => rfl)
      (fun _ _ _ => trivial)
  | bool b =>
    cases b with
    | true =>
      exact obl_scalar (t := .kTrue) (rest := []) rfl (writeConstant_ok h) (dec_const fun _ _ => rfl)
        (fun _ _ _ => rfl)
    | false =>
      exact obl_scalar (t := .kFalse) (rest := []) rfl (writeConstant_ok h) (dec_const fun _ _ => rfl)
        (fun _ _ _ => rfl)
  | int n =>
    obtain ⟨t, rest, w, h1, h2, h3, h4⟩ := serializeInt_back (denv := denv) (F := F + 1) h ha
    exact obl_scalar h1 h2 h4 (fun P _ _ => h3 env z P)
  | float x =>
    obtain ⟨w1, h1, h⟩ := Except.bind_eq_ok h
    refine obl_scalar (t := .kDouble) (rest := writeDouble x) (w := .float x) rfl ?_
      (dec_lift (readDouble_reads x) fun _ _ => rfl) ?_
    · rw [emit_ok h, (writeTag_ok h1).1, ← ha]; simp
    · intro P hf hm
      by_cases hx : fval x = .fin 0
      · have := hf.2 _ (hrep hm .zero (by simp [dkey, hx]))
        simp only [SameVal, if_pos hx]
        exact this
      · simp only [SameVal, if_neg hx]
  | str s =>
    obtain ⟨bs, hb, e, _⟩ := writeTagged_ok h
    refine obl_scalar (t := .kUtf8String) (rest := bs) (w := .str s) rfl ?_
      (dec_lift (readStringUtf8_reads hb) fun _ _ => rfl) (fun _ _ _ => rfl)
    rw [e, ← ha]
  | bytes b => exact (tagWriter_buf he (u := .bytes b) trivial h ha hv).obl
  | obj i =>
    cases hi : env.heap[i]? with
    | none => simp [tagWriter, hi, unhandledValue] at h
    | some n =>
      have h0 := h
      simp only [tagWriter, hi] at h
      have hok := he.nodes i n hi
      cases n with
      | jsmap es => exact writeJSMap_back he hrec h ha hv hi
      | jsset ms => exact writeJSSet_back he hrec h ha hv hi
      | jsobj o => exact writeJSObject_back hpy hrec h ha hv hi hok
      | jsarr o =>
        simp only [serializeNode, serializeJSArray] at h
        split at h
        · exact sparse_back hpy hrec h ha hv hi hok
        · exact dense_back hpy hrec h ha hv hi hok
      | pylist els => exact pylist_back hrec h ha hv hi hok
      | date d => exact writeDate_back h ha hv hi hpy hok
      | primObj p =>
        refine writePrimObj_back h ha hv hi ?_
        rintro m rfl
        exact hok
      | regexp r => exact writeRegExp_back h ha hi hok
      | error name message stack cause =>
        by_cases hc : cause = .null
        · subst hc
          exact writeError_null_back h ha hi
        · exact writeError_cause_back hrec h ha hv hc hi
      | abuf b => exact (tagWriter_buf he (by simp only [IsBuffer, hi]) h0 ha hv).obl
      | rawBuf m b => exact (tagWriter_buf he (by simp only [IsBuffer, hi]) h0 ha hv).obl
      | sharedBuf id => exact (tagWriter_buf he (by simp only [IsBuffer, hi]) h0 ha hv).obl
      | transferBuf id => exact (tagWriter_buf he (by simp only [IsBuffer, hi]) h0 ha hv).obl
      | view b w =>
        simp only [serializeNode] at h
        by_cases hf : w.tag = .float16 ∧ env.feats.float16Array = false
        · rw [if_pos hf] at h; simp [unhandledValue] at h
        · rw [if_neg hf] at h
          refine serializeView_back he h ha hv hi (fun ws1 h1 => hbuf _ _ _ hok.1 h1 ha) ?_
          intro ws1 x h1 hm hx
          exact encode_buf_log he hok.1 h1 hm x hx
      | sharedRef id => exact writeSharedRef_back h ha hv hi
      | other => simp [serializeNode, unhandledValue] at h

theorem dedup_log (env : EEnv) (v : Val) (ws : WS) : (deduplicate env v ws).2.log = ws.log := by
  rw [deduplicate_state]

theorem dedup_allowed (env : EEnv) (v : Val) (ws : WS) : (deduplicate env v ws).2.allowed = ws.allowed := by
  rw [deduplicate_state]

/-- Every value and every buffer written at nesting depth `f` is read back at depth `f + 1`. -/
theorem encode_back {env : EEnv} {z : F64} (he : Encodable env) {denv : DEnv} (hpy : denv.py = env.py) (f : Nat) :
    ∀ F, f < F → RecBack env z (encodeObject env f) (decodeTag denv F) ∧
      ∀ u ws ws', IsBuffer env.heap u → encodeObject env f u ws = .ok ws' → ws.allowed = none →
        BufObl env z (decodeTag denv F) u ws ws' := by
  induction f with
  | zero =>
    intro F _
    refine ⟨RecBack.zero _ _ _, ?_⟩
    intro u ws ws' _ h
    simp [encodeObject, encodeWith] at h
  | succ f ih =>
    intro F hF
    obtain ⟨F, rfl⟩ : ∃ G, F = G + 1 + 1 := ⟨F - 2, by omega⟩
    have hrec := (ih (F + 1) (by omega)).1
    have hbuf := (ih (F + 1 + 1) (by omega)).2
    have hone : ∀ v ws ws', encodeObject env (f + 1) v ws = .ok ws' → ws.allowed = none →
        Obl env z (decodeTag denv (F + 1 + 1)) (deduplicate env v ws).1 (deduplicate env v ws).2 ws' := by
      intro v ws ws' h ha
      rw [encodeObject_succ] at h
      unfold refsStep at h
      simp only at h
      have ha' : (deduplicate env v ws).2.allowed = none := by rw [dedup_allowed]; exact ha
      split at h
      · exact writeReference_obl h ha'
      · rename_i hc
        exact tagWriter_back he hpy hrec hbuf h ha' (by simpa using hc)
          fun hm => deduplicate_rep v ws fun k y hy => hm k y (deduplicate_grows v ws k y hy)
    refine ⟨fun v ws ws' h ha => (hone v ws ws' h ha).dedup, ?_⟩
    intro v ws ws' hv h ha
    by_cases hu : IsBuffer env.heap (deduplicate env v ws).1
    · have hob : BufObl env z (decodeTag denv (F + 1 + 1)) (deduplicate env v ws).1 (deduplicate env v ws).2 ws' := by
        rw [encodeObject_succ] at h
        unfold refsStep at h
        simp only at h
        have ha' : (deduplicate env v ws).2.allowed = none := by rw [dedup_allowed]; exact ha
        split at h
        · exact writeReference_bufObl h ha' hu
        · rename_i hc
          exact tagWriter_buf he hu h ha' (by simpa using hc)
      obtain ⟨t, rest, ht, hw, hb⟩ := hob
      refine ⟨t, rest, ht, hw.dedup, ?_⟩
      intro P ds hs hbad
      obtain ⟨P', w, ds', g1, g2, g3, g4, g5⟩ := hb P ds (SimW.dedup hs v) hbad
      refine ⟨P', w, ds', g1, g2, g3, g4, ?_⟩
      rcases deduplicate_key v (show MemoOK env ws.memo from hs.memo) with h1 | ⟨k, h1, h2⟩
      · rw [h1] at g5; exact g5
      · exact SameVal.of_dkey h1 h2 g5
    · obtain ⟨t, rest, ht, hw, _⟩ := hone v ws ws' h ha
      refine ⟨t, rest, ht, hw.dedup, ?_⟩
      intro P ds hs hbad
      exfalso
      apply hu
      rcases deduplicate_key v (show MemoOK env ws.memo from hs.memo) with h1 | ⟨k, h1, h2⟩
      · rw [h1]; exact hv
      · exact IsBuffer.of_dkey he h1 h2 hv

end V8
