import Verif.Proofs.RoundTripRef
import Verif.Proofs.RoundTripLoops

/-! Helper lemmas for the round trip: errors. -/

namespace V8
open Spec

theorem errTag_bytes (t : ErrTag) :
    ∃ b : UInt8, writeVarint t.code = [b] ∧ b ≠ Tag.kArrayBufferView.byte := by
  cases t
  case evalProto => exact ⟨69, by decide +kernel, by decide⟩
  case rangeProto => exact ⟨82, by decide +kernel, by decide⟩
  case referenceProto => exact ⟨70, by decide +kernel, by decide⟩
  case syntaxProto => exact ⟨83, by decide +kernel, by decide⟩
  case typeProto => exact ⟨84, by decide +kernel, by decide⟩
  case uriProto => exact ⟨85, by decide +kernel, by decide⟩
  case message => exact ⟨109, by decide +kernel, by decide⟩
  case cause => exact ⟨99, by decide +kernel, by decide⟩
  case stack => exact ⟨115, by decide +kernel, by decide⟩
  case fin => exact ⟨46, by decide +kernel, by decide⟩

theorem readErrTag_reads (t : ErrTag) : Reads readErrTag (writeVarint t.code) t := by
  intro pre suf
  have hne : 1 ≤ (writeVarint t.code).length := by
    obtain ⟨b, hb, _⟩ := errTag_bytes t
    simp [hb]
  have hcap : ensureCapacity 1 (pre ++ writeVarint t.code ++ suf) pre.length = .ok ((), pre.length) := by
    unfold ensureCapacity
    rw [if_neg (by simp only [List.length_append]; omega)]
  unfold readErrTag
  rw [Rd.bind_ok hcap, Rd.bind_ok (readVarint_reads t.code pre suf)]
  have : ErrTag.ofCode t.code = some t := by cases t <;> rfl
  unfold errTagOf
  rw [this]
  rfl

theorem nv_errTag (t : ErrTag) (suf : Bytes) : NV (writeVarint t.code ++ suf) := by
  obtain ⟨b, hb, hv⟩ := errTag_bytes t
  unfold NV
  rw [hb]
  simpa using hv

/-- The tag that stands before an optional text followed by tag `next`. -/
def textTag (want : ErrTag) (text : Option Str) (next : ErrTag) : ErrTag :=
  match text with
  | none => next
  | some _ => want

theorem writeErrText_back {denv : DEnv} {F : Nat} {want : ErrTag} {text : Option Str} {ws ws' : WS}
    (h : writeErrText want text ws = .ok ws') (ha : ws.allowed = none) :
    ∃ B c, ws' = { ws with data := ws.data ++ B } ∧ ∀ next : ErrTag, next ≠ want →
      ∃ R, B ++ writeVarint next.code = writeVarint (textTag want text next).code ++ R ∧
        ∀ d (ds : DS) suf, Here d ds.pos R suf →
          readErrText (decodeTag denv (F + 1)) want (textTag want text next) d ds
            = .ok ((text, next), { ds with pos := ds.pos + R.length, calls := ds.calls + c }) := by
  cases text with
  | none =>
    simp only [writeErrText, Except.ok.injEq] at h
    refine ⟨[], 0, by simp [← h], ?_⟩
    intro next hn
    refine ⟨[], by simp [textTag], ?_⟩
    intro d ds suf _
    unfold readErrText textTag
    rw [if_neg hn]
    rfl
  | some s =>
    obtain ⟨w1, h1, h⟩ := Except.bind_eq_ok h
    have e1 := emit_ok h1
    obtain ⟨sb, hsb, e2, _⟩ := writeTagged_ok h
    refine ⟨writeVarint want.code ++ (Tag.kUtf8String.byte :: sb), 1, by rw [e2, e1]; simp, ?_⟩
    intro next hn
    refine ⟨Tag.kUtf8String.byte :: (sb ++ writeVarint next.code), by simp [textTag], ?_⟩
    intro d ds suf hh
    unfold readErrText textTag
    simp only [if_true]
    obtain ⟨hh1, hh2⟩ := hh.uncons
    have hstr := dec_lift (denv := denv) (F := F) (t := .kUtf8String) (g := fun (x : Str) => Val.str x)
      (readStringUtf8_reads hsb) (fun _ _ => rfl) d { ds with pos := ds.pos + 1 } _ hh2.left
    rw [RM.bind_ok (RM.lift_ok (s := ds) (readStringTag_here hh)), RM.bind_ok hstr,
      RM.bind_ok (Here.lift (s := { ds with pos := ds.pos + 1 + sb.length, calls := ds.calls + 1 }) hh2.right
        (readErrTag_reads next)),
      RM.bind_ok (x := assertStr _) rfl]
    show Except.ok _ = Except.ok _
    congr 2
    simp only [DS.mk.injEq, and_true, List.length_append, List.length_cons]
    omega

/-- The part of `read_js_error` after the name, message and stack. -/
def errTail (rec : Tag → RM Val) (name : Str) (message stack : Option Str) (etag : ErrTag) : RM Val := do
  let i ← alloc (.error name message stack .null)
  let _ ← recordD (.obj i)
  let c ← readErrCause rec etag
  let st' ← readLateStack rec stack c.2
  checkErrEnd st'.2
  setNode i (.error name message st'.1 c.1)
  return .obj i

/-- Name, message and stack. -/
theorem errHead_back {denv : DEnv} {F : Nat} {name : Str} {message stack : Option Str} {ws w1 w2 w3 : WS}
    (h1 : writeErrProto name ws = .ok w1) (h2 : writeErrText .message message w1 = .ok w2)
    (h3 : writeErrText .stack stack w2 = .ok w3) (ha : ws.allowed = none) :
    ∃ B c, w3 = { ws with data := ws.data ++ B } ∧ ∀ e : ErrTag, e = .fin ∨ e = .cause →
      ∀ d (ds : DS) suf, Here d ds.pos (B ++ writeVarint e.code) suf →
        decodeError (decodeTag denv (F + 1)) d ds
          = errTail (decodeTag denv (F + 1)) (ErrName.forName name).value (some (message.getD [])) stack e d
              { ds with pos := ds.pos + (B ++ writeVarint e.code).length, calls := ds.calls + c } := by
  obtain ⟨N, hN, hN'⟩ : ∃ N, w1 = { ws with data := ws.data ++ N } ∧
      ((ErrName.forName name = .error ∧ N = []) ∨
        ∃ t, (ErrName.forName name).tag = some t ∧ N = writeVarint t.code) := by
    unfold writeErrProto at h1
    cases ht : (ErrName.forName name).tag with
    | none =>
      rw [ht] at h1
      simp only [Except.ok.injEq] at h1
      refine ⟨[], by simp [← h1], Or.inl ⟨?_, rfl⟩⟩
      cases hn : ErrName.forName name <;> rw [hn] at ht <;> simp [ErrName.tag] at ht
    | some t =>
      rw [ht] at h1
      exact ⟨_, emit_ok h1, Or.inr ⟨t, rfl, rfl⟩⟩
  obtain ⟨M, c1, hM, hM'⟩ := writeErrText_back (denv := denv) (F := F) h2 (by rw [hN]; exact ha)
  obtain ⟨S, c2, hS, hS'⟩ := writeErrText_back (denv := denv) (F := F) h3 (by rw [hM, hN]; exact ha)
  refine ⟨N ++ M ++ S, c1 + c2, by rw [hS, hM, hN]; simp, ?_⟩
  intro e he d ds suf hh
  have he1 : e ≠ .stack := by rcases he with rfl | rfl <;> decide
  have he2 : textTag .stack stack e ≠ .message := by
    cases stack <;> rcases he with rfl | rfl <;> simp [textTag]
  have he3 : ErrName.forTag (textTag .message message (textTag .stack stack e)) = .error := by
    cases stack <;> cases message <;> rcases he with rfl | rfl <;> rfl
  obtain ⟨SR, hSR, hSd⟩ := hS' e he1
  obtain ⟨MR, hMR, hMd⟩ := hM' _ he2
  generalize hE2 : textTag .stack stack e = e2 at *
  generalize hE1 : textTag .message message e2 = e1 at *
  have hall : N ++ M ++ S ++ writeVarint e.code = N ++ (writeVarint e1.code ++ (MR ++ SR)) := by
    rw [List.append_assoc, hSR, List.append_assoc, ← List.append_assoc M, hMR, List.append_assoc]
  rw [hall] at hh ⊢
  -- the name
  have hname : ∃ etag, RM.lift readErrTag d ds = .ok (etag, { ds with pos := ds.pos + (if N = [] then (writeVarint e1.code).length else N.length) }) ∧
      ErrName.forTag etag = ErrName.forName name ∧
      RM.lift (readAfterName etag) d { ds with pos := ds.pos + (if N = [] then (writeVarint e1.code).length else N.length) }
        = .ok (e1, { ds with pos := ds.pos + N.length + (writeVarint e1.code).length }) := by
    rcases hN' with ⟨hn, rfl⟩ | ⟨t, ht, rfl⟩
    · refine ⟨e1, ?_, by rw [he3, hn], ?_⟩
      · rw [if_pos rfl]
        rw [List.nil_append] at hh
        exact Here.lift hh.left (readErrTag_reads e1)
      · unfold readAfterName
        rw [if_neg (by simp [he3])]
        simp only [if_true, List.length_nil, Nat.add_zero]
        rfl
    · have hne : writeVarint t.code ≠ [] := by
        obtain ⟨b, hb, _⟩ := errTag_bytes t
        simp [hb]
      have hft : ErrName.forTag t = ErrName.forName name := by
        have := (Props.C47_name_round_trip name).1
        rw [ht] at this
        exact this
      refine ⟨t, ?_, hft, ?_⟩
      · rw [if_neg hne]
        exact Here.lift hh.left (readErrTag_reads t)
      · unfold readAfterName
        have : ErrName.forTag t ≠ .error := by
          rw [hft]
          intro hc
          rw [hc] at ht
          simp [ErrName.tag] at ht
        rw [if_pos this, if_neg hne]
        exact Here.lift (s := { ds with pos := ds.pos + (writeVarint t.code).length }) hh.right.left (readErrTag_reads e1)
  obtain ⟨etag, n1, n2, n3⟩ := hname
  have hh2 := hh.right.right
  have hm := hMd d { ds with pos := ds.pos + N.length + (writeVarint e1.code).length } _ hh2.left
  have hs := hSd d
    { ds with pos := ds.pos + N.length + (writeVarint e1.code).length + MR.length, calls := ds.calls + c1 } _ hh2.right
  unfold decodeError errTail
  rw [RM.bind_ok n1]
  simp only
  rw [RM.bind_ok n3, RM.bind_ok hm]
  simp only
  rw [RM.bind_ok hs, n2]
  have hst : ({ ds with pos := ds.pos + N.length + (writeVarint e1.code).length + MR.length + SR.length, calls := ds.calls + c1 + c2 } : DS)
      = { ds with pos := ds.pos + (N ++ (writeVarint e1.code ++ (MR ++ SR))).length, calls := ds.calls + (c1 + c2) } := by
    simp only [DS.mk.injEq, true_and, List.length_append]
    omega
  simp only
  rw [hst]

theorem errLate (rec : Tag → RM Val) (stack : Option Str) (d : Bytes) (s : DS) :
    readLateStack rec stack .fin d s = .ok ((stack, .fin), s) := by
  unfold readLateStack
  cases stack with
  | some x => rfl
  | none => rfl

theorem set_last (H : Heap) (n m : Node) : (H ++ [n]).set H.length m = H ++ [m] := by
  simp

/-- An error without a cause. -/
theorem writeError_null_back {env : EEnv} {z : F64} {denv : DEnv} {F : Nat} {rec : Val → Wr} {circ : Bool} {i : Id} {name : Str}
    {message stack : Option Str} {ws ws' : WS}
    (h : writeError circ rec (.obj i) name message stack .null ws = .ok ws') (ha : ws.allowed = none)
    (hi : env.heap[i]? = some (.error name message stack .null)) :
    Obl env z (decodeTag denv (F + 1 + 1)) (.obj i) ws ws' := by
  unfold writeError at h
  simp only [if_true] at h
  obtain ⟨w0, h0, h⟩ := Except.bind_eq_ok h
  obtain ⟨w1, h1, h⟩ := Except.bind_eq_ok h
  obtain ⟨w2, h2, h⟩ := Except.bind_eq_ok h
  obtain ⟨w3, h3, h⟩ := Except.bind_eq_ok h
  obtain ⟨w4, h4, h⟩ := Except.bind_eq_ok h
  have e0 := markSkew_ok h0
  obtain ⟨e1, _⟩ := writeTag_ok h1
  obtain ⟨B, c, e4, hB⟩ := errHead_back (denv := denv) (F := F) h2 h3 h4 (by rw [e1, e0]; exact ha)
  have e5 := emit_ok (ws := w4) h
  generalize hR : B ++ writeVarint ErrTag.fin.code = R at *
  have e : ws' = { ws with data := ws.data ++ Tag.kError.byte :: R, skew := some (ws.skew.getD ws.log.slots.length) } := by
    rw [e5, e4, e1, e0, ← hR]; simp
  refine ⟨.kError, R, rfl, ?_, ?_⟩
  · rw [e]; exact ⟨rfl, ha, _root_.id, fun _ h => h⟩
  · intro P ds hs _
    have hso : SameObject env z (addPair P (.obj i) (.obj ds.heap.length))
        (ds.heap ++ [.error (ErrName.forName name).value (some (message.getD [])) stack .null]) (.obj i)
        (.obj ds.heap.length) :=
      ⟨_, hi, _, _, rfl, List.getElem?_concat_length, rfl, rfl, rfl, trivial⟩
    have hu : IsUnlogged env (.obj i) := by simp only [IsUnlogged, hi]
    obtain ⟨m1, m2, m3⟩ := made_right hs hu _ R.length (1 + c) hso
    refine ⟨_, _, _, ?_, rfl, by rw [e]; exact m1, m2, m3⟩
    intro d suf hh _
    rw [decodeTag_run]
    show decodeError (decodeTag denv (F + 1)) d _ = _
    have := hB .fin (Or.inl rfl) d { ds with calls := ds.calls + 1 } suf (by rw [hR]; exact hh)
    rw [this, hR]
    unfold errTail
    rw [RM.bind_ok (x := alloc _) rfl, RM.bind_ok (x := recordD _) rfl,
      RM.bind_ok (x := readErrCause _ _) rfl, RM.bind_ok (errLate _ _ _ _),
      RM.bind_ok (x := checkErrEnd _) rfl, RM.bind_ok (x := setNode _ _) rfl]
    show Except.ok _ = Except.ok _
    congr 2
    unfold DS.made
    simp only [DS.mk.injEq, true_and]
    exact ⟨set_last _ _ _, by omega⟩

/-- What `writeCause` does to the state besides the bytes of the cause. -/
theorem writeCause_back {env : EEnv} {z : F64} {circ : Bool} {rec : Val → Wr} {v cause : Val} {ws ws' : WS}
    (h : writeCause circ rec v cause ws = .ok ws') :
    ∃ log w1 w2, rec cause w1 = .ok w2 ∧
      w1 = { ws with data := ws.data ++ writeVarint ErrTag.cause.code, log := log } ∧
      log.ids = (ws.log.record v).1.ids ∧ log.slots.length = (ws.log.record v).1.slots.length ∧
      ws'.data = w2.data ∧ ws'.allowed = w2.allowed ∧ ws'.badRef = w2.badRef ∧ ws'.memo = w2.memo ∧
      ∀ P (ds : DS), SimW env z P w2 ds → SimW env z P ws' ds := by
  obtain ⟨w0, h0, h⟩ := Except.bind_eq_ok h
  have e0 := emit_ok h0
  cases circ with
  | true =>
    simp only [if_true] at h
    obtain ⟨w1, h1, h⟩ := Except.bind_eq_ok h
    have e1 := recordRef_ok h1
    exact ⟨(ws.log.record v).1, w1, ws', h, by rw [e1, e0], rfl, rfl, rfl, rfl, rfl, rfl, fun _ _ h => h⟩
  | false =>
    simp only [Bool.false_eq_true, if_false] at h
    cases hr : rec cause { w0 with log := (w0.log.beginAcyclic v).1 } with
    | error e => rw [hr] at h; simp at h
    | ok w2 =>
      rw [hr] at h
      simp only [Except.ok.injEq] at h
      refine ⟨(w0.log.beginAcyclic v).1, _, w2, hr, by rw [e0], by rw [e0]; rfl,
        by rw [e0]; simp [ObjLog.beginAcyclic], by rw [← h], by rw [← h], by rw [← h], by rw [← h], ?_⟩
      intro P ds hs
      rw [← h]
      have hl : (w2.log.endAcyclic (w0.log.beginAcyclic v).2 v).slots.length = w2.log.slots.length := by
        simp [ObjLog.endAcyclic]
      show Sim env z P w2.log.ids (w2.log.endAcyclic (w0.log.beginAcyclic v).2 v).slots.length _ _ _ _ _
      rw [hl]
      exact hs

/-- An error with a cause. -/
theorem writeError_cause_back {env : EEnv} {z : F64} {denv : DEnv} {F : Nat} {rec : Val → Wr} {circ : Bool} {i : Id}
    {name : Str} {message stack : Option Str} {cause : Val} {ws ws' : WS}
    (hrec : RecBack env z rec (decodeTag denv (F + 1)))
    (h : writeError circ rec (.obj i) name message stack cause ws = .ok ws') (ha : ws.allowed = none)
    (hv : ws.log.contains (.obj i) = false) (hc : cause ≠ .null)
    (hi : env.heap[i]? = some (.error name message stack cause)) :
    Obl env z (decodeTag denv (F + 1 + 1)) (.obj i) ws ws' := by
  unfold writeError at h
  simp only [if_neg hc] at h
  obtain ⟨w0, h0, h⟩ := Except.bind_eq_ok h
  simp only [Except.ok.injEq] at h0
  subst h0
  obtain ⟨w1, h1, h⟩ := Except.bind_eq_ok h
  obtain ⟨w2, h2, h⟩ := Except.bind_eq_ok h
  obtain ⟨w3, h3, h⟩ := Except.bind_eq_ok h
  obtain ⟨w4, h4, h⟩ := Except.bind_eq_ok h
  obtain ⟨w5, h5, h⟩ := Except.bind_eq_ok h
  obtain ⟨e1, _⟩ := writeTag_ok h1
  obtain ⟨B, c, e4, hB⟩ := errHead_back (denv := denv) (F := F) h2 h3 h4 (by rw [e1]; exact ha)
  obtain ⟨log, u1, u2, hu, eu1, hids, hlen, hd5, ha5, hb5, hm5, hs5⟩ := writeCause_back (env := env) (z := z) h5
  have e6 := emit_ok (ws := w5) h
  generalize hR : B ++ writeVarint ErrTag.cause.code = R at *
  have eu : u1 = { ws with data := ws.data ++ Tag.kError.byte :: R, log := log } := by
    rw [eu1, e4, e1, ← hR]; simp
  have hlog4 : w4.log = ws.log := by rw [e4, e1]
  rw [hlog4] at hids hlen
  obtain ⟨t, rest, ht, hw, hback⟩ := hrec cause u1 u2 hu (by rw [eu]; exact ha)
  generalize hfin : writeVarint ErrTag.fin.code = fb at *
  refine ⟨.kError, R ++ (t.byte :: rest ++ fb), rfl, ⟨?_, ?_, ?_, ?_⟩, ?_⟩
  · rw [e6]
    simp only
    rw [hd5, hw.data, eu]
    simp
  · rw [e6]; simp only; rw [ha5]; exact hw.allowed
  · intro hb
    rw [e6] at hb
    simp only at hb
    rw [hb5] at hb
    have := hw.bad hb
    rw [eu] at this
    exact this
  · intro u hu
    rw [e6]
    simp only
    rw [hm5]
    exact hw.zero u (by rw [eu]; exact hu)
  · intro P ds hs hb
    rw [e6] at hb
    have hb : Fine z u2 := ⟨by rw [← hb5]; exact hb.1, fun u hu => hb.2 u (by simp only; rw [hm5]; exact hu)⟩
    -- the state in which the cause is decoded
    have hsh : Shallow env z (ds.heap ++ [.error (ErrName.forName name).value (some (message.getD [])) stack .null])
        (.obj i) (.obj ds.heap.length) := by
      refine ⟨_, hi, _, _, rfl, List.getElem?_concat_length, rfl, ?_⟩
      intro hbuf; simp [Node.isBuf] at hbuf
    obtain ⟨ds1, hds1⟩ : ∃ ds1, ds1 = (ds.made (.error (ErrName.forName name).value (some (message.getD [])) stack .null)
        (R.length + 1) (1 + c)) := ⟨_, rfl⟩
    have hs1 : SimW env z (addPair P (.obj i) (.obj ds.heap.length)) u1 ds1 := by
      have := SimW.record hs _ hv hsh (fun j hj => (Val.obj.inj hj).symm) (ids' := ds1.log.ids) (data := []) (allowed := none)
        (bad := false) (pos := 0) (calls := 0)
      rw [eu, hds1]
      show Sim _ _ _ log.ids log.slots.length _ _ _ _ _
      rw [hids, hlen]
      exact this
    obtain ⟨P2, w, ds2, hd2, hp2, hs2, hst2, hv2⟩ := hback _ ds1 hs1 hb
    obtain ⟨n', hn'⟩ : ∃ n', n' = Node.error (ErrName.forName name).value (some (message.getD [])) stack w := ⟨_, rfl⟩
    have hH1 : ds1.heap = ds.heap ++ [.error (ErrName.forName name).value (some (message.getD [])) stack .null] := by
      rw [hds1]; rfl
    rw [hH1] at hst2
    have hcell : ds2.heap[ds.heap.length]? = some (.error (ErrName.forName name).value (some (message.getD [])) stack .null) := by
      rw [hst2.cells _ (by simp)]
      exact List.getElem?_concat_length
    have hlt : ds.heap.length < ds2.heap.length := (List.getElem?_eq_some_iff.mp hcell).1
    have hso : SameObject env z P2 (ds2.heap.set ds.heap.length n') (.obj i) (.obj ds.heap.length) := by
      refine ⟨_, hi, _, n', rfl, List.getElem?_set_self hlt, ?_⟩
      rw [hn']
      exact ⟨rfl, rfl, rfl, hv2⟩
    refine ⟨P2, .obj ds.heap.length,
      { pos := ds2.pos + fb.length, log := ds2.log, heap := ds2.heap.set ds.heap.length n', version := ds2.version, calls := ds2.calls },
      ?_, ?_, ?_, ?_, ?_⟩
    · intro d suf hh hnv
      rw [decodeTag_run]
      show decodeError (decodeTag denv (F + 1)) d _ = _
      have hh2 := hh.right
      obtain ⟨hh3, hh4⟩ := Here.uncons (b := rest ++ fb) hh2
      have := hB .cause (Or.inr rfl) d { ds with calls := ds.calls + 1 } _ (by rw [hR]; exact hh.left)
      rw [this, hR]
      unfold errTail
      rw [RM.bind_ok (x := alloc _) rfl, RM.bind_ok (x := recordD _) rfl]
      have hcs : readErrCause (decodeTag denv (F + 1)) .cause d { ds1 with pos := ds.pos + R.length }
          = .ok ((w, .fin), { ds2 with pos := ds2.pos + fb.length }) := by
        unfold readErrCause
        rw [if_pos rfl]
        have hdec := hd2 d (fb ++ suf) (by rw [hds1]; exact hh4.left) (by rw [← hfin]; exact nv_errTag _ _)
        have hpos : ds1.pos = ds.pos + R.length + 1 := by rw [hds1]; simp only [DS.made]; omega
        have hnext : decodeNext (decodeTag denv (F + 1)) d { ds1 with pos := ds.pos + R.length } = .ok (w, ds2) := by
          refine decodeNext_of (t := t) (readAnyTag_here hh2 (startTag.not_padding ht)) ?_
          rw [← hdec]
          congr 1
          simp only [← hpos]
        rw [RM.bind_ok hnext]
        have hh5 := hh4.right
        have hfr : Here d ds2.pos fb suf := by
          rw [hp2, hpos]
          exact hh5
        rw [RM.bind_ok (Here.lift (s := ds2) hfr (by rw [← hfin]; exact readErrTag_reads .fin))]
        rfl
      have hst1 : ({ pos := ds.pos + R.length, log := (ds.log.record (.obj ds.heap.length)).1, heap := ds.heap ++ [.error (ErrName.forName name).value (some (message.getD [])) stack .null], version := ds.version, calls := ds.calls + 1 + c } : DS)
          = { ds1 with pos := ds.pos + R.length } := by
        rw [hds1]; simp only [DS.made, DS.mk.injEq, true_and]; omega
      simp only
      rw [hst1, RM.bind_ok hcs, RM.bind_ok (errLate _ _ _ _), RM.bind_ok (x := checkErrEnd _) rfl,
        RM.bind_ok (x := setNode _ _) rfl, hn']
      rfl
    · simp only [hp2, hds1, DS.made, List.length_append, List.length_cons]
      omega
    · have := hs5 P2 ds2 hs2
      rw [e6]
      refine Sim.setNode this hcell rfl ?_
      rw [hn']; rfl
    · exact Step.container hst2 hso
    · exact SameVal.self (hst2.mono _ _ (addPair_self _ _ _)) (SameObject.shallow hso)

end V8
