import Verif.Proofs.RoundTripLeaf

/-! Helper lemmas for the round trip: references, primitive objects, dates, regular expressions,
shared object references, views. -/

namespace V8
open Spec

/-! ## References -/

theorem Shallow.isBuffer {env : EEnv} {z : F64} {H : Heap} {v w : Val} (h : Shallow env z H v w)
    (hb : IsBuffer env.heap v) : V8.isBuffer H w = true := by
  cases v with
  | bytes b =>
    obtain ⟨j, rfl, h2⟩ := h
    simp [V8.isBuffer, h2]
  | obj i =>
    obtain ⟨n, hn, h⟩ := h
    simp only [IsBuffer, hn] at hb
    cases n <;> simp only at hb
    all_goals
      obtain ⟨j, n', rfl, h2, h3, h4⟩ := h
      have h5 := h4 rfl
      unfold SameContent at h5
      cases n' <;> simp only at h5
      simp [V8.isBuffer, h2]
  | _ => exact h.elim

theorem writeReference_back {env : EEnv} {z : F64} {denv : DEnv} {F : Nat} {u : Val} {ws ws' : WS}
    (h : writeReference u ws = .ok ws') (ha : ws.allowed = none) :
    ∃ rest, Wrote ws ws' (Tag.kObjectReference.byte :: rest) ∧
      ∀ P ds, SimW env z P ws ds → Fine z ws' → ∃ w, P u w ∧
        SimW env z P ws' { ds with pos := ds.pos + rest.length, calls := ds.calls + 1 } ∧
        ∀ d suf, Here d ds.pos rest suf → decodeTag denv (F + 1) .kObjectReference d ds
          = if isBuffer ds.heap w then
              viewAfter w d { ds with pos := ds.pos + rest.length, calls := ds.calls + 1 }
            else .ok (w, { ds with pos := ds.pos + rest.length, calls := ds.calls + 1 }) := by
  unfold writeReference at h
  cases hg : ws.log.getId u with
  | error e => rw [hg] at h; simp at h
  | ok n =>
    rw [hg] at h
    simp only at h
    obtain ⟨w1, h1, h⟩ := Except.bind_eq_ok h
    obtain ⟨w2, h2, h⟩ := Except.bind_eq_ok h
    simp only [noteRef, Except.ok.injEq] at h1
    obtain ⟨e2, _⟩ := writeTag_ok h2
    have e3 := emit_ok h
    generalize hbad : (ws.badRef || match ws.skew with | some k => decide (k ≤ n) | none => false) = bad at h1
    have e : ws' = { ws with data := ws.data ++ Tag.kObjectReference.byte :: writeVarint n, badRef := bad } := by
      rw [e3, e2, ← h1]; simp
    have hget : Dict.get ws.log.ids u = some n := by
      unfold ObjLog.getId at hg
      cases hid : Dict.get ws.log.ids u with
      | none => rw [hid] at hg; simp at hg
      | some m =>
        rw [hid] at hg
        simp only at hg
        split at hg
        · simp at hg
        · simp only [Except.ok.injEq] at hg; rw [hg]
    refine ⟨writeVarint n, ?_, ?_⟩
    · rw [e]
      refine ⟨rfl, ha, ?_, fun _ h => h⟩
      intro hb
      simp only at hb
      rw [hb, Bool.or_eq_false_iff] at hbad
      exact hbad.1
    · intro P ds hs hb
      obtain ⟨hn, w, hw, hslot⟩ := hs.logged u n hget
      have hb' : bad = false := by rw [e] at hb; exact hb.1
      have hk : ∀ k, ws.skew = some k → n < k := by
        intro k hk
        rw [hb', hk, Bool.or_eq_false_iff] at hbad
        simpa using hbad.2
      have hsl := hslot hk
      refine ⟨w, hw, by rw [e]; exact hs, ?_⟩
      intro d suf hh
      rw [decodeTag_run]
      show decodeReference d _ = _
      unfold decodeReference
      rw [RM.bind_ok (Here.lift (s := { ds with calls := ds.calls + 1 }) hh (readVarint_reads n))]
      have hlt : n < ds.log.slots.length := (List.getElem?_eq_some_iff.mp hsl).1
      have hlk : lookupD n d { ds with pos := ds.pos + (writeVarint n).length, calls := ds.calls + 1 }
          = .ok (w, { ds with pos := ds.pos + (writeVarint n).length, calls := ds.calls + 1 }) := by
        have hgo : ds.log.getObject n = .ok (.obj w) := by
          unfold ObjLog.getObject pyIndex
          rw [if_neg (by omega), if_pos (by omega)]
          simp [hsl]
        unfold lookupD
        simp only [hgo]
      rw [RM.bind_ok hlk, RM.bind_ok (s' := { ds with pos := ds.pos + (writeVarint n).length, calls := ds.calls + 1 }) (a := ds.heap) rfl]
      by_cases hbuf : isBuffer ds.heap w = true
      · rw [if_pos hbuf, if_pos hbuf]
      · rw [if_neg hbuf, if_neg hbuf]; rfl

theorem writeReference_obl {env : EEnv} {z : F64} {denv : DEnv} {F : Nat} {u : Val} {ws ws' : WS}
    (h : writeReference u ws = .ok ws') (ha : ws.allowed = none) :
    Obl env z (decodeTag denv (F + 1)) u ws ws' := by
  obtain ⟨rest, hw, hb⟩ := writeReference_back (env := env) (denv := denv) (F := F) h ha
  refine ⟨.kObjectReference, rest, rfl, hw, ?_⟩
  intro P ds hs hbad
  obtain ⟨w, hP, hs', hd⟩ := hb P ds hs hbad
  refine ⟨P, w, _, ?_, rfl, hs', Step.refl _ _ _ _, SameVal.self hP (hs.pairs.pair _ _ hP)⟩
  intro d suf hh hnv
  rw [hd d suf hh]
  by_cases hbuf : isBuffer ds.heap w = true
  · rw [if_pos hbuf]
    exact viewAfter_nv (here_nil hh rfl) hnv
  · rw [if_neg hbuf]

theorem writeReference_bufObl {env : EEnv} {z : F64} {denv : DEnv} {F : Nat} {u : Val} {ws ws' : WS}
    (h : writeReference u ws = .ok ws') (ha : ws.allowed = none) (hu : IsBuffer env.heap u) :
    BufObl env z (decodeTag denv (F + 1)) u ws ws' := by
  obtain ⟨rest, hw, hb⟩ := writeReference_back (env := env) (denv := denv) (F := F) h ha
  refine ⟨.kObjectReference, rest, rfl, hw, ?_⟩
  intro P ds hs hbad
  obtain ⟨w, hP, hs', hd⟩ := hb P ds hs hbad
  refine ⟨P, w, _, ?_, rfl, hs', Step.refl _ _ _ _, SameVal.self hP (hs.pairs.pair _ _ hP)⟩
  intro d suf hh
  rw [hd d suf hh, if_pos (Shallow.isBuffer (hs.pairs.pair _ _ hP) hu)]

/-! ## Primitive objects -/

theorem readPrimObj_reads {p : PrimObj} {bs : Bytes} (h : primObjPayload p = .ok bs)
    (hn : ∀ n, p = .safeInt n → n.natAbs ≤ 2 ^ 53 - 1) :
    ∃ p' : PrimObj, Reads (readPrimObj p.tag) bs p' ∧ SameScalar p.value p'.value := by
  cases p with
  | str s =>
    exact ⟨.str s, Reads.map (g := PrimObj.str) (readStringUtf8_reads h), rfl⟩
  | bool b =>
    simp only [primObjPayload, Except.ok.injEq] at h
    subst h
    cases b
    · exact ⟨.bool false, Reads.pure _, rfl⟩
    · exact ⟨.bool true, Reads.pure _, rfl⟩
  | float x =>
    simp only [primObjPayload, Except.ok.injEq] at h
    subst h
    exact ⟨.float x, Reads.map (g := PrimObj.float) (readDouble_reads x), rfl⟩
  | safeInt n =>
    simp only [primObjPayload, Except.ok.injEq] at h
    subst h
    exact ⟨.float (doubleOfInt n), Reads.map (g := PrimObj.float) (readDouble_reads _),
      fval_doubleOfInt n (hn n rfl)⟩
  | bigint n =>
    exact ⟨.bigint n, Reads.map (g := PrimObj.bigint) (readBigint_reads h), rfl⟩

theorem PrimObj.value_ne_obj (p : PrimObj) (j : Id) : p.value ≠ .obj j := by
  cases p <;> simp [PrimObj.value]

theorem decodePrimObj_tag {denv : DEnv} {F : Nat} (p : PrimObj) (d : Bytes) (ds : DS) :
    decodeTag denv (F + 1) p.tag d ds = decodePrimObj p.tag d { ds with calls := ds.calls + 1 } := by
  rw [decodeTag_run]
  cases p with
  | bool b => cases b <;> rfl
  | _ => rfl

theorem writePrimObj_back {env : EEnv} {z : F64} {denv : DEnv} {F : Nat} {i : Id} {p : PrimObj} {ws ws' : WS}
    (h : writePrimObj p (.obj i) ws = .ok ws') (ha : ws.allowed = none)
    (hv : ws.log.contains (.obj i) = false) (hi : env.heap[i]? = some (.primObj p))
    (hn : ∀ n, p = .safeInt n → n.natAbs ≤ 2 ^ 53 - 1) :
    Obl env z (decodeTag denv (F + 1)) (.obj i) ws ws' := by
  obtain ⟨w1, h1, h⟩ := Except.bind_eq_ok h
  obtain ⟨w2, h2, h⟩ := Except.bind_eq_ok h
  have e1 := recordRef_ok h1
  obtain ⟨e2, _⟩ := writeTag_ok h2
  obtain ⟨bs, hb, e3⟩ := emitE_ok h
  have e : ws' = { ws with data := ws.data ++ p.tag.byte :: bs, log := (ws.log.record (.obj i)).1 } := by
    rw [e3, e2, e1]; simp
  obtain ⟨p', hr, hsc⟩ := readPrimObj_reads hb hn
  refine ⟨p.tag, bs, by cases p with | bool b => cases b <;> rfl | _ => rfl, ?_, ?_⟩
  · rw [e]; exact ⟨rfl, ha, _root_.id, fun _ h => h⟩
  · intro P ds hs _
    have hso : SameObject env z (addPair P (.obj i) p'.value) (ds.heap ++ [.primObj p']) (.obj i) p'.value :=
      ⟨_, hi, hsc⟩
    have hw : ∀ j, p'.value = .obj j → j = ds.heap.length := fun j hj => absurd hj (p'.value_ne_obj j)
    refine ⟨addPair P (.obj i) p'.value, p'.value,
      { pos := ds.pos + bs.length,
        log := ⟨(ds.log.record (.obj ds.heap.length)).1.ids, ds.log.slots ++ [.obj p'.value]⟩,
        heap := ds.heap ++ [.primObj p'], version := ds.version, calls := ds.calls + 1 }, ?_, rfl, ?_,
      Step.one _ hw hso, SameVal.self (addPair_self _ _ _) (SameObject.shallow hso)⟩
    · intro d suf hh _
      rw [decodePrimObj_tag]
      unfold decodePrimObj
      rw [RM.bind_ok (Here.lift (s := { ds with calls := ds.calls + 1 }) hh hr)]
      rw [RM.bind_ok (x := alloc _) rfl, RM.bind_ok (x := recordD _) rfl]
      have hrep : replaceD (ds.log.record (.obj ds.heap.length)).2 p'.value d
          { pos := ds.pos + bs.length, log := (ds.log.record (.obj ds.heap.length)).1, heap := ds.heap ++ [.primObj p'], version := ds.version, calls := ds.calls + 1 }
          = .ok ((), { pos := ds.pos + bs.length, log := ⟨(ds.log.record (.obj ds.heap.length)).1.ids, ds.log.slots ++ [.obj p'.value]⟩, heap := ds.heap ++ [.primObj p'], version := ds.version, calls := ds.calls + 1 }) := by
        unfold replaceD ObjLog.replace
        have hl : (ds.log.record (.obj ds.heap.length)).1.slots.length = ds.log.slots.length + 1 := by
          simp [ObjLog.record]
        have hset : (ds.log.record (.obj ds.heap.length)).1.slots.set (ds.log.slots.length) (.obj p'.value)
            = ds.log.slots ++ [.obj p'.value] := by
          simp [ObjLog.record]
        have h2 : (ds.log.record (.obj ds.heap.length)).2 = ds.log.slots.length := rfl
        simp only [hl, h2]
        rw [if_neg (by omega), if_neg (by omega)]
        simp only [Nat.add_sub_cancel, hset]
      rw [RM.bind_ok hrep]
      rfl
    · rw [e]
      exact SimW.record hs _ hv (SameObject.shallow hso) hw

/-! ## Dates, shared object references -/

theorem writeDate_back {env : EEnv} {z : F64} {denv : DEnv} {F : Nat} {i : Id} {x : Int} {ws ws' : WS}
    (h : writeDate env.py x (.obj i) ws = .ok ws') (ha : ws.allowed = none)
    (hv : ws.log.contains (.obj i) = false) (hi : env.heap[i]? = some (.date x))
    (hpy : denv.py = env.py) (hd : ∀ ms, env.py.dateMs x = .ok ms → env.py.msDate ms = .ok x) :
    Obl env z (decodeTag denv (F + 1)) (.obj i) ws ws' := by
  unfold writeDate at h
  cases hm : env.py.dateMs x with
  | error e => rw [hm] at h; simp at h
  | ok ms =>
    rw [hm] at h
    simp only at h
    obtain ⟨w1, h1, h⟩ := Except.bind_eq_ok h
    obtain ⟨w2, h2, h⟩ := Except.bind_eq_ok h
    have e1 := recordRef_ok h1
    obtain ⟨e2, _⟩ := writeTag_ok h2
    have e3 := emit_ok h
    have e : ws' = { ws with data := ws.data ++ Tag.kDate.byte :: writeDouble ms, log := (ws.log.record (.obj i)).1 } := by
      rw [e3, e2, e1]; simp
    refine ⟨.kDate, writeDouble ms, rfl, ?_, ?_⟩
    · rw [e]; exact ⟨rfl, ha, _root_.id, fun _ h => h⟩
    · intro P ds hs _
      have hso : SameObject env z (addPair P (.obj i) (.obj ds.heap.length)) (ds.heap ++ [.date x]) (.obj i)
          (.obj ds.heap.length) := ⟨_, hi, _, _, rfl, List.getElem?_concat_length, rfl⟩
      obtain ⟨m1, m2, m3⟩ := made_back hs hv _ (writeDouble ms).length 1 hso
      refine ⟨_, _, _, ?_, rfl, by rw [e]; exact m1, m2, m3⟩
      intro d suf hh _
      rw [decodeTag_run]
      show decodeDate denv d _ = _
      unfold decodeDate
      rw [RM.bind_ok (Here.lift (s := { ds with calls := ds.calls + 1 }) hh (readDouble_reads ms)), hpy,
        hd ms hm]
      rfl

theorem writeSharedRef_back {env : EEnv} {z : F64} {denv : DEnv} {F : Nat} {i : Id} {x : Int} {ws ws' : WS}
    (h : writeSharedRef x (.obj i) ws = .ok ws') (ha : ws.allowed = none)
    (hv : ws.log.contains (.obj i) = false) (hi : env.heap[i]? = some (.sharedRef x)) :
    Obl env z (decodeTag denv (F + 1)) (.obj i) ws ws' := by
  obtain ⟨w1, h1, h⟩ := Except.bind_eq_ok h
  obtain ⟨w2, h2, h⟩ := Except.bind_eq_ok h
  have e1 := recordRef_ok h1
  obtain ⟨e2, _⟩ := writeTag_ok h2
  obtain ⟨bs, hb, e3⟩ := emitE_ok h
  have hx : 0 ≤ x := by
    by_contra hx
    have : inUint32 x = false := by simp [inUint32]; omega
    simp [writeUint32, this] at hb
  obtain ⟨n, rfl⟩ : ∃ n : Nat, x = n := ⟨x.toNat, by omega⟩
  obtain ⟨hlt, rfl⟩ := writeUint32_eq hb
  have e : ws' = { ws with data := ws.data ++ Tag.kSharedObject.byte :: writeVarint n, log := (ws.log.record (.obj i)).1 } := by
    rw [e3, e2, e1]; simp
  refine ⟨.kSharedObject, writeVarint n, rfl, ?_, ?_⟩
  · rw [e]; exact ⟨rfl, ha, _root_.id, fun _ h => h⟩
  · intro P ds hs _
    have hso : SameObject env z (addPair P (.obj i) (.obj ds.heap.length)) (ds.heap ++ [.sharedRef n]) (.obj i)
        (.obj ds.heap.length) := ⟨_, hi, _, _, rfl, List.getElem?_concat_length, rfl⟩
    obtain ⟨m1, m2, m3⟩ := made_back hs hv _ (writeVarint n).length 1 hso
    refine ⟨_, _, _, ?_, rfl, by rw [e]; exact m1, m2, m3⟩
    intro d suf hh _
    rw [decodeTag_run]
    show decodeSharedRef d _ = _
    unfold decodeSharedRef
    rw [RM.bind_ok (Here.lift (s := { ds with calls := ds.calls + 1 }) hh (readUint32_reads hlt))]
    rfl

/-! ## Regular expressions -/

theorem readStringTag_here {d : Bytes} {p : Nat} {rest suf : Bytes}
    (h : Here d p (Tag.kUtf8String.byte :: rest) suf) :
    readTagIn jsStringTags true d p = .ok (.kUtf8String, p + 1) := by
  exact h.uncons.1.read (readTag_reads (accept := fun t => jsStringTags.contains t) (t := .kUtf8String) rfl (by simp))

/-- An object that only the decoder records. -/
theorem made_right {env : EEnv} {z : F64} {P : Val → Val → Prop} {ws : WS} {ds : DS} (hs : SimW env z P ws ds)
    {v : Val} (hu : IsUnlogged env v) (nd : Node) (k c : Nat)
    (hso : SameObject env z (addPair P v (.obj ds.heap.length)) (ds.heap ++ [nd]) v (.obj ds.heap.length))
    {data allowed bad} :
    SimW env z (addPair P v (.obj ds.heap.length))
      { data := data, log := ws.log, allowed := allowed, memo := ws.memo, skew := some (ws.skew.getD ws.log.slots.length), badRef := bad }
      (ds.made nd k c) ∧
    Step env z P (addPair P v (.obj ds.heap.length)) ds.heap (ds.made nd k c).heap ∧
    SameVal env z (addPair P v (.obj ds.heap.length)) v (.obj ds.heap.length) :=
  ⟨Sim.recordRight (Sim.mark hs) nd hu (SameObject.shallow hso) (fun _ hj => (Val.obj.inj hj).symm),
    Step.one nd (fun _ hj => (Val.obj.inj hj).symm) hso,
    SameVal.self (addPair_self _ _ _) (SameObject.shallow hso)⟩

theorem writeRegExp_back {env : EEnv} {z : F64} {denv : DEnv} {F : Nat} {i : Id} {r : RegExp} {ws ws' : WS}
    (h : writeRegExp r ws = .ok ws') (ha : ws.allowed = none)
    (hi : env.heap[i]? = some (.regexp r)) (hok : mkRegExp r.source r.flags = .ok r) :
    Obl env z (decodeTag denv (F + 1 + 1)) (.obj i) ws ws' := by
  obtain ⟨w0, h0, h⟩ := Except.bind_eq_ok h
  obtain ⟨w1, h1, h⟩ := Except.bind_eq_ok h
  obtain ⟨w2, h2, h⟩ := Except.bind_eq_ok h
  have e0 := markSkew_ok h0
  obtain ⟨e1, _⟩ := writeTag_ok h1
  obtain ⟨sb, hsb, e2, _⟩ := writeTagged_ok h2
  have e3 := emit_ok h
  have e : ws' = { ws with data := ws.data ++ Tag.kRegExp.byte :: (Tag.kUtf8String.byte :: sb ++ writeVarint (canonicalFlags r.flags)), skew := some (ws.skew.getD ws.log.slots.length) } := by
    rw [e3, e2, e1, e0]; simp
  refine ⟨.kRegExp, Tag.kUtf8String.byte :: sb ++ writeVarint (canonicalFlags r.flags), rfl, ?_, ?_⟩
  · rw [e]; exact ⟨rfl, ha, _root_.id, fun _ h => h⟩
  · intro P ds hs _
    have hso : SameObject env z (addPair P (.obj i) (.obj ds.heap.length))
        (ds.heap ++ [.regexp ⟨r.source, canonicalFlags r.flags⟩]) (.obj i) (.obj ds.heap.length) :=
      ⟨_, hi, _, _, rfl, List.getElem?_concat_length, rfl, rfl⟩
    have hu : IsUnlogged env (.obj i) := by simp only [IsUnlogged, hi]
    obtain ⟨m1, m2, m3⟩ := made_right hs hu _
      (Tag.kUtf8String.byte :: sb ++ writeVarint (canonicalFlags r.flags)).length 2 hso
    refine ⟨_, _, _, ?_, rfl, by rw [e]; exact m1, m2, m3⟩
    intro d suf hh _
    rw [decodeTag_run]
    show decodeRegExp (decodeTag denv (F + 1)) d _ = _
    unfold decodeRegExp
    obtain ⟨hh1, hh2⟩ := Here.uncons (b := sb ++ writeVarint (canonicalFlags r.flags)) hh
    have hstr := dec_lift (denv := denv) (F := F) (t := .kUtf8String) (g := fun (x : Str) => Val.str x)
      (readStringUtf8_reads hsb) (fun _ _ => rfl) d
      { ds with pos := ds.pos + 1, calls := ds.calls + 1 } _ hh2.left
    rw [RM.bind_ok (RM.lift_ok (s := { ds with calls := ds.calls + 1 }) (readStringTag_here hh)),
      RM.bind_ok hstr, RM.bind_ok (x := assertStr _) rfl,
      RM.bind_ok (Here.lift (s := { ds with pos := ds.pos + 1 + sb.length, calls := ds.calls + 1 + 1 }) hh2.right (readVarint_reads _)),
      (Props.C43_flags_round_trip r r.source r.flags hok [] []).2]
    show Except.ok _ = Except.ok _
    congr 2
    unfold DS.made
    simp only [DS.mk.injEq, and_true, List.length_append, List.length_cons]
    omega

/-! ## Views -/

theorem ViewTag.size_pos (t : ViewTag) : 0 < t.size := by cases t <;> decide

theorem ViewTag.ofCode_code (t : ViewTag) : ViewTag.ofCode t.code = some t := by cases t <;> rfl

/-- A view is created again from what was written about it: in range, not length-tracking. -/
theorem create_fixed (v : View) (mv : Bytes) (rs : Bool) (h : v.isInRange mv = true) :
    ∃ v', View.create v.tag rs (some mv) (v.byteOffset mv) (some (v.byteLength mv : Int)) = .ok v' ∧
      v'.tag = v.tag ∧ v'.byteOffset mv = v.byteOffset mv ∧ v'.bytes mv = v.bytes mv ∧
      v'.itemLength ≠ none := by
  have hs := v.tag.size_pos
  have hoff : v.byteOffset mv = v.itemOffset * v.tag.size := by
    unfold View.byteOffset; rw [if_pos h]
  obtain ⟨n, hn, hle⟩ : ∃ n, v.bytes mv = (mv.drop (v.itemOffset * v.tag.size)).take (n * v.tag.size) ∧
      v.itemOffset * v.tag.size + n * v.tag.size ≤ mv.length := by
    unfold View.isInRange View.region at h
    unfold View.bytes View.region
    cases hl : v.itemLength with
    | some n =>
      rw [hl] at h
      simp only at h ⊢
      by_cases hc : v.itemOffset * v.tag.size + n * v.tag.size > mv.length
      · rw [if_pos hc] at h; simp at h
      · rw [if_neg hc]
        exact ⟨n, rfl, by omega⟩
    | none =>
      rw [hl] at h
      simp only at h ⊢
      have hc : v.itemOffset * v.tag.size ≤ mv.length := by
        by_contra hc
        rw [if_pos (by omega)] at h
        simp at h
      refine ⟨(mv.length - v.itemOffset * v.tag.size) / v.tag.size, rfl, ?_⟩
      have := Nat.div_mul_le_self (mv.length - v.itemOffset * v.tag.size) v.tag.size
      omega
  have hlen : v.byteLength mv = n * v.tag.size := by
    unfold View.byteLength
    rw [hn, List.length_take, List.length_drop]
    omega
  refine ⟨⟨v.tag, v.itemOffset, some n⟩, ?_, rfl, ?_, ?_, by simp⟩
  · have hreg : (⟨v.tag, v.itemOffset, some n⟩ : View).region mv
        = (true, (mv.drop (v.itemOffset * v.tag.size)).take (n * v.tag.size)) := by
      unfold View.region
      simp only
      rw [if_neg (by omega)]
      have hle' : v.itemOffset * v.tag.size ≤ mv.length := by omega
      simp only [hle', decide_true]
    have hb1 : (⟨v.tag, v.itemOffset, some n⟩ : View).byteOffset mv = v.itemOffset * v.tag.size := by
      unfold View.byteOffset View.isInRange
      rw [hreg]; simp
    have hb2 : (⟨v.tag, v.itemOffset, some n⟩ : View).byteLength mv = n * v.tag.size := by
      unfold View.byteLength View.bytes
      rw [hreg]
      simp only [List.length_take, List.length_drop]
      omega
    have hs' : (v.tag.size : Int) ≠ 0 := by omega
    have hmk : View.mk' v.tag (v.itemOffset : Int) (some (n : Int)) = .ok ⟨v.tag, v.itemOffset, some n⟩ := by
      unfold View.mk'
      rw [if_neg (by omega)]
      simp only
      rw [if_neg (by omega)]
      simp
    rw [hoff, hlen]
    unfold View.create
    simp only [Nat.cast_mul, Int.mul_emod_left, ne_eq, not_true_eq_false, if_false, Option.any_some, bne_self_eq_false,
      Bool.false_eq_true, Option.map_some, Int.mul_ediv_cancel _ hs', hmk]
    unfold View.checkBounds
    simp only [Option.isNone_some, Bool.false_and, Bool.false_eq_true, if_false, hb1, hb2, Nat.cast_mul,
      lt_self_iff_false]
  · rw [hoff]
    have hc : ¬ (v.itemOffset * v.tag.size + n * v.tag.size > mv.length) := by omega
    have hc' : v.itemOffset * v.tag.size ≤ mv.length := by omega
    simp [View.byteOffset, View.isInRange, View.region, hc, hc']
  · rw [hn]
    unfold View.bytes View.region
    simp only
    rw [if_neg (by omega)]

/-- A length-tracking view is created again. -/
theorem create_tracking (v : View) (mv : Bytes) (rs : Bool) (h : v.isInRange mv = true)
    (hl : v.itemLength = none) (hr : rs = true ∨ mv.length % v.tag.size = 0) :
    View.create v.tag rs (some mv) (v.byteOffset mv) none = .ok v := by
  have hs := v.tag.size_pos
  have hoff : v.byteOffset mv = v.itemOffset * v.tag.size := by
    unfold View.byteOffset; rw [if_pos h]
  have hv : (⟨v.tag, v.itemOffset, none⟩ : View) = v := by
    cases v with
    | mk t o l => simp only at hl; rw [hl]
  have hs' : (v.tag.size : Int) ≠ 0 := by omega
  have hmk : View.mk' v.tag (v.itemOffset : Int) none = .ok v := by
    unfold View.mk'
    rw [if_neg (by omega)]
    simp [hv]
  have hcond : ¬ ((none : Option Int).isNone && !v.isLengthTracking rs && mv.length % v.tag.size != 0) = true := by
    unfold View.isLengthTracking
    rcases hr with hr | hr
    · simp [hr, hl]
    · simp [hr]
  unfold View.create
  rw [hoff]
  simp only [Nat.cast_mul, Int.mul_emod_left, ne_eq, not_true_eq_false, if_false, Option.any_none,
    Bool.false_eq_true, Option.map_none, Int.mul_ediv_cancel _ hs', hmk]
  unfold View.checkBounds
  rw [if_neg hcond, hoff, if_neg (by simp)]

theorem region_nil (v : View) : v.byteOffset [] = 0 ∧ v.byteLength [] = 0 := by
  have hs := v.tag.size_pos
  constructor
  · unfold View.byteOffset
    by_cases h : v.isInRange [] = true
    · rw [if_pos h]
      unfold View.isInRange View.region at h
      cases hl : v.itemLength with
      | some n =>
        rw [hl] at h
        simp only [List.length_nil] at h
        by_cases hc : v.itemOffset * v.tag.size + n * v.tag.size > 0
        · rw [if_pos hc] at h; simp at h
        · omega
      | none =>
        rw [hl] at h
        simp only [List.length_nil] at h
        by_cases hc : v.itemOffset * v.tag.size > 0
        · rw [if_pos hc] at h; simp at h
        · omega
    · rw [if_neg h]
  · unfold View.byteLength View.bytes View.region
    cases v.itemLength with
    | some n => simp only [List.length_nil, List.drop_nil, List.take_nil]; split <;> rfl
    | none => simp

theorem exposed_fixed (bs : Bytes) : (fixedBuf bs).exposed = bs := by
  simp [fixedBuf, ABuf.exposed]

/-- What the decoder knows of the buffer that a view is on. -/
theorem buffer_back {env : EEnv} {z : F64} (he : Encodable env) {P : Val → Val → Prop} {H : Heap}
    (hp : Pairs env z P H) {u w : Val} (hu : IsBuffer env.heap u) (hs : SameVal env z P u w) :
    backingBytes H w = backingBytes env.heap u ∧
    ((∃ i b, u = .obj i ∧ env.heap[i]? = some (.abuf b) ∧ env.feats.resizableArrayBuffers = true) →
      backingResizable env.heap u = true → backingResizable H w = true) := by
  cases u with
  | bytes b =>
    obtain ⟨j, rfl, h2⟩ := hp.pair _ _ hs
    refine ⟨by simp [backingBytes, h2, exposed_fixed], ?_⟩
    rintro ⟨i, b, h, _⟩
    simp at h
  | obj i =>
    obtain ⟨j, hij, hP⟩ := hs
    have hj := he.buffers i j hij hu
    obtain ⟨n, hn, hsh⟩ := hp.pair _ _ hP
    rw [hj] at hn
    simp only [IsBuffer, hn] at hu
    cases n <;> simp only at hu
    · obtain ⟨k, n', rfl, h2, h3, h4⟩ := hsh
      have h5 := h4 rfl
      unfold SameContent at h5
      cases n' <;> simp only at h5
      subst h5
      refine ⟨?_, ?_⟩
      · simp only [backingBytes, h2, hn, Option.some.injEq]
        split
        · simp [ABuf.exposed]
        · exact exposed_fixed _
      · rintro ⟨i', b', hi', hb', hf⟩ hr
        simp only [backingResizable, hn] at hr
        simp only [backingResizable, h2, hr, hf, and_self, if_true]
    all_goals
      obtain ⟨k, n', rfl, h2, h3, h4⟩ := hsh
      have h5 := h4 rfl
      unfold SameContent at h5
      cases n' <;> simp only at h5
      refine ⟨?_, ?_⟩
      · simp [backingBytes, h2, hn, h5, exposed_fixed]
      · rintro ⟨i', b', hi', hb', hf⟩ hr
        simp only [Val.obj.injEq] at hi'
        subst hi'
        rw [hn] at hb'
        simp at hb'
  | _ => exact hu.elim

/-- The view that comes back. -/
theorem create_back {env : EEnv} {u : Val} {v : View} (hv : ViewOK env u v) {rs : Bool}
    (hrs : (∃ i b, u = .obj i ∧ env.heap[i]? = some (.abuf b) ∧ env.feats.resizableArrayBuffers = true) →
      backingResizable env.heap u = true → rs = true) :
    ∃ v', View.create v.tag rs (backingBytes env.heap u) (v.byteOffset ((backingBytes env.heap u).getD []))
        (viewByteLength (viewFlags (backingResizable env.heap u) (v.isLengthTracking (backingResizable env.heap u)))
          (v.byteLength ((backingBytes env.heap u).getD []))) = .ok v' ∧ SameView env.heap u v v' := by
  obtain ⟨hb, hv⟩ := hv
  cases hmv : backingBytes env.heap u with
  | none =>
    have hres : backingResizable env.heap u = false := by
      cases u with
      | obj i =>
        simp only [IsBuffer] at hb
        simp only [backingBytes] at hmv
        simp only [backingResizable]
        cases hn : env.heap[i]? with
        | none => rfl
        | some n => rw [hn] at hmv hb; cases n <;> simp_all
      | _ => rfl
    obtain ⟨h1, h2⟩ := region_nil v
    refine ⟨⟨v.tag, 0, some 0⟩, ?_, ?_⟩
    · simp [hres, View.isLengthTracking, viewFlags, viewByteLength, h1, h2, View.create, View.mk']
    · simp [SameView, hmv]
  | some mv =>
    obtain ⟨hin, htr⟩ := hv mv hmv
    simp only [Option.getD_some]
    by_cases ht : v.itemLength = none ∧ backingResizable env.heap u = true
    · obtain ⟨ht1, ht2⟩ := ht
      have hfl : viewByteLength (viewFlags (backingResizable env.heap u) (v.isLengthTracking (backingResizable env.heap u)))
          (v.byteLength mv) = none := by
        simp [viewFlags, View.isLengthTracking, ht1, ht2, viewByteLength]
      rw [hfl]
      refine ⟨v, create_tracking v mv rs hin ht1 ?_, ?_⟩
      · rcases htr ht1 ht2 with h | h
        · exact Or.inl (hrs h ht2)
        · exact Or.inr h
      · simp [SameView, hmv, ht1, ht2]
    · have hfl : viewByteLength (viewFlags (backingResizable env.heap u) (v.isLengthTracking (backingResizable env.heap u)))
          (v.byteLength mv) = some (v.byteLength mv : Int) := by
        unfold viewByteLength viewFlags View.isLengthTracking
        cases hr : backingResizable env.heap u
        · simp
        · cases hl : v.itemLength with
          | none => exact absurd ⟨hl, hr⟩ ht
          | some n => simp
      rw [hfl]
      obtain ⟨v', h1, h2, h3, h4, h5⟩ := create_fixed v mv rs hin
      refine ⟨v', h1, ?_⟩
      simp only [SameView, hmv]
      exact ⟨h2, h3, h4, fun h => absurd h h5, fun h => absurd h ht⟩

theorem peakIsView_here {d : Bytes} {p : Nat} {rest suf : Bytes}
    (h : Here d p (Tag.kArrayBufferView.byte :: rest) suf) : peakIsView d p = .ok (true, p) := by
  have hp : p < d.length := by have := h.len; simp only [List.length_cons] at this; omega
  have hb : d[p]? = some Tag.kArrayBufferView.byte := by
    have h2 := h.2
    have : (d.drop p)[0]? = some Tag.kArrayBufferView.byte := by rw [h2]; rfl
    simpa using this
  have hpk : peakTag d p = .ok (some .kArrayBufferView, p) := by
    unfold peakTag
    rw [if_neg (by omega), hb]
    rfl
  unfold peakIsView
  rw [Rd.bind_ok hpk]
  rfl

theorem readView_run {d : Bytes} {s : DS} {suf : Bytes} {w : Val} {tag : ViewTag} {off len fl : Nat} {v' : View}
    (hh : Here d s.pos (Tag.kArrayBufferView.byte ::
      (writeVarint tag.code ++ (writeVarint off ++ (writeVarint len ++ writeVarint fl)))) suf)
    (h1 : off < 2 ^ 32) (h2 : len < 2 ^ 32) (hfs : fl < 2 ^ 64) (hver : 14 ≤ s.version)
    (hc : View.create tag (backingResizable s.heap w) (backingBytes s.heap w) off (viewByteLength fl len) = .ok v') :
    viewAfter w d s = .ok (.obj s.heap.length, s.made (.view w v') (Tag.kArrayBufferView.byte ::
      (writeVarint tag.code ++ (writeVarint off ++ (writeVarint len ++ writeVarint fl)))).length 0) := by
  unfold viewAfter
  rw [RM.bind_ok (RM.lift_ok (peakIsView_here hh)), if_pos rfl]
  obtain ⟨hh0, hh1⟩ := hh.uncons
  have hh2 := hh1.right
  have hh3 := hh2.right
  have hh4 := hh3.right
  unfold readView
  rw [RM.bind_ok (s' := { s with pos := s.pos + 1 }) (Here.lift hh0 (readThisTag_reads (t := .kArrayBufferView) (by simp))),
    RM.bind_ok (Here.lift (s := { s with pos := s.pos + 1 }) hh1.left (readVarint_reads _)),
    RM.bind_ok (a := tag) (s' := { s with pos := s.pos + 1 + (writeVarint tag.code).length })
      (by unfold viewTagOf; rw [tag.ofCode_code]; rfl),
    RM.bind_ok (Here.lift (s := { s with pos := s.pos + 1 + (writeVarint tag.code).length }) hh2.left (readUint32_reads h1)),
    RM.bind_ok (Here.lift (s := { s with pos := s.pos + 1 + (writeVarint tag.code).length + (writeVarint off).length })
      hh3.left (readUint32_reads h2)),
    RM.bind_ok (x := getVersion) rfl]
  have hfl : readViewFlags s.version d { s with pos := s.pos + 1 + (writeVarint tag.code).length + (writeVarint off).length + (writeVarint len).length }
      = .ok (fl, { s with pos := s.pos + 1 + (writeVarint tag.code).length + (writeVarint off).length + (writeVarint len).length + (writeVarint fl).length }) := by
    unfold readViewFlags
    rw [if_pos hver, RM.bind_ok (a := fl) ?_, flagMember_small hfs]
    · rfl
    exact Here.lift (s := { s with pos := s.pos + 1 + (writeVarint tag.code).length + (writeVarint off).length + (writeVarint len).length })
      hh4 (readVarint_reads fl)
  rw [RM.bind_ok hfl, RM.bind_ok (x := getHeap) rfl]
  simp only [hc]
  show Except.ok _ = Except.ok _
  congr 2
  unfold DS.made
  simp only [DS.mk.injEq, and_true, List.length_append, List.length_cons, Nat.add_zero]
  omega

theorem serializeView_back {env : EEnv} {z : F64} {denv : DEnv} {F : Nat} {rec : Val → Wr} {i : Id} {u : Val} {v : View}
    {ws ws' : WS} (he : Encodable env)
    (h : serializeView env rec u v (.obj i) ws = .ok ws') (ha : ws.allowed = none)
    (hv : ws.log.contains (.obj i) = false) (hi : env.heap[i]? = some (.view u v))
    (hrec : ∀ ws1, rec u ws = .ok ws1 → BufObl env z (decodeTag denv (F + 1)) u ws ws1)
    (hgrow : ∀ ws1 x, rec u ws = .ok ws1 → (∀ k y, Dict.get ws.memo k = some y → dkey env y = some k) →
      ws1.log.contains x = true → ws.log.contains x = true ∨ IsBuffer env.heap x) :
    Obl env z (decodeTag denv (F + 1)) (.obj i) ws ws' := by
  have hok : ViewOK env u v := he.nodes i _ hi
  obtain ⟨w0, h0, h⟩ := Except.bind_eq_ok h
  unfold writeView at h
  generalize hmv : (backingBytes env.heap u).getD [] = mv at h
  generalize hrs : backingResizable env.heap u = rs at h
  by_cases hf : v.tag = .float16 ∧ env.feats.float16Array = false
  · rw [if_pos hf] at h; simp at h
  rw [if_neg hf] at h
  obtain ⟨w1, h1, h⟩ := Except.bind_eq_ok h
  obtain ⟨w2, h2, h⟩ := Except.bind_eq_ok h
  obtain ⟨w3, h3, h⟩ := Except.bind_eq_ok h
  obtain ⟨w4, h4, h⟩ := Except.bind_eq_ok h
  obtain ⟨w5, h5, h⟩ := Except.bind_eq_ok h
  have e1 := recordRef_ok h1
  obtain ⟨e2, _⟩ := writeTag_ok h2
  have e3 := emit_ok h3
  obtain ⟨b4, hb4, e4⟩ := emitE_ok h4
  obtain ⟨b5, hb5, e5⟩ := emitE_ok h5
  have e6 := emit_ok h
  obtain ⟨hl4, rfl⟩ := writeUint32_eq hb4
  obtain ⟨hl5, rfl⟩ := writeUint32_eq hb5
  obtain ⟨t, rest, ht, hw, hb⟩ := hrec w0 h0
  generalize htail : (Tag.kArrayBufferView.byte :: (writeVarint v.tag.code ++ (writeVarint (v.byteOffset mv) ++
    (writeVarint (v.byteLength mv) ++ writeVarint (viewFlags rs (v.isLengthTracking rs)))))) = tail
  have e : ws' = { w0 with data := w0.data ++ tail, log := (w0.log.record (.obj i)).1 } := by
    rw [e6, e5, e4, e3, e2, e1, ← htail]; simp
  refine ⟨t, rest ++ tail, ht, ?_, ?_⟩
  · refine Wrote.trans (y := tail) hw ?_
    rw [e]
    exact ⟨rfl, hw.allowed, _root_.id, fun _ h => h⟩
  · intro P ds hs hbad
    have hgr : w0.log.contains (.obj i) = false := by
      cases hc : w0.log.contains (.obj i) with
      | false => rfl
      | true =>
        rcases hgrow w0 _ h0 hs.memo hc with h1 | h1
        · rw [hv] at h1; simp at h1
        · simp only [IsBuffer, hi] at h1
    obtain ⟨P1, w, ds1, g1, g2, g3, g4, g5⟩ := hb P ds hs (by rw [e] at hbad; exact hbad)
    obtain ⟨b1, b2⟩ := buffer_back he g3.pairs hok.1 g5
    obtain ⟨v', c1, c2⟩ := create_back hok (rs := backingResizable ds1.heap w) b2
    rw [hmv, hrs, ← b1] at c1
    have hso : SameObject env z (addPair P1 (.obj i) (.obj ds1.heap.length)) (ds1.heap ++ [.view w v']) (.obj i)
        (.obj ds1.heap.length) :=
      ⟨_, hi, _, _, rfl, List.getElem?_concat_length, SameVal.mono (fun _ _ h => Or.inl h) g5, c2⟩
    obtain ⟨m1, m2, m3⟩ := made_back g3 hgr _ tail.length 0 hso
    refine ⟨_, _, _, ?_, ?_, by rw [e]; exact m1, g4.trans m2, m3⟩
    · intro d suf hh _
      rw [g1 d _ hh.left]
      have hh2 := hh.right
      rw [← g2, ← htail] at hh2
      rw [← htail]
      exact readView_run hh2 hl4 hl5 (by unfold viewFlags; split <;> split <;> decide) g3.version c1
    · simp only [DS.made, g2, List.length_append]
      omega

end V8
