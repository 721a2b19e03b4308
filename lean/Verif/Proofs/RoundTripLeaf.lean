import Verif.Proofs.RoundTripLoops
import Verif.Proofs.Num
import Verif.Props.Config

/-! Helper lemmas for the round trip: values without nested values, references, buffers, views. -/

namespace V8
open Spec

/-! ## Reading tools -/

theorem decodeTag_run (env : DEnv) (F : Nat) (t : Tag) (d : Bytes) (ds : DS) :
    decodeTag env (F + 1) t d ds
      = tagReader env (decodeTag env F) t unhandledTag d { ds with calls := ds.calls + 1 } := by
  rw [decodeTag_succ]
  rfl

theorem lift_map_run {α β : Type} {r : Rd α} {g : α → β} {bs : Bytes} {a : α} (hr : Reads r bs a)
    {d : Bytes} {s : DS} {suf : Bytes} (h : Here d s.pos bs suf) :
    (RM.lift r >>= fun x => (pure (g x) : RM β)) d s = .ok (g a, { s with pos := s.pos + bs.length }) := by
  rw [RM.bind_ok (h.lift hr)]
  rfl

theorem viewAfter_nv {d : Bytes} {s : DS} {suf : Bytes} {w : Val} (h : Here d s.pos [] suf)
    (hn : NV suf) : viewAfter w d s = .ok (w, s) := by
  have hpk : peakIsView d s.pos = .ok (false, s.pos) := by
    unfold peakIsView
    have : ∃ o, peakTag d s.pos = .ok (o, s.pos) ∧ o ≠ some .kArrayBufferView := by
      unfold peakTag
      by_cases hp : s.pos = d.length
      · exact ⟨none, by rw [if_pos hp], by simp⟩
      · rw [if_neg hp]
        have h1 := h.2
        have h2 := h.1
        have hlt : s.pos < d.length := by omega
        have hb : d[s.pos]? = some d[s.pos] := List.getElem?_eq_getElem hlt
        rw [hb]
        refine ⟨Tag.ofByte d[s.pos], rfl, ?_⟩
        intro hv
        have h3 := Tag.byte_of_ofByte hv
        apply hn
        rw [List.nil_append] at h1
        rw [← h1, List.head?_drop, hb, h3]
    obtain ⟨o, h1, h2⟩ := this
    rw [Rd.bind_ok h1]
    simp [h2]
  unfold viewAfter
  rw [RM.bind_ok (RM.lift_ok hpk)]
  rfl

/-! ## Scalars -/

theorem obl_scalar {env : EEnv} {z : F64} {dec : Tag → RM Val} {v w : Val} {ws ws' : WS} {t : Tag} {rest : Bytes}
    (ht : startTag t = true)
    (hws : ws' = { ws with data := ws.data ++ t.byte :: rest, allowed := none })
    (hd : ∀ d (ds : DS) suf, Here d ds.pos rest suf →
      dec t d ds = .ok (w, { ds with pos := ds.pos + rest.length, calls := ds.calls + 1 }))
    (hv : ∀ P, Fine z ws → (∀ k u, Dict.get ws.memo k = some u → dkey env u = some k) → SameVal env z P v w) :
    Obl env z dec v ws ws' := by
  subst hws
  refine ⟨t, rest, ht, ⟨rfl, rfl, _root_.id, fun _ h => h⟩, ?_⟩
  intro P ds hs hf
  exact ⟨P, w, _, fun d suf hh _ => hd d ds suf hh, rfl, hs, Step.refl _ _ _ _, hv P hf hs.memo⟩

theorem writeConstant_ok {t : Tag} {ws ws' : WS} (h : writeConstant t ws = .ok ws') :
    ws' = { ws with data := ws.data ++ [t.byte], allowed := none } := by
  obtain ⟨w1, h1, h2⟩ := Except.bind_eq_ok h
  obtain ⟨rfl, _⟩ := writeTag_ok h1
  exact (Except.ok.inj h2).symm

/-- A value made of a tag and a payload for a primitive reader. -/
theorem dec_lift {denv : DEnv} {F : Nat} {t : Tag} {α : Type} {r : Rd α} {g : α → Val} {bs : Bytes} {a : α}
    (hr : Reads r bs a)
    (htr : ∀ rec next, tagReader denv rec t next = (RM.lift r >>= fun x => (pure (g x) : RM Val))) :
    ∀ d (ds : DS) suf, Here d ds.pos bs suf → decodeTag denv (F + 1) t d ds
      = .ok (g a, { ds with pos := ds.pos + bs.length, calls := ds.calls + 1 }) := by
  intro d ds suf hh
  rw [decodeTag_run, htr, lift_map_run hr (s := { ds with calls := ds.calls + 1 }) hh]

theorem dec_const {denv : DEnv} {F : Nat} {t : Tag} {v : Val}
    (htr : ∀ rec next, tagReader denv rec t next = (pure v : RM Val)) :
    ∀ d (ds : DS) suf, Here d ds.pos [] suf → decodeTag denv (F + 1) t d ds
      = .ok (v, { ds with pos := ds.pos + ([] : Bytes).length, calls := ds.calls + 1 }) := by
  intro d ds suf hh
  rw [decodeTag_run, htr]
  rfl

theorem safe_natAbs {n : Int} (h : inSafeInt n = true) : n.natAbs ≤ 2 ^ 53 - 1 := by
  simp only [inSafeInt, Bool.and_eq_true, decide_eq_true_eq] at h
  omega

/-- How an int is written, and what it is read as. -/
theorem serializeInt_back {denv : DEnv} {F : Nat} {n : Int} {ws ws' : WS}
    (h : serializeInt n ws = .ok ws') (hk : ws.allowed = none) :
    ∃ t rest w, startTag t = true ∧ ws' = { ws with data := ws.data ++ t.byte :: rest, allowed := none } ∧
      (∀ env z P, SameVal env z P (.int n) w) ∧ ∀ d (ds : DS) suf, Here d ds.pos rest suf → decodeTag denv (F + 1) t d ds
        = .ok (w, { ds with pos := ds.pos + rest.length, calls := ds.calls + 1 }) := by
  unfold serializeInt at h
  by_cases h1 : inUint32 n = true
  · rw [if_pos h1] at h
    obtain ⟨bs, hb, hws, _⟩ := writeTagged_ok h
    rw [← hk] at *
    have hn : (n.toNat : Int) = n := by
      simp only [inUint32, Bool.and_eq_true, decide_eq_true_eq] at h1; omega
    have hlt : n.toNat < 2 ^ 32 := by
      simp only [inUint32, Bool.and_eq_true, decide_eq_true_eq] at h1; omega
    rw [← hn, writeUint32_ok hlt] at hb
    simp only [Except.ok.injEq] at hb
    subst hb
    refine ⟨.kUint32, _, .int (n.toNat : Int), rfl, hws, fun _ _ _ => Or.inl ⟨?_, by rw [hn]⟩,
      dec_lift (g := fun (x : Nat) => Val.int x) (readUint32_reads hlt) (fun _ _ => rfl)⟩
    unfold KeptInt
    omega
  · rw [if_neg h1] at h
    by_cases h2 : inInt32 n = true
    · rw [if_pos h2] at h
      obtain ⟨bs, hb, hws, _⟩ := writeTagged_ok h
      rw [← hk]
      rw [writeInt32_ok h2] at hb
      simp only [Except.ok.injEq] at hb
      subst hb
      refine ⟨.kInt32, _, .int n, rfl, hws, fun _ _ _ => Or.inl ⟨?_, rfl⟩,
        dec_lift (g := fun (x : Int) => Val.int x) (readInt32_reads h2) (fun _ _ => rfl)⟩
      simp only [inInt32, Bool.and_eq_true, decide_eq_true_eq] at h2
      unfold KeptInt
      omega
    · rw [if_neg h2] at h
      by_cases h3 : inSafeInt n = true
      · rw [if_pos h3] at h
        obtain ⟨w1, h4, h5⟩ := Except.bind_eq_ok h
        obtain ⟨rfl, _⟩ := writeTag_ok h4
        have h6 := emit_ok h5
        rw [← hk]
        refine ⟨.kDouble, writeDouble (doubleOfInt n), .float (doubleOfInt n), rfl, by rw [h6]; simp,
          fun _ _ _ => Or.inr ⟨?_, _, rfl, fval_doubleOfInt n (safe_natAbs h3)⟩,
          dec_lift (g := fun (x : F64) => Val.float x) (readDouble_reads _) (fun _ _ => rfl)⟩
        simp only [inUint32, inInt32, inSafeInt, Bool.and_eq_true, decide_eq_true_eq] at h1 h2 h3
        unfold KeptInt
        omega
      · rw [if_neg h3] at h
        have hne : ¬ (ws.allowed = some jsObjectKeyTags) := by rw [hk]; simp
        rw [if_neg hne] at h
        obtain ⟨bs, hb, hws, _⟩ := writeTagged_ok h
        rw [← hk]
        refine ⟨.kBigInt, bs, .int n, rfl, hws, fun _ _ _ => Or.inl ⟨?_, rfl⟩,
          dec_lift (g := fun (x : Int) => Val.int x) (readBigint_reads hb) (fun _ _ => rfl)⟩
        simp only [inSafeInt, Bool.and_eq_true, decide_eq_true_eq] at h3
        unfold KeptInt
        omega

/-! ## The encode step -/

theorem encodeObject_succ (env : EEnv) (f : Nat) (v : Val) :
    encodeObject env (f + 1) v
      = refsStep env v (fun u => tagWriter env (encodeObject env f) u unhandledValue) := by
  unfold encodeObject
  rw [encodeWith, chainFrom, dif_pos (by simp [defaultEncodeSteps])]
  have : (fun b => chainFrom unhandledValue
      (List.map (fun s => s (encodeWith (defaultEncodeSteps env) f)) (defaultEncodeSteps env)) (0 + 1) b)
      = fun u => tagWriter env (encodeWith (defaultEncodeSteps env) f) u unhandledValue := by
    funext b
    rw [chainFrom, dif_pos (by simp [defaultEncodeSteps])]
    have : (fun b => chainFrom unhandledValue
      (List.map (fun s => s (encodeWith (defaultEncodeSteps env) f)) (defaultEncodeSteps env)) (0 + 1 + 1) b)
      = unhandledValue := by
      funext b
      rw [chainFrom, dif_neg (by simp [defaultEncodeSteps])]
    rw [this]
    rfl
  rw [this]
  rfl

/-- Keys are written with tags that read back as the key. -/
theorem key_back (env : EEnv) (denv : DEnv) (f F : Nat) (k : PKey)
    (hk : match k with
      | .idx n => n < 2 ^ 32 - 1
      | .name s => normaliseKey denv.py.floatStr (.str s) = .ok (.name s)) :
    KeyBack denv.py.floatStr (encodeObject env f) (decodeTag denv (F + 1)) k := by
  intro ws ws' h
  obtain ⟨w1, h1, h2⟩ := Except.bind_eq_ok h
  have h2 := (Except.ok.inj h2).symm
  cases f with
  | zero => simp [encodeObject, encodeWith] at h1
  | succ f =>
    rw [encodeObject_succ] at h1
    have hd : dkey env k.toVal = none := by cases k <;> rfl
    unfold refsStep at h1
    simp only [deduplicate, hd] at h1
    by_cases hc : ws.log.contains k.toVal = true
    · rw [if_pos hc] at h1
      unfold writeReference at h1
      split at h1
      · simp at h1
      · obtain ⟨w2, h3, h4⟩ := Except.bind_eq_ok h1
        simp only [noteRef, Except.ok.injEq] at h3
        subst h3
        obtain ⟨w3, h5, h6⟩ := Except.bind_eq_ok h4
        have := (writeTag_ok h5).2 jsObjectKeyTags rfl
        simp [jsObjectKeyTags] at this
    · rw [if_neg hc] at h1
      cases k with
      | idx n =>
        have hlt : n < 2 ^ 32 := by simp only at hk; omega
        have hu : inUint32 (n : Int) = true := by simp [inUint32]; omega
        simp only [PKey.toVal, tagWriter, serializeInt] at h1
        rw [if_pos hu] at h1
        obtain ⟨bs, hb, hws, _⟩ := writeTagged_ok h1
        rw [writeUint32_ok hlt] at hb
        simp only [Except.ok.injEq] at hb
        subst hb
        refine ⟨.kUint32, _, by simp [jsObjectKeyTags], ?_, .int n, .int n, rfl,
          normaliseKey_idx _ hk,
          dec_lift (g := fun (x : Nat) => Val.int x) (readUint32_reads hlt) (fun _ _ => rfl)⟩
        rw [h2, hws]
      | name s =>
        simp only [PKey.toVal, tagWriter] at h1
        obtain ⟨bs, hb, hws, _⟩ := writeTagged_ok h1
        refine ⟨.kUtf8String, bs, by simp [jsObjectKeyTags], ?_, .str s, .str s, rfl, hk,
          dec_lift (g := fun (x : Str) => Val.str x) (readStringUtf8_reads hb) (fun _ _ => rfl)⟩
        rw [h2, hws]

/-! ## New objects -/

theorem SameContent.isBuf {env : EEnv} {z : F64} {P : Val → Val → Prop} {n n' : Node}
    (h : SameContent env z P n n') :
    n'.isBuf = n.isBuf ∧ (n.isBuf = true → SameContent env z noPairs n n') := by
  unfold SameContent at h
  split at h <;> first
    | exact h.elim
    | exact ⟨rfl, fun hb => absurd hb Bool.false_ne_true⟩
    | exact ⟨rfl, fun _ => h⟩

theorem SameObject.shallow {env : EEnv} {z : F64} {P : Val → Val → Prop} {H : Heap} {v w : Val}
    (h : SameObject env z P H v w) : Shallow env z H v w := by
  cases v with
  | bytes b => exact h
  | obj i =>
    obtain ⟨n, hn, h⟩ := h
    refine ⟨n, hn, ?_⟩
    cases n with
    | primObj p => exact h
    | _ =>
      obtain ⟨j, n', h1, h2, h3⟩ := h
      exact ⟨j, n', h1, h2, (SameContent.isBuf h3).1, (SameContent.isBuf h3).2⟩
  | _ => exact h.elim

theorem SameVal.self {env : EEnv} {z : F64} {P : Val → Val → Prop} {H : Heap} {v w : Val} (h : P v w)
    (hs : Shallow env z H v w) : SameVal env z P v w := by
  cases v with
  | bytes b => exact h
  | obj i => exact ⟨i, Or.inl rfl, h⟩
  | _ => exact hs.elim

theorem not_contains {l : ObjLog} {v : Val} (h : l.contains v = false) : Dict.get l.ids v = none := by
  unfold ObjLog.contains at h
  cases hg : Dict.get l.ids v with
  | none => rfl
  | some n => rw [hg] at h; simp at h

theorem SimW.record {env : EEnv} {z : F64} {P : Val → Val → Prop} {ws : WS} {ds : DS} (h : SimW env z P ws ds)
    (nd : Node) {v w : Val} (hv : ws.log.contains v = false) (hsh : Shallow env z (ds.heap ++ [nd]) v w)
    (hw : ∀ j, w = .obj j → j = ds.heap.length) {ids' : Dict Val Nat} {data allowed bad pos calls} :
    SimW env z (addPair P v w)
      { data := data, log := (ws.log.record v).1, allowed := allowed, memo := ws.memo, skew := ws.skew, badRef := bad }
      { pos := pos, log := ⟨ids', ds.log.slots ++ [.obj w]⟩, heap := ds.heap ++ [nd], version := ds.version,
        calls := calls } := by
  have := Sim.record h nd (not_contains hv) hsh hw
  have hl : (ws.log.record v).1.slots.length = ws.log.slots.length + 1 := by simp [ObjLog.record]
  show Sim _ _ _ _ (ws.log.record v).1.slots.length _ _ _ _ _
  rw [hl]
  exact this

/-- The state after an object was made and recorded, `k` bytes and `c` calls further. -/
def DS.made (ds : DS) (nd : Node) (k c : Nat) : DS :=
  { pos := ds.pos + k, log := (ds.log.record (.obj ds.heap.length)).1, heap := ds.heap ++ [nd],
    version := ds.version, calls := ds.calls + c }

theorem made_back {env : EEnv} {z : F64} {P : Val → Val → Prop} {ws : WS} {ds : DS} (hs : SimW env z P ws ds)
    {v : Val} (hv : ws.log.contains v = false) (nd : Node) (k c : Nat)
    (hso : SameObject env z (addPair P v (.obj ds.heap.length)) (ds.heap ++ [nd]) v (.obj ds.heap.length))
    {data allowed bad} :
    SimW env z (addPair P v (.obj ds.heap.length))
      { data := data, log := (ws.log.record v).1, allowed := allowed, memo := ws.memo, skew := ws.skew, badRef := bad }
      (ds.made nd k c) ∧
    Step env z P (addPair P v (.obj ds.heap.length)) ds.heap (ds.made nd k c).heap ∧
    SameVal env z (addPair P v (.obj ds.heap.length)) v (.obj ds.heap.length) :=
  ⟨SimW.record hs nd hv (SameObject.shallow hso) (fun _ hj => (Val.obj.inj hj).symm),
    Step.one nd (fun _ hj => (Val.obj.inj hj).symm) hso,
    SameVal.self (addPair_self _ _ _) (SameObject.shallow hso)⟩

/-- `Obl` for a buffer, or a reference to one: a view may follow. -/
def BufObl (env : EEnv) (z : F64) (dec : Tag → RM Val) (v : Val) (ws ws' : WS) : Prop :=
  ∃ t rest, startTag t = true ∧ Wrote ws ws' (t.byte :: rest) ∧
    ∀ P ds, SimW env z P ws ds → Fine z ws' → ∃ P' w ds',
      (∀ d suf, Here d ds.pos rest suf → dec t d ds = viewAfter w d ds') ∧
      ds'.pos = ds.pos + rest.length ∧ SimW env z P' ws' ds' ∧ Step env z P P' ds.heap ds'.heap ∧
      SameVal env z P' v w

theorem here_nil {d : Bytes} {p p' : Nat} {rest suf : Bytes} (h : Here d p rest suf)
    (hp : p' = p + rest.length) : Here d p' [] suf := by
  subst hp
  exact Here.right (a := rest) (b := []) (by simpa using h)

theorem BufObl.obl {env : EEnv} {z : F64} {dec : Tag → RM Val} {v : Val} {ws ws' : WS}
    (h : BufObl env z dec v ws ws') : Obl env z dec v ws ws' := by
  obtain ⟨t, rest, ht, hw, h⟩ := h
  refine ⟨t, rest, ht, hw, ?_⟩
  intro P ds hs hb
  obtain ⟨P', w, ds', h1, h2, h3, h4, h5⟩ := h P ds hs hb
  refine ⟨P', w, ds', ?_, h2, h3, h4, h5⟩
  intro d suf hh hnv
  rw [h1 d suf hh, viewAfter_nv (here_nil hh h2) hnv]

theorem abuf_mk (bs : Bytes) : ABuf.mk' bs none false false = .ok (fixedBuf bs) := by
  simp [ABuf.mk', fixedBuf]

theorem readFixedContents_reads (bs : Bytes) (h : bs.length < 2 ^ 32) :
    Reads readFixedContents (writeVarint bs.length ++ bs) bs := by
  unfold readFixedContents
  refine Reads.bind (readUint32_reads h) ?_
  intro pre suf
  have h1 : checkFits bs.length (pre ++ bs ++ suf) pre.length = .ok ((), pre.length) := by
    unfold checkFits
    rw [if_neg (by simp)]
  rw [Rd.bind_ok h1]
  simp [takeHere]

theorem readResizableContents_reads (bs : Bytes) (max : Nat) (h : bs.length < 2 ^ 32) (hm : max < 2 ^ 32)
    (hle : bs.length ≤ max) :
    Reads readResizableContents (writeVarint bs.length ++ (writeVarint max ++ bs)) (bs, max) := by
  unfold readResizableContents
  refine Reads.bind (readUint32_reads h) ?_
  intro pre suf
  have hpos := writeVarint_length_pos max
  have h1 : checkFitsResizable bs.length (pre ++ (writeVarint max ++ bs) ++ suf) pre.length
      = .ok ((), pre.length) := by
    unfold checkFitsResizable
    rw [if_neg (by simp; omega)]
  rw [Rd.bind_ok h1]
  revert pre suf
  refine fun pre suf _ => ?_
  have hr : Reads (readUint32 >>= fun m => checkMax m bs.length >>= fun _ => takeHere bs.length >>= fun b =>
      (pure (b, m) : Rd (Bytes × Nat))) (writeVarint max ++ bs) (bs, max) := by
    refine Reads.bind (readUint32_reads hm) ?_
    intro pre suf
    have h2 : checkMax max bs.length (pre ++ bs ++ suf) pre.length = .ok ((), pre.length) := by
      unfold checkMax
      rw [if_neg (by omega)]
      rfl
    rw [Rd.bind_ok h2]
    have h3 : takeHere bs.length (pre ++ bs ++ suf) pre.length = .ok (bs, pre.length + bs.length) := by
      simp [takeHere]
    rw [Rd.bind_ok h3]
    rfl
  exact hr pre suf

theorem readArrayBuffer_tags {denv : DEnv} {F : Nat} {t : Tag} (ht : t ∈ jsArrayBufferTags) (d : Bytes) (ds : DS) :
    decodeTag denv (F + 1) t d ds
      = (readArrayBuffer t >>= viewAfter) d { ds with calls := ds.calls + 1 } := by
  rw [decodeTag_run]
  simp only [jsArrayBufferTags, List.mem_cons, List.not_mem_nil, or_false] at ht
  rcases ht with rfl | rfl | rfl | rfl <;> rfl

theorem writeUint32_eq {n : Nat} {bs : Bytes} (h : writeUint32 n = .ok bs) :
    n < 2 ^ 32 ∧ bs = writeVarint n := by
  by_cases hn : n < 2 ^ 32
  · rw [writeUint32_ok hn] at h
    exact ⟨hn, (Except.ok.inj h).symm⟩
  · have : inUint32 (n : Int) = false := by simp [inUint32]; omega
    simp [writeUint32, this] at h

theorem writeFixedBuffer_back {env : EEnv} {z : F64} {denv : DEnv} {F : Nat} {data : Bytes} {v : Val} {ws ws' : WS}
    (h : writeFixedBuffer data v ws = .ok ws') (ha : ws.allowed = none)
    (hv : ws.log.contains v = false)
    (hobj : ∀ P (H : Heap), SameObject env z P (H ++ [.abuf (fixedBuf data)]) v (.obj H.length)) :
    BufObl env z (decodeTag denv (F + 1)) v ws ws' := by
  obtain ⟨w1, h1, h⟩ := Except.bind_eq_ok h
  obtain ⟨w2, h2, h⟩ := Except.bind_eq_ok h
  obtain ⟨w3, h3, h⟩ := Except.bind_eq_ok h
  have e1 := recordRef_ok h1
  obtain ⟨e2, _⟩ := writeTag_ok h2
  obtain ⟨bs, hb, e3⟩ := emitE_ok h3
  have e4 := emit_ok h
  obtain ⟨hlt, rfl⟩ := writeUint32_eq hb
  have e : ws' = { ws with data := ws.data ++ Tag.kArrayBuffer.byte :: (writeVarint data.length ++ data), log := (ws.log.record v).1 } := by
    rw [e4, e3, e2, e1]; simp
  refine ⟨.kArrayBuffer, writeVarint data.length ++ data, rfl, ?_, ?_⟩
  · rw [e]; exact ⟨rfl, ha, _root_.id, fun _ h => h⟩
  · intro P ds hs _
    have hso := hobj (addPair P v (.obj ds.heap.length)) ds.heap
    obtain ⟨m1, m2, m3⟩ := made_back hs hv _ (writeVarint data.length ++ data).length 1 hso
    refine ⟨_, _, _, ?_, rfl, by rw [e]; exact m1, m2, m3⟩
    intro d suf hh
    rw [readArrayBuffer_tags (by simp [jsArrayBufferTags])]
    refine RM.bind_ok ?_
    show readFixedBuffer d _ = _
    unfold readFixedBuffer
    rw [RM.bind_ok (Here.lift (s := { ds with calls := ds.calls + 1 }) hh (readFixedContents_reads data hlt)),
      abuf_mk]
    rfl

theorem writeResizableBuffer_back {env : EEnv} {z : F64} {denv : DEnv} {F : Nat} {b : ABuf} {v : Val} {ws ws' : WS}
    (h : writeResizableBuffer b v ws = .ok ws') (ha : ws.allowed = none)
    (hv : ws.log.contains v = false)
    (hobj : ∀ P (H : Heap), SameObject env z P (H ++ [.abuf ⟨b.exposed, b.max, true⟩]) v (.obj H.length)) :
    BufObl env z (decodeTag denv (F + 1)) v ws ws' := by
  unfold writeResizableBuffer at h
  by_cases hm : b.max < b.exposed.length
  · rw [if_pos hm] at h; simp at h
  rw [if_neg hm] at h
  obtain ⟨w1, h1, h⟩ := Except.bind_eq_ok h
  obtain ⟨w2, h2, h⟩ := Except.bind_eq_ok h
  obtain ⟨w3, h3, h⟩ := Except.bind_eq_ok h
  obtain ⟨w3', h3', h⟩ := Except.bind_eq_ok h
  have e1 := recordRef_ok h1
  obtain ⟨e2, _⟩ := writeTag_ok h2
  obtain ⟨bs, hb, e3⟩ := emitE_ok h3
  obtain ⟨bs', hb', e3'⟩ := emitE_ok h3'
  have e4 := emit_ok h
  obtain ⟨hlt, rfl⟩ := writeUint32_eq hb
  obtain ⟨hlt', rfl⟩ := writeUint32_eq hb'
  generalize hrest : writeVarint b.exposed.length ++ (writeVarint b.max ++ b.exposed) = rest
  have e : ws' = { ws with data := ws.data ++ Tag.kResizableArrayBuffer.byte :: rest, log := (ws.log.record v).1 } := by
    rw [e4, e3', e3, e2, e1, ← hrest]; simp
  refine ⟨.kResizableArrayBuffer, rest, rfl, ?_, ?_⟩
  · rw [e]; exact ⟨rfl, ha, _root_.id, fun _ h => h⟩
  · intro P ds hs _
    have hso := hobj (addPair P v (.obj ds.heap.length)) ds.heap
    obtain ⟨m1, m2, m3⟩ := made_back hs hv _ rest.length 1 hso
    refine ⟨_, _, _, ?_, rfl, by rw [e]; exact m1, m2, m3⟩
    intro d suf hh
    rw [readArrayBuffer_tags (by simp [jsArrayBufferTags])]
    refine RM.bind_ok ?_
    show readResizableBuffer d _ = _
    have hmk : ABuf.mk' b.exposed (some (b.max : Int)) true false = .ok ⟨b.exposed, b.max, true⟩ := by
      simp [ABuf.mk']
      omega
    have hr := readResizableContents_reads b.exposed b.max hlt hlt' (by omega)
    rw [hrest] at hr
    unfold readResizableBuffer
    rw [RM.bind_ok (Here.lift (s := { ds with calls := ds.calls + 1 }) hh hr)]
    simp only
    rw [hmk]
    rfl

theorem writeBufferId_back {env : EEnv} {z : F64} {denv : DEnv} {F : Nat} {t : Tag} {mk : Int → Node} {id : Int} {v : Val}
    {ws ws' : WS} (h : writeBufferId t id v ws = .ok ws') (ha : ws.allowed = none)
    (hv : ws.log.contains v = false) (hid : id < 2 ^ 32) (ht : startTag t = true)
    (htt : t ∈ jsArrayBufferTags)
    (hr : readArrayBuffer t = (RM.lift readUint32 >>= fun n => alloc (mk n) >>= fun i => (pure (.obj i) : RM Val)))
    (hobj : ∀ P (H : Heap), SameObject env z P (H ++ [mk id]) v (.obj H.length)) :
    BufObl env z (decodeTag denv (F + 1)) v ws ws' := by
  unfold writeBufferId at h
  by_cases hm : id < 0
  · rw [if_pos hm] at h; simp at h
  rw [if_neg hm] at h
  obtain ⟨w0, h0, h⟩ := Except.bind_eq_ok h
  obtain ⟨w1, h1, h⟩ := Except.bind_eq_ok h
  obtain ⟨w2, h2, h⟩ := Except.bind_eq_ok h
  have e0 := markSkew_ok h0
  have e1 := recordRef_ok h1
  obtain ⟨e2, _⟩ := writeTag_ok h2
  have e4 := emit_ok h
  have e : ws' = { ws with data := ws.data ++ t.byte :: writeVarint id.toNat, log := (ws.log.record v).1, skew := some (ws.skew.getD ws.log.slots.length) } := by
    rw [e4, e2, e1, e0]; simp
  refine ⟨t, writeVarint id.toNat, ht, ?_, ?_⟩
  · rw [e]; exact ⟨rfl, ha, _root_.id, fun _ h => h⟩
  · intro P ds hs _
    have hso := hobj (addPair P v (.obj ds.heap.length)) ds.heap
    have hidn : ((id.toNat : Nat) : Int) = id := by omega
    refine ⟨addPair P v (.obj ds.heap.length), .obj ds.heap.length,
      { pos := ds.pos + (writeVarint id.toNat).length, log := ds.log, heap := ds.heap ++ [mk id],
        version := ds.version, calls := ds.calls + 1 }, ?_, rfl, ?_, ?_, ?_⟩
    · intro d suf hh
      rw [readArrayBuffer_tags htt, hr]
      refine RM.bind_ok ?_
      rw [RM.bind_ok (Here.lift (s := { ds with calls := ds.calls + 1 }) hh (readUint32_reads (by omega)))]
      rw [hidn]
      rfl
    · subst e
      have hs' := Sim.mark hs
      have hl : (ws.log.record v).1.slots.length = ws.log.slots.length + 1 := by simp [ObjLog.record]
      show Sim _ _ _ _ (ws.log.record v).1.slots.length _ (some (ws.skew.getD ws.log.slots.length)) _ _ _
      rw [hl]
      exact Sim.recordLeft hs' _ (not_contains hv) (SameObject.shallow hso) (fun j hj => (Val.obj.inj hj).symm)
    · exact Step.one _ (fun j hj => (Val.obj.inj hj).symm) hso
    · exact SameVal.self (addPair_self _ _ _) (SameObject.shallow hso)

end V8
