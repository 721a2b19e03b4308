import Verif.Proofs.EncodeCycle
import Verif.Spec.Writable
import Verif.Props.Primitives
import Verif.Props.Text

/-! Helper lemmas: what can be written is written. -/

namespace V8
open Spec

/-! ## The primitive writers -/

theorem plainText_iff {s : Str} : PlainText s ↔ s.all isScalar = true := by
  simp only [List.all_eq_true, isScalar_iff]
  rfl

theorem writeStringUtf8_accepts {s : Str} : (∃ bs, writeStringUtf8 s = .ok bs) ↔ PlainText s := by
  rw [plainText_iff, ← utf8Encode_isSome s]
  unfold writeStringUtf8
  cases utf8Encode s <;> simp

theorem mostBits_eq : mostBits = Props.bigintMaxBits := by decide +kernel

theorem writeBigint_accepts {n : Int} : (∃ bs, writeBigint n = .ok bs) ↔ n.natAbs < 2 ^ mostBits := by
  rw [mostBits_eq]
  obtain ⟨h1, h2⟩ := Props.C05_bigint_limit n
  refine ⟨fun ⟨bs, h⟩ => ?_, h1⟩
  by_contra hc
  rw [h2 hc] at h
  cases h

theorem writeUint32_accepts {n : Int} : (∃ bs, writeUint32 n = .ok bs) ↔ 0 ≤ n ∧ n < 2 ^ 32 := by
  unfold writeUint32
  have hu : inUint32 n = true ↔ 0 ≤ n ∧ n < 2 ^ 32 := by
    unfold inUint32; simp only [Bool.and_eq_true, decide_eq_true_eq]
  by_cases h : inUint32 n = true
  · have h' := hu.1 h
    rw [h]
    unfold writeVarintInt
    simp only [Bool.not_true, Bool.false_eq_true, if_false]
    rw [if_neg (by omega)]
    exact ⟨fun _ => h', fun _ => ⟨_, rfl⟩⟩
  · have h1 : inUint32 n = false := by simpa using h
    rw [h1]
    refine ⟨fun ⟨bs, hb⟩ => ?_, fun h' => absurd (hu.2 h') h⟩
    simp at hb

/-! ## Writers that do not fail -/

/-- A state between values. -/
def Free (env : EEnv) (ws : WS) : Prop :=
  ws.allowed = none ∧ MemoOK env ws.memo ∧ ∀ v n, Dict.get ws.log.ids v = some n → IsObj v

/-- Only exceptions that have to do with references and nesting. -/
abbrev Goes (env : EEnv) (w : Wr) : Prop := Runs (Free env) (Free env) (fun e => ¬ e.plain) w

section
variable {env : EEnv} {E : EErr → Prop}

theorem goes_emit (bs : Bytes) : Goes env (emit bs) :=
  fun _ hP => ⟨fun e he => (by cases he), fun ws' hw => by rw [emit_ok hw]; exact hP⟩

theorem goes_emitE {r : Except EErr Bytes} (h : ∃ bs, r = .ok bs) : Goes env (emitE r) := by
  obtain ⟨bs, rfl⟩ := h
  exact goes_emit bs

theorem goes_mark : Goes env markSkew :=
  fun _ hP => ⟨fun e he => (by cases he), fun ws' hw => by cases hw; exact hP⟩

theorem goes_note (n : Nat) : Goes env (noteRef n) :=
  fun _ hP => ⟨fun e he => (by cases he), fun ws' hw => by cases hw; exact hP⟩

theorem record_isObj {l : ObjLog} {x : Val} (hx : IsObj x) (h : ∀ v n, Dict.get l.ids v = some n → IsObj v) (v : Val) (n : Nat)
    (hv : Dict.get (l.record x).1.ids v = some n) : IsObj v := by
  simp only [ObjLog.record, Dict.get_set] at hv
  split at hv
  · rename_i e; rw [← e]; exact hx
  · exact h v n hv

theorem goes_record {x : Val} (hx : IsObj x) : Goes env (recordRef x) :=
  fun _ hP => ⟨fun e he => (by cases he), fun ws' hw => by
    rw [recordRef_ok hw]; exact ⟨hP.1, hP.2.1, record_isObj hx hP.2.2⟩⟩

theorem goes_writeTag (t : Tag) : Goes env (writeTag t) := by
  intro ws hP
  unfold writeTag
  rw [hP.1]
  exact goes_emit _ ws hP

theorem goes_writeTagged (t : Tag) {r : Except EErr Bytes} (h : ∃ bs, r = .ok bs) : Goes env (writeTagged t r) := by
  obtain ⟨bs, rfl⟩ := h
  exact Runs.bind (goes_writeTag t) (goes_emit bs)

theorem goes_writeConstant {t : Tag} (ht : jsConstantTags.contains t = true) : Goes env (writeConstant t) := by
  intro ws hP
  unfold writeConstant writeTag
  simp only [ht, if_true]
  exact ⟨fun e he => (by cases he), fun ws' hw => by cases hw; exact ⟨rfl, hP.2⟩⟩

theorem goes_double (x : F64) : Goes env (writeDoubleTagged x) :=
  Runs.bind (goes_writeTag _) (goes_emit _)

theorem goes_int {n : Int} (h : n.natAbs < 2 ^ mostBits) : Goes env (serializeInt n) := by
  intro ws hP
  unfold serializeInt
  split
  · rename_i hu
    refine goes_writeTagged _ (writeUint32_accepts.2 ?_) ws hP
    unfold inUint32 at hu
    simpa using hu
  · split
    · rename_i hi
      refine goes_writeTagged _ ?_ ws hP
      exact ⟨_, writeInt32_ok hi⟩
    · split
      · exact goes_double _ ws hP
      · rw [if_neg (by rw [hP.1]; simp)]
        exact goes_writeTagged _ (writeBigint_accepts.2 h) ws hP

theorem goes_vals {rec : Val → Wr} : ∀ {l : List Val}, (∀ c ∈ l, Goes env (rec c)) → Goes env (writeVals rec l)
  | [], _ => Runs.done
  | v :: _, h => Runs.bind (h v (by simp)) (goes_vals fun c hc => h c (by simp [hc]))

theorem goes_entries {rec : Val → Wr} : ∀ {l : List (Val × Val)}, (∀ c ∈ pairCalls l, Goes env (rec c)) →
    Goes env (writeEntries rec l)
  | [], _ => Runs.done
  | (k, v) :: t, h => Runs.bind (h k (by simp [pairCalls])) (Runs.bind (h v (by simp [pairCalls]))
      (goes_entries fun c hc => h c (by simp only [pairCalls, List.flatMap_cons, List.mem_append] at hc ⊢; exact Or.inr hc)))

/-- The keys of properties are written without exceptions. -/
def GoesKey (env : EEnv) (rec : Val → Wr) (k : Val) : Prop := Goes env (writeKey rec k)

theorem goes_props {rec : Val → Wr} : ∀ {l : List (Val × Val)}, (∀ e ∈ l, GoesKey env rec e.1 ∧ Goes env (rec e.2)) →
    Goes env (writeProps rec l)
  | [], _ => Runs.done
  | (k, v) :: t, h => Runs.bind (h (k, v) (by simp)).1 (Runs.bind (h (k, v) (by simp)).2
      (goes_props fun e he => h e (by simp [he])))

theorem goes_objectProps {rec : Val → Wr} {l : List (Val × Val)} (t : Tag)
    (h : ∀ e ∈ l, GoesKey env rec e.1 ∧ Goes env (rec e.2)) : Goes env (writeObjectProps rec l t) :=
  Runs.bind (goes_props h) (Runs.bind (goes_writeTag _) (goes_emit _))

theorem goes_dense {rec : Val → Wr} {els : List Val} {props : List (Val × Val)} {x : Val} (hx : IsObj x) (hv : ∀ c ∈ els, Goes env (rec c))
    (h : ∀ e ∈ props, GoesKey env rec e.1 ∧ Goes env (rec e.2)) : Goes env (writeDenseArray rec els props x) :=
  Runs.bind (goes_record hx) (Runs.bind (goes_writeTag _) (Runs.bind (goes_emit _) (Runs.bind (goes_vals hv)
    (Runs.bind (goes_props h) (Runs.bind (goes_writeTag _) (Runs.bind (goes_emit _) (goes_emit _)))))))

theorem goes_errProto (name : Str) : Goes env (writeErrProto name) := by
  intro ws hP
  unfold V8.writeErrProto
  split
  · exact Runs.done ws hP
  · exact goes_emit _ ws hP

theorem goes_errText (t : ErrTag) {s : Option Str} (h : ∀ x, s = some x → PlainText x) : Goes env (writeErrText t s) := by
  intro ws hP
  unfold V8.writeErrText
  split
  · exact Runs.done ws hP
  · exact Runs.bind (goes_emit _) (goes_writeTagged _ (writeStringUtf8_accepts.2 (h _ rfl))) ws hP

theorem goes_cause {rec : Val → Wr} (circular : Bool) {x : Val} (hx : IsObj x) {cause : Val} (h : Goes env (rec cause)) :
    Goes env (writeCause circular rec x cause) := by
  refine Runs.bind (goes_emit _) ?_
  cases circular with
  | true => exact Runs.bind (goes_record hx) h
  | false =>
    intro ws hP
    simp only [Bool.false_eq_true, if_false]
    obtain ⟨h1, h2⟩ := h { ws with log := (ws.log.beginAcyclic x).1 }
      ⟨hP.1, hP.2.1, fun v n hv => record_isObj hx hP.2.2 v n hv⟩
    cases hr : rec cause { ws with log := (ws.log.beginAcyclic x).1 } with
    | error e =>
      refine ⟨fun e' he => ?_, fun ws' hw => by cases hw⟩
      cases he
      have := h1 e hr
      unfold acyclicExc
      split
      · split <;> exact id
      · exact this
    | ok w2 =>
      exact ⟨fun e he => (by cases he), fun ws' hw => by
        cases hw; exact h2 w2 hr⟩

theorem goes_error {rec : Val → Wr} (circular : Bool) {x : Val} (hx : IsObj x) (name : Str) {msg stack : Option Str} {cause : Val}
    (hm : ∀ s, msg = some s → PlainText s) (hs : ∀ s, stack = some s → PlainText s)
    (h : cause ≠ .null → Goes env (rec cause)) : Goes env (writeError circular rec x name msg stack cause) := by
  intro ws hP
  unfold V8.writeError
  by_cases hc : cause = .null
  · simp only [if_pos hc]
    exact Runs.bind goes_mark (Runs.bind (goes_writeTag _) (Runs.bind (goes_errProto _)
      (Runs.bind (goes_errText _ hm) (Runs.bind (goes_errText _ hs) (Runs.bind Runs.done (goes_emit _)))))) ws hP
  · simp only [if_neg hc]
    exact Runs.bind Runs.done (Runs.bind (goes_writeTag _) (Runs.bind (goes_errProto _)
      (Runs.bind (goes_errText _ hm) (Runs.bind (goes_errText _ hs) (Runs.bind (goes_cause _ hx (h hc)) (goes_emit _)))))) ws hP

theorem goes_fixed {data : Bytes} {x : Val} (hx : IsObj x) (h : data.length < 2 ^ 32) : Goes env (writeFixedBuffer data x) :=
  Runs.bind (goes_record hx) (Runs.bind (goes_writeTag _) (Runs.bind (goes_emitE (writeUint32_accepts.2 ⟨by omega, by
    have : ((data.length : Nat) : Int) < ((2 ^ 32 : Nat) : Int) := by exact_mod_cast h
    exact_mod_cast this⟩)) (goes_emit _)))

theorem uint32_nat {n : Nat} (h : n < 2 ^ 32) : ∃ bs, writeUint32 (n : Int) = .ok bs :=
  writeUint32_accepts.2 ⟨by omega, by exact_mod_cast h⟩

theorem goes_bufferId (t : Tag) {id : Int} {x : Val} (hx : IsObj x) (h : 0 ≤ id) : Goes env (writeBufferId t id x) := by
  intro ws hP
  unfold V8.writeBufferId
  rw [if_neg (by omega)]
  exact Runs.bind goes_mark (Runs.bind (goes_record hx) (Runs.bind (goes_writeTag _) (goes_emit _))) ws hP

theorem View.byteOffset_le (v : View) (mv : Bytes) : v.byteOffset mv ≤ mv.length := by
  unfold View.byteOffset
  split
  · rename_i h
    unfold View.isInRange View.region at h
    cases hl : v.itemLength with
    | none =>
      rw [hl] at h
      simp only at h
      split at h
      · cases h
      · simpa using h
    | some n =>
      rw [hl] at h
      simp only at h
      split at h
      · cases h
      · simpa using h
  · omega

theorem View.byteLength_le (v : View) (mv : Bytes) : v.byteLength mv ≤ mv.length := by
  unfold View.byteLength View.bytes View.region
  cases v.itemLength with
  | none => simp only [List.length_take, List.length_drop]; omega
  | some n =>
    simp only
    split <;> simp only [List.length_take, List.length_drop] <;> omega

theorem goes_view {fs : Features} {v : View} {mv : Bytes} (r : Bool) {x : Val} (hx : IsObj x) (h : mv.length < 2 ^ 32)
    (hf : v.tag = .float16 → fs.float16Array = true) : Goes env (writeView fs v mv r x) := by
  intro ws hP
  unfold V8.writeView
  rw [if_neg (by rintro ⟨h1, h2⟩; rw [hf h1] at h2; cases h2)]
  exact Runs.bind (goes_record hx) (Runs.bind (goes_writeTag _) (Runs.bind (goes_emit _)
    (Runs.bind (goes_emitE (uint32_nat (lt_of_le_of_lt (View.byteOffset_le v mv) h)))
      (Runs.bind (goes_emitE (uint32_nat (lt_of_le_of_lt (View.byteLength_le v mv) h))) (goes_emit _))))) ws hP

theorem goes_buffer {fs : Features} {b : ABuf} {x : Val} (hx : IsObj x) (h : b.exposed.length < 2 ^ 32)
    (hm : b.resizable = true → fs.resizableArrayBuffers = true → b.max < 2 ^ 32) : Goes env (writeArrayBuffer fs b x) := by
  intro ws hP
  unfold V8.writeArrayBuffer
  split
  · rename_i hr
    simp only [Bool.and_eq_true] at hr
    unfold writeResizableBuffer
    rw [if_neg (by unfold ABuf.exposed; rw [List.length_take]; omega)]
    exact Runs.bind (goes_record hx) (Runs.bind (goes_writeTag _) (Runs.bind (goes_emitE (uint32_nat h))
      (Runs.bind (goes_emitE (uint32_nat (hm hr.1 hr.2))) (goes_emit _)))) ws hP
  · exact goes_fixed hx h ws hP

theorem goes_primObj {p : PrimObj} {x : Val} (hx : IsObj x) (h : NodeWritable env (.primObj p)) : Goes env (writePrimObj p x) := by
  refine Runs.bind (goes_record hx) (Runs.bind (goes_writeTag _) (goes_emitE ?_))
  cases p with
  | str s => exact writeStringUtf8_accepts.2 h
  | bigint n => exact writeBigint_accepts.2 h
  | _ => exact ⟨_, rfl⟩

theorem backing_sized {b : Val} (h : Writable env b) : ((backingBytes env.heap b).getD []).length < 2 ^ 32 := by
  cases b with
  | bytes bs => exact h
  | obj i =>
    obtain ⟨n, hi, hn⟩ := h
    simp only [backingBytes, hi]
    cases n with
    | abuf b => exact hn.1
    | rawBuf m b => exact hn
    | _ => simp
  | _ => simp [backingBytes]

/-- A property key as `items()` gives it. -/
def KeyVal (k : Val) : Prop := (∃ n : Nat, n < 2 ^ 32 ∧ k = .int n) ∨ ∃ s, PlainText s ∧ k = .str s

theorem goes_key {k : Val} (hk : KeyVal k) (f : Nat) : GoesKey env (encodeObject env f) k := by
  intro ws hP
  unfold writeKey
  cases f with
  | zero =>
    refine ⟨fun e he => ?_, fun ws' hw => by cases hw⟩
    cases he
    exact id
  | succ f =>
    rw [encodeObject_succ]
    have hno : ¬ IsObj k := by
      rcases hk with ⟨n, _, rfl⟩ | ⟨s, _, rfl⟩ <;> exact id
    have hc : ws.log.contains k = false := by
      unfold ObjLog.contains
      cases h : Dict.get ws.log.ids k with
      | none => rfl
      | some n => exact absurd (hP.2.2 _ _ h) hno
    have hd : refsStep env k (fun u => tagWriter env (encodeObject env f) u unhandledValue)
        { ws with allowed := some jsObjectKeyTags } =
        tagWriter env (encodeObject env f) k unhandledValue { ws with allowed := some jsObjectKeyTags } := by
      rcases hk with ⟨n, _, rfl⟩ | ⟨s, _, rfl⟩ <;> simp [refsStep, deduplicate, dkey, hc]
    rw [hd]
    have tagged : ∀ (t : Tag) (r : Except EErr Bytes), jsObjectKeyTags.contains t = true → (∃ bs, r = .ok bs) →
        ∃ bs, writeTagged t r { ws with allowed := some jsObjectKeyTags } =
          .ok { ws with allowed := some jsObjectKeyTags, data := ws.data ++ bs } := by
      rintro t r ht ⟨bs, rfl⟩
      refine ⟨[t.byte] ++ bs, ?_⟩
      simp only [writeTagged, writeTag, ht, if_true, emit]
      show Except.ok _ = _
      simp
    have : ∃ bs, tagWriter env (encodeObject env f) k unhandledValue { ws with allowed := some jsObjectKeyTags } =
        .ok { ws with allowed := some jsObjectKeyTags, data := ws.data ++ bs } := by
      rcases hk with ⟨n, hn, rfl⟩ | ⟨s, hs, rfl⟩
      · simp only [V8.tagWriter, serializeInt]
        rw [if_pos (by unfold inUint32; simp only [Bool.and_eq_true, decide_eq_true_eq]; omega)]
        exact tagged _ _ (by decide) (uint32_nat hn)
      · exact tagged _ _ (by decide) (writeStringUtf8_accepts.2 hs)
    obtain ⟨bs, h⟩ := this
    rw [h]
    exact ⟨fun e he => (by cases he), fun ws' hw => by cases hw; exact ⟨rfl, hP.2⟩⟩

theorem goes_node {rec : Val → Wr} {x : Val} (hx : IsObj x) {i : Id} {n : Node} (ht : WellTyped env) (hz : ArraysSized env)
    (hi : env.heap[i]? = some n) (hn : NodeWritable env n) (hr : ∀ c ∈ members n, Goes env (rec c))
    (hh : Goes env (rec .hole)) (hb : ∀ b v, n = .view b v → Writable env b) (hk : ∀ k, KeyVal k → GoesKey env rec k) :
    Goes env (serializeNode env rec unhandledValue x n) := by
  have items : ∀ o : JSObj Val, o.Inv → o.array.abs.length ≤ 2 ^ 32 - 1 → (∀ e ∈ o.props, PlainText e.1) →
      (∀ c ∈ o.items.map (·.2), Goes env (rec c)) → ∀ e ∈ itemVals o.items, GoesKey env rec e.1 ∧ Goes env (rec e.2) := by
    intro o ho hl hp hv e he
    obtain ⟨e', he', rfl⟩ := List.mem_map.mp he
    refine ⟨hk _ ?_, hv _ (List.mem_map.mpr ⟨e', he', rfl⟩)⟩
    rw [JSObj.items_eq ho, List.mem_append] at he'
    rcases he' with he' | he'
    · obtain ⟨a, ha, rfl⟩ := List.mem_map.mp he'
      refine Or.inl ⟨a.1, ?_, rfl⟩
      rw [mem_itemsOf (v := a.2) (k := a.1)] at ha
      by_contra hk
      rw [List.getElem?_eq_none (by omega)] at ha
      simp at ha
    · obtain ⟨a, ha, rfl⟩ := List.mem_map.mp he'
      exact Or.inr ⟨a.1, hp a ha, rfl⟩
  cases n with
  | jsmap es =>
    exact Runs.bind (goes_record hx) (Runs.bind (goes_writeTag _)
      (Runs.bind (goes_entries hr) (Runs.bind (goes_writeTag _) (goes_emit _))))
  | jsset ms =>
    exact Runs.bind (goes_record hx) (Runs.bind (goes_writeTag _)
      (Runs.bind (goes_vals hr) (Runs.bind (goes_writeTag _) (goes_emit _))))
  | jsobj o =>
    exact Runs.bind (goes_record hx) (Runs.bind (goes_writeTag _)
      (goes_objectProps _ (items o (ht.objects i o (Or.inl hi)) (hz i o (Or.inl hi)) hn hr)))
  | jsarr o =>
    have ho := ht.objects i o (Or.inr hi)
    have hl := hz i o (Or.inr hi)
    have it := items o ho hl hn hr
    intro ws hP
    simp only [V8.serializeNode, serializeJSArray]
    split
    · unfold writeSparseArray
      have : ¬ ¬ (0 ≤ (o.array.len : Int) ∧ (o.array.len : Int) ≤ maxArrayLength) := by
        have := Arr.len_eq ho.arr
        simp only [not_not, maxArrayLength]
        omega
      rw [if_neg this]
      exact Runs.bind (goes_record hx) (Runs.bind (goes_writeTag _) (Runs.bind (goes_emit _)
        (Runs.bind (goes_objectProps _ it) (goes_emit _)))) ws hP
    · refine goes_dense hx ?_ ?_ ws hP
      · intro c hc
        obtain ⟨a, ha, rfl⟩ := List.mem_map.mp hc
        cases a with
        | none => exact hh
        | some v =>
          refine hr v ?_
          rw [Arr.toList_eq ho.arr] at ha
          obtain ⟨k, hk⟩ := List.mem_iff_getElem?.mp ha
          simp only [members, JSObj.items_eq ho, List.map_append, List.map_map, List.mem_append]
          exact Or.inl (List.mem_map.mpr ⟨(k, v), (by rw [mem_itemsOf, hk]; rfl), rfl⟩)
      · intro e he
        obtain ⟨a, ha, rfl⟩ := List.mem_map.mp he
        refine ⟨hk _ (Or.inr ⟨a.1, hn a ha, rfl⟩), hr _ ?_⟩
        simp only [members, JSObj.items_eq ho, List.map_append, List.map_map, List.mem_append]
        exact Or.inr (List.mem_map.mpr ⟨a, ha, rfl⟩)
  | pylist els => exact goes_dense hx hr (by simp)
  | date d =>
    obtain ⟨ms, hms⟩ := hn
    intro ws hP
    simp only [V8.serializeNode, writeDate, hms]
    exact Runs.bind (goes_record hx) (Runs.bind (goes_writeTag _) (goes_emit _)) ws hP
  | primObj p => exact goes_primObj hx hn
  | regexp r =>
    exact Runs.bind goes_mark (Runs.bind (goes_writeTag _)
      (Runs.bind (goes_writeTagged _ (writeStringUtf8_accepts.2 hn)) (goes_emit _)))
  | error name message stack cause =>
    exact goes_error _ hx _ hn.1 hn.2 fun hc => hr _ (by simp [members, hc])
  | abuf b => exact goes_buffer hx hn.1 hn.2
  | rawBuf m b => exact goes_fixed hx hn
  | sharedBuf id => exact goes_bufferId _ hx hn
  | transferBuf id => exact goes_bufferId _ hx hn
  | view b w =>
    intro ws hP
    simp only [V8.serializeNode]
    rw [if_neg (by rintro ⟨h1, h2⟩; rw [hn h1] at h2; cases h2)]
    exact Runs.bind (hr b (by simp [members])) (goes_view _ hx (backing_sized (hb b w rfl)) hn) ws hP
  | sharedRef id =>
    exact Runs.bind (goes_record hx) (Runs.bind (goes_writeTag _) (goes_emitE (writeUint32_accepts.2 hn)))
  | other => exact hn.elim

theorem goes_reference {d : Val} {ws : WS} (hP : Free env ws) (hc : ws.log.contains d = true) :
    (∀ e, writeReference d ws = .error e → ¬ e.plain) ∧ ∀ ws', writeReference d ws = .ok ws' → Free env ws' := by
  unfold V8.writeReference
  cases hg : ws.log.getId d with
  | error e =>
    refine ⟨fun e' he => ?_, fun ws' hw => by cases hw⟩
    cases he
    unfold ObjLog.getId at hg
    unfold ObjLog.contains at hc
    cases hid : Dict.get ws.log.ids d with
    | none => rw [hid] at hc; cases hc
    | some m =>
      rw [hid] at hg
      simp only at hg
      split at hg <;> cases hg
      exact id
  | ok n => exact Runs.bind (goes_note n) (Runs.bind (goes_writeTag _) (goes_emit _)) ws hP

/-- If everything that can be reached can be written, the encoder has no other exceptions than those of
references and nesting. -/
theorem encode_goes (ht : WellTyped env) (hz : ArraysSized env) (f : Nat) :
    ∀ v, (∀ u, Reaches env v u → Writable env u) → Goes env (encodeObject env f v) := by
  induction f with
  | zero =>
    intro v _ ws hP
    refine ⟨fun e he => ?_, fun ws' hw => by simp [encodeObject, encodeWith] at hw⟩
    simp only [encodeObject, encodeWith, Except.error.injEq] at he
    subst he
    exact id
  | succ f ih =>
    intro v hv ws hP
    rw [encodeObject_succ]
    have hm := deduplicate_memo v hP.2.1
    have hl : (deduplicate env v ws).2.log = ws.log := by rw [deduplicate_state]
    have ha : (deduplicate env v ws).2.allowed = ws.allowed := by rw [deduplicate_state]
    have hone := oneObject_of_dedup (v := v) hP.2.1
    have hkey := deduplicate_key v hP.2.1
    unfold refsStep
    generalize deduplicate env v ws = r at *
    obtain ⟨d, w1⟩ := r
    simp only at *
    have hP1 : Free env w1 := ⟨by rw [ha]; exact hP.1, hm, by rw [hl]; exact hP.2.2⟩
    have hback : IsObj d → IsObj v := by
      intro hd
      rcases hkey with h | ⟨k, h1, h2⟩
      · rw [← h]; exact hd
      · exact dkey_isObj h1 h2 hd
    have hone' : IsObj d → OneObject env v d := fun hd => hone.resolve_right fun hn => hn (hback hd)
    have self : ∀ a, Reaches env a a := fun a => .here (Or.inl rfl)
    have hd : Writable env d := by
      by_cases h : IsObj d
      · exact hv d (.here (hone' h))
      · rcases hkey with h' | ⟨k, h1, h2⟩
        · rw [h']; exact hv v (self v)
        · cases d with
          | float x => trivial
          | obj i => exact absurd trivial h
          | _ => simp [dkey] at h1
    cases hc : w1.log.contains d with
    | true =>
      simp only [if_true]
      exact goes_reference hP1 hc
    | false =>
      simp only [Bool.false_eq_true, if_false]
      cases d with
      | hole => exact goes_writeConstant (by decide) w1 hP1
      | undef => exact goes_writeConstant (by decide) w1 hP1
      | null => exact goes_writeConstant (by decide) w1 hP1
      | bool b => cases b <;> exact goes_writeConstant (by decide) w1 hP1
      | int n => exact goes_int hd w1 hP1
      | float y => exact goes_double _ w1 hP1
      | str s => exact goes_writeTagged _ (writeStringUtf8_accepts.2 hd) w1 hP1
      | bytes b => exact goes_fixed (x := .bytes b) trivial hd w1 hP1
      | obj i =>
        obtain ⟨n, hi, hn⟩ := hd
        simp only [V8.tagWriter, hi]
        have inner : ∀ c ∈ members n, ∀ u, Reaches env c u → Writable env u :=
          fun c hc u hu => hv u (.inside (hone' trivial) hi hc hu)
        have hole : Goes env (encodeObject env f .hole) := by
          refine ih _ fun u hu => ?_
          cases hu with
          | here h => rcases h with rfl | ⟨i, j, h, _⟩ <;> [trivial; cases h]
          | inside h => rcases h with h | ⟨i, j, h, _⟩ <;> cases h
        exact goes_node (x := .obj i) trivial ht hz hi hn (fun c hc => ih c (inner c hc)) hole
          (fun b w hbw => inner b (by rw [hbw]; simp [members]) b (self b)) (fun k hk => goes_key hk f) w1 hP1

end

/-! ## What was written can be written -/

theorem emitE_accepts {r : Except EErr Bytes} {ws ws' : WS} (h : emitE r ws = .ok ws') : ∃ bs, r = .ok bs := by
  cases r with
  | error e => cases h
  | ok bs => exact ⟨bs, rfl⟩

theorem writeTagged_accepts {t : Tag} {r : Except EErr Bytes} {ws ws' : WS} (h : writeTagged t r ws = .ok ws') :
    ∃ bs, r = .ok bs := by
  cases r with
  | error e => cases h
  | ok bs => exact ⟨bs, rfl⟩

theorem uint32_nat' {n : Nat} (h : ∃ bs, writeUint32 (n : Int) = .ok bs) : n < 2 ^ 32 := by
  have := (writeUint32_accepts.1 h).2
  exact_mod_cast this

theorem lt_pow_decDigitsRev (f : Nat) : ∀ n, n < f → n < 10 ^ (decDigitsRev f n).length := by
  induction f with
  | zero => intro n h; omega
  | succ f ih =>
    intro n h
    simp only [decDigitsRev]
    split
    · simpa using by assumption
    · have := ih (n / 10) (by omega)
      simp only [List.length_cons, Nat.pow_succ]
      omega

theorem bigKey_small {n : Int} (h : ∃ bs, bigKeyPayload n = .ok bs) : n.natAbs < 2 ^ mostBits := by
  obtain ⟨bs, h⟩ := h
  have hd : (decDigits n.natAbs).length ≤ 4300 := by
    by_contra hc
    unfold bigKeyPayload pyIntStr at h
    rw [if_pos (show _ > maxStrDigits by unfold maxStrDigits; omega)] at h
    cases h
  have h1 := lt_pow_decDigitsRev (n.natAbs + 1) n.natAbs (by omega)
  unfold decDigits at hd
  rw [List.length_reverse] at hd
  calc n.natAbs < 10 ^ (decDigitsRev (n.natAbs + 1) n.natAbs).length := h1
    _ ≤ (2 ^ 4) ^ (decDigitsRev (n.natAbs + 1) n.natAbs).length := Nat.pow_le_pow_left (by decide) _
    _ = 2 ^ (4 * (decDigitsRev (n.natAbs + 1) n.natAbs).length) := (Nat.pow_mul ..).symm
    _ ≤ 2 ^ mostBits := Nat.pow_le_pow_right (by decide) (by rw [mostBits_eq]; unfold Props.bigintMaxBits; omega)

theorem serializeInt_accepts {n : Int} {ws ws' : WS} (h : serializeInt n ws = .ok ws') : n.natAbs < 2 ^ mostBits := by
  have small : n.natAbs < 2 ^ 53 → n.natAbs < 2 ^ mostBits := fun h =>
    lt_of_lt_of_le h (Nat.pow_le_pow_right (by decide) (by rw [mostBits_eq]; decide))
  unfold serializeInt at h
  split at h
  · rename_i hu
    unfold inUint32 at hu
    simp only [Bool.and_eq_true, decide_eq_true_eq] at hu
    exact small (by omega)
  · split at h
    · rename_i hu
      unfold inInt32 at hu
      simp only [Bool.and_eq_true, decide_eq_true_eq] at hu
      exact small (by omega)
    · split at h
      · rename_i hu
        unfold inSafeInt at hu
        simp only [Bool.and_eq_true, decide_eq_true_eq] at hu
        exact small (by omega)
      · split at h
        · exact bigKey_small (writeTagged_accepts h)
        · exact writeBigint_accepts.1 (writeTagged_accepts h)

theorem fixed_accepts {data : Bytes} {x : Val} {ws ws' : WS} (h : writeFixedBuffer data x ws = .ok ws') : data.length < 2 ^ 32 := by
  obtain ⟨w1, _, h⟩ := Except.bind_eq_ok h
  obtain ⟨w2, _, h⟩ := Except.bind_eq_ok h
  obtain ⟨w3, h, _⟩ := Except.bind_eq_ok h
  exact uint32_nat' (emitE_accepts h)

theorem errText_accepts {t : ErrTag} {s : Option Str} {ws ws' : WS} (h : writeErrText t s ws = .ok ws') (x : Str) (hx : s = some x) :
    PlainText x := by
  subst hx
  obtain ⟨w1, _, h⟩ := Except.bind_eq_ok h
  exact writeStringUtf8_accepts.1 (writeTagged_accepts h)

theorem error_accepts {rec : Val → Wr} {c : Bool} {x : Val} {name : Str} {msg stack : Option Str} {cause : Val} {ws ws' : WS}
    (h : writeError c rec x name msg stack cause ws = .ok ws') :
    (∀ s, msg = some s → PlainText s) ∧ ∀ s, stack = some s → PlainText s := by
  unfold V8.writeError at h
  by_cases hc : cause = .null
  · simp only [if_pos hc] at h
    obtain ⟨w1, _, h⟩ := Except.bind_eq_ok h
    obtain ⟨w2, _, h⟩ := Except.bind_eq_ok h
    obtain ⟨w3, _, h⟩ := Except.bind_eq_ok h
    obtain ⟨w4, h1, h⟩ := Except.bind_eq_ok h
    obtain ⟨w5, h2, h⟩ := Except.bind_eq_ok h
    exact ⟨errText_accepts h1, errText_accepts h2⟩
  · simp only [if_neg hc] at h
    obtain ⟨w1, _, h⟩ := Except.bind_eq_ok h
    obtain ⟨w2, _, h⟩ := Except.bind_eq_ok h
    obtain ⟨w3, _, h⟩ := Except.bind_eq_ok h
    obtain ⟨w4, h1, h⟩ := Except.bind_eq_ok h
    obtain ⟨w5, h2, h⟩ := Except.bind_eq_ok h
    exact ⟨errText_accepts h1, errText_accepts h2⟩

/-- What can be told of an object from its own bytes having been written; the names of its properties are
written by calls. -/
def OwnWritable (env : EEnv) : Node → Prop
  | .jsobj _ => True
  | .jsarr _ => True
  | n => NodeWritable env n

theorem node_accepts {env : EEnv} {rec : Val → Wr} {x : Val} {n : Node} {ws ws' : WS}
    (h : serializeNode env rec unhandledValue x n ws = .ok ws') : OwnWritable env n := by
  cases n with
  | jsmap es => trivial
  | jsset ms => trivial
  | jsobj o => trivial
  | jsarr o => trivial
  | pylist els => trivial
  | date d =>
    simp only [V8.serializeNode, V8.writeDate] at h
    split at h
    · cases h
    · rename_i ms hms; exact ⟨ms, hms⟩
  | primObj p =>
    obtain ⟨w1, _, h⟩ := Except.bind_eq_ok h
    obtain ⟨w2, _, h⟩ := Except.bind_eq_ok h
    have := emitE_accepts h
    cases p with
    | str s => exact writeStringUtf8_accepts.1 this
    | bigint n => exact writeBigint_accepts.1 this
    | _ => trivial
  | regexp r =>
    obtain ⟨w1, _, h⟩ := Except.bind_eq_ok h
    obtain ⟨w2, _, h⟩ := Except.bind_eq_ok h
    obtain ⟨w3, h, _⟩ := Except.bind_eq_ok h
    exact writeStringUtf8_accepts.1 (writeTagged_accepts h)
  | error name msg stack cause => exact error_accepts h
  | abuf b =>
    simp only [V8.serializeNode, V8.writeArrayBuffer] at h
    split at h
    · unfold V8.writeResizableBuffer at h
      split at h
      · cases h
      · obtain ⟨w1, _, h⟩ := Except.bind_eq_ok h
        obtain ⟨w2, _, h⟩ := Except.bind_eq_ok h
        obtain ⟨w3, h1, h⟩ := Except.bind_eq_ok h
        obtain ⟨w4, h2, h⟩ := Except.bind_eq_ok h
        exact ⟨uint32_nat' (emitE_accepts h1), fun _ _ => uint32_nat' (emitE_accepts h2)⟩
    · rename_i hr
      refine ⟨fixed_accepts h, fun h1 h2 => absurd ?_ hr⟩
      rw [h1, h2]; rfl
  | rawBuf m b => exact fixed_accepts h
  | sharedBuf id =>
    simp only [V8.serializeNode, V8.writeBufferId] at h
    split at h
    · cases h
    · exact Int.not_lt.mp (by assumption)
  | transferBuf id =>
    simp only [V8.serializeNode, V8.writeBufferId] at h
    split at h
    · cases h
    · exact Int.not_lt.mp (by assumption)
  | view b w =>
    simp only [V8.serializeNode] at h
    split at h
    · cases h
    · rename_i hf
      intro h1
      by_contra h2
      exact hf ⟨h1, by simpa using h2⟩
  | sharedRef id =>
    obtain ⟨w1, _, h⟩ := Except.bind_eq_ok h
    obtain ⟨w2, _, h⟩ := Except.bind_eq_ok h
    exact writeUint32_accepts.1 (emitE_accepts h)
  | other => cases h

/-- Recorded. -/
def InLog (ws : WS) (v : Val) : Prop := ∃ n, Dict.get ws.log.ids v = some n

/-- A value that was written: it is recorded, or can be written without being recorded. -/
def Put (env : EEnv) (ws : WS) (c : Val) : Prop := (Writable env c ∧ (IsObj c → IsUnlogged env c)) ∨ InLog ws c

/-- A value that was written, or for which an equal one was. -/
def PutRep (env : EEnv) (ws : WS) (c : Val) : Prop := ∃ r, OneObject env c r ∧ Put env ws r

/-- What is known of an object or `bytes` value once it has been written. -/
def PutIn (env : EEnv) (ws : WS) : Val → Prop
  | .bytes b => b.length < 2 ^ 32
  | .obj i => ∃ n, env.heap[i]? = some n ∧ OwnWritable env n ∧ ∀ c ∈ calls n, PutRep env ws c
  | _ => False

/-- What encoding does to the log: everything recorded meanwhile has been written. -/
structure Puts (env : EEnv) (a b : WS) : Prop where
  ids : ∀ v, InLog a v → InLog b v
  new : ∀ v, InLog b v → InLog a v ∨ PutIn env b v

section
variable {env : EEnv}

theorem Put.mono {a b : WS} (h : ∀ v, InLog a v → InLog b v) {c : Val} (hc : Put env a c) : Put env b c :=
  hc.imp id (h c)

theorem PutRep.mono {a b : WS} (h : ∀ v, InLog a v → InLog b v) {c : Val} (hc : PutRep env a c) : PutRep env b c := by
  obtain ⟨r, h1, h2⟩ := hc
  exact ⟨r, h1, h2.mono h⟩

theorem PutIn.mono {a b : WS} (h : ∀ v, InLog a v → InLog b v) {v : Val} (hv : PutIn env a v) : PutIn env b v := by
  cases v with
  | obj i =>
    obtain ⟨n, h1, h2, h3⟩ := hv
    exact ⟨n, h1, h2, fun c hc => (h3 c hc).mono h⟩
  | bytes b => exact hv
  | _ => exact hv.elim

theorem Puts.refl {a b : WS} (h : b.log.ids = a.log.ids) : Puts env a b :=
  ⟨fun v hv => by unfold InLog at *; rw [h]; exact hv, fun v hv => Or.inl (by unfold InLog at *; rw [← h]; exact hv)⟩

theorem Puts.trans {a b c : WS} (h1 : Puts env a b) (h2 : Puts env b c) : Puts env a c :=
  ⟨fun v hv => h2.ids v (h1.ids v hv), fun v hv => by
    rcases h2.new v hv with h | h
    · exact (h1.new v h).imp id fun h => h.mono h2.ids
    · exact Or.inr h⟩

/-- What is shown of `encode_object`. -/
def PutsRec (env : EEnv) (rec : Val → Wr) : Prop :=
  ∀ v ws ws', MemoOK env ws.memo → rec v ws = .ok ws' → MemoOK env ws'.memo ∧ Puts env ws ws' ∧ PutRep env ws' v

theorem Walks.puts {rec : Val → Wr} (hrec : PutsRec env rec) {cs : List Val} {n : Nat} {a b : WS} (h : Walks rec cs n a b) :
    MemoOK env a.memo → MemoOK env b.memo ∧ Puts env a b ∧ ∀ c ∈ cs, PutRep env b c := by
  induction h with
  | done hq => exact fun hm => ⟨by rw [hq.2.1]; exact hm, Puts.refl (by rw [hq.1]), by simp⟩
  | @call c cs n m a w1 w2 b hq hcall _ ih =>
    intro hm
    obtain ⟨g1, g2, g3⟩ := hrec c _ _ (by rw [hq.2.1]; exact hm) hcall
    obtain ⟨k1, k2, k3⟩ := ih g1
    refine ⟨k1, (Puts.refl (by rw [hq.1])).trans (g2.trans k2), ?_⟩
    intro d hd
    rcases List.mem_cons.mp hd with rfl | hd
    · exact g3.mono k2.ids
    · exact k3 d hd

theorem inLog_set {a b : WS} {x : Val} {k : Nat} (h : b.log.ids = Dict.set a.log.ids x k) :
    InLog b x ∧ (∀ v, InLog a v → InLog b v) ∧ ∀ v, InLog b v → v = x ∨ InLog a v := by
  unfold InLog
  rw [h]
  refine ⟨⟨k, by rw [Dict.get_set]; simp⟩, fun v ⟨n, hn⟩ => ?_, fun v ⟨n, hn⟩ => ?_⟩
  · rw [Dict.get_set]
    split
    · exact ⟨_, rfl⟩
    · exact ⟨n, hn⟩
  · rw [Dict.get_set] at hn
    split at hn
    · rename_i e; exact Or.inl e.symm
    · exact Or.inr ⟨n, hn⟩

theorem NodeRun.puts {rec : Val → Wr} (hrec : PutsRec env rec) {ac : Mode} {x : Val} {cs : List Val} {N : Nat}
    {a b : WS} (h : NodeRun rec ac x cs N a b) (hm : MemoOK env a.memo)
    (hx : ∀ w : WS, (∀ c ∈ cs, PutRep env w c) → PutIn env w x) :
    MemoOK env b.memo ∧ Puts env a b ∧ InLog b x := by
  cases h with
  | @plain n w1 hac hn hl hm1 hd m hm' h _ =>
    obtain ⟨s1, s2, s3⟩ := inLog_set (a := a) (b := w1) (x := x) (k := a.log.slots.length) (by rw [hl]; rfl)
    obtain ⟨g1, g2, g3⟩ := h.puts hrec (by rw [hm1]; exact hm)
    refine ⟨g1, ⟨fun v hv => g2.ids v (s2 v hv), fun v hv => ?_⟩, g2.ids x s1⟩
    rcases g2.new v hv with h1 | h1
    · rcases s3 v h1 with rfl | h2
      · exact Or.inr (hx b g3)
      · exact Or.inl h2
    · exact Or.inr h1
  | @last n m w1 hac hn h hl hm1 hd _ =>
    obtain ⟨g1, g2, g3⟩ := h.puts hrec hm
    obtain ⟨s1, s2, s3⟩ := inLog_set (a := w1) (b := b) (x := x) (k := w1.log.slots.length) (by rw [hl]; rfl)
    refine ⟨by rw [hm1]; exact g1, ⟨fun v hv => s2 v (g2.ids v hv), fun v hv => ?_⟩, s1⟩
    rcases s3 v hv with rfl | h1
    · exact Or.inr (hx b fun c hc => (g3 c hc).mono s2)
    · exact (g2.new v h1).imp id fun h => h.mono s2
  | @acyclic n m c w1 w2 hac hcc hn hl hm1 hd h hl' hm' hd' _ _ =>
    obtain ⟨s1, s2, s3⟩ := inLog_set (a := a) (b := w1) (x := x) (k := a.log.slots.length) (by rw [hl]; rfl)
    obtain ⟨g1, g2, g3⟩ := hrec c w1 w2 (by rw [hm1]; exact hm) h
    have e : b.log.ids = w2.log.ids := by rw [hl']; rfl
    have r : Puts env w2 b := Puts.refl e
    have g2' := g2.trans r
    refine ⟨by rw [hm']; exact g1, ⟨fun v hv => g2'.ids v (s2 v hv), fun v hv => ?_⟩, g2'.ids x s1⟩
    rcases g2'.new v hv with h1 | h1
    · rcases s3 v h1 with rfl | h2
      · refine Or.inr (hx b ?_)
        intro d hd
        rw [hcc, List.mem_singleton] at hd
        subst hd
        exact g3.mono r.ids
      · exact Or.inl h2
    · exact Or.inr h1

theorem scalar_accepts {rec : Val → Wr} {x : Val} {ws ws' : WS} (hx : ∀ i, x ≠ .obj i) (h : tagWriter env rec x unhandledValue ws = .ok ws') :
    Writable env x := by
  cases x with
  | int n => exact serializeInt_accepts h
  | str s => exact writeStringUtf8_accepts.1 (writeTagged_accepts h)
  | bytes b => exact fixed_accepts h
  | obj i => exact absurd rfl (hx i)
  | _ => trivial

theorem own_writable {n : Node} (hu : IsUnlogged env (.obj i)) (hi : env.heap[i]? = some n) (h : OwnWritable env n) : NodeWritable env n := by
  simp only [IsUnlogged, hi] at hu
  cases n with
  | regexp r => exact h
  | error name msg stack cause => exact h
  | _ => exact hu.elim

theorem encode_puts (f : Nat) : PutsRec env (encodeObject env f) := by
  induction f with
  | zero => intro v ws ws' _ h; simp [encodeObject, encodeWith] at h
  | succ f ih =>
    intro v ws ws' hm h
    rw [encodeObject_succ] at h
    have hm1 := deduplicate_memo v hm
    have hl : (deduplicate env v ws).2.log = ws.log := by rw [deduplicate_state]
    have hone := oneObject_of_dedup (v := v) hm
    have hkey := deduplicate_key v hm
    unfold V8.refsStep at h
    generalize deduplicate env v ws = r at *
    obtain ⟨d, w1⟩ := r
    simp only at *
    have hd : OneObject env v d ∨ ∃ y, v = .float y := by
      rcases hkey with h | ⟨k, h1, h2⟩
      · exact Or.inl (Or.inl h.symm)
      · cases v with
        | obj i => exact Or.inl (hone.resolve_right fun h => h trivial)
        | float y => exact Or.inr ⟨y, rfl⟩
        | _ => simp [dkey] at h2
    have hr : Puts env ws w1 := Puts.refl (by rw [hl])
    have fin : MemoOK env ws'.memo → Puts env w1 ws' → Put env ws' d → MemoOK env ws'.memo ∧ Puts env ws ws' ∧ PutRep env ws' v := by
      intro h1 h2 h3
      refine ⟨h1, hr.trans h2, ?_⟩
      rcases hd with hd | ⟨y, rfl⟩
      · exact ⟨d, hd, h3⟩
      · exact ⟨.float y, Or.inl rfl, Or.inl ⟨trivial, False.elim⟩⟩
    split at h
    · rename_i hc
      unfold writeReference at h
      split at h
      · cases h
      · rename_i n hg
        have hq := reference_bare h
        refine fin (by rw [hq.2.1]; exact hm1) (Puts.refl (by rw [hq.1])) (Or.inr ?_)
        unfold InLog
        rw [hq.1]
        unfold ObjLog.contains at hc
        exact Option.isSome_iff_exists.mp hc
    · cases tagWriter_run h with
      | scalar h1 h2 _ hq =>
        refine fin (by rw [hq.2.1]; exact hm1) (Puts.refl (by rw [hq.1])) (Or.inl ⟨scalar_accepts h1 h, fun ho => ?_⟩)
        cases d with
        | obj i => exact absurd rfl (h1 i)
        | bytes b => exact absurd rfl (h2 b)
        | _ => exact ho.elim
      | @unlogged i node h1 hnode hu _ _ hq =>
        subst h1
        simp only [V8.tagWriter, hnode] at h
        exact fin (by rw [hq.2.1]; exact hm1) (Puts.refl (by rw [hq.1]))
          (Or.inl ⟨⟨node, hnode, own_writable hu hnode (node_accepts h)⟩, fun _ => hu⟩)
      | @bytes b h1 hrun =>
        subst h1
        obtain ⟨g1, g2, g3⟩ := hrun.puts ih hm1 fun w _ => scalar_accepts (by simp) h
        exact fin g1 g2 (Or.inr g3)
      | @logged i node h1 hnode hu hrun =>
        subst h1
        simp only [V8.tagWriter, hnode] at h
        obtain ⟨g1, g2, g3⟩ := hrun.puts ih hm1 fun w hw => ⟨node, hnode, node_accepts h, hw⟩
        exact fin g1 g2 (Or.inr g3)

theorem oneObject_both {a b c : Val} (h1 : OneObject env a b) (h2 : OneObject env a c) : OneObject env b c := by
  rcases h1 with rfl | ⟨i, j, rfl, rfl, h1⟩
  · exact h2
  · rcases h2 with rfl | ⟨i', j', h, rfl, h2⟩
    · refine Or.inr ⟨j, i, rfl, rfl, ?_⟩
      rcases h1 with h1 | ⟨c, h3, h4⟩
      · exact Or.inl h1.symm
      · exact Or.inr ⟨c, h4, h3⟩
    · cases h
      refine Or.inr ⟨j, j', rfl, rfl, ?_⟩
      rcases h1 with rfl | ⟨c, h3, h4⟩
      · exact h2
      · rcases h2 with rfl | ⟨c', h5, h6⟩
        · exact Or.inr ⟨c, h4, h3⟩
        · rw [h3] at h5; cases h5
          exact Or.inr ⟨c, h4, h6⟩

/-- The names of an object are among the values written for it. -/
theorem names_calls {n : Node} {o : JSObj Val} (hn : n = .jsobj o ∨ n = .jsarr o) {e : Str × Val} (he : e ∈ o.props) :
    .str e.1 ∈ calls n := by
  have all : .str e.1 ∈ pairCalls (itemVals o.items) := by
    refine List.mem_flatMap.mpr ⟨(.str e.1, e.2), List.mem_map.mpr ⟨(.name e.1, e.2), ?_, rfl⟩, by simp⟩
    exact List.mem_append_right _ (List.mem_map.mpr ⟨e, he, rfl⟩)
  rcases hn with rfl | rfl
  · exact all
  · simp only [calls]
    split
    · exact all
    · refine List.mem_append_right _ (List.mem_flatMap.mpr ⟨(.str e.1, e.2), List.mem_map.mpr ⟨e, he, rfl⟩, by simp⟩)

/-- All that can be reached from a value that was written can be written. -/
theorem dumps_puts (ht : WellTyped env) (hn : TwinsAlike env) {v : Val} {ws : WS} (h : dumpsState env v = .ok ws) :
    ∀ u, Reaches env v u → Writable env u := by
  obtain ⟨_, hp, hv⟩ := encode_puts _ v WS.headed ws (by simp [MemoOK, WS.headed, WS.new, Dict.get])
    (show encodeObject env (encodeFuel env) v WS.headed = .ok ws from h)
  have log : ∀ u, InLog ws u → PutIn env ws u := by
    intro u hu
    rcases hp.new u hu with ⟨n, h⟩ | h
    · simp [WS.headed, WS.new, ObjLog.empty, Dict.get] at h
    · exact h
  have writable : ∀ u, Put env ws u → Writable env u := by
    intro u hu
    rcases hu with hu | hu
    · exact hu.1
    · have hu := log u hu
      cases u with
      | bytes b => exact hu
      | obj i =>
        obtain ⟨n, hi, ho, hc⟩ := hu
        refine ⟨n, hi, ?_⟩
        have name : ∀ s, .str s ∈ calls n → PlainText s := by
          intro s hs
          obtain ⟨r, h1, h2⟩ := hc _ hs
          have e : r = .str s := by
            rcases h1 with h1 | ⟨_, _, h1, _⟩
            · exact h1.symm
            · cases h1
          subst e
          rcases h2 with h | h
          · exact h.1
          · exact (log _ h).elim
        cases n with
        | jsobj o => exact fun e he => name _ (names_calls (Or.inl rfl) he)
        | jsarr o => exact fun e he => name _ (names_calls (Or.inr rfl) he)
        | _ => exact ho
      | _ => exact hu.elim
  clear h
  intro u hu
  induction hu with
  | @here a z h =>
    obtain ⟨r, h1, h2⟩ := hv
    rcases oneObject_both h1 h with rfl | ⟨i, j, rfl, rfl, hij⟩
    · exact writable _ h2
    · exact (hn i j hij).1 (writable _ h2)
  | @inside a c z i n h hi hc _ ih =>
    apply ih
    obtain ⟨r, h1, h2⟩ := hv
    obtain ⟨j, rfl, hji⟩ : ∃ j, r = .obj j ∧ Interchangeable env j i := by
      rcases oneObject_both h1 h with rfl | ⟨j, i', rfl, h', hij⟩
      · exact ⟨i, rfl, Or.inl rfl⟩
      · cases h'
        exact ⟨j, rfl, hij⟩
    obtain ⟨m, hj, _⟩ := writable _ h2
    obtain ⟨c', hc', hcc⟩ := (hn j i hji).2 m n hj hi c hc
    rcases h2 with h2 | h2
    · exfalso
      have hu := h2.2 trivial
      simp only [IsUnlogged, hj] at hu
      split at hu
      · rename_i h; cases h; cases hc'
      · rename_i h; cases h; simp [members] at hc'
      · exact hu
    · obtain ⟨m', hj', _, hcs⟩ := log _ h2
      cases hj.symm.trans hj'
      obtain ⟨r', k1, k2⟩ := hcs c' (members_calls ht hj hc')
      exact ⟨r', oneObject_both hcc k1, k2⟩

end

end V8
