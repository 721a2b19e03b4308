import Verif.Proofs.RoundTripMain

/-! Helper lemmas: conditions on the log that hold throughout the encoder, and the exceptions it can
raise. -/

namespace V8
open Spec

/-- From states with `P`, `w` ends in states with `Q` or raises exceptions with `E`. -/
def Runs (P Q : WS → Prop) (E : EErr → Prop) (w : Wr) : Prop :=
  ∀ ws, P ws → (∀ e, w ws = .error e → E e) ∧ ∀ ws', w ws = .ok ws' → Q ws'

theorem Runs.bind {P Q S : WS → Prop} {E : EErr → Prop} {f : Wr} {g : WS → Except EErr WS}
    (hf : Runs P Q E f) (hg : Runs Q S E g) : Runs P S E (fun ws => f ws >>= g) := by
  intro ws hP
  obtain ⟨h1, h2⟩ := hf ws hP
  cases hx : f ws with
  | error e =>
    refine ⟨fun e' h => ?_, fun ws' h => ?_⟩
    · simp only [hx] at h
      cases h
      exact h1 e hx
    · simp only [hx] at h; cases h
  | ok w1 =>
    obtain ⟨h3, h4⟩ := hg w1 (h2 w1 hx)
    exact ⟨fun e h => h3 e (by simp only [hx] at h; exact h), fun ws' h => h4 ws' (by simp only [hx] at h; exact h)⟩

theorem Runs.imp {P P' Q Q' : WS → Prop} {E : EErr → Prop} {w : Wr} (h : Runs P Q E w)
    (hp : ∀ ws, P' ws → P ws) (hq : ∀ ws, Q ws → Q' ws) : Runs P' Q' E w :=
  fun ws hP => ⟨(h ws (hp ws hP)).1, fun ws' hw => hq _ ((h ws (hp ws hP)).2 ws' hw)⟩

/-- Exceptions that do not have to do with forward references or nesting. -/
def EErr.plain : EErr → Prop
  | .forwardRef _ => False
  | .fuel => False
  | .illegalCyclic => False
  | _ => True

/-- A condition on the log, with a cache as the encoder keeps it. -/
def St (env : EEnv) (A : ObjLog → Prop) (ws : WS) : Prop := MemoOK env ws.memo ∧ A ws.log

/-- The value is a `bytes` or an object of the heap. -/
def InHeap (env : EEnv) : Val → Prop
  | .obj i => (env.heap[i]?).isSome = true
  | _ => False

section
variable {env : EEnv} {A B : ObjLog → Prop} {E : EErr → Prop}

theorem Runs.fail {P Q : WS → Prop} {e : EErr} (h : E e) : Runs P Q E (fun _ => .error e) :=
  fun _ _ => ⟨fun e' he => by cases he; exact h, fun ws' hw => by cases hw⟩

theorem Runs.done {P : WS → Prop} : Runs P P E (fun ws => .ok ws) :=
  fun _ hP => ⟨fun e he => (by cases he), fun ws' hw => by cases hw; exact hP⟩

theorem runs_emit (bs : Bytes) : Runs (St env A) (St env A) E (emit bs) :=
  fun _ hP => ⟨fun e he => (by cases he), fun ws' hw => by rw [emit_ok hw]; exact hP⟩

theorem runs_emitE {r : Except EErr Bytes} (hr : ∀ e, r = .error e → E e) : Runs (St env A) (St env A) E (emitE r) := by
  intro ws hP
  cases r with
  | error e => exact Runs.fail (hr e rfl) ws hP
  | ok bs => exact runs_emit bs ws hP

theorem runs_mark : Runs (St env A) (St env A) E markSkew :=
  fun _ hP => ⟨fun e he => (by cases he), fun ws' hw => by cases hw; exact hP⟩

theorem runs_note (n : Nat) : Runs (St env A) (St env A) E (noteRef n) :=
  fun _ hP => ⟨fun e he => (by cases he), fun ws' hw => by cases hw; exact hP⟩

variable (hp : ∀ e : EErr, e.plain → E e)
include hp

theorem runs_writeTag (t : Tag) : Runs (St env A) (St env A) E (writeTag t) := by
  intro ws hP
  unfold writeTag
  split
  · exact runs_emit _ ws hP
  · split
    · exact runs_emit _ ws hP
    · exact Runs.fail (hp .encode trivial) ws hP

theorem runs_writeTagged (t : Tag) {r : Except EErr Bytes} (hr : ∀ e, r = .error e → e.plain) :
    Runs (St env A) (St env A) E (writeTagged t r) := by
  intro ws hP
  cases r with
  | error e => exact Runs.fail (hp _ (hr e rfl)) ws hP
  | ok bs => exact Runs.bind (runs_writeTag hp t) (runs_emit bs) ws hP

theorem runs_writeConstant (t : Tag) : Runs (St env A) (St env A) E (writeConstant t) := by
  unfold writeConstant
  intro ws hP
  refine Runs.bind (f := fun ws => writeTag t { ws with allowed := some jsConstantTags }) (Q := St env A) ?_ ?_ ws hP
  · intro ws hP
    exact runs_writeTag hp t { ws with allowed := some jsConstantTags } hP
  · intro ws hP
    exact ⟨fun e he => (by cases he), fun ws' hw => by cases hw; exact hP⟩

theorem runs_writeDoubleTagged (x : F64) : Runs (St env A) (St env A) E (writeDoubleTagged x) :=
  Runs.bind (runs_writeTag hp _) (runs_emit _)

end

/-! ## Exceptions of the primitive writers -/

theorem writeVarintInt_plain {n : Int} {e : EErr} (h : writeVarintInt n = .error e) : e.plain := by
  unfold writeVarintInt at h
  split at h <;> cases h
  trivial

theorem writeUint32_plain {n : Int} {e : EErr} (h : writeUint32 n = .error e) : e.plain := by
  unfold writeUint32 at h
  split at h
  · cases h; trivial
  · exact writeVarintInt_plain h

theorem writeInt32_plain {n : Int} {e : EErr} (h : writeInt32 n = .error e) : e.plain := by
  unfold writeInt32 at h
  split at h
  · cases h; trivial
  · exact writeVarintInt_plain h

theorem writeBigint_plain {n : Int} {e : EErr} (h : writeBigint n = .error e) : e.plain := by
  unfold writeBigint at h
  simp only at h
  split at h <;> cases h
  trivial

theorem writeStringUtf8_plain {s : Str} {e : EErr} (h : writeStringUtf8 s = .error e) : e.plain := by
  unfold writeStringUtf8 at h
  split at h <;> cases h
  trivial

theorem writeStringOneByte_plain {s : Str} {e : EErr} (h : writeStringOneByte s = .error e) : e.plain := by
  unfold writeStringOneByte at h
  split at h <;> cases h
  trivial

theorem bigKeyPayload_plain {n : Int} {e : EErr} (h : bigKeyPayload n = .error e) : e.plain := by
  unfold bigKeyPayload at h
  split at h
  · cases h; trivial
  · exact writeStringOneByte_plain h

theorem primObjPayload_plain {p : PrimObj} {e : EErr} (h : primObjPayload p = .error e) : e.plain := by
  cases p with
  | str s => exact writeStringUtf8_plain h
  | bigint n => exact writeBigint_plain h
  | _ => cases h

/-! ## Objects -/

/-- What has to hold of a condition `A` on the log, the condition `B` once the current object is
recorded, and the exceptions `E`. -/
structure RunsBase (env : EEnv) (A B : ObjLog → Prop) (E : EErr → Prop) : Prop where
  plain : ∀ e : EErr, e.plain → E e
  record : ∀ log v, A log → log.contains v = false → A (log.record v).1
  child : ∀ log v, A log → log.contains v = false → InHeap env v → B (log.record v).1
  weak : ∀ log, B log → A log

/-- The same with references. -/
structure RunsClosed (env : EEnv) (A B : ObjLog → Prop) (E : EErr → Prop) : Prop extends RunsBase env A B E where
  ref : ∀ log v n, A log → log.getId v = .error (.forwardRef n) → E (.forwardRef n)

/-- `A`, and `x` is not recorded. -/
def Fresh (A : ObjLog → Prop) (x : Val) (log : ObjLog) : Prop := A log ∧ log.contains x = false

namespace RunsBase
variable {env : EEnv} {A B : ObjLog → Prop} {E : EErr → Prop} {x : Val} (H : RunsBase env A B E)
include H

omit H in
theorem toA : Runs (St env (Fresh A x)) (St env A) E (fun ws => .ok ws) :=
  fun _ hP => ⟨fun e he => (by cases he), fun ws' hw => by cases hw; exact ⟨hP.1, hP.2.1⟩⟩

theorem recordA : Runs (St env (Fresh A x)) (St env A) E (recordRef x) :=
  fun ws hP => ⟨fun e he => (by cases he), fun ws' hw => by
    rw [recordRef_ok hw]; exact ⟨hP.1, H.record _ _ hP.2.1 hP.2.2⟩⟩

theorem recordB (hx : InHeap env x) : Runs (St env (Fresh A x)) (St env B) E (recordRef x) :=
  fun ws hP => ⟨fun e he => (by cases he), fun ws' hw => by
    rw [recordRef_ok hw]; exact ⟨hP.1, H.child _ _ hP.2.1 hP.2.2 hx⟩⟩

theorem outB {w : Wr} {P : WS → Prop} (h : Runs P (St env B) E w) : Runs P (St env A) E w :=
  h.imp (fun _ h => h) (fun _ h => ⟨h.1, H.weak _ h.2⟩)

theorem writePrimObj (p : PrimObj) : Runs (St env (Fresh A x)) (St env A) E (writePrimObj p x) :=
  Runs.bind H.recordA (Runs.bind (runs_writeTag H.plain _)
    (runs_emitE fun _ he => H.plain _ (primObjPayload_plain he)))

theorem writeRegExp (r : RegExp) : Runs (St env (Fresh A x)) (St env A) E (writeRegExp r) :=
  Runs.bind runs_mark (Runs.bind (runs_writeTag H.plain _)
    (Runs.bind (runs_writeTagged H.plain _ fun _ => writeStringUtf8_plain)
      ((runs_emit _).imp (fun _ h => ⟨h.1, h.2.1⟩) (fun _ h => h))))

theorem writeDate (py : PyEnv) (d : Int) : Runs (St env (Fresh A x)) (St env A) E (writeDate py d x) := by
  intro ws hP
  unfold V8.writeDate
  split
  · exact Runs.fail (H.plain (.py _) trivial) ws hP
  · exact Runs.bind H.recordA (Runs.bind (runs_writeTag H.plain _) (runs_emit _)) ws hP

theorem writeFixedBuffer (data : Bytes) : Runs (St env (Fresh A x)) (St env A) E (writeFixedBuffer data x) :=
  Runs.bind H.recordA (Runs.bind (runs_writeTag H.plain _)
    (Runs.bind (runs_emitE fun _ he => H.plain _ (writeUint32_plain he)) (runs_emit _)))

theorem writeArrayBuffer (fs : Features) (b : ABuf) :
    Runs (St env (Fresh A x)) (St env A) E (writeArrayBuffer fs b x) := by
  intro ws hP
  unfold V8.writeArrayBuffer
  split
  · unfold writeResizableBuffer
    split
    · exact Runs.fail (H.plain (.py _) trivial) ws hP
    · exact Runs.bind H.recordA (Runs.bind (runs_writeTag H.plain _)
        (Runs.bind (runs_emitE fun _ he => H.plain _ (writeUint32_plain he))
          (Runs.bind (runs_emitE fun _ he => H.plain _ (writeUint32_plain he)) (runs_emit _)))) ws hP
  · exact H.writeFixedBuffer _ ws hP

theorem writeBufferId (t : Tag) (id : Int) : Runs (St env (Fresh A x)) (St env A) E (writeBufferId t id x) := by
  intro ws hP
  unfold V8.writeBufferId
  split
  · exact Runs.fail (H.plain (.py _) trivial) ws hP
  · exact Runs.bind runs_mark (Runs.bind H.recordA (Runs.bind (runs_writeTag H.plain _) (runs_emit _))) ws hP

theorem writeView (fs : Features) (v : View) (mv : Bytes) (r : Bool) :
    Runs (St env (Fresh A x)) (St env A) E (writeView fs v mv r x) := by
  intro ws hP
  unfold V8.writeView
  split
  · exact Runs.fail (H.plain .featureRequired trivial) ws hP
  · exact Runs.bind H.recordA (Runs.bind (runs_writeTag H.plain _) (Runs.bind (runs_emit _)
      (Runs.bind (runs_emitE fun _ he => H.plain _ (writeUint32_plain he))
        (Runs.bind (runs_emitE fun _ he => H.plain _ (writeUint32_plain he)) (runs_emit _))))) ws hP

theorem writeSharedRef (id : Int) : Runs (St env (Fresh A x)) (St env A) E (writeSharedRef id x) :=
  Runs.bind H.recordA (Runs.bind (runs_writeTag H.plain _)
    (runs_emitE fun _ he => H.plain _ (writeUint32_plain he)))

theorem serializeInt (n : Int) : Runs (St env A) (St env A) E (serializeInt n) := by
  intro ws hP
  unfold V8.serializeInt
  repeat' split
  · exact runs_writeTagged H.plain _ (fun _ => writeUint32_plain) ws hP
  · exact runs_writeTagged H.plain _ (fun _ => writeInt32_plain) ws hP
  · exact runs_writeDoubleTagged H.plain _ ws hP
  · exact runs_writeTagged H.plain _ (fun _ => bigKeyPayload_plain) ws hP
  · exact runs_writeTagged H.plain _ (fun _ => writeBigint_plain) ws hP

theorem writeErrProto (name : Str) {A' : ObjLog → Prop} : Runs (St env A') (St env A') E (writeErrProto name) := by
  intro ws hP
  unfold V8.writeErrProto
  split
  · exact Runs.done ws hP
  · exact runs_emit _ ws hP

theorem writeErrText (t : ErrTag) (s : Option Str) {A' : ObjLog → Prop} :
    Runs (St env A') (St env A') E (writeErrText t s) := by
  intro ws hP
  unfold V8.writeErrText
  split
  · exact Runs.done ws hP
  · exact Runs.bind (runs_emit _) (runs_writeTagged H.plain _ fun _ => writeStringUtf8_plain) ws hP

theorem writeVals {rec : Val → Wr} (hr : ∀ v, Runs (St env B) (St env B) E (rec v)) :
    ∀ l, Runs (St env B) (St env B) E (writeVals rec l)
  | [] => Runs.done
  | v :: t => Runs.bind (hr v) (writeVals hr t)

theorem writeEntries {rec : Val → Wr} (hr : ∀ v, Runs (St env B) (St env B) E (rec v)) :
    ∀ l, Runs (St env B) (St env B) E (writeEntries rec l)
  | [] => Runs.done
  | (k, v) :: t => Runs.bind (hr k) (Runs.bind (hr v) (writeEntries hr t))

theorem writeKey {rec : Val → Wr} (hr : ∀ v, Runs (St env B) (St env B) E (rec v)) (k : Val) :
    Runs (St env B) (St env B) E (writeKey rec k) := by
  refine Runs.bind (f := fun ws => rec k { ws with allowed := some jsObjectKeyTags }) (Q := St env B) ?_ ?_
  · intro ws hP
    exact hr k { ws with allowed := some jsObjectKeyTags } hP
  · intro ws hP
    exact ⟨fun e he => (by cases he), fun ws' hw => by cases hw; exact hP⟩

theorem writeProps {rec : Val → Wr} (hr : ∀ v, Runs (St env B) (St env B) E (rec v)) :
    ∀ l, Runs (St env B) (St env B) E (writeProps rec l)
  | [] => Runs.done
  | (k, v) :: t => Runs.bind (H.writeKey hr k) (Runs.bind (hr v) (writeProps hr t))

theorem writeObjectProps {rec : Val → Wr} (hr : ∀ v, Runs (St env B) (St env B) E (rec v)) (l : List (Val × Val))
    (t : Tag) : Runs (St env B) (St env B) E (writeObjectProps rec l t) :=
  Runs.bind (H.writeProps hr l) (Runs.bind (runs_writeTag H.plain _) (runs_emit _))

theorem writeDenseArray {rec : Val → Wr} (hr : ∀ v, Runs (St env B) (St env B) E (rec v)) (hx : InHeap env x)
    (els : List Val) (props : List (Val × Val)) :
    Runs (St env (Fresh A x)) (St env A) E (writeDenseArray rec els props x) :=
  H.outB (Runs.bind (H.recordB hx) (Runs.bind (runs_writeTag H.plain _) (Runs.bind (runs_emit _)
    (Runs.bind (H.writeVals hr _) (Runs.bind (H.writeProps hr _) (Runs.bind (runs_writeTag H.plain _)
      (Runs.bind (runs_emit _) (runs_emit _))))))))

theorem writeSparseArray {rec : Val → Wr} (hr : ∀ v, Runs (St env B) (St env B) E (rec v)) (hx : InHeap env x)
    (items : List (Val × Val)) (n : Int) :
    Runs (St env (Fresh A x)) (St env A) E (writeSparseArray rec items n x) := by
  intro ws hP
  unfold V8.writeSparseArray
  split
  · exact Runs.fail (H.plain (.py _) trivial) ws hP
  · exact H.outB (Runs.bind (H.recordB hx) (Runs.bind (runs_writeTag H.plain _) (Runs.bind (runs_emit _)
      (Runs.bind (H.writeObjectProps hr _ _) (runs_emit _))))) ws hP

theorem writeError {rec : Val → Wr} (hr : ∀ v, Runs (St env B) (St env B) E (rec v)) (hx : InHeap env x)
    (c : Bool) (name : Str) (message stack : Option Str) (cause : Val)
    (hac : c = false → cause ≠ .null → Runs (St env (Fresh A x)) (St env A) E (writeCause false rec x cause)) :
    Runs (St env (Fresh A x)) (St env A) E (writeError c rec x name message stack cause) := by
  have hcause : cause ≠ .null → Runs (St env (Fresh A x)) (St env A) E (V8.writeCause c rec x cause) := by
    intro hn
    cases c with
    | false => exact hac rfl hn
    | true => exact H.outB (Runs.bind (runs_emit _) (Runs.bind (H.recordB hx) (hr _)))
  intro ws hP
  unfold V8.writeError
  by_cases hc : cause = .null
  · simp only [if_pos hc]
    exact Runs.bind runs_mark (Runs.bind (runs_writeTag H.plain _) (Runs.bind (H.writeErrProto _)
      (Runs.bind (H.writeErrText _ _) (Runs.bind (H.writeErrText _ _) (Runs.bind toA (runs_emit _)))))) ws hP
  · simp only [if_neg hc]
    exact Runs.bind Runs.done (Runs.bind (runs_writeTag H.plain _) (Runs.bind (H.writeErrProto _)
      (Runs.bind (H.writeErrText _ _) (Runs.bind (H.writeErrText _ _) (Runs.bind (hcause hc) (runs_emit _)))))) ws hP

theorem serializeNode {rec : Val → Wr} (hr : ∀ v, Runs (St env B) (St env B) E (rec v)) (hx : InHeap env x)
    {n : Node} (hac : env.feats.circularErrorCause = false → ∀ name msg stack cause, n = .error name msg stack cause →
      cause ≠ .null → Runs (St env (Fresh A x)) (St env A) E (writeCause false rec x cause))
     (hbuf : ∀ b v, n = .view b v → Runs (St env (Fresh A x)) (St env (Fresh A x)) E (rec b)) :
    Runs (St env (Fresh A x)) (St env A) E (serializeNode env rec unhandledValue x n) := by
  cases n with
  | jsmap es =>
    exact H.outB (Runs.bind (H.recordB hx) (Runs.bind (runs_writeTag H.plain _)
      (Runs.bind (H.writeEntries hr _) (Runs.bind (runs_writeTag H.plain _) (runs_emit _)))))
  | jsset ms =>
    exact H.outB (Runs.bind (H.recordB hx) (Runs.bind (runs_writeTag H.plain _)
      (Runs.bind (H.writeVals hr _) (Runs.bind (runs_writeTag H.plain _) (runs_emit _)))))
  | jsobj o =>
    exact H.outB (Runs.bind (H.recordB hx) (Runs.bind (runs_writeTag H.plain _) (H.writeObjectProps hr _ _)))
  | jsarr o =>
    intro ws hP
    simp only [V8.serializeNode, serializeJSArray]
    split
    · exact H.writeSparseArray hr hx _ _ ws hP
    · exact H.writeDenseArray hr hx _ _ ws hP
  | pylist els => exact H.writeDenseArray hr hx _ _
  | date d => exact H.writeDate _ _
  | primObj p => exact H.writePrimObj _
  | regexp r => exact H.writeRegExp r
  | error name message stack cause => exact H.writeError hr hx _ _ _ _ _ fun hf hn => hac hf _ _ _ _ rfl hn
  | abuf b => exact H.writeArrayBuffer _ _
  | rawBuf m b => exact H.writeFixedBuffer _
  | sharedBuf id => exact H.writeBufferId _ _
  | transferBuf id => exact H.writeBufferId _ _
  | view b w =>
    intro ws hP
    simp only [V8.serializeNode]
    split
    · exact Runs.fail (H.plain .unhandledValue trivial) ws hP
    · exact Runs.bind (hbuf b w rfl) (H.writeView _ _ _ _) ws hP
  | sharedRef id => exact H.writeSharedRef _
  | other => exact Runs.fail (H.plain .unhandledValue trivial)

theorem tagWriter {rec : Val → Wr} (hr : ∀ v, Runs (St env B) (St env B) E (rec v))
    (hac : env.feats.circularErrorCause = false → ∀ cause, InHeap env x → Runs (St env (Fresh A x)) (St env A) E (writeCause false rec x cause))
    (hbuf : ∀ (i : Id) b v, x = .obj i → env.heap[i]? = some (.view b v) →
      Runs (St env (Fresh A x)) (St env (Fresh A x)) E (rec b)) :
    Runs (St env (Fresh A x)) (St env A) E (tagWriter env rec x unhandledValue) := by
  have drop : ∀ {w : Wr}, Runs (St env A) (St env A) E w → Runs (St env (Fresh A x)) (St env A) E w :=
    fun h => h.imp (fun _ h => ⟨h.1, h.2.1⟩) (fun _ h => h)
  cases x with
  | hole => exact drop (runs_writeConstant H.plain _)
  | undef => exact drop (runs_writeConstant H.plain _)
  | null => exact drop (runs_writeConstant H.plain _)
  | bool b => cases b <;> exact drop (runs_writeConstant H.plain _)
  | int n => exact drop (H.serializeInt _)
  | float y => exact drop (runs_writeDoubleTagged H.plain _)
  | str s => exact drop (runs_writeTagged H.plain _ fun _ => writeStringUtf8_plain)
  | bytes b => exact H.writeFixedBuffer _
  | obj i =>
    cases hi : env.heap[i]? with
    | none =>
      intro ws hP
      simp only [V8.tagWriter, hi]
      exact Runs.fail (H.plain .unhandledValue trivial) ws hP
    | some n =>
      have hx : InHeap env (.obj i) := by simp [InHeap, hi]
      intro ws hP
      simp only [V8.tagWriter, hi]
      exact H.serializeNode hr hx (fun hf _ _ _ c _ _ => hac hf c hx) (fun b v hn => hbuf i b v rfl (by rw [hi, hn])) ws hP

end RunsBase

namespace RunsClosed
variable {env : EEnv} {A B : ObjLog → Prop} {E : EErr → Prop} {x : Val} (H : RunsClosed env A B E)
include H

theorem writeReference (v : Val) : Runs (St env A) (St env A) E (writeReference v) := by
  intro ws hP
  unfold V8.writeReference
  cases hg : ws.log.getId v with
  | error e =>
    refine Runs.fail ?_ ws hP
    cases e with
    | forwardRef n => exact H.ref _ _ _ hP.2 hg
    | _ => exact H.plain _ trivial
  | ok n => exact Runs.bind (runs_note n) (Runs.bind (runs_writeTag H.plain _) (runs_emit _)) ws hP

theorem refsStep {next : Val → Wr} (hn : ∀ v, Runs (St env (Fresh A v)) (St env A) E (next v)) (v : Val) :
    Runs (St env A) (St env A) E (refsStep env v next) := by
  intro ws hP
  have hm := deduplicate_memo v hP.1
  have hl : (deduplicate env v ws).2.log = ws.log := by rw [deduplicate_state]
  have hP2 : St env A (deduplicate env v ws).2 := ⟨hm, by rw [hl]; exact hP.2⟩
  unfold V8.refsStep
  simp only
  cases hc : (deduplicate env v ws).2.log.contains (deduplicate env v ws).1 with
  | true =>
    simp only [if_true]
    exact H.writeReference _ _ hP2
  | false =>
    simp only [Bool.false_eq_true, if_false]
    exact hn _ _ ⟨hm, hP2.2, hc⟩

end RunsClosed

end V8
