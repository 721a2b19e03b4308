import Verif.Proofs.EncodeDepth

/-! Helper lemmas: the encoder with and without the feature CircularErrorCause. -/

namespace V8
open Spec

/-- The same writer with CircularErrorCause switched. -/
def EEnv.withCircular (env : EEnv) (b : Bool) : EEnv :=
  { env with feats := { env.feats with circularErrorCause := b } }

/-- States that differ in the forward references of the log only; the first has none without value. -/
structure Twin (a b : WS) : Prop where
  data : b.data = a.data
  ids : b.log.ids = a.log.ids
  len : b.log.slots.length = a.log.slots.length
  allowed : b.allowed = a.allowed
  memo : b.memo = a.memo
  skew : b.skew = a.skew
  badRef : b.badRef = a.badRef
  closed : openIn (fun _ => False) a.log

/-- The exceptions to do with forward references. -/
def EErr.cyc (e : EErr) : Prop := e = .illegalCyclic ∨ ∃ k, e = .forwardRef k

/-- The second result is such an exception, or the first is like it. -/
def TwinR (r1 r0 : Except EErr WS) : Prop :=
  match r0 with
  | .error e => e.cyc ∨ r1 = .error e
  | .ok b => ∃ a, r1 = .ok a ∧ Twin a b

def Like (w1 w0 : Wr) : Prop := ∀ a b, Twin a b → TwinR (w1 a) (w0 b)

theorem Like.bind {f1 f0 : Wr} {g1 g0 : WS → Except EErr WS} (hf : Like f1 f0) (hg : Like g1 g0) :
    Like (fun ws => f1 ws >>= g1) (fun ws => f0 ws >>= g0) := by
  intro a b h
  have h1 := hf a b h
  cases hx : f0 b with
  | error e =>
    rw [hx] at h1
    simp only [hx]
    rcases h1 with h1 | h1
    · exact Or.inl h1
    · right; simp only [h1]; rfl
  | ok b' =>
    rw [hx] at h1
    obtain ⟨a', h2, h3⟩ := h1
    simp only [hx, h2]
    exact hg a' b' h3

theorem like_fail (e : EErr) : Like (fun _ => .error e) (fun _ => .error e) := fun _ _ _ => Or.inr rfl

theorem like_done : Like (fun ws => .ok ws) (fun ws => .ok ws) := fun a _ h => ⟨a, rfl, h⟩

theorem like_emit (bs : Bytes) : Like (emit bs) (emit bs) := fun a b h =>
  ⟨_, rfl, ⟨by simp [h.data], h.ids, h.len, h.allowed, h.memo, h.skew, h.badRef, h.closed⟩⟩

theorem like_emitE (r : Except EErr Bytes) : Like (emitE r) (emitE r) := by
  cases r with
  | error e => exact like_fail e
  | ok bs => exact like_emit bs

theorem like_writeTag (t : Tag) : Like (writeTag t) (writeTag t) := by
  intro a b h
  unfold writeTag
  rw [h.allowed]
  split
  · exact like_emit _ a b h
  · split
    · exact like_emit _ a b h
    · exact Or.inr rfl

theorem like_writeTagged (t : Tag) (r : Except EErr Bytes) : Like (writeTagged t r) (writeTagged t r) := by
  cases r with
  | error e => exact like_fail e
  | ok bs => exact (like_writeTag t).bind (like_emit bs)

theorem like_allowed (c : Option TagConstraint) : Like (fun ws => .ok { ws with allowed := c }) (fun ws => .ok { ws with allowed := c }) :=
  fun _ _ h => ⟨_, rfl, ⟨h.data, h.ids, h.len, rfl, h.memo, h.skew, h.badRef, h.closed⟩⟩

theorem like_constant (t : Tag) : Like (writeConstant t) (writeConstant t) := by
  refine Like.bind (f1 := fun ws => writeTag t { ws with allowed := some jsConstantTags })
    (f0 := fun ws => writeTag t { ws with allowed := some jsConstantTags }) ?_ (like_allowed none)
  intro a b h
  exact like_writeTag t _ _ ⟨h.data, h.ids, h.len, rfl, h.memo, h.skew, h.badRef, h.closed⟩

theorem like_double (x : F64) : Like (writeDoubleTagged x) (writeDoubleTagged x) := (like_writeTag _).bind (like_emit _)

theorem like_mark : Like markSkew markSkew := fun _ _ h =>
  ⟨_, rfl, ⟨h.data, h.ids, h.len, h.allowed, h.memo, by rw [h.skew, h.len], h.badRef, h.closed⟩⟩

theorem like_note (n : Nat) : Like (noteRef n) (noteRef n) := fun _ _ h =>
  ⟨_, rfl, ⟨h.data, h.ids, h.len, h.allowed, h.memo, h.skew, by rw [h.skew, h.badRef], h.closed⟩⟩

theorem openIn_record {O : Nat → Prop} {l : ObjLog} (h : openIn O l) (v : Val) : openIn O (l.record v).1 := by
  intro k hk
  simp only [ObjLog.record] at hk
  rw [List.getElem?_append] at hk
  split at hk
  · exact h k hk
  · rw [List.getElem?_cons] at hk
    split at hk <;> simp at hk

theorem like_record (v : Val) : Like (recordRef v) (recordRef v) := fun _ _ h =>
  ⟨_, rfl, ⟨h.data, by simp only [ObjLog.record]; rw [h.ids, h.len], by simp [ObjLog.record, h.len], h.allowed, h.memo, h.skew,
    h.badRef, openIn_record h.closed v⟩⟩

theorem like_int (n : Int) : Like (serializeInt n) (serializeInt n) := by
  intro a b h
  unfold serializeInt
  rw [h.allowed]
  repeat' split
  · exact like_writeTagged _ _ a b h
  · exact like_writeTagged _ _ a b h
  · exact like_double _ a b h
  · exact like_writeTagged _ _ a b h
  · exact like_writeTagged _ _ a b h

theorem like_reference (v : Val) : Like (writeReference v) (writeReference v) := by
  intro a b h
  cases hid : Dict.get a.log.ids v with
  | none =>
    have e1 : a.log.getId v = .error .notSerialized := by simp [ObjLog.getId, hid]
    have e2 : b.log.getId v = .error .notSerialized := by simp [ObjLog.getId, h.ids, hid]
    unfold writeReference
    rw [e1, e2]
    exact Or.inr rfl
  | some n =>
    have e1 : a.log.getId v = .ok n := by
      unfold ObjLog.getId
      rw [hid]
      simp only
      split
      · rename_i hs; exact (h.closed n hs).elim
      · rfl
    have e2 : b.log.getId v = .error (.forwardRef n) ∨ b.log.getId v = .ok n := by
      unfold ObjLog.getId
      rw [h.ids, hid]
      simp only
      split
      · exact Or.inl rfl
      · exact Or.inr rfl
    unfold writeReference
    rcases e2 with e2 | e2
    · rw [e1, e2]
      exact Or.inl (Or.inr ⟨n, rfl⟩)
    · rw [e1, e2]
      exact (like_note n).bind ((like_writeTag _).bind (like_emit _)) a b h

theorem like_errProto (name : Str) : Like (writeErrProto name) (writeErrProto name) := by
  intro a b h
  unfold writeErrProto
  split
  · exact like_done a b h
  · exact like_emit _ a b h

theorem like_errText (t : ErrTag) (s : Option Str) : Like (writeErrText t s) (writeErrText t s) := by
  intro a b h
  unfold writeErrText
  split
  · exact like_done a b h
  · exact (like_emit _).bind (like_writeTagged _ _) a b h

theorem like_fixed (d : Bytes) (x : Val) : Like (writeFixedBuffer d x) (writeFixedBuffer d x) := by
  unfold writeFixedBuffer
  generalize writeUint32 (d.length : Int) = r
  exact (like_record x).bind ((like_writeTag _).bind ((like_emitE _).bind (like_emit d)))

theorem like_abuf {fs1 fs0 : Features} (hf : fs1.resizableArrayBuffers = fs0.resizableArrayBuffers) (bf : ABuf) (x : Val) :
    Like (writeArrayBuffer fs1 bf x) (writeArrayBuffer fs0 bf x) := by
  intro a b h
  unfold writeArrayBuffer
  rw [hf]
  by_cases hc : (bf.resizable && fs0.resizableArrayBuffers) = true
  · rw [if_pos hc, if_pos hc]
    unfold writeResizableBuffer
    by_cases hm : bf.max < bf.exposed.length
    · rw [if_pos hm, if_pos hm]; exact Or.inr rfl
    · rw [if_neg hm, if_neg hm]
      generalize writeUint32 (bf.exposed.length : Int) = r
      generalize writeUint32 (bf.max : Int) = r'
      exact (like_record x).bind ((like_writeTag _).bind ((like_emitE _).bind ((like_emitE _).bind (like_emit _)))) a b h
  · rw [if_neg hc, if_neg hc]
    exact like_fixed _ x a b h

theorem like_view {fs1 fs0 : Features} (hf : fs1.float16Array = fs0.float16Array) (v : View) (mv : Bytes) (r : Bool) (x : Val) :
    Like (writeView fs1 v mv r x) (writeView fs0 v mv r x) := by
  intro a b h
  unfold writeView
  rw [hf]
  by_cases hc : v.tag = .float16 ∧ fs0.float16Array = false
  · rw [if_pos hc, if_pos hc]; exact Or.inr rfl
  · rw [if_neg hc, if_neg hc]
    generalize writeUint32 (v.byteOffset mv : Int) = r1
    generalize writeUint32 (v.byteLength mv : Int) = r2
    exact (like_record x).bind ((like_writeTag _).bind ((like_emit _).bind ((like_emitE _).bind ((like_emitE _).bind
      (like_emit _))))) a b h

section
variable {rec1 rec0 : Val → Wr} (hr : ∀ v, Like (rec1 v) (rec0 v))
include hr

theorem like_vals : ∀ l, Like (writeVals rec1 l) (writeVals rec0 l)
  | [] => like_done
  | v :: t => (hr v).bind (like_vals t)

theorem like_entries : ∀ l, Like (writeEntries rec1 l) (writeEntries rec0 l)
  | [] => like_done
  | (k, v) :: t => (hr k).bind ((hr v).bind (like_entries t))

theorem like_key (k : Val) : Like (writeKey rec1 k) (writeKey rec0 k) := by
  refine Like.bind (f1 := fun ws => rec1 k { ws with allowed := some jsObjectKeyTags })
    (f0 := fun ws => rec0 k { ws with allowed := some jsObjectKeyTags }) ?_ (like_allowed none)
  intro a b h
  exact hr k _ _ ⟨h.data, h.ids, h.len, rfl, h.memo, h.skew, h.badRef, h.closed⟩

theorem like_props : ∀ l, Like (writeProps rec1 l) (writeProps rec0 l)
  | [] => like_done
  | (k, v) :: t => (like_key hr k).bind ((hr v).bind (like_props t))

theorem like_cause (x cause : Val) : Like (writeCause true rec1 x cause) (writeCause false rec0 x cause) := by
  refine Like.bind (like_emit _) ?_
  intro a b h
  simp only [if_true, Bool.false_eq_true, if_false]
  have ht : Twin { a with log := (a.log.record x).1 } { b with log := (b.log.beginAcyclic x).1 } :=
    ⟨h.data, by simp only [ObjLog.record, ObjLog.beginAcyclic]; rw [h.ids, h.len],
      by simp [ObjLog.record, ObjLog.beginAcyclic, h.len], h.allowed, h.memo, h.skew, h.badRef, openIn_record h.closed x⟩
  have h1 := hr cause _ _ ht
  cases hx : rec0 cause { b with log := (b.log.beginAcyclic x).1 } with
  | error e =>
    rw [hx] at h1
    rcases h1 with h1 | h1
    · left
      rcases h1 with rfl | ⟨k, rfl⟩
      · exact Or.inl rfl
      · unfold acyclicExc
        simp only
        split
        · exact Or.inl rfl
        · exact Or.inr ⟨k, rfl⟩
    · by_cases hc : e.cyc
      · left
        rcases hc with rfl | ⟨k, rfl⟩
        · exact Or.inl rfl
        · unfold acyclicExc
          simp only
          split
          · exact Or.inl rfl
          · exact Or.inr ⟨k, rfl⟩
      · right
        have : acyclicExc (b.log.beginAcyclic x).2 e = e := by
          cases e with
          | forwardRef k => exact absurd (Or.inr ⟨k, rfl⟩) hc
          | _ => rfl
        rw [this]
        exact h1
  | ok b' =>
    rw [hx] at h1
    obtain ⟨a', h2, h3⟩ := h1
    exact ⟨a', h2, ⟨h3.data, h3.ids, by simp [ObjLog.endAcyclic, h3.len], h3.allowed, h3.memo, h3.skew, h3.badRef, h3.closed⟩⟩

theorem like_error (x : Val) (name : Str) (msg stack : Option Str) (cause : Val) :
    Like (writeError true rec1 x name msg stack cause) (writeError false rec0 x name msg stack cause) := by
  intro a b h
  unfold writeError
  by_cases hc : cause = .null
  · simp only [if_pos hc]
    exact like_mark.bind ((like_writeTag _).bind ((like_errProto _).bind ((like_errText _ _).bind ((like_errText _ _).bind
      (like_done.bind (like_emit _)))))) a b h
  · simp only [if_neg hc]
    exact like_done.bind ((like_writeTag _).bind ((like_errProto _).bind ((like_errText _ _).bind ((like_errText _ _).bind
      ((like_cause hr x cause).bind (like_emit _)))))) a b h

theorem like_objectProps (l : List (Val × Val)) (t : Tag) : Like (writeObjectProps rec1 l t) (writeObjectProps rec0 l t) :=
  (like_props hr l).bind ((like_writeTag _).bind (like_emit _))

theorem like_dense (els : List Val) (props : List (Val × Val)) (x : Val) :
    Like (writeDenseArray rec1 els props x) (writeDenseArray rec0 els props x) :=
  (like_record x).bind ((like_writeTag _).bind ((like_emit _).bind ((like_vals hr _).bind ((like_props hr _).bind
    ((like_writeTag _).bind ((like_emit _).bind (like_emit _)))))))

theorem like_node (env : EEnv) (x : Val) (n : Node) :
    Like (serializeNode (env.withCircular true) rec1 unhandledValue x n)
      (serializeNode (env.withCircular false) rec0 unhandledValue x n) := by
  have fixed := fun d => like_fixed d x
  have bufId : ∀ t id, Like (writeBufferId t id x) (writeBufferId t id x) := by
    intro t id a b h
    unfold writeBufferId
    split
    · exact Or.inr rfl
    · exact like_mark.bind ((like_record x).bind ((like_writeTag _).bind (like_emit _))) a b h
  cases n with
  | jsmap es => exact (like_record x).bind ((like_writeTag _).bind ((like_entries hr _).bind ((like_writeTag _).bind (like_emit _))))
  | jsset ms => exact (like_record x).bind ((like_writeTag _).bind ((like_vals hr _).bind ((like_writeTag _).bind (like_emit _))))
  | jsobj o => exact (like_record x).bind ((like_writeTag _).bind (like_objectProps hr _ _))
  | jsarr o =>
    intro a b h
    simp only [V8.serializeNode, serializeJSArray]
    split
    · unfold writeSparseArray
      split
      · exact Or.inr rfl
      · exact (like_record x).bind ((like_writeTag _).bind ((like_emit _).bind ((like_objectProps hr _ _).bind (like_emit _)))) a b h
    · exact like_dense hr _ _ _ a b h
  | pylist els => exact like_dense hr _ _ _
  | date d =>
    intro a b h
    simp only [V8.serializeNode, writeDate, EEnv.withCircular]
    split
    · exact Or.inr rfl
    · exact (like_record x).bind ((like_writeTag _).bind (like_emit _)) a b h
  | primObj p => exact (like_record x).bind ((like_writeTag _).bind (like_emitE _))
  | regexp r => exact like_mark.bind ((like_writeTag _).bind ((like_writeTagged _ _).bind (like_emit _)))
  | error name msg stack cause => exact like_error hr x _ _ _ _
  | abuf bf => exact like_abuf rfl bf x
  | rawBuf m d => exact fixed d
  | sharedBuf id => exact bufId _ _
  | transferBuf id => exact bufId _ _
  | view bk v =>
    intro a b h
    have e : ∀ z, (env.withCircular z).feats.float16Array = env.feats.float16Array := fun z => rfl
    simp only [V8.serializeNode]
    by_cases hc : v.tag = .float16 ∧ env.feats.float16Array = false
    · rw [if_pos (by rw [e]; exact hc), if_pos (by rw [e]; exact hc)]
      exact Or.inr rfl
    · rw [if_neg (by rw [e]; exact hc), if_neg (by rw [e]; exact hc)]
      exact Like.bind (hr bk) (like_view rfl _ _ _ _) a b h
  | sharedRef id => exact (like_record x).bind ((like_writeTag _).bind (like_emitE _))
  | other => exact like_fail _

end

theorem like_dedup {env : EEnv} (v : Val) {a b : WS} (h : Twin a b) (x y : Bool) :
    (deduplicate (env.withCircular y) v b).1 = (deduplicate (env.withCircular x) v a).1 ∧
    Twin (deduplicate (env.withCircular x) v a).2 (deduplicate (env.withCircular y) v b).2 := by
  have hk : ∀ z, dkey (env.withCircular z) v = dkey env v := fun z => by cases v <;> rfl
  unfold deduplicate
  rw [hk, hk]
  cases dkey env v with
  | none => exact ⟨rfl, h⟩
  | some k =>
    simp only
    rw [h.memo]
    cases Dict.get a.memo k with
    | some w => exact ⟨rfl, h⟩
    | none => exact ⟨rfl, ⟨h.data, h.ids, h.len, h.allowed, rfl, h.skew, h.badRef, h.closed⟩⟩

theorem like_encode (env : EEnv) (f : Nat) : ∀ v,
    Like (encodeObject (env.withCircular true) f v) (encodeObject (env.withCircular false) f v) := by
  induction f with
  | zero => exact fun v => like_fail .fuel
  | succ f ih =>
    intro v a b h
    rw [encodeObject_succ, encodeObject_succ]
    unfold refsStep
    obtain ⟨h1, h2⟩ := like_dedup (env := env) v h true false
    simp only [h1]
    generalize deduplicate (env.withCircular true) v a = r1 at *
    generalize deduplicate (env.withCircular false) v b = r0 at *
    obtain ⟨d, a'⟩ := r1
    obtain ⟨d0, b'⟩ := r0
    simp only at *
    have hc : b'.log.contains d = a'.log.contains d := by unfold ObjLog.contains; rw [h2.ids]
    rw [hc]
    split
    · exact like_reference d a' b' h2
    · cases d with
      | hole => exact like_constant _ a' b' h2
      | undef => exact like_constant _ a' b' h2
      | null => exact like_constant _ a' b' h2
      | bool t => cases t <;> exact like_constant _ a' b' h2
      | int n => exact like_int _ a' b' h2
      | float y => exact like_double _ a' b' h2
      | str s => exact like_writeTagged _ _ a' b' h2
      | bytes bs => exact like_fixed _ _ a' b' h2
      | obj i =>
        have e : ∀ z, (env.withCircular z).heap = env.heap := fun z => rfl
        simp only [tagWriter, e]
        cases hi : env.heap[i]? with
        | none => exact Or.inr rfl
        | some n => exact like_node ih env _ n a' b' h2

/-- Without the feature `dumps` does the same, unless it stops at a forward reference. -/
theorem dumps_circular (env : EEnv) (v : Val) :
    TwinR (dumpsState (env.withCircular true) v) (dumpsState (env.withCircular false) v) := by
  unfold dumpsState dumpsWith
  have h0 : Twin WS.new WS.new := ⟨rfl, rfl, rfl, rfl, rfl, rfl, rfl, by intro k hk; simp [WS.new, ObjLog.empty] at hk⟩
  exact (like_emit _).bind (like_encode env (encodeFuel env) v) _ _ h0

end V8
