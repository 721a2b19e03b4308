import Verif.Proofs.RoundTripLeaf

/-! Helper lemmas: relations between the states before and after writing that hold for all of the
encoder because they hold for its smallest parts. -/

namespace V8

/-- An object whose recording differs between encoder and decoder. -/
def Node.skews : Node → Bool
  | .regexp _ => true
  | .error _ _ _ cause => decide (cause = .null)
  | .sharedBuf _ => true
  | .transferBuf _ => true
  | _ => false

/-- A relation kept by every part of the encoder.  `Inv` holds at all times, `Cur x` from the moment
`deduplicate` has returned `x` until `x` is written. -/
structure WrClosed (env : EEnv) (Inv : WS → Prop) (Cur : Val → WS → Prop) (R : WS → WS → Prop) : Prop where
  refl : ∀ a, R a a
  trans : ∀ {a b c}, R a b → R b c → R a c
  data : ∀ ws bs, R ws { ws with data := ws.data ++ bs }
  allowed : ∀ ws c, R ws { ws with allowed := c }
  record : ∀ ws v, Cur v ws → R ws { ws with log := (ws.log.record v).1 }
  beginA : ∀ ws v, Cur v ws → R ws { ws with log := (ws.log.beginAcyclic v).1 }
  endA : ∀ ws n v, Cur v ws → R ws { ws with log := ws.log.endAcyclic n v }
  mark : ∀ (i : Id) n, env.heap[i]? = some n → n.skews = true → ∀ ws ws', markSkew ws = .ok ws' → R ws ws'
  note : ∀ ws ws' n, noteRef n ws = .ok ws' → R ws ws'
  cur : ∀ {a b v}, R a b → Cur v a → Cur v b
  curInv : ∀ {v ws}, Cur v ws → Inv ws
  inv : ∀ {a b}, R a b → Inv a → Inv b
  dedup : ∀ ws v, Inv ws → R ws (deduplicate env v ws).2 ∧ Cur (deduplicate env v ws).1 (deduplicate env v ws).2

/-- All runs of a part of writing `x` stay in the relation. -/
def Keeps (Cur : Val → WS → Prop) (R : WS → WS → Prop) (x : Val) (w : Wr) : Prop :=
  ∀ ws ws', Cur x ws → w ws = .ok ws' → R ws ws'

/-- All runs of the writer stay in the relation. -/
def Kept (Inv : WS → Prop) (R : WS → WS → Prop) (w : Wr) : Prop := ∀ ws ws', Inv ws → w ws = .ok ws' → R ws ws'

namespace WrClosed
variable {env : EEnv} {Inv : WS → Prop} {Cur : Val → WS → Prop} {R : WS → WS → Prop} {x : Val}
  (H : WrClosed env Inv Cur R)
include H

theorem keeps {w : Wr} (h : Kept Inv R w) : Keeps Cur R x w := fun _ _ hx hw => h _ _ (H.curInv hx) hw

theorem bind {f : Wr} {g : WS → Except EErr WS} (hf : Keeps Cur R x f) (hg : Keeps Cur R x g) :
    Keeps Cur R x (fun ws => f ws >>= g) := by
  intro ws ws' hx h
  obtain ⟨w1, h1, h2⟩ := Except.bind_eq_ok h
  have h3 := hf _ _ hx h1
  exact H.trans h3 (hg _ _ (H.cur h3 hx) h2)

theorem done : Keeps Cur R x (fun ws => .ok ws) := by
  intro ws ws' _ h
  cases h
  exact H.refl _

theorem emit (bs : Bytes) : Keeps Cur R x (emit bs) := by
  intro ws ws' _ h
  rw [emit_ok h]
  exact H.data ws bs

theorem emitE (r : Except EErr Bytes) : Keeps Cur R x (emitE r) := by
  intro ws ws' _ h
  obtain ⟨bs, _, e⟩ := emitE_ok h
  rw [e]
  exact H.data ws bs

theorem writeTag (t : Tag) : Keeps Cur R x (writeTag t) := by
  intro ws ws' _ h
  rw [(writeTag_ok h).1]
  exact H.data ws _

theorem writeTagged (t : Tag) (r : Except EErr Bytes) : Keeps Cur R x (writeTagged t r) := by
  intro ws ws' _ h
  obtain ⟨bs, _, e, _⟩ := writeTagged_ok h
  rw [e]
  exact H.data ws _

theorem writeConstant (t : Tag) : Keeps Cur R x (writeConstant t) := by
  intro ws ws' _ h
  rw [writeConstant_ok h]
  exact H.trans (H.data ws [t.byte]) (H.allowed _ none)

theorem recordRef : Keeps Cur R x (recordRef x) := by
  intro ws ws' hx h
  rw [recordRef_ok h]
  exact H.record ws x hx

theorem markSkew {i : Id} {n : Node} (hi : env.heap[i]? = some n) (hn : n.skews = true) :
    Keeps Cur R x markSkew := fun ws ws' _ h => H.mark i n hi hn ws ws' h

theorem writeDoubleTagged (y : F64) : Keeps Cur R x (writeDoubleTagged y) := H.bind (H.writeTag _) (H.emit _)

theorem writePrimObj (p : PrimObj) : Keeps Cur R x (writePrimObj p x) :=
  H.bind H.recordRef (H.bind (H.writeTag _) (H.emitE _))

theorem writeRegExp (r : RegExp) {i : Id} {r' : RegExp} (hi : env.heap[i]? = some (.regexp r')) :
    Keeps Cur R x (writeRegExp r) :=
  H.bind (H.markSkew hi rfl) (H.bind (H.writeTag _) (H.bind (H.writeTagged _ _) (H.emit _)))

theorem writeErrProto (name : Str) : Keeps Cur R x (writeErrProto name) := by
  intro ws ws' hx h
  unfold V8.writeErrProto at h
  split at h
  · exact H.done _ _ hx h
  · exact H.emit _ _ _ hx h

theorem writeErrText (t : ErrTag) (s : Option Str) : Keeps Cur R x (writeErrText t s) := by
  intro ws ws' hx h
  unfold V8.writeErrText at h
  split at h
  · exact H.done _ _ hx h
  · exact H.bind (H.emit _) (H.writeTagged _ _) _ _ hx h

theorem writeCause {rec : Val → Wr} (hr : ∀ v, Kept Inv R (rec v)) (c : Bool) (cause : Val) :
    Keeps Cur R x (writeCause c rec x cause) := by
  unfold V8.writeCause
  refine H.bind (H.emit _) ?_
  intro ws ws' hx h
  cases c with
  | true => exact H.bind H.recordRef (H.keeps (hr _)) _ _ hx h
  | false =>
    simp only [Bool.false_eq_true, if_false] at h
    split at h
    · simp at h
    · rename_i w1 h1
      cases h
      have h2 := H.beginA ws x hx
      have h3 := hr _ _ _ (H.curInv (H.cur h2 hx)) h1
      exact H.trans h2 (H.trans h3 (H.endA _ _ _ (H.cur h3 (H.cur h2 hx))))

theorem writeError {rec : Val → Wr} (hr : ∀ v, Kept Inv R (rec v)) (c : Bool) (name : Str)
    (message stack : Option Str) (cause : Val)
    (hi : cause = .null → ∃ (i : Id) (n : Node), env.heap[i]? = some n ∧ n.skews = true) :
    Keeps Cur R x (writeError c rec x name message stack cause) := by
  intro ws ws' hx h
  unfold V8.writeError at h
  by_cases hc : cause = .null
  · obtain ⟨i, n, h1, h2⟩ := hi hc
    simp only [if_pos hc] at h
    exact H.bind (H.markSkew h1 h2) (H.bind (H.writeTag _) (H.bind (H.writeErrProto _)
      (H.bind (H.writeErrText _ _) (H.bind (H.writeErrText _ _) (H.bind H.done (H.emit _)))))) _ _ hx h
  · simp only [if_neg hc] at h
    exact H.bind H.done (H.bind (H.writeTag _) (H.bind (H.writeErrProto _) (H.bind (H.writeErrText _ _)
      (H.bind (H.writeErrText _ _) (H.bind (H.writeCause hr c cause) (H.emit _)))))) _ _ hx h

theorem writeDate (py : PyEnv) (d : Int) : Keeps Cur R x (writeDate py d x) := by
  intro ws ws' hx h
  unfold V8.writeDate at h
  split at h
  · simp at h
  · exact H.bind H.recordRef (H.bind (H.writeTag _) (H.emit _)) _ _ hx h

theorem writeVals {rec : Val → Wr} (hr : ∀ v, Kept Inv R (rec v)) : ∀ l, Keeps Cur R x (writeVals rec l)
  | [] => H.done
  | v :: t => H.bind (H.keeps (hr v)) (writeVals hr t)

theorem writeEntries {rec : Val → Wr} (hr : ∀ v, Kept Inv R (rec v)) : ∀ l, Keeps Cur R x (writeEntries rec l)
  | [] => H.done
  | (k, v) :: t => H.bind (H.keeps (hr k)) (H.bind (H.keeps (hr v)) (writeEntries hr t))

theorem writeKey {rec : Val → Wr} (hr : ∀ v, Kept Inv R (rec v)) (k : Val) : Keeps Cur R x (writeKey rec k) := by
  intro ws ws' hx h
  obtain ⟨w1, h1, h2⟩ := Except.bind_eq_ok h
  cases h2
  exact H.trans (H.allowed ws _) (H.trans (hr _ _ _ (H.inv (H.allowed ws _) (H.curInv hx)) h1) (H.allowed _ _))

theorem writeProps {rec : Val → Wr} (hr : ∀ v, Kept Inv R (rec v)) : ∀ l, Keeps Cur R x (writeProps rec l)
  | [] => H.done
  | (k, v) :: t => H.bind (H.writeKey hr k) (H.bind (H.keeps (hr v)) (writeProps hr t))

theorem writeObjectProps {rec : Val → Wr} (hr : ∀ v, Kept Inv R (rec v)) (l : List (Val × Val)) (t : Tag) :
    Keeps Cur R x (writeObjectProps rec l t) := H.bind (H.writeProps hr l) (H.bind (H.writeTag _) (H.emit _))

theorem writeReference (v : Val) : Keeps Cur R x (writeReference v) := by
  intro ws ws' hx h
  unfold V8.writeReference at h
  split at h
  · simp at h
  · exact H.bind (fun a b _ h => H.note a b _ h) (H.bind (H.writeTag _) (H.emit _)) _ _ hx h

theorem writeFixedBuffer (data : Bytes) : Keeps Cur R x (writeFixedBuffer data x) :=
  H.bind H.recordRef (H.bind (H.writeTag _) (H.bind (H.emitE _) (H.emit _)))

theorem writeArrayBuffer (fs : Features) (b : ABuf) : Keeps Cur R x (writeArrayBuffer fs b x) := by
  intro ws ws' hx h
  unfold V8.writeArrayBuffer at h
  split at h
  · unfold writeResizableBuffer at h
    split at h
    · simp at h
    · exact H.bind H.recordRef (H.bind (H.writeTag _) (H.bind (H.emitE _) (H.bind (H.emitE _) (H.emit _)))) _ _ hx h
  · exact H.writeFixedBuffer _ _ _ hx h

theorem writeBufferId (t : Tag) (id : Int) {i : Id} {n : Node} (hi : env.heap[i]? = some n)
    (hn : n.skews = true) : Keeps Cur R x (writeBufferId t id x) := by
  intro ws ws' hx h
  unfold V8.writeBufferId at h
  split at h
  · simp at h
  · exact H.bind (H.markSkew hi hn) (H.bind H.recordRef (H.bind (H.writeTag _) (H.emit _))) _ _ hx h

theorem writeView (fs : Features) (v : View) (mv : Bytes) (r : Bool) : Keeps Cur R x (writeView fs v mv r x) := by
  intro ws ws' hx h
  unfold V8.writeView at h
  split at h
  · simp at h
  · exact H.bind H.recordRef (H.bind (H.writeTag _) (H.bind (H.emit _) (H.bind (H.emitE _)
      (H.bind (H.emitE _) (H.emit _))))) _ _ hx h

theorem serializeInt (n : Int) : Keeps Cur R x (serializeInt n) := by
  intro ws ws' hx h
  unfold V8.serializeInt at h
  repeat' split at h
  · exact H.writeTagged _ _ _ _ hx h
  · exact H.writeTagged _ _ _ _ hx h
  · exact H.writeDoubleTagged _ _ _ hx h
  · exact H.writeTagged _ _ _ _ hx h
  · exact H.writeTagged _ _ _ _ hx h

theorem writeDenseArray {rec : Val → Wr} (hr : ∀ v, Kept Inv R (rec v)) (els : List Val) (props : List (Val × Val)) :
    Keeps Cur R x (writeDenseArray rec els props x) :=
  H.bind H.recordRef (H.bind (H.writeTag _) (H.bind (H.emit _) (H.bind (H.writeVals hr _)
    (H.bind (H.writeProps hr _) (H.bind (H.writeTag _) (H.bind (H.emit _) (H.emit _)))))))

theorem writeSparseArray {rec : Val → Wr} (hr : ∀ v, Kept Inv R (rec v)) (items : List (Val × Val)) (n : Int) :
    Keeps Cur R x (writeSparseArray rec items n x) := by
  intro ws ws' hx h
  unfold V8.writeSparseArray at h
  split at h
  · simp at h
  · exact H.bind H.recordRef (H.bind (H.writeTag _) (H.bind (H.emit _)
      (H.bind (H.writeObjectProps hr _ _) (H.emit _)))) _ _ hx h

theorem serializeNode {rec next : Val → Wr} (hr : ∀ v, Kept Inv R (rec v)) (hn : Keeps Cur R x (next x))
    {i : Id} {n : Node} (hi : env.heap[i]? = some n) : Keeps Cur R x (serializeNode env rec next x n) := by
  cases n with
  | jsmap es =>
    exact H.bind H.recordRef (H.bind (H.writeTag _) (H.bind (H.writeEntries hr _) (H.bind (H.writeTag _) (H.emit _))))
  | jsset ms =>
    exact H.bind H.recordRef (H.bind (H.writeTag _) (H.bind (H.writeVals hr _) (H.bind (H.writeTag _) (H.emit _))))
  | jsobj o => exact H.bind H.recordRef (H.bind (H.writeTag _) (H.writeObjectProps hr _ _))
  | jsarr o =>
    intro ws ws' hx h
    simp only [V8.serializeNode, serializeJSArray] at h
    split at h
    · exact H.writeSparseArray hr _ _ _ _ hx h
    · exact H.writeDenseArray hr _ _ _ _ hx h
  | pylist els => exact H.writeDenseArray hr _ _
  | date d => exact H.writeDate _ _
  | primObj p => exact H.writePrimObj _
  | regexp r => exact H.writeRegExp r hi
  | error name message stack cause =>
    exact H.writeError hr _ _ _ _ _ fun hc => ⟨i, _, hi, by simp [Node.skews, hc]⟩
  | abuf b => exact H.writeArrayBuffer _ _
  | rawBuf m b => exact H.writeFixedBuffer _
  | sharedBuf id => exact H.writeBufferId _ _ hi rfl
  | transferBuf id => exact H.writeBufferId _ _ hi rfl
  | view b w =>
    intro ws ws' hx h
    simp only [V8.serializeNode] at h
    split at h
    · exact hn _ _ hx h
    · exact H.bind (H.keeps (hr _)) (H.writeView _ _ _ _) _ _ hx h
  | sharedRef id => exact H.bind H.recordRef (H.bind (H.writeTag _) (H.emitE _))
  | other => exact hn

theorem tagWriter {rec next : Val → Wr} (hr : ∀ v, Kept Inv R (rec v)) (hn : Keeps Cur R x (next x)) :
    Keeps Cur R x (tagWriter env rec x next) := by
  cases x with
  | hole => exact H.writeConstant _
  | undef => exact H.writeConstant _
  | null => exact H.writeConstant _
  | bool b => cases b <;> exact H.writeConstant _
  | int n => exact H.serializeInt _
  | float y => exact H.writeDoubleTagged _
  | str s => exact H.writeTagged _ _
  | bytes b => exact H.writeFixedBuffer _
  | obj i =>
    intro ws ws' hx h
    cases hi : env.heap[i]? with
    | none =>
      simp only [V8.tagWriter, hi] at h
      exact hn _ _ hx h
    | some n =>
      simp only [V8.tagWriter, hi] at h
      exact H.serializeNode hr hn hi _ _ hx h

theorem refsStep {next : Val → Wr} (hn : ∀ v, Keeps Cur R v (next v)) (v : Val) : Kept Inv R (refsStep env v next) := by
  intro ws ws' hi h
  unfold V8.refsStep at h
  obtain ⟨h1, h2⟩ := H.dedup ws v hi
  simp only at h
  split at h
  · exact H.trans h1 (H.writeReference _ _ _ h2 h)
  · exact H.trans h1 (hn _ _ _ h2 h)

/-- The whole encoder keeps the relation. -/
theorem encodeObject (f : Nat) : ∀ v, Kept Inv R (encodeObject env f v) := by
  induction f with
  | zero => intro v ws ws' _ h; simp [V8.encodeObject, encodeWith] at h
  | succ f ih =>
    intro v
    rw [encodeObject_succ]
    exact H.refsStep (fun u => H.tagWriter ih (fun _ _ _ h => by simp [unhandledValue] at h)) v

end WrClosed
end V8
