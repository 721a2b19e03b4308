import Verif.Proofs.DecodeLocal

/-!
# Data behind the value

For every tag but those of buffers and references, a successful run does not look at what follows it.
-/

namespace V8

/-- A successful run of `r` does not depend on added data. -/
def UncR {α : Type} (r : Rd α) : Prop := ∀ d p a p', r d p = .ok (a, p') →
  p ≤ p' ∧ (p' ≤ d.length → ∀ suf, r (d ++ suf) p = .ok (a, p'))

theorem uncR_closed : RdClosed0 @UncR where
  pure a := by
    intro d p b p' h
    simp only [Rd.pure_apply, Except.ok.injEq, Prod.mk.injEq] at h
    obtain ⟨rfl, rfl⟩ := h
    exact ⟨Nat.le_refl _, fun _ _ => rfl⟩
  bind {_ _ x f} hx hf := by
    intro d p b p' h
    obtain ⟨a, q, h1, h2⟩ := Rd.bind_eq_ok h
    obtain ⟨l1, k1⟩ := hx _ _ _ _ h1
    obtain ⟨l2, k2⟩ := hf _ _ _ _ _ h2
    refine ⟨by omega, fun hp suf => ?_⟩
    rw [Rd.bind_ok (k1 (by omega) suf)]
    exact k2 hp suf
  fail e := by intro d p b p' h; simp at h
  byteHere := by
    intro d p b p' h
    unfold V8.byteHere at h
    split at h
    · rename_i c hc
      simp only [Except.ok.injEq, Prod.mk.injEq] at h
      obtain ⟨rfl, rfl⟩ := h
      refine ⟨Nat.le_refl _, fun _ suf => ?_⟩
      exact byteHere_at (by rw [List.getElem?_append_left (List.getElem?_eq_some_iff.1 hc).1]; exact hc)
    · simp at h
  ensureCapacity n := by
    intro d p b p' h
    unfold V8.ensureCapacity at h ⊢
    split at h
    · simp at h
    · rename_i hn
      simp only [Except.ok.injEq, Prod.mk.injEq] at h
      obtain ⟨-, rfl⟩ := h
      refine ⟨Nat.le_refl _, fun _ suf => ?_⟩
      rw [if_neg (by simp only [List.length_append]; omega)]
  advance n := by
    intro d p b p' h
    simp only [V8.advance, Except.ok.injEq, Prod.mk.injEq] at h
    obtain ⟨-, rfl⟩ := h
    exact ⟨by omega, fun _ _ => rfl⟩
  takeHere n := by
    intro d p b p' h
    simp only [V8.takeHere, Except.ok.injEq, Prod.mk.injEq] at h
    obtain ⟨rfl, rfl⟩ := h
    refine ⟨by omega, fun hp suf => ?_⟩
    simp only [V8.takeHere]
    rw [drop_append_le (by omega), List.take_append_of_le_length (by simp only [List.length_drop]; omega)]
  readVarint mb := by
    intro d p b p' h
    have hr := readVarint_range h
    refine ⟨by omega, fun _ suf => ?_⟩
    unfold V8.readVarint at h ⊢
    rw [drop_append_le (by omega)]
    exact readVarintLoop_append h
  readPadding := by
    intro d p b p' h
    have hr := readPaddingLoop_pos h
    simp only [List.length_drop] at hr
    refine ⟨by omega, fun _ suf => ?_⟩
    unfold V8.readPadding at h ⊢
    rw [drop_append_le (by omega)]
    exact readPaddingLoop_append h
  checkFits n := by
    intro d p b p' h
    unfold V8.checkFits at h ⊢
    split at h
    · simp at h
    · rename_i hn
      simp only [Except.ok.injEq, Prod.mk.injEq] at h
      obtain ⟨-, rfl⟩ := h
      refine ⟨Nat.le_refl _, fun _ suf => ?_⟩
      rw [if_neg (by simp only [List.length_append]; omega)]
  checkFitsResizable n := by
    intro d p b p' h
    unfold V8.checkFitsResizable at h ⊢
    split at h
    · simp at h
    · rename_i hn
      simp only [Except.ok.injEq, Prod.mk.injEq] at h
      obtain ⟨-, rfl⟩ := h
      refine ⟨Nat.le_refl _, fun _ suf => ?_⟩
      rw [if_neg (by simp only [List.length_append]; omega)]

/-- A successful run of `r` consumes something. -/
def StrictR {α : Type} (r : Rd α) : Prop := ∀ d p a p', r d p = .ok (a, p') → p < p'

theorem StrictR.varint (mb : Option Nat) : StrictR (readVarint mb) :=
  fun _ _ _ _ h => (readVarint_range h).1

theorem StrictR.errTag : StrictR readErrTag := by
  intro d p a p' h
  unfold readErrTag at h
  obtain ⟨_, q, h1, h2⟩ := Rd.bind_eq_ok h
  obtain ⟨n, q2, h3, h4⟩ := Rd.bind_eq_ok h2
  have e1 := (uncR_closed.ensureCapacity 1 _ _ _ _ h1).1
  have e2 := (readVarint_range h3).1
  have e3 : UncR (errTagOf n) := by
    unfold errTagOf
    split
    · exact uncR_closed.pure _
    · exact uncR_closed.bind uncR_closed.byteHere fun _ => uncR_closed.fail _
  have := (e3 _ _ _ _ h4).1
  omega

theorem StrictR.tag (accept : Tag → Bool) : StrictR (readTag accept) := by
  intro d p a p' h
  unfold readTag at h
  obtain ⟨_, q, h1, h2⟩ := Rd.bind_eq_ok h
  obtain ⟨b, q2, h3, h4⟩ := Rd.bind_eq_ok h2
  obtain ⟨c, q3, h5, h6⟩ := Rd.bind_eq_ok h4
  have e1 := (uncR_closed.ensureCapacity 1 _ _ _ _ h1).1
  have e2 := (uncR_closed.byteHere _ _ _ _ h3).1
  have e3 := (uncR_closed.skipPadding b _ _ _ _ h5).1
  cases ht : Tag.ofByte c with
  | none => simp [ht] at h6
  | some t =>
    simp only [ht] at h6
    cases ha : accept t with
    | false => simp [ha] at h6
    | true =>
      simp only [ha, if_true] at h6
      obtain ⟨_, q4, h7, h8⟩ := Rd.bind_eq_ok h6
      simp only [V8.advance, Except.ok.injEq, Prod.mk.injEq] at h7
      simp only [Rd.pure_apply, Except.ok.injEq, Prod.mk.injEq] at h8
      omega

/-- A successful run of `x` that does not pass the end consumes at least `k` bytes and goes alike, as
a run of `y`, whatever is added behind. -/
def Unc {α : Type} (k : Nat) (x y : RM α) : Prop := ∀ d s a s', x d s = .ok (a, s') →
  s.pos + k ≤ s'.pos ∧ (s'.pos ≤ d.length → ∀ suf, y (d ++ suf) s = .ok (a, s'))

namespace Unc
variable {α β : Type} {rec rec' : Tag → RM Val}

theorem weaken {k l : Nat} {x y : RM α} (h : Unc k x y) (hl : l ≤ k) : Unc l x y := by
  intro d s a s' hx
  obtain ⟨h1, h2⟩ := h d s a s' hx
  exact ⟨by omega, h2⟩

theorem bind {k l : Nat} {x y : RM α} {f g : α → RM β} (hx : Unc k x y) (hf : ∀ a, Unc l (f a) (g a)) :
    Unc (k + l) (x >>= f) (y >>= g) := by
  intro d s b s' h
  obtain ⟨a, q, h1, h2⟩ := RM.bind_eq_ok h
  obtain ⟨l1, k1⟩ := hx _ _ _ _ h1
  obtain ⟨l2, k2⟩ := hf _ _ _ _ _ h2
  refine ⟨by omega, fun hp suf => ?_⟩
  rw [RM.bind_ok (k1 (by omega) suf)]
  exact k2 hp suf

/-- What is done before something is consumed need only be local up to the byte behind the end. -/
theorem last {l : Nat} {x y : RM α} {f g : α → RM β} (hx : Loc x y) (hf : ∀ a, Unc (l + 1) (f a) (g a)) :
    Unc (l + 1) (x >>= f) (y >>= g) := by
  intro d s b s' h
  obtain ⟨a, q, h1, h2⟩ := RM.bind_eq_ok h
  obtain ⟨l1, k1⟩ := hx _ _ _ _ h1
  obtain ⟨l2, k2⟩ := hf _ _ _ _ _ h2
  refine ⟨by omega, fun hp suf => ?_⟩
  rw [RM.bind_ok (k1 (by omega) suf (.inl (by omega)))]
  exact k2 hp suf

theorem of_const {x : RM α} (h : ∀ d d' s, x d s = x d' s)
    (hp : ∀ d s a s', x d s = .ok (a, s') → s'.pos = s.pos) : Unc 0 x x := by
  intro d s a s' hx
  refine ⟨by rw [hp _ _ _ _ hx]; exact Nat.le_refl _, fun _ suf => ?_⟩
  rw [h _ d]
  exact hx

theorem pure (a : α) : Unc 0 (Pure.pure a : RM α) (Pure.pure a) := of_const (fun _ _ _ => rfl) (by
  intro d s b s' h
  simp only [RM.pure_apply, Except.ok.injEq, Prod.mk.injEq] at h
  rw [h.2])

theorem fail {k : Nat} (e : DErr) (y : RM α) : Unc k (RM.fail e) y := by
  intro d s b s' h; simp at h

theorem lift {r : Rd α} (hr : UncR r) : Unc 0 (RM.lift r) (RM.lift r) := by
  intro d s b s' h
  obtain ⟨p, h1, rfl⟩ := RM.lift_eq_ok h
  obtain ⟨l, k⟩ := hr _ _ _ _ h1
  exact ⟨l, fun hp suf => RM.lift_ok (k hp suf)⟩

theorem lift1 {r : Rd α} (hr : UncR r) (hs : StrictR r) : Unc 1 (RM.lift r) (RM.lift r) := by
  intro d s b s' h
  obtain ⟨p, h1, rfl⟩ := RM.lift_eq_ok h
  obtain ⟨_, k⟩ := hr _ _ _ _ h1
  exact ⟨hs _ _ _ _ h1, fun hp suf => RM.lift_ok (k hp suf)⟩

theorem varint : Unc 1 (RM.lift (readVarint none)) (RM.lift (readVarint none)) :=
  lift1 (uncR_closed.readVarint _) (StrictR.varint _)

theorem errTag : Unc 1 (RM.lift readErrTag) (RM.lift readErrTag) :=
  lift1 uncR_closed.readErrTag StrictR.errTag

theorem anyTag (accept : Tag → Bool) : Unc 1 (RM.lift (readTag accept)) (RM.lift (readTag accept)) :=
  lift1 (uncR_closed.readTag _ _) (StrictR.tag _)

theorem alloc (n : Node) : Unc 0 (alloc n) (alloc n) := of_const (fun _ _ _ => rfl) (by
  intro d s b s' h
  simp only [V8.alloc, Except.ok.injEq, Prod.mk.injEq] at h
  rw [← h.2])

theorem tick : Unc 0 tick tick := of_const (fun _ _ _ => rfl) (by
  intro d s b s' h
  simp only [V8.tick, Except.ok.injEq, Prod.mk.injEq] at h
  rw [← h.2])

theorem setNode (i : Id) (n : Node) : Unc 0 (setNode i n) (setNode i n) := of_const (fun _ _ _ => rfl) (by
  intro d s b s' h
  simp only [V8.setNode, Except.ok.injEq, Prod.mk.injEq] at h
  rw [← h.2])

theorem recordD (v : Val) : Unc 0 (recordD v) (recordD v) := of_const (fun _ _ _ => rfl) (by
  intro d s b s' h
  simp only [V8.recordD, Except.ok.injEq, Prod.mk.injEq] at h
  rw [← h.2])

theorem replaceD (n : Nat) (v : Val) : Unc 0 (replaceD n v) (replaceD n v) :=
  of_const (fun _ _ _ => rfl) (by
    intro d s b s' h
    unfold V8.replaceD at h
    split at h
    · simp only [Except.ok.injEq, Prod.mk.injEq] at h
      rw [← h.2]
    · simp at h)

theorem getVersion : Unc 0 getVersion getVersion := of_const (fun _ _ _ => rfl) (by
  intro d s b s' h
  simp only [V8.getVersion, Except.ok.injEq, Prod.mk.injEq] at h
  rw [← h.2])

theorem getHeap : Unc 0 getHeap getHeap := of_const (fun _ _ _ => rfl) (by
  intro d s b s' h
  simp only [V8.getHeap, Except.ok.injEq, Prod.mk.injEq] at h
  rw [← h.2])

theorem loop {l : Nat} {k k' : Nat → RM β} (hk : ∀ n m, n ≤ m → Unc l (k n) (k' m)) :
    Unc l (loopFuel >>= k) (loopFuel >>= k') := by
  intro d s b s' h
  have h0 : loopFuel d s = .ok (d.length - s.pos + 1, s) := rfl
  rw [RM.bind_ok h0] at h
  refine ⟨(hk _ _ (Nat.le_refl _) _ _ _ _ h).1, fun hp suf => ?_⟩
  have h1 : loopFuel (d ++ suf) s = .ok ((d ++ suf).length - s.pos + 1, s) := rfl
  rw [RM.bind_ok h1]
  exact (hk _ _ (by simp only [List.length_append]; omega) _ _ _ _ h).2 hp suf

theorem orRaise (x : Except PyExc α) : Unc 0 (orRaise x) (orRaise x) := by
  cases x with
  | ok a => exact pure a
  | error e => exact fail _ _

theorem checkCount (n m : Nat) : Unc 0 (checkCount n m) (checkCount n m) := by
  unfold V8.checkCount
  split
  · exact fail _ _
  · exact pure _

theorem assertStr (v : Val) : Unc 0 (assertStr v) (assertStr v) := by
  cases v <;> first | exact pure _ | exact fail _ _

theorem decodePrimObj (t : Tag) : Unc 0 (decodePrimObj t) (decodePrimObj t) :=
  bind (lift (uncR_closed.readPrimObj t)) fun _ => bind (alloc _) fun _ => bind (recordD _) fun _ =>
    bind (replaceD _ _) fun _ => pure _

variable (hr : ∀ t, Loc (rec t) (rec' t))
include hr

theorem decodeRegExp : Unc 0 (decodeRegExp rec) (decodeRegExp rec') :=
  weaken (bind (k := 1) (l := 1) (anyTag _) fun _ => last (l := 0) (hr _) fun _ =>
    bind (k := 0) (l := 1) (assertStr _) fun _ =>
      bind (k := 1) (l := 0) varint fun _ => bind (orRaise _) fun _ => bind (alloc _) fun _ =>
        bind (recordD _) fun _ => pure _) (Nat.zero_le _)

theorem readErrText (want etag : ErrTag) :
    Unc 0 (readErrText rec want etag) (readErrText rec' want etag) := by
  unfold V8.readErrText
  split
  · exact weaken (bind (k := 1) (l := 1) (anyTag _) fun _ => last (l := 0) (hr _) fun _ =>
      bind (k := 1) (l := 0) errTag fun _ => bind (assertStr _) fun _ => pure _) (Nat.zero_le _)
  · exact pure _

theorem readErrCause (etag : ErrTag) : Unc 0 (readErrCause rec etag) (readErrCause rec' etag) := by
  unfold V8.readErrCause
  split
  · exact weaken (last (l := 0) (loc_closed.decodeNext hr) fun _ =>
      bind (k := 1) (l := 0) errTag fun _ => pure _) (Nat.zero_le _)
  · exact pure _

theorem decodeError : Unc 0 (decodeError rec) (decodeError rec') := by
  refine weaken (bind (k := 1) (l := 0) errTag fun _ => bind (lift (uncR_closed.readAfterName _)) fun _ =>
    bind (readErrText hr _ _) fun _ => bind (readErrText hr _ _) fun _ =>
      bind (alloc _) fun _ => bind (recordD _) fun _ => bind (readErrCause hr _) fun _ =>
        bind (k := 0) (l := 0) ?_ fun _ => bind (k := 0) (l := 0) ?_ fun _ => bind (setNode _ _) fun _ => pure _) (Nat.zero_le _)
  · unfold V8.readLateStack
    split
    · exact readErrText hr _ _
    · exact pure _
  · unfold V8.checkErrEnd
    split
    · exact fail _ _
    · exact pure _

theorem decodeJSMap : Unc 0 (decodeJSMap rec) (decodeJSMap rec') :=
  weaken (bind (k := 0) (l := 1) (alloc _) fun _ => bind (k := 0) (l := 1) (recordD _) fun _ =>
    loop fun n m h => last (l := 0) (loc_closed.mapLoop hr n m h _ _) fun _ =>
      bind (k := 1) (l := 0) varint fun _ => bind (checkCount _ _) fun _ => bind (setNode _ _) fun _ =>
        pure _) (Nat.zero_le _)

theorem decodeJSSet : Unc 0 (decodeJSSet rec) (decodeJSSet rec') :=
  weaken (bind (k := 0) (l := 1) (alloc _) fun _ => bind (k := 0) (l := 1) (recordD _) fun _ =>
    loop fun n m h => last (l := 0) (loc_closed.setLoop hr n m h _ _) fun _ =>
      bind (k := 1) (l := 0) varint fun _ => bind (checkCount _ _) fun _ => bind (setNode _ _) fun _ =>
        pure _) (Nat.zero_le _)

theorem readProps (env : DEnv) (e : Tag) (o : JSObj Val) :
    Unc 1 (readProps env rec e o) (readProps env rec' e o) :=
  loop fun n m h => last (l := 0) (loc_closed.propsLoop env hr e n m h _ _) fun _ =>
    bind (k := 1) (l := 0) varint fun _ => bind (checkCount _ _) fun _ => pure _

theorem decodeJSObject (env : DEnv) : Unc 0 (decodeJSObject env rec) (decodeJSObject env rec') :=
  weaken (bind (k := 0) (l := 1) (alloc _) fun _ => bind (k := 0) (l := 1) (recordD _) fun _ =>
    bind (k := 1) (l := 0) (readProps hr env _ _) fun _ => bind (setNode _ _) fun _ => pure _) (Nat.zero_le _)

theorem decodeDenseArray (env : DEnv) : Unc 0 (decodeDenseArray env rec) (decodeDenseArray env rec') :=
  weaken (bind (k := 0) (l := 2) (alloc _) fun _ => bind (k := 0) (l := 2) (recordD _) fun _ =>
    bind (k := 1) (l := 1) varint fun _ => last (l := 0) (loc_closed.elemsLoop env hr _ _ _) fun _ =>
      bind (k := 1) (l := 0) (readProps hr env _ _) fun _ =>
        weaken (bind (k := 1) (l := 0) varint fun _ => bind (checkCount _ _) fun _ =>
          bind (setNode _ _) fun _ => pure _) (Nat.zero_le _)) (Nat.zero_le _)

theorem decodeSparseArray (env : DEnv) : Unc 0 (decodeSparseArray env rec) (decodeSparseArray env rec') :=
  weaken (bind (k := 0) (l := 2) (alloc _) fun _ => bind (k := 0) (l := 2) (recordD _) fun _ =>
    bind (k := 1) (l := 1) varint fun _ => last (l := 0) (loc_closed.resizeTo env _ _) fun _ =>
      bind (k := 1) (l := 0) (readProps hr env _ _) fun _ =>
        weaken (bind (k := 1) (l := 0) varint fun _ => bind (checkCount _ _) fun _ =>
          bind (setNode _ _) fun _ => pure _) (Nat.zero_le _)) (Nat.zero_le _)

omit hr

theorem readArrayBuffer (t : Tag) : Unc 0 (readArrayBuffer t) (readArrayBuffer t) := by
  unfold V8.readArrayBuffer
  split
  · exact bind (lift uncR_closed.readFixedContents) fun _ => bind (orRaise _) fun _ =>
      bind (alloc _) fun _ => bind (recordD _) fun _ => pure _
  · exact bind (lift uncR_closed.readResizableContents) fun _ => bind (orRaise _) fun _ =>
      bind (alloc _) fun _ => bind (recordD _) fun _ => pure _
  · exact bind (lift uncR_closed.readUint32) fun _ => bind (alloc _) fun _ => pure _
  · exact bind (lift uncR_closed.readUint32) fun _ => bind (alloc _) fun _ => pure _
  · exact fail _ _

theorem readView (b : Val) : Unc 1 (readView b) (readView b) := by
  refine bind (k := 1) (l := 0) (anyTag _) fun _ => weaken (bind (k := 1) (l := 0) varint fun _ =>
    bind (k := 0) (l := 0) ?_ fun _ => bind (lift uncR_closed.readUint32) fun _ =>
      bind (lift uncR_closed.readUint32) fun _ => bind getVersion fun _ => bind (k := 0) (l := 0) ?_ fun _ =>
        bind getHeap fun _ => bind (orRaise _) fun _ => bind (alloc _) fun _ => bind (recordD _) fun _ =>
          pure _) (Nat.zero_le _)
  · unfold V8.viewTagOf
    split
    · exact pure _
    · exact fail _ _
  · unfold V8.readViewFlags
    split
    · exact weaken (bind (k := 1) (l := 0) varint fun _ => orRaise _) (Nat.zero_le _)
    · exact pure _

theorem decodeHostObject (env : DEnv) : Unc 0 (decodeHostObject env) (decodeHostObject env) := by
  unfold V8.decodeHostObject
  split
  · exact bind (lift uncR_closed.readNodeContents) fun _ => bind (orRaise _) fun _ =>
      bind (alloc _) fun _ => bind (orRaise _) fun _ => bind (alloc _) fun _ => pure _
  · exact fail _ _

/-- Tags of buffers and references: what follows is looked at. -/
def Peeks (t : Tag) : Prop := t ∈ jsArrayBufferTags ∨ t = .kObjectReference

theorem tagReader (env : DEnv) (hr : ∀ t, Loc (rec t) (rec' t)) (t : Tag) (ht : ¬ Peeks t) :
    Unc 0 (tagReader env rec t unhandledTag) (tagReader env rec' t unhandledTag) := by
  cases t <;> first
    | exact absurd (Or.inl (by decide)) ht
    | exact absurd (Or.inr rfl) ht
    | exact fail _ _
    | exact pure _
    | exact bind (lift uncR_closed.readDouble) fun _ => pure _
    | exact bind (lift uncR_closed.readStringOneByte) fun _ => pure _
    | exact bind (lift uncR_closed.readStringTwoByte) fun _ => pure _
    | exact bind (lift uncR_closed.readStringUtf8) fun _ => pure _
    | exact bind (lift uncR_closed.readBigint) fun _ => pure _
    | exact bind (lift uncR_closed.readInt32) fun _ => pure _
    | exact bind (lift uncR_closed.readUint32) fun _ => pure _
    | exact decodeRegExp hr
    | exact decodeJSMap hr
    | exact decodeJSSet hr
    | exact decodeJSObject hr env
    | exact decodeDenseArray hr env
    | exact decodeSparseArray hr env
    | exact decodePrimObj _
    | exact decodeError hr
    | exact bind (lift uncR_closed.readDouble) fun _ => bind (orRaise _) fun _ =>
        bind (alloc _) fun _ => bind (recordD _) fun _ => pure _
    | exact bind (lift uncR_closed.readUint32) fun _ => bind (alloc _) fun _ => bind (recordD _) fun _ => pure _
    | exact decodeHostObject env

theorem decodeTag (env : DEnv) (f f' : Nat) (hf : f ≤ f') (t : Tag) (ht : ¬ Peeks t) :
    Unc 0 (decodeTag env f t) (decodeTag env f' t) := by
  cases f with
  | zero => exact fail _ _
  | succ f =>
    obtain ⟨g, rfl⟩ : ∃ g, f' = g + 1 := ⟨f' - 1, by omega⟩
    rw [decodeTag_succ, decodeTag_succ]
    exact bind tick fun _ => tagReader env (fun t => loc_closed.decodeTag env f g (by omega) t) t ht

end Unc
end V8
