import Verif.Proofs.DecodeRel

/-!
# The decoder depends only on the bytes it reads

`Loc`: more data behind does not change a successful run (apart from a `V` right behind the end,
which the decoder peeks at).  `Shf`: what lies before the position does not matter.
-/

namespace V8

/-! ## Leaf readers -/

/-- Closure of a predicate on readers under the ways readers are built, apart from peeking. -/
structure RdClosed0 (P : {α : Type} → Rd α → Prop) : Prop where
  pure : ∀ {α : Type} (a : α), P (Pure.pure a)
  bind : ∀ {α β : Type} {x : Rd α} {f : α → Rd β}, P x → (∀ a, P (f a)) → P (x >>= f)
  fail : ∀ {α : Type} (e : DErr), P (Rd.fail e : Rd α)
  byteHere : P byteHere
  ensureCapacity : ∀ n, P (ensureCapacity n)
  advance : ∀ n, P (advance n)
  takeHere : ∀ n, P (takeHere n)
  readVarint : ∀ mb, P (readVarint mb)
  readPadding : P readPadding
  checkFits : ∀ n, P (checkFits n)
  checkFitsResizable : ∀ n, P (checkFitsResizable n)

/-- Closure of a predicate on readers under the ways readers are built. -/
structure RdClosed (P : {α : Type} → Rd α → Prop) : Prop extends RdClosed0 P where
  peakIsView : P peakIsView

namespace RdClosed0
variable {P : {α : Type} → Rd α → Prop} (H : RdClosed0 P)
include H

theorem skipPadding (b : UInt8) : P (skipPadding b) := by
  unfold V8.skipPadding
  split
  · exact H.bind (H.advance _) fun _ => H.bind H.readPadding fun _ => H.byteHere
  · exact H.pure _

theorem readTag (accept : Tag → Bool) (c : Bool) : P (readTag accept c) := by
  refine H.bind (H.ensureCapacity _) fun _ => H.bind H.byteHere fun _ => H.bind (H.skipPadding _) fun _ => ?_
  split
  · split
    · exact H.bind (H.advance _) fun _ => H.pure _
    · exact H.fail _
  · exact H.fail _

theorem readBytes (n : Nat) : P (readBytes n) :=
  H.bind (H.ensureCapacity n) fun _ => H.takeHere n

theorem readUint32 : P readUint32 := by
  refine H.bind (H.readVarint _) fun _ => ?_
  split
  · exact H.pure _
  · exact H.fail _

theorem readInt32 : P readInt32 := by
  refine H.bind (H.bind (H.readVarint _) fun _ => H.pure _) fun _ => ?_
  split
  · exact H.pure _
  · exact H.fail _

theorem readBigint : P readBigint := by
  refine H.bind (H.readVarint _) fun _ => H.bind (H.readBytes _) fun _ => ?_
  split <;> exact H.pure _

theorem readDouble : P readDouble :=
  H.bind (H.ensureCapacity _) fun _ => H.bind (H.readBytes _) fun _ => H.pure _

theorem readStringOneByte : P readStringOneByte :=
  H.bind (H.readVarint _) fun _ => H.bind (H.ensureCapacity _) fun _ => H.bind (H.readBytes _) fun _ =>
    H.pure _

theorem readStringTwoByte : P readStringTwoByte := by
  refine H.bind (H.readVarint _) fun _ => H.bind (H.readBytes _) fun _ => ?_
  split
  · exact H.pure _
  · exact H.fail _

theorem readStringUtf8 : P readStringUtf8 := by
  refine H.bind (H.readVarint _) fun _ => H.bind (H.readBytes _) fun _ => ?_
  split
  · exact H.pure _
  · exact H.fail _

theorem readErrTag : P readErrTag := by
  refine H.bind (H.ensureCapacity _) fun _ => H.bind (H.readVarint _) fun _ => ?_
  unfold errTagOf
  split
  · exact H.pure _
  · exact H.bind H.byteHere fun _ => H.fail _

theorem readPrimObj (t : Tag) : P (readPrimObj t) := by
  unfold V8.readPrimObj
  split
  · exact H.pure _
  · exact H.pure _
  · exact H.bind H.readDouble fun _ => H.pure _
  · exact H.bind H.readBigint fun _ => H.pure _
  · exact H.bind H.readStringUtf8 fun _ => H.pure _
  · exact H.fail _

theorem readAfterName (e : ErrTag) : P (readAfterName e) := by
  unfold V8.readAfterName
  split
  · exact H.readErrTag
  · exact H.pure _

theorem readFixedContents : P readFixedContents :=
  H.bind H.readUint32 fun _ => H.bind (H.checkFits _) fun _ => H.takeHere _

theorem readResizableContents : P readResizableContents := by
  refine H.bind H.readUint32 fun _ => H.bind (H.checkFitsResizable _) fun _ => H.bind H.readUint32 fun _ =>
    H.bind ?_ fun _ => H.bind (H.takeHere _) fun _ => H.pure _
  unfold checkMax
  split
  · exact H.fail _
  · exact H.pure _

theorem readNodeContents : P readNodeContents := by
  refine H.bind H.readUint32 fun _ => H.bind H.readUint32 fun _ => H.bind ?_ fun _ =>
    H.bind (H.checkFits _) fun _ => H.bind (H.takeHere _) fun _ => H.pure _
  unfold nodeViewTag
  split
  · exact H.pure _
  · exact H.fail _

theorem leaf (hp : P peakIsView) {α : Type} {r : Rd α} (h : Leaf r) : P r := by
  cases h with
  | anyTag => exact H.readTag _ _
  | thisTag t => exact H.readTag _ _
  | tagIn c => exact H.readTag _ _
  | varint => exact H.readVarint _
  | uint32 => exact H.readUint32
  | int32 => exact H.readInt32
  | bigint => exact H.readBigint
  | double => exact H.readDouble
  | oneByte => exact H.readStringOneByte
  | twoByte => exact H.readStringTwoByte
  | utf8 => exact H.readStringUtf8
  | primObj t => exact H.readPrimObj t
  | errTag => exact H.readErrTag
  | afterName e => exact H.readAfterName e
  | fixed => exact H.readFixedContents
  | resizable => exact H.readResizableContents
  | node => exact H.readNodeContents
  | peak => exact hp

theorem readHeader : P readHeader := by
  refine H.bind (H.readTag _ _) fun _ => H.bind (H.readVarint _) fun _ => ?_
  split
  · exact H.fail _
  · exact H.pure _

end RdClosed0

theorem RdClosed.leaf {P : {α : Type} → Rd α → Prop} (H : RdClosed P) {α : Type} {r : Rd α} (h : Leaf r) :
    P r := H.toRdClosed0.leaf H.peakIsView h

/-! ## More data behind -/

/-- The position stands before the end, or the added data does not begin with `V`. -/
def NoView (p : Nat) (d suf : Bytes) : Prop := p < d.length ∨ suf.head? ≠ some 0x56

def LocR {α : Type} (r : Rd α) : Prop := ∀ d p a p', r d p = .ok (a, p') →
  p ≤ p' ∧ (p' ≤ d.length → ∀ suf, NoView p' d suf → r (d ++ suf) p = .ok (a, p'))

theorem NoView.mono {p q : Nat} {d suf : Bytes} (h : NoView q d suf) (hpq : p ≤ q) : NoView p d suf := by
  rcases h with h | h
  · exact .inl (by omega)
  · exact .inr h

theorem readVarintLoop_append {mb : Option Nat} {bs suf : Bytes} {off acc p v p' : Nat}
    (h : readVarintLoop mb bs off acc p = .ok (v, p')) :
    readVarintLoop mb (bs ++ suf) off acc p = .ok (v, p') := by
  induction bs generalizing off acc p with
  | nil => simp [readVarintLoop] at h
  | cons b bs ih =>
    simp only [List.cons_append, readVarintLoop] at h ⊢
    split at h
    · rename_i hb
      rw [if_pos hb]
      exact h
    · rename_i hb
      rw [if_neg hb]
      cases mb with
      | none => exact ih h
      | some m =>
        simp only at h ⊢
        split at h
        · simp at h
        · rename_i hm
          rw [if_neg hm]
          exact ih h

theorem readPaddingLoop_append {bs suf : Bytes} {p : Nat} {r : Unit × Nat}
    (h : readPaddingLoop bs p = .ok r) : readPaddingLoop (bs ++ suf) p = .ok r := by
  induction bs generalizing p with
  | nil => simp [readPaddingLoop] at h
  | cons b bs ih =>
    simp only [List.cons_append, readPaddingLoop] at h ⊢
    split at h
    · rename_i hb
      rw [if_pos hb]
      exact h
    · rename_i hb
      rw [if_neg hb]
      exact ih h

theorem readPaddingLoop_pos {bs : Bytes} {p : Nat} {u : Unit} {p' : Nat}
    (h : readPaddingLoop bs p = .ok (u, p')) : p ≤ p' ∧ p' < p + bs.length := by
  induction bs generalizing p with
  | nil => simp [readPaddingLoop] at h
  | cons b bs ih =>
    simp only [readPaddingLoop] at h
    split at h
    · simp only [Except.ok.injEq, Prod.mk.injEq] at h
      simp only [List.length_cons]
      omega
    · have := ih h
      simp only [List.length_cons]
      omega

theorem readVarintLoop_range {mb : Option Nat} {bs : Bytes} {off acc p v p' : Nat}
    (h : readVarintLoop mb bs off acc p = .ok (v, p')) : p < p' ∧ p' ≤ p + bs.length := by
  induction bs generalizing off acc p with
  | nil => simp [readVarintLoop] at h
  | cons b bs ih =>
    simp only [readVarintLoop] at h
    simp only [List.length_cons]
    split at h
    · simp only [Except.ok.injEq, Prod.mk.injEq] at h
      omega
    · cases mb with
      | none =>
        have := ih h
        omega
      | some m =>
        simp only at h
        split at h
        · simp at h
        · have := ih h
          omega

theorem readVarint_range {mb : Option Nat} {d : Bytes} {p v p' : Nat}
    (h : readVarint mb d p = .ok (v, p')) : p < p' ∧ p' ≤ d.length := by
  have h1 := readVarintLoop_range h
  simp only [List.length_drop] at h1
  omega

theorem drop_append_le {d suf : Bytes} {p : Nat} (h : p ≤ d.length) :
    (d ++ suf).drop p = d.drop p ++ suf := by
  rw [List.drop_append, Nat.sub_eq_zero_of_le h, List.drop_zero]

theorem locR_closed : RdClosed @LocR where
  pure a := by
    intro d p b p' h
    simp only [Rd.pure_apply, Except.ok.injEq, Prod.mk.injEq] at h
    obtain ⟨rfl, rfl⟩ := h
    exact ⟨Nat.le_refl _, fun _ _ _ => rfl⟩
  bind {_ _ x f} hx hf := by
    intro d p b p' h
    obtain ⟨a, q, h1, h2⟩ := Rd.bind_eq_ok h
    obtain ⟨l1, k1⟩ := hx _ _ _ _ h1
    obtain ⟨l2, k2⟩ := hf _ _ _ _ _ h2
    refine ⟨by omega, fun hp suf hs => ?_⟩
    rw [Rd.bind_ok (k1 (by omega) suf (hs.mono l2))]
    exact k2 hp suf hs
  fail e := by intro d p b p' h; simp at h
  byteHere := by
    intro d p b p' h
    unfold V8.byteHere at h
    split at h
    · rename_i c hc
      simp only [Except.ok.injEq, Prod.mk.injEq] at h
      obtain ⟨rfl, rfl⟩ := h
      refine ⟨Nat.le_refl _, fun _ suf _ => ?_⟩
      exact byteHere_at (by rw [List.getElem?_append_left (List.getElem?_eq_some_iff.1 hc).1]; exact hc)
    · simp at h
  ensureCapacity n := by
    intro d p b p' h
    unfold V8.ensureCapacity at h ⊢
    split at h
    · simp at h
    · rename_i hn
      simp only [Except.ok.injEq, Prod.mk.injEq] at h
      obtain ⟨-, rfl⟩ := h
      refine ⟨Nat.le_refl _, fun _ suf _ => ?_⟩
      rw [if_neg (by simp only [List.length_append]; omega)]
  advance n := by
    intro d p b p' h
    simp only [V8.advance, Except.ok.injEq, Prod.mk.injEq] at h
    obtain ⟨-, rfl⟩ := h
    exact ⟨by omega, fun _ _ _ => rfl⟩
  takeHere n := by
    intro d p b p' h
    simp only [V8.takeHere, Except.ok.injEq, Prod.mk.injEq] at h
    obtain ⟨rfl, rfl⟩ := h
    refine ⟨by omega, fun hp suf _ => ?_⟩
    simp only [V8.takeHere]
    rw [drop_append_le (by omega), List.take_append_of_le_length (by simp only [List.length_drop]; omega)]
  readVarint mb := by
    intro d p b p' h
    have hr := readVarint_range h
    refine ⟨by omega, fun _ suf _ => ?_⟩
    unfold V8.readVarint at h ⊢
    rw [drop_append_le (by omega)]
    exact readVarintLoop_append h
  readPadding := by
    intro d p b p' h
    have hr := readPaddingLoop_pos h
    simp only [List.length_drop] at hr
    refine ⟨by omega, fun _ suf _ => ?_⟩
    unfold V8.readPadding at h ⊢
    rw [drop_append_le (by omega)]
    exact readPaddingLoop_append h
  checkFits n := by
    intro d p b p' h
    unfold V8.checkFits at h ⊢
    split at h
    · simp at h
    · rename_i hn
      simp only [Except.ok.injEq, Prod.mk.injEq] at h
      obtain ⟨-, rfl⟩ := h
      refine ⟨Nat.le_refl _, fun _ suf _ => ?_⟩
      rw [if_neg (by simp only [List.length_append]; omega)]
  checkFitsResizable n := by
    intro d p b p' h
    unfold V8.checkFitsResizable at h ⊢
    split at h
    · simp at h
    · rename_i hn
      simp only [Except.ok.injEq, Prod.mk.injEq] at h
      obtain ⟨-, rfl⟩ := h
      refine ⟨Nat.le_refl _, fun _ suf _ => ?_⟩
      rw [if_neg (by simp only [List.length_append]; omega)]
  peakIsView := by
    intro d p b p' h
    unfold V8.peakIsView at h
    obtain ⟨t, q, h1, h2⟩ := Rd.bind_eq_ok h
    simp only [Rd.pure_apply, Except.ok.injEq, Prod.mk.injEq] at h2
    obtain ⟨rfl, rfl⟩ := h2
    unfold peakTag at h1
    split at h1
    · rename_i hp
      simp only [Except.ok.injEq, Prod.mk.injEq] at h1
      obtain ⟨rfl, rfl⟩ := h1
      refine ⟨Nat.le_refl _, fun _ suf hs => ?_⟩
      have hs : suf.head? ≠ some 0x56 := by
        rcases hs with hs | hs
        · omega
        · exact hs
      cases suf with
      | nil =>
        have : peakTag (d ++ []) p = .ok (none, p) := by simp [peakTag, hp]
        unfold V8.peakIsView
        rw [Rd.bind_ok this]
        rfl
      | cons c suf =>
        have : peakTag (d ++ c :: suf) p = .ok (Tag.ofByte c, p) := by
          unfold peakTag
          rw [if_neg (by simp [hp]), hp]
          simp
        unfold V8.peakIsView
        rw [Rd.bind_ok this]
        have hne : Tag.ofByte c ≠ some .kArrayBufferView := by
          intro he
          have := Tag.byte_of_ofByte he
          apply hs
          simp only [List.head?_cons, Option.some.injEq]
          rw [← this]; rfl
        simp [hne]
    · split at h1
      · rename_i hp c hc
        simp only [Except.ok.injEq, Prod.mk.injEq] at h1
        obtain ⟨rfl, rfl⟩ := h1
        have hlt := (List.getElem?_eq_some_iff.1 hc).1
        refine ⟨Nat.le_refl _, fun _ suf hs => ?_⟩
        have : peakTag (d ++ suf) p = .ok (Tag.ofByte c, p) := by
          unfold peakTag
          rw [if_neg (by simp only [List.length_append]; omega), List.getElem?_append_left hlt, hc]
        unfold V8.peakIsView
        rw [Rd.bind_ok this]
        rfl
      · simp at h1

/-! ## Computations -/

theorem RM.bind_eq_ok {α β : Type} {x : RM α} {f : α → RM β} {d s r}
    (h : (x >>= f) d s = .ok r) : ∃ a s', x d s = .ok (a, s') ∧ f a d s' = .ok r := by
  change RM.bind x f d s = _ at h
  unfold RM.bind at h
  split at h
  · exact ⟨_, _, by assumption, h⟩
  · simp at h

theorem RM.bind_ok {α β : Type} {x : RM α} {f : α → RM β} {d s a s'}
    (h : x d s = .ok (a, s')) : (x >>= f) d s = f a d s' := by
  show RM.bind x f d s = _
  simp [RM.bind, h]

theorem RM.bind_error {α β : Type} {x : RM α} {f : α → RM β} {d s e}
    (h : x d s = .error e) : (x >>= f) d s = .error e := by
  show RM.bind x f d s = _
  simp [RM.bind, h]

@[simp] theorem RM.pure_apply {α : Type} (a : α) (d s) : (Pure.pure a : RM α) d s = .ok (a, s) := rfl
@[simp] theorem RM.pure_apply' {α : Type} (a : α) (d s) : (RM.pure a : RM α) d s = .ok (a, s) := rfl
@[simp] theorem RM.fail_apply {α : Type} (e : DErr) (d s) : (RM.fail e : RM α) d s = .error e := rfl

theorem RM.lift_ok {α : Type} {r : Rd α} {d : Bytes} {s : DS} {a : α} {p : Nat}
    (h : r d s.pos = .ok (a, p)) : RM.lift r d s = .ok (a, { s with pos := p }) := by
  simp [RM.lift, h]

theorem RM.lift_error {α : Type} {r : Rd α} {d : Bytes} {s : DS} {e : DErr}
    (h : r d s.pos = .error e) : RM.lift r d s = .error e := by
  simp [RM.lift, h]

theorem RM.lift_eq_ok {α : Type} {r : Rd α} {d : Bytes} {s s' : DS} {a : α}
    (h : RM.lift r d s = .ok (a, s')) : ∃ p, r d s.pos = .ok (a, p) ∧ s' = { s with pos := p } := by
  unfold RM.lift at h
  split at h
  · simp only [Except.ok.injEq, Prod.mk.injEq] at h
    obtain ⟨rfl, rfl⟩ := h
    exact ⟨_, by assumption, rfl⟩
  · simp at h

/-- The run of `x` that succeeds without passing the end succeeds alike, as a run of `y`, when data
is added behind. -/
def Loc {α : Type} (x y : RM α) : Prop := ∀ d s a s', x d s = .ok (a, s') →
  s.pos ≤ s'.pos ∧ (s'.pos ≤ d.length → ∀ suf, NoView s'.pos d suf → y (d ++ suf) s = .ok (a, s'))

theorem Loc.of_const {α : Type} {x : RM α} (h : ∀ d d' s, x d s = x d' s)
    (hp : ∀ d s a s', x d s = .ok (a, s') → s'.pos = s.pos) : Loc x x := by
  intro d s a s' hx
  refine ⟨by rw [hp _ _ _ _ hx]; exact Nat.le_refl _, fun _ suf _ => ?_⟩
  rw [h _ d]
  exact hx

theorem Loc.bind {α β : Type} {x y : RM α} {f g : α → RM β} (hx : Loc x y) (hf : ∀ a, Loc (f a) (g a)) :
    Loc (x >>= f) (y >>= g) := by
  intro d s b s' h
  obtain ⟨a, q, h1, h2⟩ := RM.bind_eq_ok h
  obtain ⟨l1, k1⟩ := hx _ _ _ _ h1
  obtain ⟨l2, k2⟩ := hf _ _ _ _ _ h2
  refine ⟨by omega, fun hp suf hs => ?_⟩
  rw [RM.bind_ok (k1 (by omega) suf (hs.mono l2))]
  exact k2 hp suf hs

theorem Loc.getHeap : Loc getHeap getHeap := Loc.of_const (fun _ _ _ => rfl) (by
  intro d s b s' h
  simp only [V8.getHeap, Except.ok.injEq, Prod.mk.injEq] at h
  rw [← h.2])

theorem loc_closed : RelClosed @Loc where
  pure a := Loc.of_const (fun _ _ _ => rfl) (by
    intro d s b s' h
    simp only [RM.pure_apply, Except.ok.injEq, Prod.mk.injEq] at h
    rw [h.2])
  bind := Loc.bind
  fail e := by intro d s b s' h; simp at h
  fuelLeft y := by intro d s b s' h; simp at h
  leaf hr := by
    intro d s b s' h
    obtain ⟨p, h1, rfl⟩ := RM.lift_eq_ok h
    obtain ⟨l, k⟩ := locR_closed.leaf hr _ _ _ _ h1
    exact ⟨l, fun hp suf hs => RM.lift_ok (k hp suf hs)⟩
  alloc n := Loc.of_const (fun _ _ _ => rfl) (by
    intro d s b s' h
    simp only [V8.alloc, Except.ok.injEq, Prod.mk.injEq] at h
    rw [← h.2])
  tick := Loc.of_const (fun _ _ _ => rfl) (by
    intro d s b s' h
    simp only [V8.tick, Except.ok.injEq, Prod.mk.injEq] at h
    rw [← h.2])
  setNode i n := Loc.of_const (fun _ _ _ => rfl) (by
    intro d s b s' h
    simp only [V8.setNode, Except.ok.injEq, Prod.mk.injEq] at h
    rw [← h.2])
  recordD v := Loc.of_const (fun _ _ _ => rfl) (by
    intro d s b s' h
    simp only [V8.recordD, Except.ok.injEq, Prod.mk.injEq] at h
    rw [← h.2])
  replaceD n v := Loc.of_const (fun _ _ _ => rfl) (by
    intro d s b s' h
    unfold V8.replaceD at h
    split at h
    · simp only [Except.ok.injEq, Prod.mk.injEq] at h
      rw [← h.2]
    · simp at h)
  lookupD n := Loc.of_const (fun _ _ _ => rfl) (by
    intro d s b s' h
    unfold V8.lookupD at h
    split at h
    · simp only [Except.ok.injEq, Prod.mk.injEq] at h
      rw [← h.2]
    · simp at h
    · simp at h)
  getVersion := Loc.of_const (fun _ _ _ => rfl) (by
    intro d s b s' h
    simp only [V8.getVersion, Except.ok.injEq, Prod.mk.injEq] at h
    rw [← h.2])
  heap hk := Loc.getHeap.bind fun h => hk h h (LooksAlike.refl h)
  loop hk := by
    intro d s b s' h
    have h0 : loopFuel d s = .ok (d.length - s.pos + 1, s) := rfl
    rw [RM.bind_ok h0] at h
    refine ⟨(hk _ _ (Nat.le_refl _) _ _ _ _ h).1, fun hp suf hs => ?_⟩
    have h1 : loopFuel (d ++ suf) s = .ok ((d ++ suf).length - s.pos + 1, s) := rfl
    rw [RM.bind_ok h1]
    exact (hk _ _ (by simp only [List.length_append]; omega) _ _ _ _ h).2 hp suf hs

/-! ## Other data before -/

/-- The state with another position. -/
def DS.at (s : DS) (p : Nat) : DS := { s with pos := p }

/-- Two places in two byte strings with the same bytes from there on. -/
def SameRest (d : Bytes) (p : Nat) (d' : Bytes) (p' : Nat) : Prop :=
  d.drop p = d'.drop p' ∧ d.length + p' = d'.length + p

theorem SameRest.add {d : Bytes} {p : Nat} {d' : Bytes} {p' : Nat} (h : SameRest d p d' p') (n : Nat) :
    SameRest d (p + n) d' (p' + n) := by
  refine ⟨?_, by have := h.2; omega⟩
  rw [← List.drop_drop, ← List.drop_drop, h.1]

theorem SameRest.getElem? {d : Bytes} {p : Nat} {d' : Bytes} {p' : Nat} (h : SameRest d p d' p') :
    d[p]? = d'[p']? := by
  have h1 : (d.drop p)[0]? = (d'.drop p')[0]? := by rw [h.1]
  simpa using h1

/-- Moving a result of a reader. -/
def ShfR {α : Type} (r : Rd α) : Prop := ∀ d p d' p', SameRest d p d' p' →
  (∀ e, r d p = .error e → r d' p' = .error e) ∧
  (∀ a q, r d p = .ok (a, q) → ∃ n, q = p + n ∧ r d' p' = .ok (a, p' + n))

theorem readVarintLoop_shift {mb : Option Nat} {bs : Bytes} {off acc p p' : Nat} :
    (∀ e, readVarintLoop mb bs off acc p = .error e → readVarintLoop mb bs off acc p' = .error e) ∧
    (∀ v q, readVarintLoop mb bs off acc p = .ok (v, q) →
      ∃ n, q = p + n ∧ readVarintLoop mb bs off acc p' = .ok (v, p' + n)) := by
  induction bs generalizing off acc p p' with
  | nil => simp [readVarintLoop]
  | cons b bs ih =>
    simp only [readVarintLoop]
    have ih' : ∀ off acc,
        (∀ e, readVarintLoop mb bs off acc (p + 1) = .error e →
          readVarintLoop mb bs off acc (p' + 1) = .error e) ∧
        (∀ v q, readVarintLoop mb bs off acc (p + 1) = .ok (v, q) →
          ∃ n, q = p + n ∧ readVarintLoop mb bs off acc (p' + 1) = .ok (v, p' + n)) := by
      intro off acc
      refine ⟨(ih (p := p + 1) (p' := p' + 1)).1, fun v q h => ?_⟩
      obtain ⟨n, rfl, h2⟩ := (ih (p := p + 1) (p' := p' + 1)).2 v q h
      exact ⟨n + 1, by omega, by rw [h2]; congr 2; omega⟩
    split
    · refine ⟨by simp, fun v q h => ?_⟩
      simp only [Except.ok.injEq, Prod.mk.injEq] at h
      exact ⟨1, by omega, by simp [h.1]⟩
    · cases mb with
      | none => exact ih' _ _
      | some m =>
        simp only
        split
        · simp
        · exact ih' _ _

theorem readPaddingLoop_shift {bs : Bytes} {p p' : Nat} :
    (∀ e, readPaddingLoop bs p = .error e → readPaddingLoop bs p' = .error e) ∧
    (∀ v q, readPaddingLoop bs p = .ok (v, q) →
      ∃ n, q = p + n ∧ readPaddingLoop bs p' = .ok (v, p' + n)) := by
  induction bs generalizing p p' with
  | nil => simp [readPaddingLoop]
  | cons b bs ih =>
    simp only [readPaddingLoop]
    split
    · refine ⟨by simp, fun v q h => ?_⟩
      simp only [Except.ok.injEq, Prod.mk.injEq] at h
      exact ⟨0, by omega, by simp⟩
    · refine ⟨(ih (p := p + 1) (p' := p' + 1)).1, fun v q h => ?_⟩
      obtain ⟨n, rfl, h2⟩ := (ih (p := p + 1) (p' := p' + 1)).2 v q h
      exact ⟨n + 1, by omega, by rw [h2]; congr 2; omega⟩

theorem shfR_closed : RdClosed @ShfR where
  pure a := by
    intro d p d' p' h
    refine ⟨by simp, fun b q hb => ?_⟩
    simp only [Rd.pure_apply, Except.ok.injEq, Prod.mk.injEq] at hb
    obtain ⟨rfl, rfl⟩ := hb
    exact ⟨0, rfl, rfl⟩
  bind {_ _ x f} hx hf := by
    intro d p d' p' h
    have k := hx d p d' p' h
    cases hr : x d p with
    | error e =>
      rw [Rd.bind_error hr, Rd.bind_error (k.1 _ hr)]
      simp
    | ok r =>
      obtain ⟨a, q⟩ := r
      obtain ⟨n, rfl, h2⟩ := k.2 _ _ hr
      rw [Rd.bind_ok hr, Rd.bind_ok h2]
      have k2 := hf a d (p + n) d' (p' + n) (h.add n)
      refine ⟨k2.1, fun b q hb => ?_⟩
      obtain ⟨m, rfl, h3⟩ := k2.2 _ _ hb
      exact ⟨n + m, by omega, by rw [h3, Nat.add_assoc]⟩
  fail e := by intro d p d' p' h; simp
  byteHere := by
    intro d p d' p' h
    unfold V8.byteHere
    rw [h.getElem?]
    cases d'[p']? with
    | none => simp
    | some b =>
      refine ⟨by simp, fun a q hb => ?_⟩
      simp only [Except.ok.injEq, Prod.mk.injEq] at hb
      obtain ⟨rfl, rfl⟩ := hb
      exact ⟨0, rfl, rfl⟩
  ensureCapacity n := by
    intro d p d' p' h
    have hl := h.2
    unfold V8.ensureCapacity
    by_cases hc : p + n > d.length
    · rw [if_pos hc, if_pos (by omega)]; simp
    · rw [if_neg hc, if_neg (by omega)]
      refine ⟨by simp, fun a q hb => ?_⟩
      simp only [Except.ok.injEq, Prod.mk.injEq] at hb
      exact ⟨0, by omega, rfl⟩
  advance n := by
    intro d p d' p' h
    refine ⟨by simp [V8.advance], fun a q hb => ?_⟩
    simp only [V8.advance, Except.ok.injEq, Prod.mk.injEq] at hb
    exact ⟨n, by omega, rfl⟩
  takeHere n := by
    intro d p d' p' h
    refine ⟨by simp [V8.takeHere], fun a q hb => ?_⟩
    simp only [V8.takeHere, Except.ok.injEq, Prod.mk.injEq] at hb
    refine ⟨n, by omega, ?_⟩
    simp only [V8.takeHere]
    rw [← h.1, hb.1]
  readVarint mb := by
    intro d p d' p' h
    unfold V8.readVarint
    rw [← h.1]
    exact readVarintLoop_shift
  readPadding := by
    intro d p d' p' h
    unfold V8.readPadding
    rw [← h.1]
    exact readPaddingLoop_shift
  checkFits n := by
    intro d p d' p' h
    have hl := h.2
    unfold V8.checkFits
    by_cases hc : p + n > d.length
    · rw [if_pos hc, if_pos (by omega)]; simp
    · rw [if_neg hc, if_neg (by omega)]
      refine ⟨by simp, fun a q hb => ?_⟩
      simp only [Except.ok.injEq, Prod.mk.injEq] at hb
      exact ⟨0, by omega, rfl⟩
  checkFitsResizable n := by
    intro d p d' p' h
    have hl := h.2
    unfold V8.checkFitsResizable
    by_cases hc : p + n ≥ d.length
    · rw [if_pos hc, if_pos (by omega)]; simp
    · rw [if_neg hc, if_neg (by omega)]
      refine ⟨by simp, fun a q hb => ?_⟩
      simp only [Except.ok.injEq, Prod.mk.injEq] at hb
      exact ⟨0, by omega, rfl⟩
  peakIsView := by
    intro d p d' p' h
    have hl := h.2
    have hg := h.getElem?
    by_cases hc : p = d.length
    · have e1 : peakTag d p = .ok (none, p) := by unfold peakTag; rw [if_pos hc]
      have e2 : peakTag d' p' = .ok (none, p') := by unfold peakTag; rw [if_pos (by omega)]
      unfold V8.peakIsView
      rw [Rd.bind_ok e1, Rd.bind_ok e2]
      refine ⟨by simp, fun a q hb => ?_⟩
      simp only [Rd.pure_apply, Except.ok.injEq, Prod.mk.injEq] at hb
      exact ⟨0, by omega, by rw [← hb.1]; rfl⟩
    · cases hd : d'[p']? with
      | none =>
        rw [hd] at hg
        have e1 : peakTag d p = .error (.py .indexError) := by unfold peakTag; rw [if_neg hc, hg]
        have e2 : peakTag d' p' = .error (.py .indexError) := by
          unfold peakTag; rw [if_neg (by omega), hd]
        unfold V8.peakIsView
        rw [Rd.bind_error e1, Rd.bind_error e2]
        simp
      | some b =>
        rw [hd] at hg
        have e1 : peakTag d p = .ok (Tag.ofByte b, p) := by unfold peakTag; rw [if_neg hc, hg]
        have e2 : peakTag d' p' = .ok (Tag.ofByte b, p') := by
          unfold peakTag; rw [if_neg (by omega), hd]
        unfold V8.peakIsView
        rw [Rd.bind_ok e1, Rd.bind_ok e2]
        refine ⟨by simp, fun a q hb => ?_⟩
        simp only [Rd.pure_apply, Except.ok.injEq, Prod.mk.injEq] at hb
        exact ⟨0, by omega, by simp [hb.1]⟩

/-- Every run of `x` that is not cut off by the fuel goes alike, as a run of `y`, in other data with
the same bytes from the position on. -/
def Shf {α : Type} (x y : RM α) : Prop := ∀ d s d' p', SameRest d s.pos d' p' →
  (∀ e, e ≠ .fuel → x d s = .error e → y d' (s.at p') = .error e) ∧
  (∀ a s', x d s = .ok (a, s') → ∃ n, s'.pos = s.pos + n ∧ y d' (s.at p') = .ok (a, s'.at (p' + n)))

theorem Shf.of_const {α : Type} {x : RM α}
    (h : ∀ d s d' p', (∀ e, x d s = .error e → x d' (s.at p') = .error e) ∧
      (∀ a s', x d s = .ok (a, s') → s'.pos = s.pos ∧ x d' (s.at p') = .ok (a, s'.at p'))) : Shf x x := by
  intro d s d' p' _
  refine ⟨fun e _ => (h d s d' p').1 e, fun a s' hx => ⟨0, ?_⟩⟩
  obtain ⟨h1, h2⟩ := (h d s d' p').2 a s' hx
  exact ⟨by omega, h2⟩

theorem Shf.bind {α β : Type} {x y : RM α} {f g : α → RM β} (hx : Shf x y) (hf : ∀ a, Shf (f a) (g a)) :
    Shf (x >>= f) (y >>= g) := by
  intro d s d' p' h
  have k := hx d s d' p' h
  cases hr : x d s with
  | error e =>
    rw [RM.bind_error hr]
    refine ⟨fun e' he' hee => ?_, by simp⟩
    simp only [Except.error.injEq] at hee
    subst hee
    exact RM.bind_error (k.1 _ he' hr)
  | ok r =>
    obtain ⟨a, q⟩ := r
    obtain ⟨n, hn, h2⟩ := k.2 _ _ hr
    rw [RM.bind_ok hr, RM.bind_ok h2]
    have h3 : SameRest d q.pos d' (p' + n) := by rw [hn]; exact h.add n
    have k2 := hf a d q d' (p' + n) h3
    have hat : q.at (p' + n) = q.at (p' + n) := rfl
    refine ⟨k2.1, fun b s' hb => ?_⟩
    obtain ⟨m, hm, h4⟩ := k2.2 _ _ hb
    exact ⟨n + m, by omega, by rw [h4, Nat.add_assoc]⟩

theorem Shf.getHeap : Shf getHeap getHeap := Shf.of_const (by
  intro d s d' p'
  refine ⟨by simp [V8.getHeap], fun b s' h => ?_⟩
  simp only [V8.getHeap, Except.ok.injEq, Prod.mk.injEq] at h
  obtain ⟨rfl, rfl⟩ := h
  exact ⟨rfl, rfl⟩)

theorem shf_closed : RelClosed @Shf where
  pure a := Shf.of_const (by
    intro d s d' p'
    refine ⟨by simp, fun b s' h => ?_⟩
    simp only [RM.pure_apply, Except.ok.injEq, Prod.mk.injEq] at h
    obtain ⟨rfl, rfl⟩ := h
    exact ⟨rfl, rfl⟩)
  bind := Shf.bind
  fail e := Shf.of_const (by intro d s d' p'; simp)
  fuelLeft y := by
    intro d s d' p' _
    refine ⟨fun e he h => ?_, by simp⟩
    simp only [RM.fail_apply, Except.error.injEq] at h
    exact absurd h.symm he
  leaf {_ r} hr := by
    intro d s d' p' h
    have k := shfR_closed.leaf hr d s.pos d' p' h
    cases hx : r d s.pos with
    | error e =>
      rw [RM.lift_error hx]
      refine ⟨fun e' _ hee => ?_, by simp⟩
      simp only [Except.error.injEq] at hee
      subst hee
      exact RM.lift_error (k.1 _ hx)
    | ok x =>
      obtain ⟨a, q⟩ := x
      obtain ⟨n, rfl, h2⟩ := k.2 _ _ hx
      rw [RM.lift_ok hx]
      refine ⟨by simp, fun b s' hb => ?_⟩
      simp only [Except.ok.injEq, Prod.mk.injEq] at hb
      obtain ⟨rfl, rfl⟩ := hb
      exact ⟨n, rfl, RM.lift_ok (s := s.at p') h2⟩
  alloc n := Shf.of_const (by
    intro d s d' p'
    refine ⟨by simp [V8.alloc], fun b s' h => ?_⟩
    simp only [V8.alloc, Except.ok.injEq, Prod.mk.injEq] at h
    obtain ⟨rfl, rfl⟩ := h
    exact ⟨rfl, rfl⟩)
  tick := Shf.of_const (by
    intro d s d' p'
    refine ⟨by simp [V8.tick], fun b s' h => ?_⟩
    simp only [V8.tick, Except.ok.injEq, Prod.mk.injEq] at h
    obtain ⟨-, rfl⟩ := h
    exact ⟨rfl, rfl⟩)
  setNode i n := Shf.of_const (by
    intro d s d' p'
    refine ⟨by simp [V8.setNode], fun b s' h => ?_⟩
    simp only [V8.setNode, Except.ok.injEq, Prod.mk.injEq] at h
    obtain ⟨-, rfl⟩ := h
    exact ⟨rfl, rfl⟩)
  recordD v := Shf.of_const (by
    intro d s d' p'
    refine ⟨by simp [V8.recordD], fun b s' h => ?_⟩
    simp only [V8.recordD, Except.ok.injEq, Prod.mk.injEq] at h
    obtain ⟨rfl, rfl⟩ := h
    exact ⟨rfl, rfl⟩)
  replaceD n v := Shf.of_const (by
    intro d s d' p'
    have hl : (s.at p').log = s.log := rfl
    unfold V8.replaceD
    rw [hl]
    cases s.log.replace n (.obj v) with
    | error e => simp
    | ok l =>
      refine ⟨by simp, fun b s' h => ?_⟩
      simp only [Except.ok.injEq, Prod.mk.injEq] at h
      obtain ⟨-, rfl⟩ := h
      exact ⟨rfl, rfl⟩)
  lookupD n := Shf.of_const (by
    intro d s d' p'
    have hl : (s.at p').log = s.log := rfl
    unfold V8.lookupD
    rw [hl]
    cases s.log.getObject n with
    | error e => simp
    | ok l =>
      cases l with
      | obj v =>
        refine ⟨by simp, fun b s' h => ?_⟩
        simp only [Except.ok.injEq, Prod.mk.injEq] at h
        obtain ⟨rfl, rfl⟩ := h
        exact ⟨rfl, rfl⟩
      | fwd v => simp)
  getVersion := Shf.of_const (by
    intro d s d' p'
    refine ⟨by simp [V8.getVersion], fun b s' h => ?_⟩
    simp only [V8.getVersion, Except.ok.injEq, Prod.mk.injEq] at h
    obtain ⟨rfl, rfl⟩ := h
    exact ⟨rfl, rfl⟩)
  heap hk := Shf.getHeap.bind fun h => hk h h (LooksAlike.refl h)
  loop {_ k k'} hk := by
    intro d s d' p' h
    have h0 : loopFuel d s = .ok (d.length - s.pos + 1, s) := rfl
    have h1 : loopFuel d' (s.at p') = .ok (d'.length - p' + 1, s.at p') := rfl
    rw [RM.bind_ok h0, RM.bind_ok h1]
    have hl := h.2
    exact hk _ _ (by omega) d s d' p' h

end V8
