import Verif.Spec.Graph
import Verif.Proofs.DecodeRoot
import Verif.Proofs.ObjBuild

/-!
Helper definitions for the round trip: what the encoder has written, how the states of encoder and
decoder correspond, and what one encoded value contributes.
-/

namespace V8
open Spec

/-! ## Data at a position -/

/-- From position `p` on, the data is `bs` followed by `suf`. -/
def Here (d : Bytes) (p : Nat) (bs suf : Bytes) : Prop := p ≤ d.length ∧ d.drop p = bs ++ suf

theorem Here.left {d : Bytes} {p : Nat} {a b suf : Bytes} (h : Here d p (a ++ b) suf) :
    Here d p a (b ++ suf) := ⟨h.1, by rw [h.2]; simp⟩

theorem Here.len {d : Bytes} {p : Nat} {a suf : Bytes} (h : Here d p a suf) :
    p + a.length + suf.length = d.length := by
  have h1 := congrArg List.length h.2
  have h2 := h.1
  simp only [List.length_drop, List.length_append] at h1
  omega

theorem Here.right {d : Bytes} {p : Nat} {a b suf : Bytes} (h : Here d p (a ++ b) suf) :
    Here d (p + a.length) b suf := by
  have h1 := h.len
  simp only [List.length_append] at h1
  refine ⟨by omega, ?_⟩
  rw [← List.drop_drop, h.2, List.append_assoc, List.drop_left]

theorem Here.uncons {d : Bytes} {p : Nat} {x : UInt8} {b suf : Bytes} (h : Here d p (x :: b) suf) :
    Here d p [x] (b ++ suf) ∧ Here d (p + 1) b suf :=
  ⟨Here.left (a := [x]) (b := b) h, Here.right (a := [x]) (b := b) h⟩

theorem Here.read {α : Type} {r : Rd α} {bs : Bytes} {a : α} {d : Bytes} {p : Nat} {suf : Bytes}
    (h : Here d p bs suf) (hr : Reads r bs a) : r d p = .ok (a, p + bs.length) :=
  hr.at h.1 h.2

theorem Here.lift {α : Type} {r : Rd α} {bs : Bytes} {a : α} {d : Bytes} {s : DS} {suf : Bytes}
    (h : Here d s.pos bs suf) (hr : Reads r bs a) :
    RM.lift r d s = .ok (a, { s with pos := s.pos + bs.length }) :=
  RM.lift_ok (h.read hr)

/-- The data does not go on with a view. -/
def NV (suf : Bytes) : Prop := suf.head? ≠ some Tag.kArrayBufferView.byte

theorem NV.cons {t : Tag} (h : t ≠ .kArrayBufferView) (suf : Bytes) : NV (t.byte :: suf) := by
  intro he
  simp only [List.head?_cons, Option.some.injEq] at he
  exact h (Tag.byte_injective he)

/-- Tags that a value starts with. -/
def startTag : Tag → Bool
  | .kPadding => false
  | .kArrayBufferView => false
  | .kEndJSMap => false
  | .kEndJSSet => false
  | .kEndJSObject => false
  | .kEndDenseJSArray => false
  | .kEndSparseJSArray => false
  | _ => true

theorem startTag.not_padding {t : Tag} (h : startTag t = true) : t ≠ .kPadding := by
  rintro rfl; simp [startTag] at h

theorem startTag.not_view {t : Tag} (h : startTag t = true) : t ≠ .kArrayBufferView := by
  rintro rfl; simp [startTag] at h

/-! ## What was written -/

/-- `bs` was appended, outside any tag constraint. -/
structure Wrote (ws ws' : WS) (bs : Bytes) : Prop where
  data : ws'.data = ws.data ++ bs
  allowed : ws'.allowed = none
  bad : ws'.badRef = false → ws.badRef = false
  zero : ∀ u, Dict.get ws.memo .zero = some u → Dict.get ws'.memo .zero = some u

/-- No reference was written that the decoder reads as another one, and float zeros are written as `z`. -/
def Fine (z : F64) (ws : WS) : Prop := ws.badRef = false ∧ ∀ u, Dict.get ws.memo .zero = some u → u = .float z

theorem Wrote.fine {z : F64} {ws ws' : WS} {bs : Bytes} (h : Wrote ws ws' bs) (hf : Fine z ws') : Fine z ws :=
  ⟨h.bad hf.1, fun u hu => hf.2 u (h.zero u hu)⟩

theorem Wrote.trans {a b c : WS} {x y : Bytes} (h1 : Wrote a b x) (h2 : Wrote b c y) :
    Wrote a c (x ++ y) :=
  ⟨by rw [h2.data, h1.data, List.append_assoc], h2.allowed, fun h => h1.bad (h2.bad h), fun u h => h2.zero u (h1.zero u h)⟩

theorem Wrote.refl {a : WS} (h : a.allowed = none) : Wrote a a [] := ⟨by simp, h, id, fun _ => id⟩

theorem Except.bind_eq_ok {ε α β : Type} {x : Except ε α} {f : α → Except ε β} {b : β}
    (h : (x >>= f) = .ok b) : ∃ a, x = .ok a ∧ f a = .ok b := by
  cases x with
  | error e => exact absurd h (by simp [bind, Except.bind])
  | ok a => exact ⟨a, rfl, h⟩

theorem emit_eq (bs : Bytes) (ws : WS) : emit bs ws = .ok { ws with data := ws.data ++ bs } := rfl

theorem emit_ok {bs : Bytes} {ws ws' : WS} (h : emit bs ws = .ok ws') :
    ws' = { ws with data := ws.data ++ bs } := by
  simp only [emit, Except.ok.injEq] at h
  exact h.symm

theorem emitE_ok {r : Except EErr Bytes} {ws ws' : WS} (h : emitE r ws = .ok ws') :
    ∃ bs, r = .ok bs ∧ ws' = { ws with data := ws.data ++ bs } := by
  cases r with
  | error e => simp [emitE] at h
  | ok bs => exact ⟨bs, rfl, emit_ok h⟩

theorem writeTag_ok {t : Tag} {ws ws' : WS} (h : writeTag t ws = .ok ws') :
    ws' = { ws with data := ws.data ++ [t.byte] } ∧ (∀ c, ws.allowed = some c → t ∈ c) := by
  unfold writeTag at h
  split at h
  · rename_i ha
    exact ⟨emit_ok h, by simp [ha]⟩
  · rename_i c ha
    by_cases hc : c.contains t
    · rw [if_pos hc] at h
      refine ⟨emit_ok h, ?_⟩
      intro c' hc'
      rw [ha] at hc'
      simp only [Option.some.injEq] at hc'
      subst hc'
      simpa using hc
    · rw [if_neg hc] at h
      simp at h

theorem writeTagged_ok {t : Tag} {r : Except EErr Bytes} {ws ws' : WS}
    (h : writeTagged t r ws = .ok ws') :
    ∃ bs, r = .ok bs ∧ ws' = { ws with data := ws.data ++ t.byte :: bs } ∧
      (∀ c, ws.allowed = some c → t ∈ c) := by
  cases r with
  | error e => simp [writeTagged] at h
  | ok bs =>
    unfold writeTagged at h
    obtain ⟨w1, h1, h2⟩ := Except.bind_eq_ok h
    obtain ⟨rfl, h4⟩ := writeTag_ok h1
    have h5 := emit_ok h2
    refine ⟨bs, rfl, ?_, h4⟩
    rw [h5]
    simp

theorem recordRef_ok {v : Val} {ws ws' : WS} (h : recordRef v ws = .ok ws') :
    ws' = { ws with log := (ws.log.record v).1 } := by
  simp only [recordRef, Except.ok.injEq] at h
  exact h.symm

theorem markSkew_ok {ws ws' : WS} (h : markSkew ws = .ok ws') :
    ws' = { ws with skew := some (ws.skew.getD ws.log.slots.length) } := by
  simp only [markSkew, Except.ok.injEq] at h
  subst h
  cases ws with
  | mk data log allowed memo skew badRef => cases skew <;> rfl

/-! ## Corresponding states -/

/-- Contents of a buffer of some kind. -/
def Node.isBuf : Node → Bool
  | .abuf _ => true
  | .rawBuf _ _ => true
  | .sharedBuf _ => true
  | .transferBuf _ => true
  | _ => false

/-- No objects correspond. -/
def noPairs : Val → Val → Prop := fun _ _ => False

/-- What is known of an object with contents `n` and what it comes back as, while that may be
unfinished. -/
def ShallowNode (env : EEnv) (z : F64) (H : Heap) (w : Val) : Node → Prop
  | .primObj p => SameScalar p.value w
  | n => ∃ j n', w = .obj j ∧ H[j]? = some n' ∧ n'.isBuf = n.isBuf ∧
        (n.isBuf = true → SameContent env z noPairs n n')

/-- The same for an object or `bytes`. -/
def Shallow (env : EEnv) (z : F64) (H : Heap) : Val → Val → Prop
  | .bytes b, w => ∃ j, w = .obj j ∧ H[j]? = some (.abuf (fixedBuf b))
  | .obj i, w => ∃ n, env.heap[i]? = some n ∧ ShallowNode env z H w n
  | _, _ => False

/-- The correspondence extended by one pair. -/
def addPair (P : Val → Val → Prop) (v w : Val) : Val → Val → Prop := fun a b => P a b ∨ (a = v ∧ b = w)

theorem addPair_self (P : Val → Val → Prop) (v w : Val) : addPair P v w v w := Or.inr ⟨rfl, rfl⟩

theorem Shallow.mono {env : EEnv} {z : F64} {H H' : Heap} {v w : Val} (h : Shallow env z H v w)
    (hH : ∀ j : Nat, j < H.length → H'[j]? = H[j]?) : Shallow env z H' v w := by
  have key : ∀ (j : Nat) n', H[j]? = some n' → H'[j]? = some n' := by
    intro j n' hj
    rw [hH j (List.getElem?_eq_some_iff.mp hj).1]
    exact hj
  cases v with
  | bytes b =>
    obtain ⟨j, rfl, h2⟩ := h
    exact ⟨j, rfl, key _ _ h2⟩
  | obj i =>
    obtain ⟨n, hn, h⟩ := h
    refine ⟨n, hn, ?_⟩
    cases n with
    | primObj p => exact h
    | _ =>
      obtain ⟨j, n', rfl, h2, h3⟩ := h
      exact ⟨j, n', rfl, key _ _ h2, h3⟩
  | _ => exact h

theorem Shallow.lt {env : EEnv} {z : F64} {H : Heap} {v : Val} {j : Id} (h : Shallow env z H v (.obj j)) :
    j < H.length := by
  cases v with
  | bytes b =>
    obtain ⟨j', h1, h2⟩ := h
    simp only [Val.obj.injEq] at h1
    subst h1
    exact (List.getElem?_eq_some_iff.mp h2).1
  | obj i =>
    obtain ⟨n, hn, h⟩ := h
    cases n with
    | primObj p =>
      cases p <;> simp [ShallowNode, SameScalar, PrimObj.value] at h
    | _ =>
      obtain ⟨j', n', h1, h2, h3⟩ := h
      simp only [Val.obj.injEq] at h1
      subst h1
      exact (List.getElem?_eq_some_iff.mp h2).1
  | _ => exact h.elim

theorem Shallow.ne_hole {env : EEnv} {z : F64} {H : Heap} {v w : Val} (h : Shallow env z H v w) : w ≠ .hole := by
  rintro rfl
  cases v with
  | bytes b => obtain ⟨j', h1, h2⟩ := h; simp at h1
  | obj i =>
    obtain ⟨n, hn, h⟩ := h
    cases n with
    | primObj p => cases p <;> simp [ShallowNode, SameScalar, PrimObj.value] at h
    | _ => obtain ⟨j', n', h1, h2, h3⟩ := h; simp at h1
  | _ => exact h.elim

/-- Facts about the correspondence itself. -/
structure Pairs (env : EEnv) (z : F64) (P : Val → Val → Prop) (H : Heap) : Prop where
  pair : ∀ v w, P v w → Shallow env z H v w
  func : ∀ v w w', P v w → P v w' → IsUnlogged env v ∨ w = w'
  inj : ∀ v v' j, P v (.obj j) → P v' (.obj j) → v = v'

theorem Pairs.add {env : EEnv} {z : F64} {P : Val → Val → Prop} {H : Heap} (h : Pairs env z P H) (nd : Node)
    {v w : Val} (hsh : Shallow env z (H ++ [nd]) v w) (hnew : (∀ w', ¬ P v w') ∨ IsUnlogged env v)
    (hw : ∀ j, w = .obj j → j = H.length) : Pairs env z (addPair P v w) (H ++ [nd]) := by
  have happ : ∀ j : Nat, j < H.length → (H ++ [nd])[j]? = H[j]? := by
    intro j hj; rw [List.getElem?_append_left hj]
  refine ⟨?_, ?_, ?_⟩
  · rintro a b (hab | ⟨rfl, rfl⟩)
    · exact (h.pair a b hab).mono happ
    · exact hsh
  · rintro a b b' (h1 | ⟨rfl, rfl⟩) h2
    · rcases h2 with h2 | ⟨rfl, rfl⟩
      · exact h.func a b b' h1 h2
      · rcases hnew with hn | hn
        · exact absurd h1 (hn b)
        · exact Or.inl hn
    · rcases h2 with h2 | ⟨_, rfl⟩
      · rcases hnew with hn | hn
        · exact absurd h2 (hn b')
        · exact Or.inl hn
      · exact Or.inr rfl
  · rintro a b j (h1 | ⟨rfl, h1⟩) h2
    · rcases h2 with h2 | ⟨rfl, h2⟩
      · exact h.inj a b j h1 h2
      · exact absurd (hw j h2.symm) (Nat.ne_of_lt (h.pair a _ h1).lt)
    · rcases h2 with h2 | ⟨rfl, h2⟩
      · exact absurd (hw j h1.symm) (Nat.ne_of_lt (h.pair b _ h2).lt)
      · rfl

/-- Replacing the contents of a cell that is not a buffer by contents that are not a buffer. -/
theorem Pairs.setNode {env : EEnv} {z : F64} {P : Val → Val → Prop} {H : Heap} (h : Pairs env z P H) {i : Nat}
    {a b : Node} (ha : H[i]? = some a) (hab : a.isBuf = false) (hb : b.isBuf = false) :
    Pairs env z P (H.set i b) := by
  have hi : i < H.length := (List.getElem?_eq_some_iff.mp ha).1
  have key : ∀ (j : Nat) n', H[j]? = some n' → ∃ n'', (H.set i b)[j]? = some n'' ∧
      n''.isBuf = n'.isBuf ∧ (n'.isBuf = true → n'' = n') := by
    intro j n' hj
    by_cases hij : i = j
    · subst hij
      rw [ha] at hj
      simp only [Option.some.injEq] at hj
      subst hj
      exact ⟨b, List.getElem?_set_self hi, by rw [hb, hab], fun h => absurd h (by simp [hab])⟩
    · exact ⟨n', by rw [List.getElem?_set_ne hij]; exact hj, rfl, fun _ => rfl⟩
  refine ⟨?_, h.func, h.inj⟩
  intro v w hP
  have h1 := h.pair v w hP
  cases v with
  | bytes c =>
    obtain ⟨j, rfl, h2⟩ := h1
    obtain ⟨n'', h3, h4, h5⟩ := key _ _ h2
    refine ⟨j, rfl, ?_⟩
    rw [h3, h5 rfl]
  | obj k =>
    obtain ⟨n, hn, h1⟩ := h1
    refine ⟨n, hn, ?_⟩
    cases n with
    | primObj p => exact h1
    | _ =>
      obtain ⟨j, n', rfl, h2, h6, h7⟩ := h1
      obtain ⟨n'', h3, h4, h5⟩ := key _ _ h2
      refine ⟨j, n'', rfl, h3, by rw [h4, h6], ?_⟩
      intro hbuf
      rw [h5 (by rw [h6]; exact hbuf)]
      exact h7 hbuf
  | _ => exact h1

/-- The log and cache of the encoder and the log and heap of the decoder correspond. -/
structure Sim (env : EEnv) (z : F64) (P : Val → Val → Prop) (ids : Dict Val Nat) (n : Nat) (memo : Dict DKey Val)
    (skew : Option Nat) (slots : List LogSlot) (H : Heap) (ver : Nat) : Prop where
  pairs : Pairs env z P H
  version : 14 ≤ ver
  count : skew = none → slots.length = n
  skewLe : ∀ k, skew = some k → k ≤ n
  logged : ∀ v m, Dict.get ids v = some m → m < n ∧
    ∃ w, P v w ∧ ((∀ k, skew = some k → m < k) → slots[m]? = some (.obj w))
  seen : ∀ v w, P v w → IsUnlogged env v ∨ (Dict.get ids v).isSome
  memo : ∀ k u, Dict.get memo k = some u → dkey env u = some k

/-- `Sim` of a writer state and a reader state. -/
abbrev SimW (env : EEnv) (z : F64) (P : Val → Val → Prop) (ws : WS) (ds : DS) : Prop :=
  Sim env z P ws.log.ids ws.log.slots.length ws.memo ws.skew ds.log.slots ds.heap ds.version

/-- How much the correspondence and the decoder's heap have grown. -/
structure Step (env : EEnv) (z : F64) (P P' : Val → Val → Prop) (H H' : Heap) : Prop where
  mono : ∀ v w, P v w → P' v w
  len : H.length ≤ H'.length
  cells : ∀ j : Nat, j < H.length → H'[j]? = H[j]?
  fresh : ∀ v w, P' v w → P v w ∨ ((∀ j, w = .obj j → H.length ≤ j) ∧ SameObject env z P' H' v w)

/-! ## Growth of the correspondence -/

theorem SameVal.mono {env : EEnv} {z : F64} {P P' : Val → Val → Prop} (hP : ∀ v w, P v w → P' v w) {v w : Val}
    (h : SameVal env z P v w) : SameVal env z P' v w := by
  cases v with
  | obj i => obtain ⟨j, h1, h2⟩ := h; exact ⟨j, h1, hP _ _ h2⟩
  | bytes b => exact hP _ _ h
  | _ => exact h

theorem Forall₂.mono' {α β : Type} {R S : α → β → Prop} (h : ∀ a b, R a b → S a b) {l : List α}
    {m : List β} (hl : List.Forall₂ R l m) : List.Forall₂ S l m := hl.imp (fun {a b} => h a b)

theorem SameContent.mono {env : EEnv} {z : F64} {P P' : Val → Val → Prop} (hP : ∀ v w, P v w → P' v w)
    {n n' : Node} (h : SameContent env z P n n') : SameContent env z P' n n' := by
  have hv : ∀ v w, SameVal env z P v w → SameVal env z P' v w := fun v w => SameVal.mono hP
  unfold SameContent at h ⊢
  split at h
  · obtain ⟨ps, h1, h2⟩ := h
    exact ⟨ps, Forall₂.mono' (fun a b hab => ⟨hv _ _ hab.1, hv _ _ hab.2⟩) h1, h2⟩
  · obtain ⟨ps, h1, h2⟩ := h
    exact ⟨ps, Forall₂.mono' hv h1, h2⟩
  · obtain ⟨h0, h⟩ := h
    exact ⟨h0, Forall₂.mono' (fun a b hab => ⟨hab.1, hv _ _ hab.2⟩) h⟩
  · obtain ⟨h0, h1, h2⟩ := h
    exact ⟨h0, h1, Forall₂.mono' (fun a b hab => ⟨hab.1, hv _ _ hab.2⟩) h2⟩
  · obtain ⟨h0, h1, h2⟩ := h
    exact ⟨h0, Forall₂.mono' hv h1, h2⟩
  · exact h
  · exact h
  · obtain ⟨h1, h2, h3, h4⟩ := h
    exact ⟨h1, h2, h3, hv _ _ h4⟩
  · exact h
  · exact h
  · exact h
  · exact h
  · obtain ⟨h1, h2⟩ := h
    exact ⟨hv _ _ h1, h2⟩
  · exact h
  · exact h.elim

theorem SameObject.mono {env : EEnv} {z : F64} {P P' : Val → Val → Prop} (hP : ∀ v w, P v w → P' v w)
    {H H' : Heap} {v w : Val} (hH : ∀ j : Nat, w = .obj j → j < H.length → H'[j]? = H[j]?)
    (h : SameObject env z P H v w) : SameObject env z P' H' v w := by
  have key : ∀ (j : Nat) n', w = .obj j → H[j]? = some n' → H'[j]? = some n' := by
    intro j n' hw hj
    rw [hH j hw (List.getElem?_eq_some_iff.mp hj).1]
    exact hj
  cases v with
  | bytes b =>
    obtain ⟨j, h1, h2⟩ := h
    exact ⟨j, h1, key _ _ h1 h2⟩
  | obj i =>
    obtain ⟨n, hn, h⟩ := h
    refine ⟨n, hn, ?_⟩
    cases n with
    | primObj p => exact h
    | _ =>
      obtain ⟨j, n', h1, h2, h3⟩ := h
      exact ⟨j, n', h1, key _ _ h1 h2, SameContent.mono hP h3⟩
  | _ => exact h

theorem Step.refl (env : EEnv) (z : F64) (P : Val → Val → Prop) (H : Heap) : Step env z P P H H :=
  ⟨fun _ _ h => h, Nat.le_refl _, fun _ _ => rfl, fun _ _ h => Or.inl h⟩

theorem Step.trans {env : EEnv} {z : F64} {P Q R : Val → Val → Prop} {H I J : Heap} (h1 : Step env z P Q H I)
    (h2 : Step env z Q R I J) : Step env z P R H J := by
  refine ⟨fun v w h => h2.mono _ _ (h1.mono _ _ h), Nat.le_trans h1.len h2.len, ?_, ?_⟩
  · intro j hj
    rw [h2.cells j (Nat.lt_of_lt_of_le hj h1.len), h1.cells j hj]
  · intro v w h
    rcases h2.fresh v w h with h3 | ⟨h3, h4⟩
    · rcases h1.fresh v w h3 with h5 | ⟨h5, h6⟩
      · exact Or.inl h5
      · exact Or.inr ⟨h5, SameObject.mono h2.mono (fun j _ hj => h2.cells j hj) h6⟩
    · exact Or.inr ⟨fun j hj => Nat.le_trans h1.len (h3 j hj), h4⟩

/-- One new cell, finished at once. -/
theorem Step.one {env : EEnv} {z : F64} {P : Val → Val → Prop} {H : Heap} (nd : Node) {v w : Val}
    (hw : ∀ j, w = .obj j → j = H.length) (h : SameObject env z (addPair P v w) (H ++ [nd]) v w) :
    Step env z P (addPair P v w) H (H ++ [nd]) := by
  refine ⟨fun _ _ h => Or.inl h, by simp, ?_, ?_⟩
  · intro j hj; rw [List.getElem?_append_left hj]
  · rintro a b (hab | ⟨rfl, rfl⟩)
    · exact Or.inl hab
    · exact Or.inr ⟨fun j hj => Nat.le_of_eq (hw j hj).symm, h⟩

/-- A container: its cell exists while its contents are read, and is filled at the end. -/
theorem Step.container {env : EEnv} {z : F64} {P P' : Val → Val → Prop} {H H1 : Heap} {ph n' : Node} {v : Val}
    (h : Step env z (addPair P v (.obj H.length)) P' (H ++ [ph]) H1)
    (hc : SameObject env z P' (H1.set H.length n') v (.obj H.length)) :
    Step env z P P' H (H1.set H.length n') := by
  have hlen := h.len
  simp only [List.length_append, List.length_singleton] at hlen
  refine ⟨fun a b hab => h.mono _ _ (Or.inl hab), by simp; omega, ?_, ?_⟩
  · intro j hj
    have hj' : j < (H ++ [ph]).length := by
      simp only [List.length_append, List.length_singleton]; exact Nat.lt_succ_of_lt hj
    rw [List.getElem?_set_ne (Nat.ne_of_gt hj), h.cells j hj', List.getElem?_append_left hj]
  · intro a b hab
    rcases h.fresh a b hab with (h1 | ⟨rfl, rfl⟩) | ⟨h1, h2⟩
    · exact Or.inl h1
    · exact Or.inr ⟨fun j hj => Nat.le_of_eq (Val.obj.inj hj), hc⟩
    · refine Or.inr ⟨?_, ?_⟩
      · intro j hj
        have := h1 j hj
        simp only [List.length_append, List.length_singleton] at this
        omega
      · refine SameObject.mono (fun _ _ h => h) ?_ h2
        intro j hj _
        have := h1 j hj
        simp only [List.length_append, List.length_singleton] at this
        rw [List.getElem?_set_ne (by omega)]

/-! ## Growth of the logs -/

theorem Sim.new {env : EEnv} {z : F64} {P : Val → Val → Prop} {ids : Dict Val Nat} {n : Nat} {memo skew slots H ver}
    (h : Sim env z P ids n memo skew slots H ver) {v : Val} (hv : Dict.get ids v = none) :
    (∀ w', ¬ P v w') ∨ IsUnlogged env v := by
  by_cases hu : IsUnlogged env v
  · exact Or.inr hu
  · refine Or.inl fun w' hw' => ?_
    rcases h.seen v w' hw' with h1 | h1
    · exact hu h1
    · simp [hv] at h1

/-- Both sides record the object. -/
theorem Sim.record {env : EEnv} {z : F64} {P : Val → Val → Prop} {ids : Dict Val Nat} {n : Nat}
    {memo skew slots H ver} (h : Sim env z P ids n memo skew slots H ver) (nd : Node) {v w : Val}
    (hv : Dict.get ids v = none) (hsh : Shallow env z (H ++ [nd]) v w)
    (hw : ∀ j, w = .obj j → j = H.length) :
    Sim env z (addPair P v w) (Dict.set ids v n) (n + 1) memo skew (slots ++ [.obj w]) (H ++ [nd]) ver := by
  refine ⟨h.pairs.add nd hsh (h.new hv) hw, h.version, ?_, ?_, ?_, ?_, h.memo⟩
  · intro hs; simp [h.count hs]
  · intro k hk; exact Nat.le_succ_of_le (h.skewLe k hk)
  · intro a m ha
    rw [Dict.get_set] at ha
    by_cases hav : v = a
    · rw [if_pos hav] at ha
      simp only [Option.some.injEq] at ha
      subst ha hav
      refine ⟨Nat.lt_succ_self _, w, addPair_self _ _ _, ?_⟩
      intro hk
      cases hs : skew with
      | none => rw [← h.count hs]; simp
      | some k =>
        have := hk k hs
        have := h.skewLe k hs
        omega
    · rw [if_neg hav] at ha
      obtain ⟨h1, w', h2, h3⟩ := h.logged a m ha
      refine ⟨Nat.lt_succ_of_lt h1, w', Or.inl h2, ?_⟩
      intro hk
      have h4 := h3 hk
      rw [List.getElem?_append_left (List.getElem?_eq_some_iff.mp h4).1]
      exact h4
  · rintro a b (hab | ⟨rfl, rfl⟩)
    · rw [Dict.get_set]
      rcases h.seen a b hab with h1 | h1
      · exact Or.inl h1
      · right
        by_cases hav : v = a
        · rw [if_pos hav]; rfl
        · rw [if_neg hav]; exact h1
    · right; rw [Dict.get_set, if_pos rfl]; rfl

/-- Marking the start of differing logs. -/
theorem Sim.mark {env : EEnv} {z : F64} {P : Val → Val → Prop} {ids : Dict Val Nat} {n : Nat}
    {memo skew slots H ver} (h : Sim env z P ids n memo skew slots H ver) :
    Sim env z P ids n memo (some (skew.getD n)) slots H ver := by
  cases skew with
  | some k => exact h
  | none =>
    refine ⟨h.pairs, h.version, by simp, ?_, ?_, h.seen, h.memo⟩
    · intro k hk
      simp only [Option.getD_none, Option.some.injEq] at hk
      omega
    · intro v m hv
      obtain ⟨h1, w, h2, h3⟩ := h.logged v m hv
      exact ⟨h1, w, h2, fun _ => h3 (by simp)⟩

/-- Only the decoder records the object; the logs are known to differ. -/
theorem Sim.recordRight {env : EEnv} {z : F64} {P : Val → Val → Prop} {ids : Dict Val Nat} {n : Nat}
    {memo k slots H ver} (h : Sim env z P ids n memo (some k) slots H ver) (nd : Node) {v w : Val}
    (hu : IsUnlogged env v) (hsh : Shallow env z (H ++ [nd]) v w)
    (hw : ∀ j, w = .obj j → j = H.length) :
    Sim env z (addPair P v w) ids n memo (some k) (slots ++ [.obj w]) (H ++ [nd]) ver := by
  refine ⟨h.pairs.add nd hsh (Or.inr hu) hw, h.version, by simp, h.skewLe, ?_, ?_, h.memo⟩
  · intro a m ha
    obtain ⟨h1, w', h2, h3⟩ := h.logged a m ha
    refine ⟨h1, w', Or.inl h2, ?_⟩
    intro hk
    have h4 := h3 hk
    rw [List.getElem?_append_left (List.getElem?_eq_some_iff.mp h4).1]
    exact h4
  · rintro a b (hab | ⟨rfl, rfl⟩)
    · exact h.seen a b hab
    · exact Or.inl hu

/-- Only the encoder records the object; the logs are known to differ. -/
theorem Sim.recordLeft {env : EEnv} {z : F64} {P : Val → Val → Prop} {ids : Dict Val Nat} {n : Nat}
    {memo k slots H ver} (h : Sim env z P ids n memo (some k) slots H ver) (nd : Node) {v w : Val}
    (hv : Dict.get ids v = none) (hsh : Shallow env z (H ++ [nd]) v w)
    (hw : ∀ j, w = .obj j → j = H.length) :
    Sim env z (addPair P v w) (Dict.set ids v n) (n + 1) memo (some k) slots (H ++ [nd]) ver := by
  refine ⟨h.pairs.add nd hsh (h.new hv) hw, h.version, by simp, ?_, ?_, ?_, h.memo⟩
  · intro k' hk; exact Nat.le_succ_of_le (h.skewLe k' hk)
  · intro a m ha
    rw [Dict.get_set] at ha
    by_cases hav : v = a
    · rw [if_pos hav] at ha
      simp only [Option.some.injEq] at ha
      subst ha hav
      refine ⟨Nat.lt_succ_self _, w, addPair_self _ _ _, ?_⟩
      intro hk
      have := hk k rfl
      have := h.skewLe k rfl
      omega
    · rw [if_neg hav] at ha
      obtain ⟨h1, w', h2, h3⟩ := h.logged a m ha
      exact ⟨Nat.lt_succ_of_lt h1, w', Or.inl h2, h3⟩
  · rintro a b (hab | ⟨rfl, rfl⟩)
    · rw [Dict.get_set]
      rcases h.seen a b hab with h1 | h1
      · exact Or.inl h1
      · right
        by_cases hav : v = a
        · rw [if_pos hav]; rfl
        · rw [if_neg hav]; exact h1
    · right; rw [Dict.get_set, if_pos rfl]; rfl

theorem Sim.setNode {env : EEnv} {z : F64} {P : Val → Val → Prop} {ids : Dict Val Nat} {n : Nat}
    {memo skew slots H ver} (h : Sim env z P ids n memo skew slots H ver) {i : Nat} {a b : Node}
    (ha : H[i]? = some a) (hab : a.isBuf = false) (hb : b.isBuf = false) :
    Sim env z P ids n memo skew slots (H.set i b) ver :=
  ⟨h.pairs.setNode ha hab hb, h.version, h.count, h.skewLe, h.logged, h.seen, h.memo⟩

/-! ## What one written value means to the decoder -/

/-- Between `ws` and `ws'` a value was written that the decoder `dec` reads back as one that stands
for `v`. -/
def Obl (env : EEnv) (z : F64) (dec : Tag → RM Val) (v : Val) (ws ws' : WS) : Prop :=
  ∃ t rest, startTag t = true ∧ Wrote ws ws' (t.byte :: rest) ∧
    ∀ P ds, SimW env z P ws ds → Fine z ws' → ∃ P' w ds',
      (∀ d suf, Here d ds.pos rest suf → NV suf → dec t d ds = .ok (w, ds')) ∧
      ds'.pos = ds.pos + rest.length ∧ SimW env z P' ws' ds' ∧ Step env z P P' ds.heap ds'.heap ∧
      SameVal env z P' v w

/-- Every value written by `rec` is read back by `dec`. -/
def RecBack (env : EEnv) (z : F64) (rec : Val → Wr) (dec : Tag → RM Val) : Prop :=
  ∀ v ws ws', rec v ws = .ok ws' → ws.allowed = none → Obl env z dec v ws ws'

end V8
