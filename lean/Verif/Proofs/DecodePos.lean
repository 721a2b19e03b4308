import Verif.Proofs.DecodePosRd
import Verif.Proofs.DecodeRel

/-!
# Positions of errors: the decoder
-/

namespace V8.Pos

variable {bd : Bool}

/-- The tags without a reader. -/
def Unread (t : Tag) : Prop :=
  t = .kVersion ∨ t = .kPadding ∨ t = .kVerifyObjectCount ∨ t = .kEndJSObject ∨ t = .kEndDenseJSArray ∨ t = .kEndSparseJSArray ∨
  t = .kEndJSMap ∨ t = .kEndJSSet ∨ t = .kLegacyReservedMessagePort ∨ t = .kLegacyReservedBlob ∨ t = .kLegacyReservedBlobIndex ∨
  t = .kLegacyReservedFile ∨ t = .kLegacyReservedFileIndex ∨ t = .kLegacyReservedDOMFileSystem ∨ t = .kLegacyReservedFileList ∨
  t = .kLegacyReservedFileListIndex ∨ t = .kLegacyReservedImageData ∨ t = .kLegacyReservedImageBitmap ∨
  t = .kLegacyReservedImageBitmapTransfer ∨ t = .kLegacyReservedOffscreenCanvas ∨
  t = .kLegacyReservedCryptoKey ∨ t = .kLegacyReservedRTCCertificate

/-- The byte before position `q` is that of tag `t`. -/
def TagBefore (d : Bytes) (q : Nat) (t : Tag) : Prop := ∃ b, 0 < q ∧ d[q - 1]? = some b ∧ Tag.ofByte b = some t

/-- The tag just read, if it is known. -/
def Pre : Option Tag → Bytes → Nat → Prop
  | none, _, _ => True
  | some t, d, q => TagBefore d q t

/-- Nothing ends before position `n - 3`. -/
def Late {α : Type} (n : Nat) (r : Except PErr (α × DS)) : Prop :=
  (∀ a s, r = .ok (a, s) → n ≤ s.pos + 3) ∧ (∀ e q, r = .error (e, q) → n ≤ q + 3)

/-- The position does not go back. -/
def Mono {α : Type} (x : RM α) : Prop :=
  ∀ d s, (∀ a s', x d s = .ok (a, s') → s.pos ≤ s'.pos) ∧ (∀ e q, x d s = .error (e, q) → s.pos ≤ q)

/-- What is shown of a computation `x`, the same with no less fuel `y`, and its counterpart without positions `z`. -/
structure RMOk {α : Type} (bd : Bool) (o : Option Tag) (x y : RM α) (z : V8.RM α) : Prop where
  erase : ∀ d s, erase (x d s) = z d s
  monoX : Mono x
  monoY : Mono y
  bound : bd = true → ∀ d s, s.pos ≤ d.length → (∀ a s', x d s = .ok (a, s') → s'.pos ≤ d.length) ∧
    (∀ e q, x d s = .error (e, q) → e = .decode ∨ e = .unhandledTag → q ≤ d.length)
  unh : ∀ d s, Pre o d s.pos → ∀ q, x d s = .error (.unhandledTag, q) → ∃ t, Unread t ∧ TagBefore d q t
  sim : ∀ d d' n s, Agree d d' n →
    (∀ a s', x d s = .ok (a, s') → s'.pos ≤ n → y d' s = .ok (a, s') ∨ Late n (y d' s)) ∧
    (∀ e, e ≠ .fuel → x d s = .error (e, n) → Late n (y d' s))

theorem RM.bind_ok {α β : Type} {x : RM α} {f : α → RM β} {d : Bytes} {s : DS} {a : α} {s' : DS} (h : x d s = .ok (a, s')) :
    (x >>= f) d s = f a d s' := by
  show RM.bind x f d s = _
  unfold RM.bind
  rw [h]

theorem RM.bind_err {α β : Type} {x : RM α} {f : α → RM β} {d : Bytes} {s : DS} {e : PErr} (h : x d s = .error e) :
    (x >>= f) d s = .error e := by
  show RM.bind x f d s = _
  unfold RM.bind
  rw [h]

theorem V8RM.bind_ok {α β : Type} {x : V8.RM α} {f : α → V8.RM β} {d : Bytes} {s : DS} {a : α} {s' : DS}
    (h : x d s = .ok (a, s')) : (x >>= f) d s = f a d s' := by
  show V8.RM.bind x f d s = _
  unfold V8.RM.bind
  rw [h]

theorem V8RM.bind_err {α β : Type} {x : V8.RM α} {f : α → V8.RM β} {d : Bytes} {s : DS} {e : DErr} (h : x d s = .error e) :
    (x >>= f) d s = .error e := by
  show V8.RM.bind x f d s = _
  unfold V8.RM.bind
  rw [h]

theorem Mono.bind {α β : Type} {x : RM α} {f : α → RM β} (hx : Mono x) (hf : ∀ a, Mono (f a)) : Mono (x >>= f) := by
  intro d s
  have h1 := hx d s
  cases h : x d s with
  | ok r =>
    obtain ⟨a, s'⟩ := r
    rw [RM.bind_ok h]
    have := h1.1 a s' h
    have h2 := hf a d s'
    exact ⟨fun b r hr => Nat.le_trans this (h2.1 b r hr), fun e r hr => Nat.le_trans this (h2.2 e r hr)⟩
  | error e =>
    rw [RM.bind_err h]
    exact ⟨fun b r hr => (by cases hr), fun e' r hr => h1.2 e' r (by cases hr; exact h)⟩

/-- Binding, with what `f` may assume about the place where `x` ends. -/
theorem RMOk.bindWith {α β : Type} {o : Option Tag} {x y : RM α} {z : V8.RM α} {f g : α → RM β} {h : α → V8.RM β}
    (o' : α → Option Tag) (hx : RMOk bd o x y z) (hf : ∀ a, (∃ d s s', x d s = .ok (a, s')) → RMOk bd (o' a) (f a) (g a) (h a))
    (hm : ∀ a, Mono (f a)) (hmg : ∀ a, Mono (g a))
    (he : ∀ a d s, Pos.erase (f a d s) = h a d s)
    (ho : ∀ d s a s', Pre o d s.pos → x d s = .ok (a, s') → Pre (o' a) d s'.pos) :
    RMOk bd o (x >>= f) (y >>= g) (z >>= h) := by
  refine ⟨?_, hx.monoX.bind hm, hx.monoY.bind hmg, ?_, ?_, ?_⟩
  · intro d s
    have h1 := hx.erase d s
    cases h : x d s with
    | ok r =>
      obtain ⟨a, q⟩ := r
      rw [h] at h1
      rw [RM.bind_ok h, V8RM.bind_ok h1.symm]
      exact he a d q
    | error e =>
      rw [h] at h1
      rw [RM.bind_err h, V8RM.bind_err h1.symm]
      rfl
  · intro hb d s hp
    have h1 := hx.bound hb d s hp
    cases h : x d s with
    | ok r =>
      obtain ⟨a, s'⟩ := r
      rw [RM.bind_ok h]
      exact (hf a ⟨_, _, _, h⟩).bound hb d s' (h1.1 a s' h)
    | error e =>
      rw [RM.bind_err h]
      exact ⟨fun b r hr => (by cases hr), fun e' r hr => h1.2 e' r (by cases hr; exact h)⟩
  · intro d s hp q hq
    cases h : x d s with
    | ok r =>
      obtain ⟨a, s'⟩ := r
      rw [RM.bind_ok h] at hq
      exact (hf a ⟨_, _, _, h⟩).unh d s' (ho d s a s' hp h) q hq
    | error e =>
      rw [RM.bind_err h] at hq
      cases hq
      exact hx.unh d s hp q h
  · intro d d' n s ha
    have hs := hx.sim d d' n s ha
    have late : Late n (y d' s) → Late n ((y >>= g) d' s) := by
      intro hl
      cases h : y d' s with
      | ok r =>
        obtain ⟨a, s'⟩ := r
        rw [RM.bind_ok h]
        have h1 := hl.1 a s' h
        have h2 := hmg a d' s'
        exact ⟨fun b r hr => by have := h2.1 b r hr; omega, fun e r hr => by have := h2.2 e r hr; omega⟩
      | error e =>
        rw [RM.bind_err h]
        exact ⟨fun b r hr => (by cases hr), fun e' r hr => hl.2 e' r (by cases hr; exact h)⟩
    cases h : x d s with
    | ok r =>
      obtain ⟨a, s'⟩ := r
      rw [RM.bind_ok h]
      have hm2 := hm a d s'
      have hs2 := (hf a ⟨_, _, _, h⟩).sim d d' n s' ha
      constructor
      · intro b r hr hn
        have hq := hm2.1 b r hr
        rcases hs.1 a s' h (by omega) with h' | h'
        · rw [RM.bind_ok h']
          exact hs2.1 b r hr hn
        · right; exact late h'
      · intro e hne he
        have hq := hm2.2 e n he
        rcases hs.1 a s' h (by omega) with h' | h'
        · rw [RM.bind_ok h']
          exact hs2.2 e hne he
        · exact late h'
    | error e =>
      rw [RM.bind_err h]
      refine ⟨fun b r hr => (by cases hr), ?_⟩
      intro e' hne he'
      cases he'
      exact late (hs.2 e' hne h)

theorem RMOk.bind {α β : Type} {o : Option Tag} {x y : RM α} {z : V8.RM α} {f g : α → RM β} {h : α → V8.RM β}
    (hx : RMOk bd o x y z) (hf : ∀ a, RMOk bd none (f a) (g a) (h a)) : RMOk bd o (x >>= f) (y >>= g) (z >>= h) :=
  RMOk.bindWith (fun _ => none) hx (fun a _ => hf a) (fun a => (hf a).monoX) (fun a => (hf a).monoY) (fun a => (hf a).erase)
    fun _ _ _ _ _ _ => trivial

theorem RMOk.weaken {α : Type} {o : Option Tag} {x y : RM α} {z : V8.RM α} (h : RMOk bd none x y z) : RMOk bd o x y z :=
  ⟨h.erase, h.monoX, h.monoY, h.bound, fun d s _ => h.unh d s trivial, h.sim⟩

theorem RMOk.unbound {α : Type} {o : Option Tag} {x y : RM α} {z : V8.RM α} (h : RMOk true o x y z) : RMOk bd o x y z :=
  ⟨h.erase, h.monoX, h.monoY, fun _ => h.bound rfl, h.unh, h.sim⟩

theorem RMOk.lift {α : Type} {o : Option Tag} {r : Rd α} {r0 : V8.Rd α} (h : RdOk bd r r0) :
    RMOk bd o (RM.lift r) (RM.lift r) (V8.RM.lift r0) := by
  have hc : ∀ d s, (∃ a p, r d s.pos = .ok (a, p) ∧ RM.lift r d s = .ok (a, { s with pos := p })) ∨
      ∃ e, r d s.pos = .error e ∧ RM.lift r d s = .error e := by
    intro d s
    unfold RM.lift
    cases r d s.pos with
    | ok q => exact Or.inl ⟨_, _, rfl, rfl⟩
    | error e => exact Or.inr ⟨_, rfl, rfl⟩
  have hm : Mono (RM.lift r) := by
    intro d s
    have h1 := h.mono d s.pos
    rcases hc d s with ⟨a, p, h2, h3⟩ | ⟨e, h2, h3⟩ <;> rw [h3]
    · exact ⟨fun b s' hs => by cases hs; exact h1.1 a p h2, fun e q hq => by cases hq⟩
    · exact ⟨fun b s' hs => (by cases hs), fun e' q hq => by cases hq; exact h1.2 e' q h2⟩
  refine ⟨?_, hm, hm, ?_, ?_, ?_⟩
  · intro d s
    have h1 := h.erase d s.pos
    unfold V8.RM.lift
    rw [← h1]
    rcases hc d s with ⟨a, p, h2, h3⟩ | ⟨e, h2, h3⟩ <;> rw [h3, h2] <;> rfl
  · intro hb d s hp
    have h1 := h.bound hb d s.pos hp
    rcases hc d s with ⟨a, p, h2, h3⟩ | ⟨e, h2, h3⟩ <;> rw [h3]
    · exact ⟨fun b s' hs => by cases hs; exact h1.1 a p h2, fun e q hq => by cases hq⟩
    · exact ⟨fun b s' hs => (by cases hs), fun e' q hq _ => by cases hq; exact h1.2 e' q h2⟩
  · intro d s _ q hq
    rcases hc d s with ⟨a, p, h2, h3⟩ | ⟨e, h2, h3⟩ <;> rw [h3] at hq <;> cases hq
    exact absurd h2 (h.handled _ _ _)
  · intro d d' n s ha
    have h1 := h.sim d d' n s.pos ha
    have late : ((∀ b p, r d' s.pos = .ok (b, p) → n ≤ p + 3) ∧ (∀ e p, r d' s.pos = .error (e, p) → n ≤ p + 3)) →
        Late n (RM.lift r d' s) := by
      intro hl
      rcases hc d' s with ⟨a, p, h2, h3⟩ | ⟨e, h2, h3⟩ <;> rw [h3]
      · exact ⟨fun b s' hs => by cases hs; exact hl.1 a p h2, fun e q hq => by cases hq⟩
      · exact ⟨fun b s' hs => (by cases hs), fun e' q hq => by cases hq; exact hl.2 e' q h2⟩
    rcases hc d s with ⟨a, p, h2, h3⟩ | ⟨e, h2, h3⟩ <;> rw [h3]
    · refine ⟨fun b s' hs hn => ?_, fun e _ he => by cases he⟩
      cases hs
      rcases h1.1 a p h2 hn with h4 | h4
      · left
        unfold RM.lift
        rw [h4]
      · exact Or.inr (late h4)
    · refine ⟨fun b s' hs hn => (by cases hs), fun e' _ he => ?_⟩
      cases he
      exact late (h1.2 e' h2)

/-- A step on the state that neither reads nor depends on the data. -/
theorem RMOk.still {α : Type} {o : Option Tag} {x : RM α} {z : V8.RM α} (F : DS → Except DErr (α × DS))
    (hx : ∀ d s, x d s = match F s with | .ok r => .ok r | .error e => .error (e, s.pos))
    (hz : ∀ d s, z d s = F s) (hp : ∀ s a s', F s = .ok (a, s') → s'.pos = s.pos)
    (he : ∀ s, F s ≠ .error .unhandledTag) : RMOk bd o x x z := by
  have hm : Mono x := by
    intro d s
    rw [hx]
    cases h : F s with
    | ok r => exact ⟨fun a s' hs => by cases hs; rw [hp s a s' h]; exact Nat.le_refl _, fun e q hq => by cases hq⟩
    | error e => exact ⟨fun a s' hs => (by cases hs), fun e q hq => by cases hq; exact Nat.le_refl _⟩
  refine ⟨?_, hm, hm, ?_, ?_, ?_⟩
  · intro d s
    rw [hx, hz]
    cases F s <;> rfl
  · intro _ d s hle
    rw [hx]
    cases h : F s with
    | ok r => exact ⟨fun a s' hs => by cases hs; rw [hp s a s' h]; exact hle, fun e q hq => by cases hq⟩
    | error e => exact ⟨fun a s' hs => (by cases hs), fun e q hq _ => by cases hq; exact hle⟩
  · intro d s _ q hq
    rw [hx] at hq
    cases h : F s with
    | ok r => rw [h] at hq; cases hq
    | error e => rw [h] at hq; cases hq; exact absurd h (he s)
  · intro d d' n s ha
    rw [hx, hx]
    cases h : F s with
    | ok r => exact ⟨fun a s' hs _ => Or.inl hs, fun e _ he => by cases he⟩
    | error e =>
      refine ⟨fun a s' hs _ => (by cases hs), fun e' _ he => ?_⟩
      cases he
      exact ⟨fun a s' hs => (by cases hs), fun e q hq => by cases hq; omega⟩

section steps
variable {o : Option Tag}

theorem RMOk.pure {α : Type} (a : α) : RMOk bd o (Pure.pure a : RM α) (Pure.pure a : RM α) (Pure.pure a : V8.RM α) :=
  RMOk.still (fun s => .ok (a, s)) (fun _ _ => rfl) (fun _ _ => rfl) (fun s b s' h => by cases h; rfl) (fun s h => by cases h)

theorem RMOk.fail {α : Type} (e : DErr) (he : e ≠ .unhandledTag) :
    RMOk bd o (RM.fail e : RM α) (RM.fail e : RM α) (V8.RM.fail e : V8.RM α) :=
  RMOk.still (fun _ => .error e) (fun _ _ => rfl) (fun _ _ => rfl) (fun s b s' h => by cases h)
    (fun s h => by cases h; exact he rfl)

theorem RMOk.fuel {α : Type} {y : RM α} (hy : Mono y) : RMOk bd o (RM.fail .fuel : RM α) y (V8.RM.fail .fuel : V8.RM α) := by
  refine ⟨fun _ _ => rfl, ?_, hy, ?_, ?_, ?_⟩
  · intro d s
    exact ⟨fun a s' hs => (by cases hs), fun e q hq => by cases hq; exact Nat.le_refl _⟩
  · intro _ d s hp
    exact ⟨fun a s' hs => (by cases hs), fun e q hq _ => by cases hq; exact hp⟩
  · intro d s _ q hq
    cases hq
  · intro d d' n s ha
    exact ⟨fun a s' hs => (by cases hs), fun e hne he => by cases he; exact absurd rfl hne⟩

theorem RMOk.unhandled {t : Tag} (ht : Unread t) :
    RMOk bd (some t) (unhandledTag t) (unhandledTag t) (V8.unhandledTag t) := by
  have hm : Mono (unhandledTag t) := fun d s =>
    ⟨fun a s' hs => (by cases hs), fun e q hq => by cases hq; exact Nat.le_refl _⟩
  refine ⟨fun _ _ => rfl, hm, hm, ?_, ?_, ?_⟩
  · intro _ d s hp
    exact ⟨fun a s' hs => (by cases hs), fun e q hq _ => by cases hq; exact hp⟩
  · intro d s hp q hq
    cases hq
    exact ⟨t, ht, hp⟩
  · intro d d' n s ha
    refine ⟨fun a s' hs => (by cases hs), fun e hne he => ?_⟩
    cases he
    exact ⟨fun a s' hs => (by cases hs), fun e q hq => by cases hq; omega⟩

theorem RMOk.orRaise {α : Type} (r : Except PyExc α) : RMOk bd o (orRaise r) (orRaise r) (V8.orRaise r) := by
  cases r with
  | ok a => exact RMOk.pure a
  | error e => exact RMOk.fail _ (by simp)

theorem RMOk.alloc (n : Node) : RMOk bd o (alloc n) (alloc n) (V8.alloc n) :=
  RMOk.still (fun s => .ok (s.heap.length, { s with heap := s.heap ++ [n] })) (fun _ _ => rfl) (fun _ _ => rfl)
    (fun s b s' h => by cases h; rfl) (fun s h => by cases h)

theorem RMOk.setNode (i : Id) (n : Node) : RMOk bd o (setNode i n) (setNode i n) (V8.setNode i n) :=
  RMOk.still (fun s => .ok ((), { s with heap := s.heap.set i n })) (fun _ _ => rfl) (fun _ _ => rfl)
    (fun s b s' h => by cases h; rfl) (fun s h => by cases h)

theorem RMOk.recordD (v : Val) : RMOk bd o (recordD v) (recordD v) (V8.recordD v) :=
  RMOk.still (fun s => .ok ((s.log.record v).2, { s with log := (s.log.record v).1 })) (fun _ _ => rfl) (fun _ _ => rfl)
    (fun s b s' h => by cases h; rfl) (fun s h => by cases h)

theorem RMOk.getVersion : RMOk bd o getVersion getVersion V8.getVersion :=
  RMOk.still (fun s => .ok (s.version, s)) (fun _ _ => rfl) (fun _ _ => rfl)
    (fun s b s' h => by cases h; rfl) (fun s h => by cases h)

theorem RMOk.getHeap : RMOk bd o getHeap getHeap V8.getHeap :=
  RMOk.still (fun s => .ok (s.heap, s)) (fun _ _ => rfl) (fun _ _ => rfl)
    (fun s b s' h => by cases h; rfl) (fun s h => by cases h)

theorem replaceExc_ne (e : LogErr) : replaceExc e ≠ .unhandledTag := by
  cases e <;> simp [replaceExc]

theorem RMOk.replaceD (n : Nat) (v : Val) : RMOk bd o (replaceD n v) (replaceD n v) (V8.replaceD n v) := by
  refine RMOk.still (fun s => match s.log.replace n (.obj v) with
    | .ok log => .ok ((), { s with log := log })
    | .error e => .error (replaceExc e)) ?_ ?_ ?_ ?_
  · intro d s
    unfold Pos.replaceD
    cases s.log.replace n (.obj v) <;> rfl
  · intro d s
    unfold V8.replaceD
    cases s.log.replace n (.obj v) <;> rfl
  · intro s a s' h
    cases hr : s.log.replace n (.obj v) with
    | ok l => rw [hr] at h; cases h; rfl
    | error e => rw [hr] at h; cases h
  · intro s h
    cases hr : s.log.replace n (.obj v) with
    | ok l => rw [hr] at h; cases h
    | error e => rw [hr] at h; injection h with h; exact replaceExc_ne e h

theorem RMOk.lookupD (n : Nat) : RMOk bd o (lookupD n) (lookupD n) (V8.lookupD n) := by
  refine RMOk.still (fun s => match s.log.getObject n with
    | .ok (.obj v) => .ok (v, s)
    | .ok (.fwd _) => .error (.py .assertionError)
    | .error _ => .error .decode) ?_ ?_ ?_ ?_
  · intro d s
    unfold Pos.lookupD
    cases s.log.getObject n with
    | error e => rfl
    | ok e => cases e <;> rfl
  · intro d s
    unfold V8.lookupD
    cases s.log.getObject n with
    | error e => rfl
    | ok e => cases e <;> rfl
  · intro s a s' h
    cases hr : s.log.getObject n with
    | error e => rw [hr] at h; cases h
    | ok e => rw [hr] at h; cases e <;> cases h; rfl
  · intro s h
    cases hr : s.log.getObject n with
    | error e => rw [hr] at h; cases h
    | ok e => rw [hr] at h; cases e <;> cases h

theorem RMOk.ite {α : Type} {c : Prop} [Decidable c] {x y x' y' : RM α} {z w : V8.RM α} (hx : RMOk bd o x x' z)
    (hy : RMOk bd o y y' w) : RMOk bd o (if c then x else y) (if c then x' else y') (if c then z else w) := by
  split
  · exact hx
  · exact hy

theorem RMOk.tickThen {α : Type} {x y : RM α} {z : V8.RM α} (h : RMOk bd o x y z) :
    RMOk bd o (tick >>= fun _ => x) (tick >>= fun _ => y) (V8.tick >>= fun _ => z) := by
  refine RMOk.bindWith (fun _ => o) ?_ (fun _ _ => h) (fun _ => h.monoX) (fun _ => h.monoY) (fun _ => h.erase) ?_
  · exact RMOk.still (fun s => .ok ((), { s with calls := s.calls + 1 })) (fun _ _ => rfl) (fun _ _ => rfl)
      (fun s b s' h => by cases h; rfl) (fun s h => by cases h)
  · intro d s a s' hp hx
    cases hx
    exact hp

theorem readTag_lift {accept : Tag → Bool} {d : Bytes} {s : DS} {t : Tag} {s' : DS}
    (h : RM.lift (readTag accept) d s = .ok (t, s')) : accept t = true ∧ TagBefore d s'.pos t := by
  unfold RM.lift at h
  cases hr : readTag accept true d s.pos with
  | error e => rw [hr] at h; cases h
  | ok r =>
    obtain ⟨t', p⟩ := r
    rw [hr] at h
    cases h
    exact readTag_byte accept d s.pos t p hr

/-- After reading a tag the tag is known. -/
theorem RMOk.tagThen {α : Type} (accept : Tag → Bool) {f g : Tag → RM α} {h : Tag → V8.RM α}
    (hf : ∀ t, RMOk bd (some t) (f t) (g t) (h t)) :
    RMOk bd o (RM.lift (readTag accept) >>= f) (RM.lift (readTag accept) >>= g) (V8.RM.lift (V8.readTag accept) >>= h) :=
  RMOk.bindWith some (RMOk.lift (readTag_ok accept)) (fun t _ => hf t) (fun t => (hf t).monoX) (fun t => (hf t).monoY)
    (fun t => (hf t).erase) fun _ _ _ _ _ hx => (readTag_lift hx).2

/-- A loop gets no less fuel from longer data. -/
theorem RMOk.fuelThen {α : Type} {f g : Nat → RM α} {h : Nat → V8.RM α}
    (hf : ∀ n n', n ≤ n' → RMOk bd none (f n) (g n') (h n)) :
    RMOk bd o (loopFuel >>= f) (loopFuel >>= g) (V8.loopFuel >>= h) := by
  have hl : ∀ (k : Nat → RM α) d s, (loopFuel >>= k) d s = k (d.length - s.pos + 1) d s := fun _ _ _ => rfl
  have hl0 : ∀ d s, (V8.loopFuel >>= h) d s = h (d.length - s.pos + 1) d s := fun _ _ => rfl
  refine ⟨?_, ?_, ?_, ?_, ?_, ?_⟩
  · intro d s
    rw [hl, hl0]
    exact (hf _ _ (Nat.le_refl _)).erase d s
  · intro d s
    rw [hl]
    exact (hf _ _ (Nat.le_refl _)).monoX d s
  · intro d s
    rw [hl]
    exact (hf _ _ (Nat.le_refl _)).monoY d s
  · intro hb d s hp
    rw [hl]
    exact (hf _ _ (Nat.le_refl _)).bound hb d s hp
  · intro d s _ q hq
    rw [hl] at hq
    exact (hf _ _ (Nat.le_refl _)).unh d s trivial q hq
  · intro d d' n s ha
    rw [hl, hl]
    have := ha.len
    exact (hf _ _ (by omega)).sim d d' n s ha

/-! ### Objects -/

theorem RMOk.checkCount (a b : Nat) : RMOk bd o (checkCount a b) (checkCount a b) (V8.checkCount a b) :=
  RMOk.ite (RMOk.fail _ (throwFmt_ne _)) (RMOk.pure _)

theorem RMOk.assertStr (v : Val) : RMOk bd o (assertStr v) (assertStr v) (V8.assertStr v) := by
  cases v <;> first | exact RMOk.fail _ (by decide) | exact RMOk.pure _

theorem RMOk.checkKey (v : Val) : RMOk bd o (checkKey v) (checkKey v) (V8.checkKey v) := by
  cases v <;> first | exact RMOk.fail _ (by decide) | exact RMOk.pure _

theorem RMOk.putEntry (m : JSMap Val) (k v : Val) : RMOk bd o (putEntry m k v) (putEntry m k v) (V8.putEntry m k v) := by
  unfold Pos.putEntry V8.putEntry
  rcases m.setitem k v with ⟨m', _ | e⟩
  · exact RMOk.pure _
  · exact RMOk.fail _ (by simp)

theorem RMOk.putMember (m : JSSet) (v : Val) : RMOk bd o (putMember m v) (putMember m v) (V8.putMember m v) := by
  unfold Pos.putMember V8.putMember
  rcases m.add v with ⟨m', _ | e⟩
  · exact RMOk.pure _
  · exact RMOk.fail _ (by simp)

theorem RMOk.putProp (py : PyEnv) (m : JSObj Val) (k : RawKey) (v : Val) :
    RMOk bd o (putProp py m k v) (putProp py m k v) (V8.putProp py m k v) := by
  unfold Pos.putProp V8.putProp
  cases normaliseKey py.floatStr k with
  | error e => exact RMOk.fail _ (by simp)
  | ok k =>
    simp only
    rcases m.setitem k v.toElem with ⟨m', _ | e⟩
    · exact RMOk.pure _
    · exact RMOk.fail _ (by simp)

theorem RMOk.resizeTo (env : DEnv) (n : Nat) (m : JSObj Val) : RMOk bd o (resizeTo env n m) (resizeTo env n m) (V8.resizeTo env n m) :=
  RMOk.ite (RMOk.putProp _ _ _ _) (RMOk.pure _)

theorem RMOk.viewTagOf (n : Nat) : RMOk bd o (viewTagOf n) (viewTagOf n) (V8.viewTagOf n) := by
  unfold Pos.viewTagOf V8.viewTagOf
  cases ViewTag.ofCode n with
  | some t => exact RMOk.pure _
  | none => exact RMOk.fail _ (by decide)

theorem RMOk.varint : RMOk bd o (RM.lift readVarint) (RM.lift readVarint) (V8.RM.lift V8.readVarint) :=
  RMOk.lift (readVarint_ok _ (Or.inl rfl))

theorem RMOk.readViewFlags (n : Nat) : RMOk bd o (readViewFlags n) (readViewFlags n) (V8.readViewFlags n) :=
  RMOk.ite (RMOk.varint.bind fun _ => RMOk.orRaise _) (RMOk.pure _)

theorem RMOk.readView (v : Val) : RMOk bd o (readView v) (readView v) (V8.readView v) :=
  RMOk.bind (RMOk.lift (readTag_ok _)) fun _ => RMOk.varint.bind fun _ => (RMOk.viewTagOf _).bind fun _ =>
  (RMOk.lift readUint32_ok).bind fun _ => (RMOk.lift readUint32_ok).bind fun _ => RMOk.getVersion.bind fun _ =>
  (RMOk.readViewFlags _).bind fun _ => RMOk.getHeap.bind fun _ => (RMOk.orRaise _).bind fun _ => (RMOk.alloc _).bind fun _ =>
  (RMOk.recordD _).bind fun _ => RMOk.pure _

theorem RMOk.viewAfter (v : Val) : RMOk bd o (viewAfter v) (viewAfter v) (V8.viewAfter v) :=
  (RMOk.lift peakIsView_ok).bind fun _ => RMOk.ite (RMOk.readView _) (RMOk.pure _)

/-- Looking for a view fails after the end of the data. -/
theorem viewAfter_bound (v : Val) (d : Bytes) (s : DS) : (∀ a s', viewAfter v d s = .ok (a, s') → s'.pos ≤ d.length) ∧
    (∀ e q, viewAfter v d s = .error (e, q) → e = .decode ∨ e = .unhandledTag → q ≤ d.length) := by
  cases h : peakIsView d s.pos with
  | error e =>
    have hl : RM.lift peakIsView d s = .error e := by unfold RM.lift; rw [h]
    unfold viewAfter
    rw [RM.bind_err hl]
    refine ⟨fun a s' hs => (by cases hs), fun e' q hq he => ?_⟩
    cases hq
    have := peakIsView_err d s.pos e' q h
    rw [this] at he
    rcases he with he | he <;> cases he
  | ok r =>
    obtain ⟨b, q⟩ := r
    obtain ⟨h1, h2⟩ := peakIsView_bound d s.pos b q h
    exact (RMOk.viewAfter (bd := true) (o := none) v).bound rfl d s h2

theorem RMOk.decodePrimObj (t : Tag) : RMOk bd o (decodePrimObj t) (decodePrimObj t) (V8.decodePrimObj t) :=
  (RMOk.lift (readPrimObj_ok t)).bind fun _ => (RMOk.alloc _).bind fun _ => (RMOk.recordD _).bind fun _ =>
  (RMOk.replaceD _ _).bind fun _ => RMOk.pure _

theorem RMOk.decodeDate (env : DEnv) : RMOk bd o (decodeDate env) (decodeDate env) (V8.decodeDate env) :=
  (RMOk.lift readDouble_ok).bind fun _ => (RMOk.orRaise _).bind fun _ => (RMOk.alloc _).bind fun _ =>
  (RMOk.recordD _).bind fun _ => RMOk.pure _

theorem RMOk.decodeSharedRef : RMOk bd o decodeSharedRef decodeSharedRef V8.decodeSharedRef :=
  (RMOk.lift readUint32_ok).bind fun _ => (RMOk.alloc _).bind fun _ => (RMOk.recordD _).bind fun _ => RMOk.pure _

theorem RMOk.decodeNodeHostObject : RMOk bd o decodeNodeHostObject decodeNodeHostObject V8.decodeNodeHostObject :=
  (RMOk.lift readNodeContents_ok).bind fun _ => (RMOk.orRaise _).bind fun _ => (RMOk.alloc _).bind fun _ =>
  (RMOk.orRaise _).bind fun _ => (RMOk.alloc _).bind fun _ => RMOk.pure _

theorem RMOk.decodeHostObject (env : DEnv) : RMOk bd o (decodeHostObject env) (decodeHostObject env) (V8.decodeHostObject env) :=
  RMOk.ite RMOk.decodeNodeHostObject (RMOk.fail _ (by decide))

theorem RMOk.decodeReference : RMOk bd o decodeReference decodeReference V8.decodeReference :=
  RMOk.varint.bind fun _ => (RMOk.lookupD _).bind fun _ => RMOk.getHeap.bind fun _ => RMOk.ite (RMOk.viewAfter _) (RMOk.pure _)

theorem RMOk.readFixedBuffer : RMOk bd o readFixedBuffer readFixedBuffer V8.readFixedBuffer :=
  (RMOk.lift readFixedContents_ok).bind fun _ => (RMOk.orRaise _).bind fun _ => (RMOk.alloc _).bind fun _ =>
  (RMOk.recordD _).bind fun _ => RMOk.pure _

theorem RMOk.readResizableBuffer : RMOk false o readResizableBuffer readResizableBuffer V8.readResizableBuffer :=
  (RMOk.lift readResizableContents_ok).bind fun _ => (RMOk.orRaise _).bind fun _ => (RMOk.alloc _).bind fun _ =>
  (RMOk.recordD _).bind fun _ => RMOk.pure _

theorem RMOk.readSharedBuffer : RMOk bd o readSharedBuffer readSharedBuffer V8.readSharedBuffer :=
  (RMOk.lift readUint32_ok).bind fun _ => (RMOk.alloc _).bind fun _ => RMOk.pure _

theorem RMOk.readTransferBuffer : RMOk bd o readTransferBuffer readTransferBuffer V8.readTransferBuffer :=
  (RMOk.lift readUint32_ok).bind fun _ => (RMOk.alloc _).bind fun _ => RMOk.pure _

/-- Reading the contents of a resizable buffer does not fail after the end of the data. -/
theorem readResizable_err (d : Bytes) (s : DS) (hp : s.pos ≤ d.length) (e : DErr) (q : Nat)
    (h : readResizableBuffer d s = .error (e, q)) (he : e = .decode ∨ e = .unhandledTag) : q ≤ d.length := by
  cases hr : readResizableContents d s.pos with
  | error e' =>
    have hl : RM.lift readResizableContents d s = .error e' := by unfold RM.lift; rw [hr]
    unfold readResizableBuffer at h
    rw [RM.bind_err hl] at h
    cases h
    have h0 : RdOk true (readUint32 >>= fun n => checkFitsResizable n >>= fun _ => readUint32 >>= fun max => checkMax max n)
        (V8.readUint32 >>= fun n => V8.checkFitsResizable n >>= fun _ => V8.readUint32 >>= fun max => V8.checkMax max n) :=
      readUint32_ok.bind' fun _ => (checkFitsResizable_ok _).bind' fun _ => readUint32_ok.bind' fun _ =>
        (RdOk.ite' RdOk.throw' (RdOk.pure' _))
    refine (h0.bound rfl d s.pos hp).2 e q ?_
    unfold readResizableContents at hr
    cases h1 : readUint32 d s.pos with
    | error e1 => rw [Rd.bind_err h1] at hr ⊢; cases hr; rfl
    | ok r1 =>
      obtain ⟨n, p1⟩ := r1
      rw [Rd.bind_ok h1] at hr ⊢
      cases h2 : checkFitsResizable n d p1 with
      | error e2 => rw [Rd.bind_err h2] at hr ⊢; cases hr; rfl
      | ok r2 =>
        obtain ⟨u, p2⟩ := r2
        rw [Rd.bind_ok h2] at hr ⊢
        cases h3 : readUint32 d p2 with
        | error e3 => rw [Rd.bind_err h3] at hr ⊢; cases hr; rfl
        | ok r3 =>
          obtain ⟨m, p3⟩ := r3
          rw [Rd.bind_ok h3] at hr ⊢
          cases h4 : checkMax m n d p3 with
          | error e4 => rw [Rd.bind_err h4] at hr; cases hr; rfl
          | ok r4 =>
            obtain ⟨u4, p4⟩ := r4
            rw [Rd.bind_ok h4] at hr
            cases hr
  | ok r =>
    obtain ⟨a, p⟩ := r
    have hl : RM.lift readResizableContents d s = .ok (a, { s with pos := p }) := by unfold RM.lift; rw [hr]
    unfold readResizableBuffer at h
    rw [RM.bind_ok hl] at h
    cases hm : ABuf.mk' a.1 (some (a.2 : Int)) true false with
    | ok b => rw [hm] at h; cases h
    | error x =>
      rw [hm] at h
      have : (.error ((.py x : DErr), p) : Except PErr (Val × DS)) = .error (e, q) := h
      cases this
      rcases he with he | he <;> cases he

theorem RMOk.decodeArrayBuffer (t : Tag) : RMOk true o (decodeArrayBuffer t) (decodeArrayBuffer t) (V8.decodeArrayBuffer t) := by
  have other : RMOk true o (readArrayBuffer t) (readArrayBuffer t) (V8.readArrayBuffer t) →
      RMOk true o (Pos.decodeArrayBuffer t) (Pos.decodeArrayBuffer t) (V8.decodeArrayBuffer t) :=
    fun h => h.bind fun _ => RMOk.viewAfter _
  by_cases ht : t = .kResizableArrayBuffer
  · subst ht
    have h : RMOk false o (Pos.decodeArrayBuffer .kResizableArrayBuffer) (Pos.decodeArrayBuffer .kResizableArrayBuffer)
        (V8.decodeArrayBuffer .kResizableArrayBuffer) :=
      RMOk.bind (z := V8.readResizableBuffer) RMOk.readResizableBuffer fun _ => RMOk.viewAfter _
    refine ⟨h.erase, h.monoX, h.monoY, ?_, h.unh, h.sim⟩
    intro _ d s hp
    have hd : Pos.decodeArrayBuffer .kResizableArrayBuffer = Pos.readResizableBuffer >>= Pos.viewAfter := rfl
    cases hr : Pos.readResizableBuffer d s with
    | error e =>
      rw [hd, RM.bind_err hr]
      exact ⟨fun a s' hs => (by cases hs), fun e' q hq he => by cases hq; exact readResizable_err d s hp e' q hr he⟩
    | ok r =>
      obtain ⟨a, s1⟩ := r
      rw [hd, RM.bind_ok hr]
      exact viewAfter_bound a d s1
  · cases t <;> first
      | exact absurd rfl ht
      | exact other RMOk.readFixedBuffer
      | exact other RMOk.readSharedBuffer
      | exact other RMOk.readTransferBuffer
      | exact other (RMOk.fail _ (by decide))

/-! ### Nested values -/

/-- What is known of `decode_object` for nested values: with less fuel (`r`) and with more (`r'`). -/
structure RecOk (r r' : Tag → RM Val) (r0 r0' : Tag → V8.RM Val) : Prop where
  main : ∀ t, RMOk true (some t) (r t) (r' t) (r0 t)
  self : ∀ t, RMOk true (some t) (r' t) (r' t) (r0' t)

variable {r r' : Tag → RM Val} {r0 r0' : Tag → V8.RM Val}

theorem RecOk.same (h : RecOk r r' r0 r0') : RecOk r' r' r0' r0' := ⟨h.self, h.self⟩

theorem RMOk.decodeNext (h : RecOk r r' r0 r0') : RMOk true o (decodeNext r) (decodeNext r') (V8.decodeNext r0) :=
  RMOk.tagThen _ h.main

theorem RMOk.decodeRegExp (h : RecOk r r' r0 r0') : RMOk true o (decodeRegExp r) (decodeRegExp r') (V8.decodeRegExp r0) :=
  RMOk.tagThen _ fun t => (h.main t).bind fun _ => (RMOk.assertStr _).bind fun _ => RMOk.varint.bind fun _ =>
  (RMOk.orRaise _).bind fun _ => (RMOk.alloc _).bind fun _ => (RMOk.recordD _).bind fun _ => RMOk.pure _

theorem RMOk.readErrText (h : RecOk r r' r0 r0') (want etag : ErrTag) :
    RMOk true o (readErrText r want etag) (readErrText r' want etag) (V8.readErrText r0 want etag) :=
  RMOk.ite (RMOk.tagThen _ fun t => (h.main t).bind fun _ => (RMOk.lift readErrTag_ok).bind fun _ => (RMOk.assertStr _).bind fun _ =>
    RMOk.pure _) (RMOk.pure _)

theorem RMOk.readErrCause (h : RecOk r r' r0 r0') (etag : ErrTag) :
    RMOk true o (readErrCause r etag) (readErrCause r' etag) (V8.readErrCause r0 etag) :=
  RMOk.ite ((RMOk.decodeNext h).bind fun _ => (RMOk.lift readErrTag_ok).bind fun _ => RMOk.pure _) (RMOk.pure _)

theorem RMOk.readLateStack (h : RecOk r r' r0 r0') (stack : Option Str) (etag : ErrTag) :
    RMOk true o (readLateStack r stack etag) (readLateStack r' stack etag) (V8.readLateStack r0 stack etag) :=
  RMOk.ite (RMOk.readErrText h _ _) (RMOk.pure _)

theorem RMOk.checkErrEnd (etag : ErrTag) : RMOk bd o (checkErrEnd etag) (checkErrEnd etag) (V8.checkErrEnd etag) :=
  RMOk.ite (RMOk.fail _ (by decide)) (RMOk.pure _)

theorem RMOk.decodeError (h : RecOk r r' r0 r0') : RMOk true o (decodeError r) (decodeError r') (V8.decodeError r0) :=
  (RMOk.lift readErrTag_ok).bind fun _ => (RMOk.lift (readAfterName_ok _)).bind fun _ => (RMOk.readErrText h _ _).bind fun _ =>
  (RMOk.readErrText h _ _).bind fun _ => (RMOk.alloc _).bind fun _ => (RMOk.recordD _).bind fun _ =>
  (RMOk.readErrCause h _).bind fun _ => (RMOk.readLateStack h _ _).bind fun _ => (RMOk.checkErrEnd _).bind fun _ =>
  (RMOk.setNode _ _).bind fun _ => RMOk.pure _

theorem mapLoop_step (h : RecOk r r' r0 r0') (f f' : Nat)
    (ih : ∀ m c, RMOk true none (mapLoop r f m c) (mapLoop r' f' m c) (V8.mapLoop r0 f m c)) (m : JSMap Val) (c : Nat) :
    RMOk true o (mapLoop r (f + 1) m c) (mapLoop r' (f' + 1) m c) (V8.mapLoop r0 (f + 1) m c) :=
  RMOk.tagThen _ fun t => RMOk.ite (RMOk.pure _) ((h.main t).bind fun _ => (RMOk.decodeNext h).bind fun _ =>
    (RMOk.putEntry _ _ _).bind fun _ => ih _ _)

theorem RMOk.mapLoop (h : RecOk r r' r0 r0') (f f' : Nat) (hf : f ≤ f') (m : JSMap Val) (c : Nat) :
    RMOk true none (mapLoop r f m c) (mapLoop r' f' m c) (V8.mapLoop r0 f m c) := by
  have self : ∀ f m c, RMOk true none (Pos.mapLoop r' f m c) (Pos.mapLoop r' f m c) (V8.mapLoop r0' f m c) := by
    intro f
    induction f with
    | zero => exact fun _ _ => RMOk.fail _ (by decide)
    | succ f ih => exact mapLoop_step h.same f f ih
  induction f generalizing f' m c with
  | zero => exact RMOk.fuel (self f' m c).monoX
  | succ f ih =>
    obtain ⟨k, rfl⟩ : ∃ k, f' = k + 1 := ⟨f' - 1, by omega⟩
    exact mapLoop_step h f k (fun m c => ih k (by omega) m c) m c

theorem RMOk.decodeJSMap (h : RecOk r r' r0 r0') : RMOk true o (decodeJSMap r) (decodeJSMap r') (V8.decodeJSMap r0) :=
  (RMOk.alloc _).bind fun _ => (RMOk.recordD _).bind fun _ => RMOk.fuelThen fun n n' hn =>
  (RMOk.mapLoop h n n' hn _ _).bind fun _ => RMOk.varint.bind fun _ => (RMOk.checkCount _ _).bind fun _ =>
  (RMOk.setNode _ _).bind fun _ => RMOk.pure _

theorem setLoop_step (h : RecOk r r' r0 r0') (f f' : Nat)
    (ih : ∀ m c, RMOk true none (setLoop r f m c) (setLoop r' f' m c) (V8.setLoop r0 f m c)) (m : JSSet) (c : Nat) :
    RMOk true o (setLoop r (f + 1) m c) (setLoop r' (f' + 1) m c) (V8.setLoop r0 (f + 1) m c) :=
  RMOk.tagThen _ fun t => RMOk.ite (RMOk.pure _) ((h.main t).bind fun _ => (RMOk.putMember _ _).bind fun _ => ih _ _)

theorem RMOk.setLoop (h : RecOk r r' r0 r0') (f f' : Nat) (hf : f ≤ f') (m : JSSet) (c : Nat) :
    RMOk true none (setLoop r f m c) (setLoop r' f' m c) (V8.setLoop r0 f m c) := by
  have self : ∀ f m c, RMOk true none (Pos.setLoop r' f m c) (Pos.setLoop r' f m c) (V8.setLoop r0' f m c) := by
    intro f
    induction f with
    | zero => exact fun _ _ => RMOk.fail _ (by decide)
    | succ f ih => exact setLoop_step h.same f f ih
  induction f generalizing f' m c with
  | zero => exact RMOk.fuel (self f' m c).monoX
  | succ f ih =>
    obtain ⟨k, rfl⟩ : ∃ k, f' = k + 1 := ⟨f' - 1, by omega⟩
    exact setLoop_step h f k (fun m c => ih k (by omega) m c) m c

theorem RMOk.decodeJSSet (h : RecOk r r' r0 r0') : RMOk true o (decodeJSSet r) (decodeJSSet r') (V8.decodeJSSet r0) :=
  (RMOk.alloc _).bind fun _ => (RMOk.recordD _).bind fun _ => RMOk.fuelThen fun n n' hn =>
  (RMOk.setLoop h n n' hn _ _).bind fun _ => RMOk.varint.bind fun _ => (RMOk.checkCount _ _).bind fun _ =>
  (RMOk.setNode _ _).bind fun _ => RMOk.pure _

theorem propsLoop_step (env : DEnv) (e : Tag) (h : RecOk r r' r0 r0') (f f' : Nat)
    (ih : ∀ m c, RMOk true none (propsLoop env r e f m c) (propsLoop env r' e f' m c) (V8.propsLoop env r0 e f m c))
    (m : JSObj Val) (c : Nat) :
    RMOk true o (propsLoop env r e (f + 1) m c) (propsLoop env r' e (f' + 1) m c) (V8.propsLoop env r0 e (f + 1) m c) :=
  RMOk.tagThen _ fun t => RMOk.ite ((h.main t).bind fun _ => (RMOk.checkKey _).bind fun _ => (RMOk.decodeNext h).bind fun _ =>
    (RMOk.putProp _ _ _ _).bind fun _ => ih _ _) (RMOk.ite (RMOk.pure _) (RMOk.fail _ (by decide)))

theorem RMOk.propsLoop (env : DEnv) (e : Tag) (h : RecOk r r' r0 r0') (f f' : Nat) (hf : f ≤ f') (m : JSObj Val) (c : Nat) :
    RMOk true none (propsLoop env r e f m c) (propsLoop env r' e f' m c) (V8.propsLoop env r0 e f m c) := by
  have self : ∀ f m c, RMOk true none (Pos.propsLoop env r' e f m c) (Pos.propsLoop env r' e f m c) (V8.propsLoop env r0' e f m c) := by
    intro f
    induction f with
    | zero => exact fun _ _ => RMOk.fail _ (by decide)
    | succ f ih => exact propsLoop_step env e h.same f f ih
  induction f generalizing f' m c with
  | zero => exact RMOk.fuel (self f' m c).monoX
  | succ f ih =>
    obtain ⟨k, rfl⟩ : ∃ k, f' = k + 1 := ⟨f' - 1, by omega⟩
    exact propsLoop_step env e h f k (fun m c => ih k (by omega) m c) m c

theorem RMOk.readProps (env : DEnv) (e : Tag) (h : RecOk r r' r0 r0') (m : JSObj Val) :
    RMOk true o (readProps env r e m) (readProps env r' e m) (V8.readProps env r0 e m) :=
  RMOk.fuelThen fun n n' hn => (RMOk.propsLoop env e h n n' hn _ _).bind fun _ => RMOk.varint.bind fun _ =>
  (RMOk.checkCount _ _).bind fun _ => RMOk.pure _

theorem RMOk.decodeJSObject (env : DEnv) (h : RecOk r r' r0 r0') :
    RMOk true o (decodeJSObject env r) (decodeJSObject env r') (V8.decodeJSObject env r0) :=
  (RMOk.alloc _).bind fun _ => (RMOk.recordD _).bind fun _ => (RMOk.readProps env _ h _).bind fun _ =>
  (RMOk.setNode _ _).bind fun _ => RMOk.pure _

theorem RMOk.elemsLoop (env : DEnv) (h : RecOk r r' r0 r0') (n i : Nat) (m : JSObj Val) :
    RMOk true none (elemsLoop env r n i m) (elemsLoop env r' n i m) (V8.elemsLoop env r0 n i m) := by
  induction n generalizing i m with
  | zero => exact RMOk.pure _
  | succ n ih => exact (RMOk.decodeNext h).bind fun _ => (RMOk.putProp _ _ _ _).bind fun _ => ih _ _

theorem RMOk.decodeDenseArray (env : DEnv) (h : RecOk r r' r0 r0') :
    RMOk true o (decodeDenseArray env r) (decodeDenseArray env r') (V8.decodeDenseArray env r0) :=
  (RMOk.alloc _).bind fun _ => (RMOk.recordD _).bind fun _ => RMOk.varint.bind fun _ => (RMOk.elemsLoop env h _ _ _).bind fun _ =>
  (RMOk.readProps env _ h _).bind fun _ => RMOk.varint.bind fun _ => (RMOk.checkCount _ _).bind fun _ =>
  (RMOk.setNode _ _).bind fun _ => RMOk.pure _

theorem RMOk.decodeSparseArray (env : DEnv) (h : RecOk r r' r0 r0') :
    RMOk true o (decodeSparseArray env r) (decodeSparseArray env r') (V8.decodeSparseArray env r0) :=
  (RMOk.alloc _).bind fun _ => (RMOk.recordD _).bind fun _ => RMOk.varint.bind fun _ => (RMOk.resizeTo env _ _).bind fun _ =>
  (RMOk.readProps env _ h _).bind fun _ => RMOk.varint.bind fun _ => (RMOk.checkCount _ _).bind fun _ =>
  (RMOk.setNode _ _).bind fun _ => RMOk.pure _

theorem RMOk.tagReader (env : DEnv) (h : RecOk r r' r0 r0') (t : Tag) :
    RMOk true (some t) (tagReader env r t unhandledTag) (tagReader env r' t unhandledTag) (V8.tagReader env r0 t V8.unhandledTag) := by
  cases t <;> first
    | exact RMOk.unhandled (by unfold Unread; simp)
    | exact RMOk.fail _ (by decide)
    | exact RMOk.pure _
    | exact (RMOk.lift readDouble_ok).bind fun _ => RMOk.pure _
    | exact (RMOk.lift readStringOneByte_ok).bind fun _ => RMOk.pure _
    | exact (RMOk.lift readStringTwoByte_ok).bind fun _ => RMOk.pure _
    | exact (RMOk.lift readStringUtf8_ok).bind fun _ => RMOk.pure _
    | exact (RMOk.lift readBigint_ok).bind fun _ => RMOk.pure _
    | exact (RMOk.lift readInt32_ok).bind fun _ => RMOk.pure _
    | exact (RMOk.lift readUint32_ok).bind fun _ => RMOk.pure _
    | exact RMOk.decodeRegExp h
    | exact RMOk.decodeJSMap h
    | exact RMOk.decodeJSSet h
    | exact RMOk.decodeReference
    | exact RMOk.decodeJSObject env h
    | exact RMOk.decodeDenseArray env h
    | exact RMOk.decodeSparseArray env h
    | exact RMOk.decodeArrayBuffer _
    | exact RMOk.decodePrimObj _
    | exact RMOk.decodeError h
    | exact RMOk.decodeDate env
    | exact RMOk.decodeSharedRef
    | exact RMOk.decodeHostObject env

end steps

theorem decodeTag_succ (env : DEnv) (f : Nat) (t : Tag) :
    decodeTag env (f + 1) t = (tick >>= fun _ => tagReader env (decodeTag env f) t unhandledTag) := by
  show decodeWith (defaultDecodeSteps env) (f + 1) t = _
  rw [decodeWith, chainFrom, dif_pos (by simp [defaultDecodeSteps])]
  have : (fun b => chainFrom unhandledTag
      ((defaultDecodeSteps env).map fun s => s (decodeWith (defaultDecodeSteps env) f)) (0 + 1) b) = unhandledTag := by
    funext b
    rw [chainFrom, dif_neg (by simp [defaultDecodeSteps])]
  rw [this]
  rfl

theorem decodeTag_self (env : DEnv) (f : Nat) (t : Tag) :
    RMOk true (some t) (decodeTag env f t) (decodeTag env f t) (V8.decodeTag env f t) := by
  induction f generalizing t with
  | zero => exact RMOk.fail _ (by decide)
  | succ f ih =>
    rw [decodeTag_succ, V8.decodeTag_succ]
    exact RMOk.tickThen (RMOk.tagReader env ⟨ih, ih⟩ t)

theorem decodeTag_ok (env : DEnv) (f f' : Nat) (hf : f ≤ f') (t : Tag) :
    RMOk true (some t) (decodeTag env f t) (decodeTag env f' t) (V8.decodeTag env f t) := by
  induction f generalizing f' t with
  | zero => exact RMOk.fuel (decodeTag_self env f' t).monoX
  | succ f ih =>
    obtain ⟨k, rfl⟩ : ∃ k, f' = k + 1 := ⟨f' - 1, by omega⟩
    rw [decodeTag_succ, decodeTag_succ, V8.decodeTag_succ]
    exact RMOk.tickThen (RMOk.tagReader env ⟨ih k (by omega), decodeTag_self env k⟩ t)

theorem root_ok (env : DEnv) (f f' : Nat) (hf : f ≤ f') :
    RMOk true none (decodeNext (decodeTag env f)) (decodeNext (decodeTag env f')) (V8.decodeNext (V8.decodeTag env f)) :=
  RMOk.decodeNext ⟨decodeTag_ok env f f' hf, decodeTag_self env f'⟩

theorem loads_err {env : DEnv} {d : Bytes} {e : PErr} (h : readHeader d 0 = .error e) : loads env d = .error e := by
  unfold loads
  rw [h]

theorem loads_hdr {env : DEnv} {d : Bytes} {v p : Nat} (h : readHeader d 0 = .ok (v, p)) :
    loads env d = decodeNext (decodeTag env (d.length - p + 1)) d (DS.start p v) := by
  unfold loads
  rw [h]

theorem loads_erase (env : DEnv) (d : Bytes) : erase (loads env d) = V8.loads env d := by
  have h0 := (readHeader_ok (bd := true)).erase d 0
  cases h : readHeader d 0 with
  | error e =>
    rw [h] at h0
    rw [loads_err h]
    unfold V8.loads
    rw [← h0]
    rfl
  | ok r =>
    obtain ⟨v, p⟩ := r
    rw [h] at h0
    rw [loads_hdr h]
    unfold V8.loads
    rw [← h0]
    exact (root_ok env _ _ (Nat.le_refl _)).erase d _

theorem loads_bound (env : DEnv) (d : Bytes) (e : DErr) (q : Nat) (he : e = .decode ∨ e = .unhandledTag)
    (h : loads env d = .error (e, q)) : q ≤ d.length := by
  have h0 := (readHeader_ok (bd := true)).bound rfl d 0 (Nat.zero_le _)
  cases hr : readHeader d 0 with
  | error e' =>
    rw [loads_err hr] at h
    cases h
    exact h0.2 e q hr
  | ok r =>
    obtain ⟨v, p⟩ := r
    rw [loads_hdr hr] at h
    exact ((root_ok env _ _ (Nat.le_refl _)).bound rfl d (DS.start p v) (h0.1 v p hr)).2 e q h he

theorem loads_unhandled (env : DEnv) (d : Bytes) (q : Nat) (h : loads env d = .error (.unhandledTag, q)) :
    ∃ t, Unread t ∧ TagBefore d q t := by
  cases hr : readHeader d 0 with
  | error e' =>
    rw [loads_err hr] at h
    cases h
    exact absurd hr ((readHeader_ok (bd := true)).handled d 0 q)
  | ok r =>
    obtain ⟨v, p⟩ := r
    rw [loads_hdr hr] at h
    exact (root_ok env _ _ (Nat.le_refl _)).unh d (DS.start p v) trivial q h

theorem loads_late (env : DEnv) (d d' : Bytes) (e : DErr) (n : Nat) (he : e ≠ .fuel) (h : loads env d = .error (e, n))
    (ha : Agree d d' n) : Late n (loads env d') := by
  have h0 := (readHeader_ok (bd := true)).sim d d' n 0 ha
  have hlate : ((∀ b r, readHeader d' 0 = .ok (b, r) → n ≤ r + 3) ∧ (∀ e r, readHeader d' 0 = .error (e, r) → n ≤ r + 3)) →
      Late n (loads env d') := by
    intro hl
    cases hr : readHeader d' 0 with
    | error e' =>
      rw [loads_err hr]
      exact ⟨fun a s hs => (by cases hs), fun e q hq => by cases hq; exact hl.2 e q hr⟩
    | ok r =>
      obtain ⟨v, p⟩ := r
      rw [loads_hdr hr]
      have h1 := hl.1 v p hr
      have h2 := (root_ok env (d'.length - p + 1) _ (Nat.le_refl _)).monoX d' (DS.start p v)
      have h3 : (DS.start p v).pos = p := rfl
      exact ⟨fun a s hs => by have := h2.1 a s hs; omega, fun e q hq => by have := h2.2 e q hq; omega⟩
  cases hr : readHeader d 0 with
  | error e' =>
    rw [loads_err hr] at h
    cases h
    exact hlate (h0.2 e hr)
  | ok r =>
    obtain ⟨v, p⟩ := r
    rw [loads_hdr hr] at h
    have hm := (root_ok env (d.length - p + 1) _ (Nat.le_refl _)).monoX d (DS.start p v)
    have hp : p ≤ n := hm.2 e n h
    rcases h0.1 v p hr hp with h' | h'
    · rw [loads_hdr h']
      have := ha.len
      exact ((root_ok env (d.length - p + 1) (d'.length - p + 1) (by omega)).sim d d' n (DS.start p v) ha).2 e he h
    · exact hlate h'

end V8.Pos

namespace V8.Pos

/-- Where a value that fails was found to be bad: at its tag, or after it. -/
theorem next_err (env : DEnv) (f : Nat) (d : Bytes) (s : DS) (hs : s.pos ≤ d.length) (e : DErr) (q : Nat)
    (h : decodeNext (decodeTag env f) d s = .error (e, q)) :
    ∃ t0, s.pos ≤ t0 ∧ (∀ i, s.pos ≤ i → i < t0 → d[i]? = some 0) ∧
      ((q = t0 ∧ (t0 = d.length ∨ ∃ b, d[t0]? = some b ∧ Tag.ofByte b = none)) ∨
       (t0 < q ∧ ∃ t : Tag, d[t0]? = some t.byte)) := by
  unfold decodeNext readAnyTag at h
  have hz : ∀ k, (∀ i < k, (d.drop s.pos)[i]? = some 0) → ∀ i, s.pos ≤ i → i < s.pos + k → d[i]? = some 0 := by
    intro k hk i h1 h2
    have := hk (i - s.pos) (by omega)
    rw [List.getElem?_drop] at this
    rw [show s.pos + (i - s.pos) = i by omega] at this
    exact this
  rcases pad_cases (d.drop s.pos) s.pos with ⟨k, hk, hk0, b, hb, hbk⟩ | ⟨hk, hk0⟩
  · rw [List.getElem?_drop] at hbk
    have hr : readTag (fun _ => true) true d s.pos = tagHere (fun _ => true) d (s.pos + k) := by
      rw [readTag_eq]
      exact Rd.bind_ok hk
    refine ⟨s.pos + k, by omega, hz k hk0, ?_⟩
    unfold tagHere at hr
    rw [hbk] at hr
    simp only at hr
    cases ht : Tag.ofByte b with
    | none =>
      rw [ht] at hr
      have hl : RM.lift (readTag fun _ => true) d s = .error (.decode, s.pos + k) := by unfold RM.lift; rw [hr]
      rw [RM.bind_err hl] at h
      cases h
      exact Or.inl ⟨rfl, Or.inr ⟨b, hbk, ht⟩⟩
    | some t =>
      rw [ht] at hr
      simp only [if_true] at hr
      have hl : RM.lift (readTag fun _ => true) d s = .ok (t, { s with pos := s.pos + k + 1 }) := by unfold RM.lift; rw [hr]
      rw [RM.bind_ok hl] at h
      have := ((decodeTag_self env f t).monoX d _).2 e q h
      simp only at this
      exact Or.inr ⟨by omega, t, by rw [hbk, Tag.byte_of_ofByte ht]⟩
  · have hr : readTag (fun _ => true) true d s.pos = .error (.decode, s.pos + (d.drop s.pos).length) := by
      rw [readTag_eq]
      exact Rd.bind_err hk
    have hl : RM.lift (readTag fun _ => true) d s = .error (.decode, s.pos + (d.drop s.pos).length) := by unfold RM.lift; rw [hr]
    rw [RM.bind_err hl] at h
    cases h
    refine ⟨_, by omega, hz _ hk0, Or.inl ⟨rfl, Or.inl ?_⟩⟩
    rw [List.length_drop]
    omega

end V8.Pos
