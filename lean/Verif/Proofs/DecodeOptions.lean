import Verif.Spec.DecodeOptions
import Verif.Proofs.DecodeRel
import Verif.Proofs.DecodeLocal
import Verif.Proofs.ObjMap
import Verif.Proofs.Value
import Verif.Props.Text
import Mathlib.Data.List.Forall2

/-! Helper lemmas: the decoder with options and the one without stay in step. -/

namespace V8
open Spec

/-- A value that is no constant, apart from booleans. -/
def Plain (v : Val) : Prop := v ≠ .hole ∧ v ≠ .undef ∧ v ≠ .null

theorem plain_obj (i : Id) : Plain (.obj i) := ⟨by simp, by simp, by simp⟩

theorem plain_prim (p : PrimObj) : Plain p.value := by cases p <;> exact ⟨by simp [PrimObj.value], by simp [PrimObj.value], by simp [PrimObj.value]⟩

/-- The log holds no constants. -/
def LogPlain (l : ObjLog) : Prop := ∀ v, LogSlot.obj v ∈ l.slots → Plain v

/-- The states of the two decoders. -/
structure StAs (o : ReaderOptions) (py : PyEnv) (s s' : DS) : Prop where
  same : SameUpTo o py s s'
  plain : LogPlain s.log

/-- The outcomes: the same, or (`loud`) an exception of a container. -/
inductive OutAs (o : ReaderOptions) (py : PyEnv) (loud : Prop) {α β : Type} (Q : α → β → Prop) :
    Except DErr (α × DS) → Except DErr (β × DS) → Prop
  | ok {a b t t'} : Q a b → StAs o py t t' → OutAs o py loud Q (.ok (a, t)) (.ok (b, t'))
  | err (e) : OutAs o py loud Q (.error e) (.error e)
  | left (p r) : loud → OutAs o py loud Q (.error (.py p)) r
  | right (p r) : loud → OutAs o py loud Q r (.error (.py p))

/-- The two computations go alike. -/
def RunAs (o : ReaderOptions) (py : PyEnv) (loud : Prop) {α β : Type} (Q : α → β → Prop) (x : RM α) (y : RM β) : Prop :=
  ∀ d s s', StAs o py s s' → OutAs o py loud Q (x d s) (y d s')

namespace RunAs
variable {o : ReaderOptions} {py : PyEnv} {loud : Prop}

theorem pure {α β : Type} {Q : α → β → Prop} {a : α} {b : β} (h : Q a b) :
    RunAs o py loud Q (Pure.pure a) (Pure.pure b) := fun _ _ _ hs => .ok h hs

theorem fail {α β : Type} {Q : α → β → Prop} (e : DErr) : RunAs o py loud Q (RM.fail e) (RM.fail e) :=
  fun _ _ _ _ => .err e

theorem bind {α β γ δ : Type} {P : α → β → Prop} {Q : γ → δ → Prop} {x : RM α} {y : RM β} {f : α → RM γ} {g : β → RM δ}
    (hx : RunAs o py loud P x y) (hf : ∀ a b, P a b → RunAs o py loud Q (f a) (g b)) :
    RunAs o py loud Q (x >>= f) (y >>= g) := by
  intro d s s' hs
  have h := hx d s s' hs
  generalize hxr : x d s = xr at h
  generalize hyr : y d s' = yr at h
  cases h with
  | ok hP ht => rw [RM.bind_ok hxr, RM.bind_ok hyr]; exact hf _ _ hP _ _ _ ht
  | err e => rw [RM.bind_error hxr, RM.bind_error hyr]; exact .err e
  | left p r hl => rw [RM.bind_error hxr]; exact .left p _ hl
  | right p r hl => rw [RM.bind_error hyr]; exact .right p _ hl

/-- After the same result. -/
theorem bindEq {α γ δ : Type} {Q : γ → δ → Prop} {x y : RM α} {f : α → RM γ} {g : α → RM δ}
    (hx : RunAs o py loud Eq x y) (hf : ∀ a, RunAs o py loud Q (f a) (g a)) :
    RunAs o py loud Q (x >>= f) (y >>= g) := hx.bind fun a b h => by subst h; exact hf a

theorem mono {α β : Type} {P Q : α → β → Prop} {x : RM α} {y : RM β} (hx : RunAs o py loud P x y)
    (h : ∀ a b, P a b → Q a b) : RunAs o py loud Q x y := by
  intro d s s' hs
  have hx := hx d s s' hs
  generalize x d s = xr at hx
  generalize y d s' = yr at hx
  cases hx with
  | ok hP ht => exact .ok (h _ _ hP) ht
  | err e => exact .err e
  | left p r hl => exact .left p _ hl
  | right p r hl => exact .right p _ hl

theorem lift {α : Type} (r : Rd α) : RunAs o py loud Eq (RM.lift r) (RM.lift r) := by
  intro d s s' hs
  have hp := hs.same.pos
  unfold RM.lift
  rw [hp]
  cases r d s.pos with
  | error e => exact .err e
  | ok a =>
    exact .ok rfl ⟨⟨rfl, hs.same.log, hs.same.version, hs.same.calls, hs.same.heap⟩, hs.plain⟩

theorem alloc {n n' : Node} (h : NodeAs o py n n') : RunAs o py loud Eq (alloc n) (V8.alloc n') := by
  intro d s s' hs
  refine .ok hs.same.heap.length_eq ⟨⟨hs.same.pos, hs.same.log, hs.same.version, hs.same.calls, ?_⟩, hs.plain⟩
  exact List.rel_append hs.same.heap (.cons h .nil)

theorem forall₂_set {α β : Type} {R : α → β → Prop} {l : List α} {l' : List β} (h : List.Forall₂ R l l') (i : Nat)
    {a : α} {b : β} (hab : R a b) : List.Forall₂ R (l.set i a) (l'.set i b) := by
  induction h generalizing i with
  | nil => exact .nil
  | cons h t ih =>
    cases i with
    | zero => exact .cons hab t
    | succ i => exact .cons h (ih i)

theorem setNode (i : Id) {n n' : Node} (h : NodeAs o py n n') :
    RunAs o py loud Eq (setNode i n) (V8.setNode i n') := by
  intro d s s' hs
  exact .ok rfl ⟨⟨hs.same.pos, hs.same.log, hs.same.version, hs.same.calls, forall₂_set hs.same.heap i h⟩, hs.plain⟩

theorem tick : RunAs o py loud Eq tick V8.tick := by
  intro d s s' hs
  exact .ok rfl ⟨⟨hs.same.pos, hs.same.log, hs.same.version, congrArg (· + 1) hs.same.calls, hs.same.heap⟩, hs.plain⟩

theorem recordD {v : Val} (hv : Plain v) : RunAs o py loud Eq (recordD v) (V8.recordD v) := by
  intro d s s' hs
  unfold V8.recordD
  rw [hs.same.log]
  refine .ok rfl ⟨⟨hs.same.pos, rfl, hs.same.version, hs.same.calls, hs.same.heap⟩, fun w hw => ?_⟩
  have hw' : LogSlot.obj w ∈ s.log.slots ++ [LogSlot.obj v] := hw
  rcases List.mem_append.1 hw' with h | h
  · exact hs.plain w h
  · simp only [List.mem_singleton, LogSlot.obj.injEq] at h
    rw [h]; exact hv

theorem replaceD (n : Nat) {v : Val} (hv : Plain v) : RunAs o py loud Eq (replaceD n v) (V8.replaceD n v) := by
  intro d s s' hs
  unfold V8.replaceD
  rw [hs.same.log]
  cases hr : s.log.replace n (.obj v) with
  | error e => exact .err _
  | ok l =>
    refine .ok rfl ⟨⟨hs.same.pos, rfl, hs.same.version, hs.same.calls, hs.same.heap⟩, fun w hw => ?_⟩
    unfold ObjLog.replace at hr
    split at hr
    · cases hr
    · split at hr
      · cases hr
      · cases hr
        rcases List.mem_or_eq_of_mem_set hw with h | h
        · exact hs.plain w h
        · cases h; exact hv

theorem lookupD (n : Nat) : RunAs o py loud (fun v v' => v' = v ∧ Plain v) (lookupD n) (V8.lookupD n) := by
  intro d s s' hs
  unfold V8.lookupD
  rw [hs.same.log]
  cases hg : s.log.getObject n with
  | error e => exact .err _
  | ok sl =>
    cases sl with
    | fwd w => exact .err _
    | obj v =>
      refine .ok ⟨rfl, hs.plain v ?_⟩ hs
      unfold ObjLog.getObject at hg
      split at hg
      · split at hg
        · rename_i h
          cases hg
          exact List.mem_of_getElem? h
        · cases hg
      · cases hg

theorem getVersion : RunAs o py loud Eq getVersion V8.getVersion := by
  intro d s s' hs
  exact .ok hs.same.version.symm hs

theorem loopFuel : RunAs o py loud Eq loopFuel V8.loopFuel := by
  intro d s s' hs
  refine .ok ?_ hs
  rw [hs.same.pos]

end RunAs

/-! ## Buffers look the same -/

theorem nodeAs_buffer {o : ReaderOptions} {py : PyEnv} {n n' : Node} (h : NodeAs o py n n') :
    n' = n ∨ ((∀ b, n ≠ .abuf b) ∧ (∀ i b, n ≠ .rawBuf i b) ∧ (∀ i, n ≠ .sharedBuf i) ∧ (∀ i, n ≠ .transferBuf i) ∧
      (∀ b, n' ≠ .abuf b) ∧ (∀ i b, n' ≠ .rawBuf i b) ∧ (∀ i, n' ≠ .sharedBuf i) ∧ (∀ i, n' ≠ .transferBuf i)) := by
  have key : ∀ {c : Bool} {es ps : List (Val × Val)} {p : Prop}, (if c then IsDictOf o.cmp es n' else p) →
      (p → (∀ b, n' ≠ .abuf b) ∧ (∀ i b, n' ≠ .rawBuf i b) ∧ (∀ i, n' ≠ .sharedBuf i) ∧ (∀ i, n' ≠ .transferBuf i)) →
      (∀ b, n' ≠ .abuf b) ∧ (∀ i b, n' ≠ .rawBuf i b) ∧ (∀ i, n' ≠ .sharedBuf i) ∧ (∀ i, n' ≠ .transferBuf i) := by
    intro c es ps p h hp
    cases c with
    | true =>
      obtain ⟨d, -, rfl⟩ := h
      simp
    | false => exact hp h
  cases n with
  | jsmap es =>
    obtain ⟨_, _, _, _, h⟩ := h
    refine .inr ⟨by simp, by simp, by simp, by simp, key (ps := []) h ?_⟩
    rintro ⟨m, -, rfl⟩
    simp
  | jsset ms =>
    obtain ⟨_, _, _, _, _, ⟨m, -, rfl⟩⟩ := h
    exact .inr (by simp)
  | jsobj r =>
    obtain ⟨_, _, _, _, h⟩ := h
    refine .inr ⟨by simp, by simp, by simp, by simp, key (ps := []) h ?_⟩
    rintro ⟨m, -, rfl⟩
    simp
  | jsarr r =>
    obtain ⟨_, _, _, _, _, h⟩ := h
    refine .inr ⟨by simp, by simp, by simp, by simp, key (ps := []) h ?_⟩
    rintro ⟨m, -, rfl⟩
    simp
  | error a b c e =>
    obtain ⟨_, _, rfl, _⟩ := h
    exact .inr (by simp)
  | _ => exact .inl h

theorem looksAlike_of {o : ReaderOptions} {py : PyEnv} {h h' : Heap} (hh : List.Forall₂ (NodeAs o py) h h') :
    LooksAlike h h' := by
  intro v
  cases v with
  | obj i =>
    have hi : (h[(i : Nat)]? = none ∧ h'[(i : Nat)]? = none) ∨
        ∃ n n', h[(i : Nat)]? = some n ∧ h'[(i : Nat)]? = some n' ∧ NodeAs o py n n' := by
      rcases Nat.lt_or_ge (i : Nat) h.length with hlt | hge
      · have hlt' : (i : Nat) < h'.length := hh.length_eq ▸ hlt
        exact .inr ⟨h[(i : Nat)], h'[(i : Nat)], List.getElem?_eq_getElem hlt, List.getElem?_eq_getElem hlt',
          hh.get hlt hlt'⟩
      · exact .inl ⟨List.getElem?_eq_none hge, List.getElem?_eq_none (hh.length_eq ▸ hge)⟩
    simp only [backingBytes, backingResizable, isBuffer]
    rcases hi with ⟨h1, h2⟩ | ⟨n, n', h1, h2, h3⟩
    · rw [h1, h2]; exact ⟨rfl, rfl, rfl⟩
    · rw [h1, h2]
      rcases nodeAs_buffer h3 with rfl | ⟨a1, a2, a3, a4, b1, b2, b3, b4⟩
      · exact ⟨rfl, rfl, rfl⟩
      · cases n <;> first
          | exact absurd rfl (a1 _) | exact absurd rfl (a2 _ _) | exact absurd rfl (a3 _) | exact absurd rfl (a4 _)
          | (cases n' <;> first
              | exact absurd rfl (b1 _) | exact absurd rfl (b2 _ _) | exact absurd rfl (b3 _) | exact absurd rfl (b4 _)
              | exact ⟨rfl, rfl, rfl⟩)
  | _ => exact ⟨rfl, rfl, rfl⟩

namespace RunAs
variable {o : ReaderOptions} {py : PyEnv} {loud : Prop}

theorem heap {α β : Type} {Q : α → β → Prop} {k : Heap → RM α} {k' : Heap → RM β}
    (h : ∀ h h', LooksAlike h h' → RunAs o py loud Q (k h) (k' h')) :
    RunAs o py loud Q (getHeap >>= k) (getHeap >>= k') := by
  intro d s s' hs
  have h1 : getHeap d s = .ok (s.heap, s) := rfl
  have h2 : getHeap d s' = .ok (s'.heap, s') := rfl
  rw [RM.bind_ok h1, RM.bind_ok h2]
  exact h _ _ (looksAlike_of hs.same.heap) d s s' hs

theorem orRaise {α : Type} (x : Except PyExc α) : RunAs o py loud Eq (orRaise x) (V8.orRaise x) := by
  cases x with
  | ok a => exact pure rfl
  | error e => exact fail _

theorem checkCount (n m : Nat) : RunAs o py loud Eq (checkCount n m) (V8.checkCount n m) := by
  unfold V8.checkCount
  split
  · exact fail _
  · exact pure rfl

/-- Results of methods that return no constant. -/
def Res (v v' : Val) : Prop := v' = v ∧ Plain v

theorem leafNode {n : Node} (h : NodeAs o py n n) : RunAs o py loud Res
    (do let i ← V8.alloc n; let _ ← V8.recordD (.obj i); return .obj i)
    (do let i ← V8.alloc n; let _ ← V8.recordD (.obj i); return .obj i) :=
  bindEq (alloc h) fun _ => bindEq (recordD (plain_obj _)) fun _ => pure ⟨rfl, plain_obj _⟩

theorem decodePrimObj (t : Tag) : RunAs o py loud Res (decodePrimObj t) (V8.decodePrimObj t) :=
  bindEq (lift _) fun p => bindEq (alloc rfl) fun _ => bindEq (recordD (plain_obj _)) fun _ =>
    bindEq (replaceD _ (plain_prim p)) fun _ => pure ⟨rfl, plain_prim p⟩

/-- The decoders of nested values. -/
def Rec (o : ReaderOptions) (py : PyEnv) (loud : Prop) (rec rec' : Tag → RM Val) : Prop :=
  ∀ t, RunAs o py loud (fun v v' => ReadAs o v v' ∧ (t ∉ jsConstantTags → v' = v)) (rec t) (rec' t)

variable {rec rec' : Tag → RM Val}

theorem readTagIn_ok {c : TagConstraint} {d : Bytes} {p p' : Nat} {t : Tag} (h : readTagIn c true d p = .ok (t, p')) :
    t ∈ c := by
  obtain ⟨_, _, _, h1, _⟩ := Props.readTag_ok h
  exact List.contains_iff_mem.1 h1

/-- A string read behind one of the tags of strings is the same. -/
theorem stringThen {α β : Type} {Q : α → β → Prop} (hr : Rec o py loud rec rec') {k : Val → RM α} {k' : Val → RM β}
    (hk : ∀ v, RunAs o py loud Q (k v) (k' v)) :
    RunAs o py loud Q (RM.lift (readTagIn jsStringTags) >>= fun t => rec t >>= k)
      (RM.lift (readTagIn jsStringTags) >>= fun t => rec' t >>= k') := by
  have hl : RunAs o py loud (fun t t' => t' = t ∧ t ∈ jsStringTags) (RM.lift (readTagIn jsStringTags))
      (RM.lift (readTagIn jsStringTags)) := by
    intro d s s' hs
    have h := lift (o := o) (py := py) (loud := loud) (readTagIn jsStringTags) d s s' hs
    generalize hx : RM.lift (readTagIn jsStringTags) d s = x at h
    generalize hy : RM.lift (readTagIn jsStringTags) d s' = y at h
    cases h with
    | ok he ht =>
      subst he
      obtain ⟨p, h1, -⟩ := RM.lift_eq_ok hx
      exact .ok ⟨rfl, readTagIn_ok h1⟩ ht
    | err e => exact .err e
    | left p r hl => exact .left p _ hl
    | right p r hl => exact .right p _ hl
  refine hl.bind ?_
  rintro _ t ⟨rfl, ht⟩
  refine (hr t).bind ?_
  rintro v v' ⟨-, h⟩
  have hn : t ∉ jsConstantTags := by
    intro hc
    simp only [jsStringTags, jsConstantTags, List.mem_cons, List.not_mem_nil, or_false] at ht hc
    rcases ht with h | h | h | h <;> rw [h] at hc <;> simp at hc
  rw [h hn]
  exact hk v

theorem assertStr (v : Val) : RunAs o py loud Eq (assertStr v) (V8.assertStr v) := by
  cases v <;> first | exact pure rfl | exact fail _

theorem decodeRegExp (hr : Rec o py loud rec rec') : RunAs o py loud Res (decodeRegExp rec) (V8.decodeRegExp rec') :=
  stringThen hr fun v => bindEq (assertStr v) fun _ => bindEq (lift _) fun _ => bindEq (orRaise _) fun _ =>
    leafNode rfl

theorem readErrText (hr : Rec o py loud rec rec') (want etag : ErrTag) :
    RunAs o py loud Eq (readErrText rec want etag) (V8.readErrText rec' want etag) := by
  unfold V8.readErrText
  split
  · exact stringThen hr fun v => bindEq (lift _) fun _ => bindEq (assertStr v) fun _ => pure rfl
  · exact pure rfl

theorem decodeNext (hr : Rec o py loud rec rec') : RunAs o py loud (ReadAs o) (decodeNext rec) (V8.decodeNext rec') :=
  bindEq (lift _) fun t => (hr t).mono fun _ _ h => h.1

theorem readErrCause (hr : Rec o py loud rec rec') (etag : ErrTag) :
    RunAs o py loud (fun r r' => (ReadAs o r.1 r'.1 ∨ r.1 = .null ∧ r'.1 = .null) ∧ r'.2 = r.2)
      (readErrCause rec etag) (V8.readErrCause rec' etag) := by
  unfold V8.readErrCause
  split
  · exact (decodeNext hr).bind fun v v' hv => bindEq (lift _) fun _ => pure ⟨.inl hv, rfl⟩
  · exact pure ⟨.inr ⟨rfl, rfl⟩, rfl⟩

theorem readLateStack (hr : Rec o py loud rec rec') (st : Option Str) (etag : ErrTag) :
    RunAs o py loud Eq (readLateStack rec st etag) (V8.readLateStack rec' st etag) := by
  unfold V8.readLateStack
  split
  · exact readErrText hr _ _
  · exact pure rfl

theorem checkErrEnd (etag : ErrTag) : RunAs o py loud Eq (checkErrEnd etag) (V8.checkErrEnd etag) := by
  unfold V8.checkErrEnd
  split
  · exact fail _
  · exact pure rfl

theorem message_as (o : ReaderOptions) (m : Option Str) :
    if o.errorData then o.message m = some (m.getD []) ∨ some (m.getD []) = some [] ∧ o.message m = none
    else o.message m = some (m.getD []) := by
  unfold ReaderOptions.message
  cases o.errorData with
  | false => simp
  | true => cases m <;> simp

theorem decodeError (hr : Rec o py loud rec rec') :
    RunAs o py loud Res (decodeError rec) (decodeErrorO o rec') :=
  bindEq (lift _) fun _ => bindEq (lift _) fun _ => bindEq (readErrText hr _ _) fun m =>
    bindEq (readErrText hr _ _) fun _ =>
      bindEq (alloc ⟨_, _, rfl, message_as o m.1, .inr ⟨rfl, rfl⟩⟩) fun _ =>
        bindEq (recordD (plain_obj _)) fun _ => (readErrCause hr _).bind fun c c' hc => by
          obtain ⟨h1, h2⟩ := hc
          rw [h2]
          exact bindEq (readLateStack hr _ _) fun _ => bindEq (checkErrEnd _) fun _ =>
            bindEq (setNode _ ⟨_, _, rfl, message_as o m.1, h1⟩) fun _ => pure ⟨rfl, plain_obj _⟩

theorem decodeDate (env : DEnv) : RunAs o py loud Res (decodeDate env) (V8.decodeDate env) :=
  bindEq (lift _) fun _ => bindEq (orRaise _) fun _ => leafNode rfl

theorem readFixedBuffer : RunAs o py loud Res readFixedBuffer V8.readFixedBuffer :=
  bindEq (lift _) fun _ => bindEq (orRaise _) fun _ => leafNode rfl

theorem readResizableBuffer : RunAs o py loud Res readResizableBuffer V8.readResizableBuffer :=
  bindEq (lift _) fun _ => bindEq (orRaise _) fun _ => leafNode rfl

theorem readSharedBuffer : RunAs o py loud Res readSharedBuffer V8.readSharedBuffer :=
  bindEq (lift _) fun _ => bindEq (alloc rfl) fun _ => pure ⟨rfl, plain_obj _⟩

theorem readTransferBuffer : RunAs o py loud Res readTransferBuffer V8.readTransferBuffer :=
  bindEq (lift _) fun _ => bindEq (alloc rfl) fun _ => pure ⟨rfl, plain_obj _⟩

theorem readArrayBuffer (t : Tag) : RunAs o py loud Res (readArrayBuffer t) (V8.readArrayBuffer t) := by
  unfold V8.readArrayBuffer
  split
  · exact readFixedBuffer
  · exact readResizableBuffer
  · exact readSharedBuffer
  · exact readTransferBuffer
  · exact fail _

theorem viewTagOf (n : Nat) : RunAs o py loud Eq (viewTagOf n) (V8.viewTagOf n) := by
  unfold V8.viewTagOf
  split
  · exact pure rfl
  · exact fail _

theorem readViewFlags (n : Nat) : RunAs o py loud Eq (readViewFlags n) (V8.readViewFlags n) := by
  unfold V8.readViewFlags
  split
  · exact bindEq (lift _) fun _ => orRaise _
  · exact pure rfl

theorem readView (b : Val) : RunAs o py loud Res (readView b) (V8.readView b) :=
  bindEq (lift _) fun _ => bindEq (lift _) fun _ => bindEq (viewTagOf _) fun _ =>
    bindEq (lift _) fun _ => bindEq (lift _) fun _ => bindEq getVersion fun _ =>
      bindEq (readViewFlags _) fun _ => heap fun h h' hh => by
        rw [(hh b).1, (hh b).2.1]
        exact bindEq (orRaise _) fun _ => leafNode rfl

theorem viewAfter {b : Val} (hb : Plain b) : RunAs o py loud Res (viewAfter b) (V8.viewAfter b) := by
  refine bindEq (lift _) fun c => ?_
  split
  · exact readView _
  · exact pure ⟨rfl, hb⟩

theorem decodeArrayBuffer (t : Tag) : RunAs o py loud Res (decodeArrayBuffer t) (V8.decodeArrayBuffer t) :=
  (readArrayBuffer t).bind fun v v' h => by rw [h.1]; exact viewAfter h.2

theorem decodeReference : RunAs o py loud Res decodeReference V8.decodeReference := by
  refine bindEq (lift _) fun _ => (lookupD _).bind fun v v' h => ?_
  rw [h.1]
  refine heap fun g g' hh => ?_
  rw [(hh v).2.2]
  split
  · exact viewAfter h.2
  · exact pure ⟨rfl, h.2⟩

theorem decodeSharedRef : RunAs o py loud Res decodeSharedRef V8.decodeSharedRef :=
  bindEq (lift _) fun _ => leafNode rfl

theorem decodeNodeHostObject : RunAs o py loud Res decodeNodeHostObject V8.decodeNodeHostObject :=
  bindEq (lift _) fun _ => bindEq (orRaise _) fun _ => bindEq (alloc rfl) fun _ =>
    bindEq (orRaise _) fun _ => bindEq (alloc rfl) fun _ => pure ⟨rfl, plain_obj _⟩

theorem decodeHostObject (env : DEnv) : RunAs o py loud Res (decodeHostObject env) (V8.decodeHostObject env) := by
  unfold V8.decodeHostObject
  split
  · exact decodeNodeHostObject
  · exact fail _


/-! ## Map and Set -/

theorem update_snoc {es : List (Val × Val)} {m0 m : JSMap Val} (h : JSMap.update m0 es = (m, none)) (k v : Val) :
    JSMap.update m0 (es ++ [(k, v)]) = m.setitem k v := by
  induction es generalizing m0 with
  | nil =>
    cases h
    simp only [List.nil_append, JSMap.update]
    cases JSMap.setitem m k v with
    | mk m' e => cases e <;> rfl
  | cons e t ih =>
    obtain ⟨k', v'⟩ := e
    unfold JSMap.update at h
    simp only [List.cons_append, JSMap.update]
    cases hs : JSMap.setitem m0 k' v' with
    | mk m' e =>
      rw [hs] at h
      cases e with
      | none => exact ih h
      | some e => cases h

theorem ior_snoc {ms : List Val} {m0 m : JSSet} (h : JSSet.ior m0 ms = (m, none)) (v : Val) :
    JSSet.ior m0 (ms ++ [v]) = m.add v := by
  induction ms generalizing m0 with
  | nil =>
    cases h
    simp only [List.nil_append, JSSet.ior]
    cases JSSet.add m v with
    | mk m' e => cases e <;> rfl
  | cons w t ih =>
    unfold JSSet.ior at h
    simp only [List.cons_append, JSSet.ior]
    cases hs : JSSet.add m0 w with
    | mk m' e =>
      rw [hs] at h
      cases e with
      | none => exact ih h
      | some e => cases h

theorem storeAll_snoc (cmp : PyCompare) {es : List (Val × Val)} {d0 d : List (Val × Val)}
    (h : cmp.storeAll d0 es = .ok d) (k v : Val) : cmp.storeAll d0 (es ++ [(k, v)]) = cmp.storeAll d [(k, v)] := by
  induction es generalizing d0 with
  | nil => cases h; rfl
  | cons e t ih =>
    obtain ⟨k', v'⟩ := e
    simp only [List.cons_append]
    unfold PyCompare.storeAll at h ⊢
    cases hh : cmp.hash k' with
    | none => rw [hh] at h; cases h
    | some x =>
      rw [hh] at h
      simp only at h ⊢
      cases hs : cmp.store k' v' d0 with
      | error e => rw [hs] at h; cases h
      | ok d' => rw [hs] at h; exact ih h

/-- The regimes: exceptions of containers are allowed, or the containers are the default ones. -/
def Regime (o : ReaderOptions) (loud : Prop) : Prop := loud ∨ OnlyConstantsAndErrors o

/-- A constant is a key JSMap can have. -/
theorem svz_constant {t : Tag} {v : Val} (h : (t, v) ∈ constantValues) : ∃ key, sameValueZero v = .ok key := by
  simp only [constantValues, List.mem_cons, Prod.mk.injEq, List.not_mem_nil, or_false] at h
  rcases h with ⟨-, rfl⟩ | ⟨-, rfl⟩ | ⟨-, rfl⟩ | ⟨-, rfl⟩ | ⟨-, rfl⟩ <;> exact ⟨_, rfl⟩

theorem svz_ok_of_not_tooBig {v : Val} (h : ¬ TooBig v) : ∃ key, sameValueZero v = .ok key := by
  cases hs : sameValueZero v with
  | ok key => exact ⟨key, rfl⟩
  | error e => exact absurd ((svz_error_iff _ _).1 hs).1 h

/-- Keys of the two decoders: both can be had, or both raise the same. -/
theorem svz_as (ho : OnlyConstantsAndErrors o) {k k' : Val} (hk : ReadAs o k k') :
    (∃ a b, sameValueZero k = .ok a ∧ sameValueZero k' = .ok b) ∨
      ∃ e, sameValueZero k = .error e ∧ sameValueZero k' = .error e := by
  rcases hk with ⟨t, h1, rfl⟩ | ⟨rfl, -⟩
  · obtain ⟨a, ha⟩ := svz_constant h1
    obtain ⟨b, hb⟩ := svz_ok_of_not_tooBig (ho.keys t k h1)
    exact .inl ⟨a, b, ha, hb⟩
  · cases hs : sameValueZero k' with
    | ok a => exact .inl ⟨a, a, rfl, rfl⟩
    | error e => exact .inr ⟨e, rfl, rfl⟩

/-- The maps under construction. -/
def MapBuilt (o : ReaderOptions) (m : JSMap Val) (b : MapBox) : Prop :=
  ∃ es es', List.Forall₂ (EntryAs o) es es' ∧ JSMap.update [] es = (m, none) ∧
    match b with
    | .jsmap m' => o.mapDict = false ∧ JSMap.update [] es' = (m', none)
    | .dict d => o.mapDict = true ∧ o.cmp.toDict es' = .ok d

theorem MapBuilt.new (o : ReaderOptions) : MapBuilt o [] (MapBox.new o) := by
  refine ⟨[], [], .nil, rfl, ?_⟩
  unfold MapBox.new
  cases h : o.mapDict
  · exact ⟨rfl, rfl⟩
  · exact ⟨rfl, rfl⟩

theorem MapBuilt.node {m : JSMap Val} {b : MapBox} (h : MapBuilt o m b) : NodeAs o py (.jsmap m.items) b.node := by
  obtain ⟨es, es', h1, h2, h3⟩ := h
  refine ⟨es, es', h1, ⟨m, h2, rfl⟩, ?_⟩
  cases b with
  | jsmap m' => rw [h3.1]; exact ⟨m', h3.2, rfl⟩
  | dict d => rw [h3.1]; exact ⟨d, h3.2, rfl⟩

theorem putEntry (hreg : Regime o loud) {m : JSMap Val} {b : MapBox} (hb : MapBuilt o m b) {k k' v v' : Val}
    (hk : ReadAs o k k') (hv : ReadAs o v v') :
    RunAs o py loud (MapBuilt o) (putEntry m k v) (b.put o.cmp k' v') := by
  obtain ⟨es, es', h1, h2, h3⟩ := hb
  have hes : List.Forall₂ (EntryAs o) (es ++ [(k, v)]) (es' ++ [(k', v')]) := List.rel_append h1 (.cons ⟨hk, hv⟩ .nil)
  intro d s s' hs
  have hu := update_snoc h2 k v
  cases b with
  | jsmap m' =>
    have hu' := update_snoc h3.2 k' v'
    have hput : MapBox.put o.cmp (.jsmap m') k' v' = (V8.putEntry m' k' v' >>= fun x => Pure.pure (MapBox.jsmap x)) := rfl
    rw [hput]
    have hok : ∀ a b, sameValueZero k = .ok a → sameValueZero k' = .ok b →
        OutAs o py loud (MapBuilt o) (V8.putEntry m k v d s) ((V8.putEntry m' k' v' >>= fun x => Pure.pure (MapBox.jsmap x)) d s') := by
      intro a b ha hb
      have e1 : JSMap.setitem m k v = (Dict.set m a (k, v), none) := by simp [JSMap.setitem, ha]
      have e2 : JSMap.setitem m' k' v' = (Dict.set m' b (k', v'), none) := by simp [JSMap.setitem, hb]
      have p1 : V8.putEntry m k v d s = .ok (Dict.set m a (k, v), s) := by simp [V8.putEntry, e1]
      have p2 : V8.putEntry m' k' v' d s' = .ok (Dict.set m' b (k', v'), s') := by simp [V8.putEntry, e2]
      rw [p1, RM.bind_ok p2]
      exact .ok ⟨_, _, hes, hu.trans e1, h3.1, hu'.trans e2⟩ hs
    have herr : ∀ (m : JSMap Val) (k v : Val) (e : PyExc) (s : DS), sameValueZero k = .error e →
        V8.putEntry m k v d s = .error (.py e) := by
      intro m k v e s he
      simp [V8.putEntry, JSMap.setitem, he]
    rcases hreg with hl | ho
    · cases ha : sameValueZero k with
      | error e => rw [herr m k v e s ha]; exact .left _ _ hl
      | ok a =>
        cases hb : sameValueZero k' with
        | error e => rw [RM.bind_error (herr m' k' v' e s' hb)]; exact .right _ _ hl
        | ok b => exact hok a b ha hb
    · rcases svz_as ho hk with ⟨a, b, ha, hb⟩ | ⟨e, ha, hb⟩
      · exact hok a b ha hb
      · rw [herr m k v e s ha, RM.bind_error (herr m' k' v' e s' hb)]
        exact .err _
  | dict dd =>
    have hl : loud := by
      rcases hreg with hl | ho
      · exact hl
      · rw [ho.map] at h3; exact absurd h3.1 (by simp)
    have hput : MapBox.put o.cmp (.dict dd) k' v' = (dictPut o.cmp dd k' v' >>= fun x => Pure.pure (MapBox.dict x)) := rfl
    rw [hput]
    have hu' := storeAll_snoc o.cmp h3.2 k' v'
    cases ha : sameValueZero k with
    | error e =>
      have : V8.putEntry m k v d s = .error (.py e) := by simp [V8.putEntry, JSMap.setitem, ha]
      rw [this]; exact .left _ _ hl
    | ok a =>
      have e1 : JSMap.setitem m k v = (Dict.set m a (k, v), none) := by simp [JSMap.setitem, ha]
      have p1 : V8.putEntry m k v d s = .ok (Dict.set m a (k, v), s) := by simp [V8.putEntry, e1]
      cases hst : o.cmp.storeAll dd [(k', v')] with
      | error e =>
        have : dictPut o.cmp dd k' v' d s' = .error (.py e) := by simp [dictPut, hst, V8.orRaise]
        rw [RM.bind_error this]; exact .right _ _ hl
      | ok d2 =>
        have : dictPut o.cmp dd k' v' d s' = .ok (d2, s') := by simp [dictPut, hst, V8.orRaise]
        rw [p1, RM.bind_ok this]
        exact .ok ⟨_, _, hes, hu.trans e1, h3.1, hu'.trans hst⟩ hs

theorem mapLoop (hreg : Regime o loud) (hr : Rec o py loud rec rec') (f : Nat) {m : JSMap Val} {b : MapBox}
    (hb : MapBuilt o m b) (c : Nat) :
    RunAs o py loud (fun r r' => MapBuilt o r.1 r'.1 ∧ r'.2 = r.2) (mapLoop rec f m c) (mapLoopO o rec' f b c) := by
  induction f generalizing m b c with
  | zero => exact fail _
  | succ f ih =>
    refine bindEq (lift _) fun t => ?_
    by_cases ht : t = .kEndJSMap
    · rw [if_pos ht, if_pos ht]; exact pure ⟨hb, rfl⟩
    · rw [if_neg ht, if_neg ht]
      exact (hr t).bind fun k k' hk => (decodeNext hr).bind fun v v' hv =>
        (putEntry hreg hb hk.1 hv).bind fun m1 b1 h1 => ih h1 _

theorem decodeJSMap (hreg : Regime o loud) (hr : Rec o py loud rec rec') :
    RunAs o py loud Res (decodeJSMap rec) (decodeJSMapO o rec') :=
  bindEq (alloc (MapBuilt.new o).node) fun _ => bindEq (recordD (plain_obj _)) fun _ => bindEq loopFuel fun n =>
    (mapLoop hreg hr n (MapBuilt.new o) 0).bind fun r r' h => by
      rw [h.2]
      exact bindEq (lift _) fun _ => bindEq (checkCount _ _) fun _ => bindEq (setNode _ h.1.node) fun _ =>
        pure ⟨rfl, plain_obj _⟩

/-- The sets under construction. -/
def SetBuilt (o : ReaderOptions) (m m' : JSSet) : Prop :=
  o.setSet = false ∧ ∃ ms ms', List.Forall₂ (ReadAs o) ms ms' ∧ JSSet.ior [] ms = (m, none) ∧ JSSet.ior [] ms' = (m', none)

theorem SetBuilt.new {o : ReaderOptions} (h : o.setSet = false) : SetBuilt o [] [] := ⟨h, [], [], .nil, rfl, rfl⟩

theorem SetBuilt.node {m m' : JSSet} (h : SetBuilt o m m') : NodeAs o py (.jsset m.members) (.jsset m'.members) := by
  obtain ⟨h0, ms, ms', h1, h2, h3⟩ := h
  exact ⟨h0, ms, ms', h1, ⟨m, h2, rfl⟩, ⟨m', h3, rfl⟩⟩

theorem putMember (hreg : Regime o loud) {m m' : JSSet} (hb : SetBuilt o m m') {v v' : Val} (hv : ReadAs o v v') :
    RunAs o py loud (SetBuilt o) (putMember m v) (V8.putMember m' v') := by
  obtain ⟨h0, ms, ms', h1, h2, h3⟩ := hb
  have hes : List.Forall₂ (ReadAs o) (ms ++ [v]) (ms' ++ [v']) := List.rel_append h1 (.cons hv .nil)
  intro d s s' hs
  have hu := ior_snoc h2 v
  have hu' := ior_snoc h3 v'
  have hok : ∀ a b, sameValueZero v = .ok a → sameValueZero v' = .ok b →
      OutAs o py loud (SetBuilt o) (V8.putMember m v d s) (V8.putMember m' v' d s') := by
    intro a b ha hb
    have e1 : JSSet.add m v = (Dict.set m a v, none) := by simp [JSSet.add, ha]
    have e2 : JSSet.add m' v' = (Dict.set m' b v', none) := by simp [JSSet.add, hb]
    have p1 : V8.putMember m v d s = .ok (Dict.set m a v, s) := by simp [V8.putMember, e1]
    have p2 : V8.putMember m' v' d s' = .ok (Dict.set m' b v', s') := by simp [V8.putMember, e2]
    rw [p1, p2]
    exact .ok ⟨h0, _, _, hes, hu.trans e1, hu'.trans e2⟩ hs
  have herr : ∀ (m : JSSet) (v : Val) (e : PyExc) (s : DS), sameValueZero v = .error e →
      V8.putMember m v d s = .error (.py e) := by
    intro m v e s he
    simp [V8.putMember, JSSet.add, he]
  rcases hreg with hl | ho
  · cases ha : sameValueZero v with
    | error e => rw [herr m v e s ha]; exact .left _ _ hl
    | ok a =>
      cases hb : sameValueZero v' with
      | error e => rw [herr m' v' e s' hb]; exact .right _ _ hl
      | ok b => exact hok a b ha hb
  · rcases svz_as ho hv with ⟨a, b, ha, hb⟩ | ⟨e, ha, hb⟩
    · exact hok a b ha hb
    · rw [herr m v e s ha, herr m' v' e s' hb]
      exact .err _

theorem setLoop (hreg : Regime o loud) (hr : Rec o py loud rec rec') (f : Nat) {m m' : JSSet} (hb : SetBuilt o m m')
    (c : Nat) : RunAs o py loud (fun r r' => SetBuilt o r.1 r'.1 ∧ r'.2 = r.2) (setLoop rec f m c)
      (V8.setLoop rec' f m' c) := by
  induction f generalizing m m' c with
  | zero => exact fail _
  | succ f ih =>
    refine bindEq (lift _) fun t => ?_
    by_cases ht : t = .kEndJSSet
    · rw [if_pos ht, if_pos ht]; exact pure ⟨hb, rfl⟩
    · rw [if_neg ht, if_neg ht]
      exact (hr t).bind fun k k' hk => (putMember hreg hb hk.1).bind fun m1 b1 h1 => ih h1 _

theorem decodeJSSet (hreg : Regime o loud) (hr : Rec o py loud rec rec') :
    RunAs o py loud Res (decodeJSSet rec) (decodeJSSetO o rec') := by
  unfold decodeJSSetO
  cases hset : o.setSet with
  | true =>
    have hl : loud := by
      rcases hreg with hl | ho
      · exact hl
      · rw [ho.set] at hset; simp at hset
    intro d s s' hs
    exact .right _ _ hl
  | false =>
    simp only [Bool.false_eq_true, if_false]
    exact bindEq (alloc (SetBuilt.new hset).node) fun _ => bindEq (recordD (plain_obj _)) fun _ =>
      bindEq loopFuel fun n => (setLoop hreg hr n (SetBuilt.new hset) 0).bind fun r r' h => by
        rw [h.2]
        exact bindEq (lift _) fun _ => bindEq (checkCount _ _) fun _ => bindEq (setNode _ h.1.node) fun _ =>
          pure ⟨rfl, plain_obj _⟩

/-! ## Objects and arrays -/

theorem assigned_snoc {l : List (Val × Val)} {o0 r r2 : JSObj Val} {k v : Val} {key : RawKey} {p : PKey}
    (h : Assigned py o0 l r) (hk : objectKey k = some key) (hp : normaliseKey py.floatStr key = .ok p)
    (hs : r.setitem p v.toElem = (r2, none)) : Assigned py o0 (l ++ [(k, v)]) r2 := by
  induction l generalizing o0 with
  | nil => cases h; exact ⟨key, p, r2, hk, hp, hs, rfl⟩
  | cons e t ih =>
    obtain ⟨k', v'⟩ := e
    obtain ⟨key', p', o', h1, h2, h3, h4⟩ := h
    exact ⟨key', p', o', h1, h2, h3, ih h4⟩

/-- Pairs of values of the two decoders. -/
abbrev Both (o : ReaderOptions) : Type := {p : Val × Val // ReadAs o p.1 p.2}

/-- Two objects with the same keys. -/
def Paired (o : ReaderOptions) (r r' : JSObj Val) : Prop :=
  ∃ P : JSObj (Both o), r = P.mapV (fun p => p.1.1) ∧ r' = P.mapV (fun p => p.1.2)

/-- Elements that are holes alike. -/
def ElemAs (o : ReaderOptions) (x x' : Option Val) : Prop :=
  ∃ e : Option (Both o), x = e.map (fun p => p.1.1) ∧ x' = e.map (fun p => p.1.2)

/-- The objects under construction: after the assignments `pre`, made alike, and further ones. -/
def ObjBuilt (o : ReaderOptions) (py : PyEnv) (dict : Bool) (pre : List (Val × Val)) (r : JSObj Val) (b : ObjBox) : Prop :=
  ∃ ps ps', List.Forall₂ (PropAs o) ps ps' ∧ Assigned py JSObj.empty (pre ++ ps) r ∧
    match b with
    | .js r' => dict = false ∧ Assigned py JSObj.empty (pre ++ ps') r' ∧ (OnlyConstantsAndErrors o → Paired o r r')
    | .dict d => dict = true ∧ o.cmp.toDict (pre ++ ps') = .ok d

theorem ObjBuilt.new (o : ReaderOptions) (py : PyEnv) (dict : Bool) : ObjBuilt o py dict [] JSObj.empty (ObjBox.new dict) := by
  refine ⟨[], [], .nil, rfl, ?_⟩
  cases dict with
  | true => exact ⟨rfl, rfl⟩
  | false => exact ⟨rfl, rfl, fun _ => ⟨JSObj.empty, rfl, rfl⟩⟩

theorem ObjBuilt.objNode {r : JSObj Val} {b : ObjBox} (h : ObjBuilt o py o.objectDict [] r b) :
    NodeAs o py (.jsobj r) (b.node false) := by
  obtain ⟨es, es', h1, h2, h3⟩ := h
  refine ⟨es, es', h1, ⟨r, h2, rfl⟩, ?_⟩
  cases b with
  | js r' => rw [h3.1]; exact ⟨r', h3.2.1, rfl⟩
  | dict d => rw [h3.1]; exact ⟨d, h3.2, rfl⟩

theorem ObjBuilt.arrNode {n : Nat} {r : JSObj Val} {b : ObjBox} (h : ObjBuilt o py o.arrayDict (lengthMark n) r b) :
    NodeAs o py (.jsarr r) (b.node true) := by
  obtain ⟨es, es', h1, h2, h3⟩ := h
  refine ⟨n, es, es', h1, ⟨r, h2, rfl⟩, ?_⟩
  cases b with
  | js r' => rw [h3.1]; exact ⟨r', h3.2.1, rfl⟩
  | dict d => rw [h3.1]; exact ⟨d, h3.2, rfl⟩

theorem toElem_hole {v : Val} (h : v = .hole) : v.toElem = none := by rw [h]; rfl

theorem toElem_some {v : Val} (h : v ≠ .hole) : v.toElem = some v := by
  cases v <;> first | rfl | exact absurd rfl h

/-- The elements of the two decoders are holes alike. -/
theorem elem_as (ho : OnlyConstantsAndErrors o) {v v' : Val} (h : ReadAs o v v') :
    ElemAs o v.toElem v'.toElem := by
  by_cases hv : v = .hole
  · have hv' : v' = .hole := by
      rcases h with ⟨t, h1, rfl⟩ | ⟨rfl, h1, -⟩
      · exact (ho.hole t v h1).2 hv
      · exact hv
    exact ⟨none, toElem_hole hv, toElem_hole hv'⟩
  · have hv' : v' ≠ .hole := by
      rcases h with ⟨t, h1, rfl⟩ | ⟨rfl, h1, -⟩
      · exact fun hh => hv ((ho.hole t v h1).1 hh)
      · exact hv
    exact ⟨some ⟨(v, v'), h⟩, toElem_some hv, toElem_some hv'⟩

theorem setitem_paired {r r' : JSObj Val} (h : Paired o r r') (p : PKey) {x x' : Option Val}
    (hx : ElemAs o x x') :
    Paired o (r.setitem p x).1 (r'.setitem p x').1 ∧ (r'.setitem p x').2 = (r.setitem p x).2 := by
  obtain ⟨P, rfl, rfl⟩ := h
  obtain ⟨e, rfl, rfl⟩ := hx
  rw [JSObj.setitem_mapV, JSObj.setitem_mapV]
  exact ⟨⟨_, rfl, rfl⟩, rfl⟩

theorem putProp_run (r : JSObj Val) (key : RawKey) (v : Val) (d : Bytes) (s : DS) :
    putProp py r key v d s =
      match normaliseKey py.floatStr key with
      | .error e => .error (.py e)
      | .ok p =>
        match r.setitem p v.toElem with
        | (r2, none) => .ok (r2, s)
        | (_, some e) => .error (.py e) := by
  unfold putProp
  cases normaliseKey py.floatStr key with
  | error e => rfl
  | ok p =>
    simp only
    cases r.setitem p v.toElem with
    | mk r2 e => cases e <;> rfl

theorem jsPut_run (r : JSObj Val) (k : Val) (key : RawKey) (v : Val) (d : Bytes) (s : DS) :
    ObjBox.put o.cmp py (.js r) k key v d s =
      match normaliseKey py.floatStr key with
      | .error e => .error (.py e)
      | .ok p =>
        match r.setitem p v.toElem with
        | (r2, none) => .ok (ObjBox.js r2, s)
        | (_, some e) => .error (.py e) := by
  have hput : ObjBox.put o.cmp py (.js r) k key v = (putProp py r key v >>= fun x => Pure.pure (ObjBox.js x)) := rfl
  rw [hput]
  have h := putProp_run (py := py) r key v d s
  cases hn : normaliseKey py.floatStr key with
  | error e => rw [hn] at h; exact RM.bind_error h
  | ok p =>
    rw [hn] at h
    simp only at h ⊢
    cases hr : r.setitem p v.toElem with
    | mk r2 e =>
      rw [hr] at h
      cases e with
      | none => rw [RM.bind_ok h]; rfl
      | some e => exact RM.bind_error h

/-- One assignment, the same key in both. -/
theorem putAssign (hreg : Regime o loud) {dict : Bool} (hd : OnlyConstantsAndErrors o → dict = false)
    {pre ps ps' : List (Val × Val)} {r : JSObj Val} {b : ObjBox} {k : Val} {key : RawKey} {v v' : Val}
    (hkey : objectKey k = some key) (hel : OnlyConstantsAndErrors o → ElemAs o v.toElem v'.toElem)
    (h2 : Assigned py JSObj.empty (pre ++ ps) r)
    (h3 : match b with
      | .js r' => dict = false ∧ Assigned py JSObj.empty (pre ++ ps') r' ∧ (OnlyConstantsAndErrors o → Paired o r r')
      | .dict d => dict = true ∧ o.cmp.toDict (pre ++ ps') = .ok d) :
    RunAs o py loud (fun r b => Assigned py JSObj.empty ((pre ++ ps) ++ [(k, v)]) r ∧ match b with
        | .js r' => dict = false ∧ Assigned py JSObj.empty ((pre ++ ps') ++ [(k, v')]) r' ∧ (OnlyConstantsAndErrors o → Paired o r r')
        | .dict d => dict = true ∧ o.cmp.toDict ((pre ++ ps') ++ [(k, v')]) = .ok d)
      (putProp py r key v) (b.put o.cmp py k key v') := by
  intro d s s' hs
  rw [putProp_run]
  cases b with
  | js r' =>
    rw [jsPut_run]
    cases hn : normaliseKey py.floatStr key with
    | error e => exact .err _
    | ok p =>
      simp only
      cases hr : r.setitem p v.toElem with
      | mk r2 e =>
        cases hr' : r'.setitem p v'.toElem with
        | mk r2' e' =>
          rcases hreg with hl | ho
          · cases e with
            | some e => exact .left _ _ hl
            | none =>
              cases e' with
              | some e => exact .right _ _ hl
              | none =>
                refine .ok ⟨assigned_snoc h2 hkey hn hr, h3.1, assigned_snoc h3.2.1 hkey hn hr', fun ho => ?_⟩ hs
                have hp := (setitem_paired (h3.2.2 ho) p (hel ho)).1
                rw [hr, hr'] at hp
                exact hp
          · have hp := setitem_paired (h3.2.2 ho) p (hel ho)
            rw [hr, hr'] at hp
            obtain ⟨hp, he⟩ := hp
            simp only at he
            subst he
            cases e' with
            | some e => exact .err _
            | none => exact .ok ⟨assigned_snoc h2 hkey hn hr, h3.1, assigned_snoc h3.2.1 hkey hn hr', fun _ => hp⟩ hs
  | dict dd =>
    have hl : loud := by
      rcases hreg with hl | ho
      · exact hl
      · rw [hd ho] at h3; exact absurd h3.1 (by simp)
    have hput : ObjBox.put o.cmp py (.dict dd) k key v' = (dictPut o.cmp dd k v' >>= fun x => Pure.pure (ObjBox.dict x)) := rfl
    rw [hput]
    have hu' := storeAll_snoc o.cmp h3.2 k v'
    cases hn : normaliseKey py.floatStr key with
    | error e => exact .left _ _ hl
    | ok p =>
      simp only
      cases hr : r.setitem p v.toElem with
      | mk r2 e =>
        cases e with
        | some e => exact .left _ _ hl
        | none =>
          cases hst : o.cmp.storeAll dd [(k, v')] with
          | error e =>
            have : dictPut o.cmp dd k v' d s' = .error (.py e) := by simp [dictPut, hst, V8.orRaise]
            rw [RM.bind_error this]; exact .right _ _ hl
          | ok d2 =>
            have : dictPut o.cmp dd k v' d s' = .ok (d2, s') := by simp [dictPut, hst, V8.orRaise]
            rw [RM.bind_ok this]
            exact .ok ⟨assigned_snoc h2 hkey hn hr, h3.1, hu'.trans hst⟩ hs

theorem putProp (hreg : Regime o loud) {dict : Bool} (hd : OnlyConstantsAndErrors o → dict = false)
    {pre : List (Val × Val)} {r : JSObj Val} {b : ObjBox} (hb : ObjBuilt o py dict pre r b) {k : Val} {key : RawKey}
    {v v' : Val} (hkey : objectKey k = some key) (hv : ReadAs o v v') :
    RunAs o py loud (ObjBuilt o py dict pre) (V8.putProp py r key v) (b.put o.cmp py k key v') := by
  obtain ⟨ps, ps', h1, h2, h3⟩ := hb
  refine (putAssign hreg hd hkey (fun ho => elem_as ho hv) h2 h3).mono ?_
  rintro r2 b2 ⟨g1, g2⟩
  refine ⟨ps ++ [(k, v)], ps' ++ [(k, v')], List.rel_append h1 (.cons ⟨rfl, hv⟩ .nil), ?_, ?_⟩
  · rw [← List.append_assoc]; exact g1
  · rw [← List.append_assoc]; exact g2

theorem checkKey (k : Val) : RunAs o py loud (fun a b => b = a ∧ objectKey k = some a) (checkKey k) (V8.checkKey k) := by
  cases k <;> first | exact fail _ | exact pure ⟨rfl, rfl⟩

theorem keyTag_not_constant {t : Tag} (h : jsObjectKeyTags.contains t = true) : t ∉ jsConstantTags := by
  have h := List.contains_iff_mem.1 h
  simp only [jsObjectKeyTags, List.mem_cons, List.not_mem_nil, or_false] at h
  rcases h with rfl | rfl | rfl | rfl | rfl | rfl | rfl | rfl <;> simp [jsConstantTags]

theorem propsLoop (hreg : Regime o loud) {dict : Bool} (hd : OnlyConstantsAndErrors o → dict = false) (env : DEnv)
    (hr : Rec o env.py loud rec rec') (endTag : Tag) {pre : List (Val × Val)} (f : Nat) {r : JSObj Val} {b : ObjBox}
    (hb : ObjBuilt o env.py dict pre r b) (c : Nat) :
    RunAs o env.py loud (fun x y => ObjBuilt o env.py dict pre x.1 y.1 ∧ y.2 = x.2) (propsLoop env rec endTag f r c)
      (propsLoopO o env rec' endTag f b c) := by
  induction f generalizing r b c with
  | zero => exact fail _
  | succ f ih =>
    refine bindEq (lift _) fun t => ?_
    by_cases ht : jsObjectKeyTags.contains t = true
    · rw [if_pos ht, if_pos ht]
      refine (hr t).bind ?_
      rintro k k' ⟨-, hk⟩
      rw [hk (keyTag_not_constant ht)]
      refine (checkKey k).bind ?_
      rintro key _ ⟨rfl, hkey⟩
      exact (decodeNext hr).bind fun v v' hv => (putProp hreg hd hb hkey hv).bind fun r1 b1 h1 => ih h1 _
    · rw [if_neg ht, if_neg ht]
      by_cases he : t = endTag
      · rw [if_pos he, if_pos he]; exact pure ⟨hb, rfl⟩
      · rw [if_neg he, if_neg he]; exact fail _

theorem readProps (hreg : Regime o loud) {dict : Bool} (hd : OnlyConstantsAndErrors o → dict = false) (env : DEnv)
    (hr : Rec o env.py loud rec rec') (endTag : Tag) {pre : List (Val × Val)} {r : JSObj Val} {b : ObjBox}
    (hb : ObjBuilt o env.py dict pre r b) :
    RunAs o env.py loud (ObjBuilt o env.py dict pre) (readProps env rec endTag r) (readPropsO o env rec' endTag b) :=
  bindEq loopFuel fun n => (propsLoop hreg hd env hr endTag n hb 0).bind fun x y h => by
    rw [h.2]
    exact bindEq (lift _) fun _ => bindEq (checkCount _ _) fun _ => pure h.1

theorem decodeJSObject (hreg : Regime o loud) (env : DEnv) (hr : Rec o env.py loud rec rec') :
    RunAs o env.py loud Res (decodeJSObject env rec) (decodeJSObjectO o env rec') :=
  bindEq (alloc (ObjBuilt.new o env.py o.objectDict).objNode) fun _ => bindEq (recordD (plain_obj _)) fun _ =>
    (readProps hreg (fun ho => ho.object) env hr _ (ObjBuilt.new o env.py o.objectDict)).bind fun _ _ h =>
      bindEq (setNode _ h.objNode) fun _ => pure ⟨rfl, plain_obj _⟩

theorem elemsLoop (hreg : Regime o loud) {dict : Bool} (hd : OnlyConstantsAndErrors o → dict = false) (env : DEnv)
    (hr : Rec o env.py loud rec rec') {pre : List (Val × Val)} (n i : Nat) {r : JSObj Val} {b : ObjBox}
    (hb : ObjBuilt o env.py dict pre r b) :
    RunAs o env.py loud (ObjBuilt o env.py dict pre) (elemsLoop env rec n i r) (elemsLoopO o env rec' n i b) := by
  induction n generalizing r b i with
  | zero => exact pure hb
  | succ n ih =>
    exact (decodeNext hr).bind fun v v' hv => (putProp hreg hd hb rfl hv).bind fun r1 b1 h1 => ih _ h1

theorem decodeDenseArray (hreg : Regime o loud) (env : DEnv) (hr : Rec o env.py loud rec rec') :
    RunAs o env.py loud Res (decodeDenseArray env rec) (decodeDenseArrayO o env rec') := by
  have hnew : ObjBuilt o env.py o.arrayDict (lengthMark 0) JSObj.empty (ObjBox.new o.arrayDict) := ObjBuilt.new o env.py _
  exact bindEq (alloc hnew.arrNode) fun _ => bindEq (recordD (plain_obj _)) fun _ => bindEq (lift _) fun n =>
    (elemsLoop hreg (fun ho => ho.array) env hr n 0 hnew).bind fun _ _ h1 =>
      (readProps hreg (fun ho => ho.array) env hr _ h1).bind fun _ _ h =>
        bindEq (lift _) fun _ => bindEq (checkCount _ _) fun _ => bindEq (setNode _ h.arrNode) fun _ =>
          pure ⟨rfl, plain_obj _⟩

theorem resizeTo (hreg : Regime o loud) (env : DEnv) (n : Nat) :
    RunAs o env.py loud (ObjBuilt o env.py o.arrayDict (lengthMark n)) (resizeTo env n JSObj.empty)
      (resizeToO o env n (ObjBox.new o.arrayDict)) := by
  unfold V8.resizeTo resizeToO
  by_cases hn : n > 0
  · rw [if_pos hn, if_pos hn]
    obtain ⟨ps, ps', h1, h2, h3⟩ := ObjBuilt.new o env.py o.arrayDict
    refine (putAssign (pre := []) (ps := []) (ps' := []) (k := .int (n - 1 : Nat)) hreg (fun ho => ho.array) rfl
      (fun _ => ⟨none, rfl, rfl⟩) rfl ?_).mono ?_
    · cases o.arrayDict with
      | true => exact ⟨rfl, rfl⟩
      | false => exact ⟨rfl, rfl, fun _ => ⟨JSObj.empty, rfl, rfl⟩⟩
    · rintro r b ⟨g1, g2⟩
      have hm : lengthMark n = [(.int (n - 1 : Nat), .hole)] := by unfold lengthMark; rw [if_neg (by omega)]
      refine ⟨[], [], .nil, ?_, ?_⟩
      · rw [List.append_nil, hm]; exact g1
      · rw [List.append_nil, hm]; exact g2
  · rw [if_neg hn, if_neg hn]
    have : n = 0 := by omega
    subst this
    exact pure (ObjBuilt.new o env.py _)

theorem decodeSparseArray (hreg : Regime o loud) (env : DEnv) (hr : Rec o env.py loud rec rec') :
    RunAs o env.py loud Res (decodeSparseArray env rec) (decodeSparseArrayO o env rec') := by
  have hnew : ObjBuilt o env.py o.arrayDict (lengthMark 0) JSObj.empty (ObjBox.new o.arrayDict) := ObjBuilt.new o env.py _
  exact bindEq (alloc hnew.arrNode) fun _ => bindEq (recordD (plain_obj _)) fun _ => bindEq (lift _) fun n =>
    (resizeTo hreg env n).bind fun _ _ h1 =>
      (readProps hreg (fun ho => ho.array) env hr _ h1).bind fun _ _ h =>
        bindEq (lift _) fun _ => bindEq (checkCount _ _) fun _ => bindEq (setNode _ h.arrNode) fun _ =>
          pure ⟨rfl, plain_obj _⟩

/-! ## The reader -/

theorem ofRes {x y : RM Val} {P : Prop} (h : RunAs o py loud Res x y) :
    RunAs o py loud (fun v v' => ReadAs o v v' ∧ (P → v' = v)) x y :=
  h.mono fun _ _ h => ⟨.inr h, fun _ => h.1⟩

theorem constant {t : Tag} {v : Val} (h : (t, v) ∈ constantValues) (ht : t ∈ jsConstantTags) :
    RunAs o py loud (fun v v' => ReadAs o v v' ∧ (t ∉ jsConstantTags → v' = v)) (Pure.pure v)
      (Pure.pure (o.constant t v)) :=
  pure ⟨.inl ⟨t, h, rfl⟩, fun hn => absurd ht hn⟩

theorem tagReader (hreg : Regime o loud) (env : DEnv) (hr : Rec o env.py loud rec rec') :
    Rec o env.py loud (fun t => tagReader env rec t unhandledTag) (fun t => tagReaderO o env rec' t unhandledTag) := by
  intro t
  cases t
  case kTheHole => exact constant (by simp [constantValues]) (by simp [jsConstantTags])
  case kUndefined => exact constant (by simp [constantValues]) (by simp [jsConstantTags])
  case kNull => exact constant (by simp [constantValues]) (by simp [jsConstantTags])
  case kTrue => exact constant (by simp [constantValues]) (by simp [jsConstantTags])
  case kFalse => exact constant (by simp [constantValues]) (by simp [jsConstantTags])
  case kBeginJSMap => exact ofRes (decodeJSMap hreg hr)
  case kBeginJSSet => exact ofRes (decodeJSSet hreg hr)
  case kBeginJSObject => exact ofRes (decodeJSObject hreg env hr)
  case kBeginDenseJSArray => exact ofRes (decodeDenseArray hreg env hr)
  case kBeginSparseJSArray => exact ofRes (decodeSparseArray hreg env hr)
  case kError => exact ofRes (decodeError hr)
  case kRegExp => exact ofRes (decodeRegExp hr)
  case kDate => exact ofRes (decodeDate env)
  case kObjectReference => exact ofRes decodeReference
  case kSharedObject => exact ofRes decodeSharedRef
  case kHostObject => exact ofRes (decodeHostObject env)
  case kDouble => exact ofRes (bindEq (lift _) fun x => pure ⟨rfl, by simp, by simp, by simp⟩)
  case kOneByteString => exact ofRes (bindEq (lift _) fun x => pure ⟨rfl, by simp, by simp, by simp⟩)
  case kTwoByteString => exact ofRes (bindEq (lift _) fun x => pure ⟨rfl, by simp, by simp, by simp⟩)
  case kUtf8String => exact ofRes (bindEq (lift _) fun x => pure ⟨rfl, by simp, by simp, by simp⟩)
  case kBigInt => exact ofRes (bindEq (lift _) fun x => pure ⟨rfl, by simp, by simp, by simp⟩)
  case kInt32 => exact ofRes (bindEq (lift _) fun x => pure ⟨rfl, by simp, by simp, by simp⟩)
  case kUint32 => exact ofRes (bindEq (lift _) fun x => pure ⟨rfl, by simp, by simp, by simp⟩)
  all_goals first
    | exact ofRes (decodeArrayBuffer _)
    | exact ofRes (decodePrimObj _)
    | exact fail _

end RunAs

theorem decodeWithO_succ (o : ReaderOptions) (env : DEnv) (f : Nat) (t : Tag) :
    decodeWith [tagReaderO o env] (f + 1) t =
      (tick >>= fun _ => tagReaderO o env (decodeWith [tagReaderO o env] f) t unhandledTag) := by
  rw [decodeWith, chainFrom, dif_pos (by simp)]
  have : (fun b => chainFrom unhandledTag
      (List.map (fun s => s (decodeWith [tagReaderO o env] f)) [tagReaderO o env]) (0 + 1) b) = unhandledTag := by
    funext b
    rw [chainFrom, dif_neg (by simp)]
  rw [this]
  rfl

theorem RunAs.decodeTag {o : ReaderOptions} {loud : Prop} (hreg : RunAs.Regime o loud) (env : DEnv) (f : Nat) :
    RunAs.Rec o env.py loud (decodeTag env f) (decodeWith [tagReaderO o env] f) := by
  induction f with
  | zero => exact fun t => RunAs.fail _
  | succ f ih =>
    intro t
    rw [decodeTag_succ, decodeWithO_succ]
    exact RunAs.bindEq RunAs.tick fun _ => RunAs.tagReader hreg env ih t

theorem loads_as {o : ReaderOptions} {loud : Prop} (hreg : RunAs.Regime o loud) (env : DEnv) (data : Bytes) :
    OutAs o env.py loud (ReadAs o) (loads env data) (loadsWith o env data) := by
  unfold loads loadsWith
  cases readHeader data 0 with
  | error e => exact .err e
  | ok r =>
    obtain ⟨version, p⟩ := r
    refine RunAs.decodeNext (RunAs.decodeTag hreg env _) data _ _ ⟨⟨rfl, rfl, rfl, rfl, .nil⟩, ?_⟩
    intro v hv
    cases hv

/-! ## The default options -/

theorem default_only (cmp : PyCompare) : OnlyConstantsAndErrors (.default cmp) where
  map := rfl
  set := rfl
  object := rfl
  array := rfl
  hole _ _ _ := Iff.rfl
  keys t v h := by
    simp only [constantValues, List.mem_cons, Prod.mk.injEq, List.not_mem_nil, or_false] at h
    rcases h with ⟨rfl, rfl⟩ | ⟨rfl, rfl⟩ | ⟨rfl, rfl⟩ | ⟨rfl, rfl⟩ | ⟨rfl, rfl⟩ <;> exact id

theorem readAs_default {cmp : PyCompare} {v v' : Val} (h : ReadAs (.default cmp) v v') : v = v' := by
  rcases h with ⟨t, -, h⟩ | ⟨h, -⟩
  · exact h.symm
  · exact h.symm

theorem forall₂_imp_eq {α : Type} {R : α → α → Prop} (hR : ∀ a b, R a b → a = b) {l l' : List α}
    (h : List.Forall₂ R l l') : l = l' := by
  induction h with
  | nil => rfl
  | cons h _ ih => rw [hR _ _ h, ih]

theorem assigned_functional {py : PyEnv} {l : List (Val × Val)} {o0 r r' : JSObj Val} (h : Assigned py o0 l r)
    (h' : Assigned py o0 l r') : r = r' := by
  induction l generalizing o0 with
  | nil => cases h; cases h'; rfl
  | cons e t ih =>
    obtain ⟨k, v⟩ := e
    obtain ⟨key, p, o1, h1, h2, h3, h4⟩ := h
    obtain ⟨key', p', o1', h1', h2', h3', h4'⟩ := h'
    rw [h1] at h1'; cases h1'
    rw [h2] at h2'; cases h2'
    rw [h3] at h3'; cases h3'
    exact ih h4 h4'

theorem nodeAs_default {cmp : PyCompare} {py : PyEnv} {n n' : Node} (h : NodeAs (.default cmp) py n n') : n = n' := by
  cases n with
  | jsmap es =>
    obtain ⟨a, b, h1, ⟨m, h2, h3⟩, ⟨m', h4, h5⟩⟩ := h
    have : a = b := forall₂_imp_eq (fun x y h => Prod.ext (readAs_default h.1) (readAs_default h.2)) h1
    subst this
    rw [h2] at h4; cases h4
    rw [h3, h5]
  | jsset ms =>
    obtain ⟨-, a, b, h1, ⟨m, h2, h3⟩, ⟨m', h4, h5⟩⟩ := h
    have : a = b := forall₂_imp_eq (fun x y h => readAs_default h) h1
    subst this
    rw [h2] at h4; cases h4
    rw [h3, h5]
  | jsobj r =>
    obtain ⟨a, b, h1, ⟨m, h2, h3⟩, ⟨m', h4, h5⟩⟩ := h
    have : a = b := forall₂_imp_eq (fun x y h => Prod.ext h.1.symm (readAs_default h.2)) h1
    subst this
    rw [h3, h5, assigned_functional h2 h4]
  | jsarr r =>
    obtain ⟨len, a, b, h1, ⟨m, h2, h3⟩, ⟨m', h4, h5⟩⟩ := h
    have : a = b := forall₂_imp_eq (fun x y h => Prod.ext h.1.symm (readAs_default h.2)) h1
    subst this
    rw [h3, h5, assigned_functional h2 h4]
  | error a b c e =>
    obtain ⟨m, c', rfl, h1, h2⟩ := h
    have h1 : m = b := h1
    rcases h2 with h2 | ⟨h2, h3⟩
    · rw [h1, readAs_default h2]
    · rw [h1, h2, h3]
  | _ => exact h.symm

/-! ## Keys that stay apart -/

/-- The pairs of keys at hand stay apart. -/
def Apart (same : Val → Val → Prop) (H : List ((Val × Val) × (Val × Val))) : Prop :=
  ∀ p ∈ H, ∀ q ∈ H, SameValueZero p.1.1 q.1.1 ↔ same p.2.1 q.2.1

/-- Entries of two JSMaps, both stored by an entry of the history. -/
def MapItemAs (o : ReaderOptions) (H : List ((Val × Val) × (Val × Val))) (a b : SvzKey × (Val × Val)) : Prop :=
  EntryAs o a.2 b.2 ∧ (a.2, b.2) ∈ H ∧ sameValueZero a.2.1 = .ok a.1 ∧ sameValueZero b.2.1 = .ok b.1

theorem set_mapItemAs {o : ReaderOptions} {H : List ((Val × Val) × (Val × Val))} (hH : Apart SameValueZero H)
    {m m' : JSMap Val} (h : List.Forall₂ (MapItemAs o H) m m') {e e' : Val × Val} {x x' : SvzKey}
    (hn : MapItemAs o H (x, e) (x', e')) : List.Forall₂ (MapItemAs o H) (Dict.set m x e) (Dict.set m' x' e') := by
  induction h with
  | nil => exact .cons hn .nil
  | @cons a b t t' hab _ ih =>
    obtain ⟨xa, a⟩ := a
    obtain ⟨xb, b⟩ := b
    have hiff : xa = x ↔ xb = x' := by
      have h1 := svz_iff _ _ _ _ hab.2.2.1 hn.2.2.1
      have h2 := svz_iff _ _ _ _ hab.2.2.2 hn.2.2.2
      exact h1.trans ((hH _ hab.2.1 _ hn.2.1).trans h2.symm)
    unfold Dict.set
    by_cases hx : xa = x
    · rw [if_pos hx, if_pos (hiff.1 hx), hx, hiff.1 hx]
      exact .cons hn ‹_›
    · rw [if_neg hx, if_neg (fun hh => hx (hiff.2 hh))]
      exact .cons hab ih

theorem update_mapItemAs {o : ReaderOptions} {H : List ((Val × Val) × (Val × Val))} (hH : Apart SameValueZero H)
    {es es' : List (Val × Val)} (hes : List.Forall₂ (EntryAs o) es es') (hsub : ∀ p ∈ es.zip es', p ∈ H)
    {m m' : JSMap Val} (h : List.Forall₂ (MapItemAs o H) m m') {r r' : JSMap Val}
    (hr : JSMap.update m es = (r, none)) (hr' : JSMap.update m' es' = (r', none)) :
    List.Forall₂ (MapItemAs o H) r r' := by
  induction hes generalizing m m' with
  | nil => cases hr; cases hr'; exact h
  | @cons a b t t' hab _ ih =>
    obtain ⟨k, v⟩ := a
    obtain ⟨k', v'⟩ := b
    unfold JSMap.update at hr hr'
    cases hs : sameValueZero k with
    | error e => simp [JSMap.setitem, hs] at hr
    | ok x =>
      cases hs' : sameValueZero k' with
      | error e => simp [JSMap.setitem, hs'] at hr'
      | ok x' =>
        simp only [JSMap.setitem, hs] at hr
        simp only [JSMap.setitem, hs'] at hr'
        refine ih (fun p hp => hsub p ?_) (set_mapItemAs hH h ⟨hab, hsub _ ?_, hs, hs'⟩) hr hr'
        · exact List.mem_cons_of_mem _ hp
        · exact List.mem_cons_self

/-- An entry of a JSMap and of a dict.  The dict keeps the key stored first. -/
def DictItemAs (o : ReaderOptions) (cmp : PyCompare) (H : List ((Val × Val) × (Val × Val))) (a : SvzKey × (Val × Val))
    (b : Val × Val) : Prop :=
  ReadAs o a.2.2 b.2 ∧ sameValueZero a.2.1 = .ok a.1 ∧ (∃ e', (a.2, e') ∈ H ∧ EntryAs o a.2 e' ∧ CanHash cmp e'.1) ∧
    ∃ e e', (e, e') ∈ H ∧ e'.1 = b.1 ∧ sameValueZero e.1 = .ok a.1 ∧ CanHash cmp b.1

theorem keyMatch_iff {cmp : PyCompare} (hw : HashesWell cmp) {k k' : Val} (hk : CanHash cmp k) (hk' : CanHash cmp k') :
    (Equal cmp k k' ∧ cmp.keyMatch k k' = .ok true) ∨ (¬ Equal cmp k k' ∧ cmp.keyMatch k k' = .ok false) := by
  unfold PyCompare.keyMatch PyCompare.same_or_eq
  by_cases he : Equal cmp k k'
  · refine .inl ⟨he, ?_⟩
    rw [if_pos (hw.hash _ _ hk hk' he)]
    rcases he with h | h
    · rw [if_pos h]
    · by_cases hs : cmp.same k k' = true
      · rw [if_pos hs]
      · rw [if_neg hs, h]
  · refine .inr ⟨he, ?_⟩
    by_cases hh : cmp.hash k = cmp.hash k'
    · rw [if_pos hh, if_neg (fun hs => he (.inl hs))]
      obtain ⟨b, hb⟩ := hw.total k k' hk hk'
      cases b with
      | true => exact absurd (.inr hb) he
      | false => exact hb
    · rw [if_neg hh]

theorem store_dictItemAs {o : ReaderOptions} {cmp : PyCompare} (hw : HashesWell cmp)
    {H : List ((Val × Val) × (Val × Val))} (hH : Apart (Equal cmp) H) {m : JSMap Val} {d : List (Val × Val)}
    (h : List.Forall₂ (DictItemAs o cmp H) m d) {e e' : Val × Val} {x : SvzKey} (hn : (e, e') ∈ H) (hr : EntryAs o e e')
    (hx : sameValueZero e.1 = .ok x) (hc : CanHash cmp e'.1) :
    ∃ d', cmp.store e'.1 e'.2 d = .ok d' ∧ List.Forall₂ (DictItemAs o cmp H) (Dict.set m x e) d' := by
  induction h with
  | nil => exact ⟨_, rfl, .cons ⟨hr.2, hx, ⟨e', hn, hr, hc⟩, e, e', hn, rfl, hx, hc⟩ .nil⟩
  | @cons a b t t' hab ht ih =>
    obtain ⟨xa, a⟩ := a
    obtain ⟨kb, vb⟩ := b
    obtain ⟨h1, h2, h3, f, f', h4, h5, h6, h7⟩ := hab
    have hiff : xa = x ↔ Equal cmp kb e'.1 := by
      have h8 := hH _ h4 _ hn
      simp only [h5] at h8
      exact (svz_iff _ _ _ _ h6 hx).trans h8
    unfold PyCompare.store Dict.set
    rcases keyMatch_iff hw h7 hc with ⟨g1, g2⟩ | ⟨g1, g2⟩
    · rw [g2, if_pos (hiff.2 g1)]
      have hxa := hiff.2 g1
      subst hxa
      exact ⟨_, rfl, .cons ⟨hr.2, hx, ⟨e', hn, hr, hc⟩, f, f', h4, h5, h6, h7⟩ ht⟩
    · rw [g2, if_neg (fun hh => g1 (hiff.1 hh))]
      obtain ⟨d', hd, hd'⟩ := ih
      simp only [hd]
      exact ⟨_, rfl, .cons ⟨h1, h2, h3, f, f', h4, h5, h6, h7⟩ hd'⟩

theorem storeAll_dictItemAs {o : ReaderOptions} {cmp : PyCompare} (hw : HashesWell cmp)
    {H : List ((Val × Val) × (Val × Val))} (hH : Apart (Equal cmp) H)
    {es es' : List (Val × Val)} (hes : List.Forall₂ (EntryAs o) es es') (hsub : ∀ p ∈ es.zip es', p ∈ H)
    {m : JSMap Val} {d : List (Val × Val)} (h : List.Forall₂ (DictItemAs o cmp H) m d) {r : JSMap Val}
    {r' : List (Val × Val)} (hr : JSMap.update m es = (r, none)) (hr' : cmp.storeAll d es' = .ok r') :
    List.Forall₂ (DictItemAs o cmp H) r r' := by
  induction hes generalizing m d with
  | nil => cases hr; cases hr'; exact h
  | @cons a b t t' hab _ ih =>
    obtain ⟨k, v⟩ := a
    obtain ⟨k', v'⟩ := b
    unfold JSMap.update at hr
    unfold PyCompare.storeAll at hr'
    cases hs : sameValueZero k with
    | error e => simp [JSMap.setitem, hs] at hr
    | ok x =>
      cases hh : cmp.hash k' with
      | none => rw [hh] at hr'; cases hr'
      | some c =>
        simp only [JSMap.setitem, hs] at hr
        rw [hh] at hr'
        have hc : CanHash cmp k' := by unfold CanHash; rw [hh]; rfl
        have hmem : ((k, v), (k', v')) ∈ H := hsub _ List.mem_cons_self
        obtain ⟨d', h1, h2⟩ := store_dictItemAs hw hH h hmem hab hs hc
        simp only [h1] at hr'
        exact ih (fun p hp => hsub p (List.mem_cons_of_mem _ hp)) h2 hr hr'

/-! ## Objects with the same keys -/

theorem assigned_paired {o : ReaderOptions} (ho : OnlyConstantsAndErrors o) {py : PyEnv} {ps ps' : List (Val × Val)}
    (h : List.Forall₂ (PropAs o) ps ps') {r0 r0' r r' : JSObj Val} (hp : RunAs.Paired o r0 r0')
    (hr : Assigned py r0 ps r) (hr' : Assigned py r0' ps' r') : RunAs.Paired o r r' := by
  induction h generalizing r0 r0' with
  | nil => cases hr; cases hr'; exact hp
  | @cons a b t t' hab _ ih =>
    obtain ⟨k, v⟩ := a
    obtain ⟨k', v'⟩ := b
    obtain ⟨hk, hv⟩ := hab
    simp only at hk hv
    subst hk
    obtain ⟨key, p, o1, h1, h2, h3, h4⟩ := hr
    obtain ⟨key', p', o1', h1', h2', h3', h4'⟩ := hr'
    rw [h1] at h1'; cases h1'
    rw [h2] at h2'; cases h2'
    have := (RunAs.setitem_paired hp p (RunAs.elem_as ho hv)).1
    rw [h3, h3'] at this
    exact ih this h4 h4'

theorem assigned_mark {o : ReaderOptions} {py : PyEnv} {n : Nat} {l l' : List (Val × Val)} {r r' : JSObj Val}
    (hr : Assigned py JSObj.empty (lengthMark n ++ l) r) (hr' : Assigned py JSObj.empty (lengthMark n ++ l') r') :
    ∃ r0 r0', RunAs.Paired o r0 r0' ∧ Assigned py r0 l r ∧ Assigned py r0' l' r' := by
  have hp : RunAs.Paired o JSObj.empty JSObj.empty := ⟨JSObj.empty, rfl, rfl⟩
  unfold lengthMark at hr hr'
  by_cases hn : n = 0
  · rw [if_pos hn] at hr hr'
    exact ⟨_, _, hp, hr, hr'⟩
  · rw [if_neg hn] at hr hr'
    obtain ⟨key, p, o1, h1, h2, h3, h4⟩ := hr
    obtain ⟨key', p', o1', h1', h2', h3', h4'⟩ := hr'
    rw [h1] at h1'; cases h1'
    rw [h2] at h2'; cases h2'
    have := (RunAs.setitem_paired hp p (x := none) (x' := none) ⟨none, rfl, rfl⟩).1
    have e1 : Val.hole.toElem = none := rfl
    rw [e1] at h3 h3'
    rw [h3] at h3' this
    cases h3'
    exact ⟨_, _, this, h4, h4'⟩

theorem paired_items {o : ReaderOptions} {r r' : JSObj Val} (h : RunAs.Paired o r r') :
    List.Forall₂ (fun e e' : PKey × Val => e'.1 = e.1 ∧ ReadAs o e.2 e'.2) r.items r'.items ∧
      r'.array.len = r.array.len := by
  obtain ⟨P, rfl, rfl⟩ := h
  rw [JSObj.items_mapV, JSObj.items_mapV]
  refine ⟨?_, ?_⟩
  · induction P.items with
    | nil => exact .nil
    | cons e t ih => exact .cons ⟨rfl, e.2.2⟩ ih
  · exact (Arr.len_mapV _ _).trans (Arr.len_mapV _ _).symm

end V8
