import Verif.Model.InPlace
import Verif.Proofs.DecodeRel
import Verif.Proofs.DecodeLocal
import Verif.Proofs.Value

/-! Helper lemmas: the decoder that fills containers in place stays in step with the one that stores them when
they are complete. -/

namespace V8.InPlace

/-- Related runs: from states related by `P` both raise the same exception, or give results related by `Q`. -/
def Both {α β : Type} (P : DS → DS → Prop) (x : RM α) (y : RM β) (Q : α → β → DS → DS → Prop) : Prop :=
  ∀ d s s', P s s' →
    (∃ e, x d s = .error e ∧ y d s' = .error e) ∨
    ∃ a b t t', x d s = .ok (a, t) ∧ y d s' = .ok (b, t') ∧ Q a b t t'

namespace Both
variable {α β γ δ : Type} {P : DS → DS → Prop}

theorem pure {a : α} {b : β} {Q : α → β → DS → DS → Prop} (h : ∀ s s', P s s' → Q a b s s') :
    Both P (Pure.pure a) (Pure.pure b) Q := fun _ s s' hp => .inr ⟨a, b, s, s', rfl, rfl, h s s' hp⟩

theorem fail (e : DErr) {Q : α → β → DS → DS → Prop} : Both P (RM.fail e) (RM.fail e) Q :=
  fun _ _ _ _ => .inl ⟨e, rfl, rfl⟩

theorem bind {x : RM α} {y : RM β} {f : α → RM γ} {g : β → RM δ} {Q : α → β → DS → DS → Prop}
    {R : γ → δ → DS → DS → Prop} (hx : Both P x y Q) (hf : ∀ a b, Both (Q a b) (f a) (g b) R) :
    Both P (x >>= f) (y >>= g) R := by
  intro d s s' hp
  rcases hx d s s' hp with ⟨e, h1, h2⟩ | ⟨a, b, t, t', h1, h2, hq⟩
  · exact .inl ⟨e, RM.bind_error h1, RM.bind_error h2⟩
  · rw [RM.bind_ok h1, RM.bind_ok h2]
    exact hf a b d t t' hq

theorem pre {P' : DS → DS → Prop} {x : RM α} {y : RM β} {Q : α → β → DS → DS → Prop} (hx : Both P x y Q)
    (h : ∀ s s', P' s s' → P s s') : Both P' x y Q := fun d s s' hp => hx d s s' (h s s' hp)

theorem post {x : RM α} {y : RM β} {Q Q' : α → β → DS → DS → Prop} (hx : Both P x y Q)
    (h : ∀ a b s s', Q a b s s' → Q' a b s s') : Both P x y Q' := by
  intro d s s' hp
  rcases hx d s s' hp with he | ⟨a, b, t, t', h1, h2, hq⟩
  · exact .inl he
  · exact .inr ⟨a, b, t, t', h1, h2, h _ _ _ _ hq⟩

/-- A fact known of the states. -/
theorem know {F : Prop} {x : RM α} {y : RM β} {Q : α → β → DS → DS → Prop} (hF : ∀ s s', P s s' → F)
    (hx : F → Both P x y Q) : Both P x y Q := fun d s s' hp => hx (hF s s' hp) d s s' hp

end Both

/-- Neither a buffer nor memory: the decoder does not look into it. -/
def Opaque : Node → Prop
  | .abuf _ => False
  | .rawBuf _ _ => False
  | .sharedBuf _ => False
  | .transferBuf _ => False
  | _ => True

/-- The states of the two decoders while the objects `O` are unfinished. -/
structure Same (O : List Id) (s s' : DS) : Prop where
  pos : s'.pos = s.pos
  log : s'.log = s.log
  version : s'.version = s.version
  calls : s'.calls = s.calls
  size : s'.heap.length = s.heap.length
  agree : ∀ j, j ∉ O → s'.heap[j]? = s.heap[j]?
  unfinished : ∀ j ∈ O, (∃ n, s.heap[j]? = some n ∧ Opaque n) ∧ ∃ n, s'.heap[j]? = some n ∧ Opaque n

theorem Same.looksAlike {O : List Id} {s s' : DS} (h : Same O s s') : LooksAlike s.heap s'.heap := by
  intro v
  cases v with
  | obj j =>
    by_cases hj : j ∈ O
    · obtain ⟨⟨n, h1, h2⟩, n', h3, h4⟩ := h.unfinished j hj
      simp only [backingBytes, backingResizable, isBuffer, h1, h3]
      cases n <;> cases n' <;> simp_all [Opaque]
    · simp only [backingBytes, backingResizable, isBuffer, h.agree j hj, and_self]
  | _ => exact ⟨rfl, rfl, rfl⟩

/-- `Same`, and the objects below `n` are as in the heap `h0` for the decoder that fills in place. -/
structure Mid (O : List Id) (n : Nat) (h0 : Heap) (s s' : DS) : Prop where
  same : Same O s s'
  size : n ≤ s'.heap.length
  frame : ∀ j, j < n → s'.heap[j]? = h0[j]?

/-- The two computations go alike, and change none of the objects there are. -/
def Alike (O : List Id) {α : Type} (x y : RM α) : Prop :=
  ∀ n h0, Both (Mid O n h0) x y fun a b s s' => a = b ∧ Mid O n h0 s s'

namespace Alike
variable {O : List Id} {α β : Type}

theorem pure (a : α) : Alike O (Pure.pure a : RM α) (Pure.pure a) :=
  fun _ _ => Both.pure fun _ _ h => ⟨rfl, h⟩

theorem fail (e : DErr) : Alike O (RM.fail e : RM α) (RM.fail e) := fun _ _ => Both.fail e

theorem bind {x y : RM α} {f g : α → RM β} (hx : Alike O x y) (hf : ∀ a, Alike O (f a) (g a)) :
    Alike O (x >>= f) (y >>= g) := by
  intro n h0
  refine (hx n h0).bind fun a b => Both.know (F := a = b) (fun _ _ h => h.1) fun hab => ?_
  subst hab
  exact (hf a n h0).pre fun _ _ h => h.2

theorem lift (r : Rd α) : Alike O (RM.lift r) (RM.lift r) := by
  intro n h0 d s s' h
  have hp := h.same.pos
  unfold RM.lift
  rw [hp]
  cases r d s.pos with
  | error e => exact .inl ⟨e, rfl, rfl⟩
  | ok a =>
    exact .inr ⟨_, _, _, _, rfl, rfl, rfl, ⟨⟨rfl, h.same.log, h.same.version, h.same.calls, h.same.size, h.same.agree,
      h.same.unfinished⟩, h.size, h.frame⟩⟩

theorem getElem?_app {l : Heap} {n m : Node} {j : Nat} (h : l[j]? = some n) : (l ++ [m])[j]? = some n := by
  have hj : j < l.length := (List.getElem?_eq_some_iff.1 h).1
  rw [List.getElem?_append_left hj, h]

/-- The new object is none of those there were. -/
theorem alloc_new (m : Node) (n : Nat) (h0 : Heap) :
    Both (Mid O n h0) (alloc m) (V8.alloc m) fun a b s s' => (a = b ∧ n ≤ a ∧ s.heap[a]? = some m ∧ s'.heap[a]? = some m) ∧ Mid O n h0 s s' := by
  intro d s s' h
  have hsz := h.same.size
  refine .inr ⟨_, _, _, _, rfl, rfl, ⟨hsz.symm, ?_, ?_, ?_⟩, ⟨h.same.pos, h.same.log, h.same.version, h.same.calls, ?_, ?_, ?_⟩, ?_, ?_⟩
  · have := h.size
    omega
  · simp
  · simp [← hsz]
  · simp [hsz]
  · intro j hj
    have := h.same.agree j hj
    simp only [List.getElem?_append, hsz, this]
  · intro j hj
    obtain ⟨⟨n1, h1, h2⟩, n2, h3, h4⟩ := h.same.unfinished j hj
    exact ⟨⟨n1, getElem?_app h1, h2⟩, n2, getElem?_app h3, h4⟩
  · have := h.size
    simp only [List.length_append]
    omega
  · intro j hj
    have := h.size
    show (s'.heap ++ [m])[j]? = _
    rw [List.getElem?_append_left (by omega)]
    exact h.frame j hj

theorem alloc (m : Node) : Alike O (alloc m) (V8.alloc m) :=
  fun n h0 => (alloc_new m n h0).post fun _ _ _ _ h => ⟨h.1.1, h.2⟩

theorem tick : Alike O tick V8.tick := by
  intro n h0 d s s' h
  exact .inr ⟨_, _, _, _, rfl, rfl, rfl, ⟨⟨h.same.pos, h.same.log, h.same.version, congrArg (· + 1) h.same.calls, h.same.size,
    h.same.agree, h.same.unfinished⟩, h.size, h.frame⟩⟩

theorem recordD (v : Val) : Alike O (recordD v) (V8.recordD v) := by
  intro n h0 d s s' h
  unfold V8.recordD
  rw [h.same.log]
  exact .inr ⟨_, _, _, _, rfl, rfl, rfl, ⟨⟨h.same.pos, rfl, h.same.version, h.same.calls, h.same.size,
    h.same.agree, h.same.unfinished⟩, h.size, h.frame⟩⟩

theorem replaceD (k : Nat) (v : Val) : Alike O (replaceD k v) (V8.replaceD k v) := by
  intro n h0 d s s' h
  unfold V8.replaceD
  rw [h.same.log]
  cases s.log.replace k (.obj v) with
  | error e => exact .inl ⟨_, rfl, rfl⟩
  | ok l => exact .inr ⟨_, _, _, _, rfl, rfl, rfl, ⟨⟨h.same.pos, rfl, h.same.version, h.same.calls, h.same.size,
    h.same.agree, h.same.unfinished⟩, h.size, h.frame⟩⟩

theorem lookupD (k : Nat) : Alike O (lookupD k) (V8.lookupD k) := by
  intro n h0 d s s' h
  unfold V8.lookupD
  rw [h.same.log]
  cases s.log.getObject k with
  | error e => exact .inl ⟨_, rfl, rfl⟩
  | ok r =>
    cases r with
    | fwd _ => exact .inl ⟨_, rfl, rfl⟩
    | obj v => exact .inr ⟨_, _, _, _, rfl, rfl, rfl, h⟩

theorem loopFuel : Alike O loopFuel V8.loopFuel := by
  intro n h0 d s s' h
  exact .inr ⟨_, _, _, _, rfl, rfl, by rw [h.same.pos], h⟩

theorem getVersion : Alike O getVersion V8.getVersion := by
  intro n h0 d s s' h
  exact .inr ⟨_, _, _, _, rfl, rfl, h.same.version.symm, h⟩

theorem heap {k k' : Heap → RM β} (hk : ∀ h h', LooksAlike h h' → Alike O (k h) (k' h')) :
    Alike O (getHeap >>= k) (getHeap >>= k') := by
  intro n h0 d s s' h
  exact hk _ _ h.same.looksAlike n h0 d s s' h

theorem orRaise (x : Except PyExc α) : Alike O (orRaise x) (V8.orRaise x) := by
  cases x with
  | ok a => exact pure a
  | error e => exact fail _

theorem checkCount (n m : Nat) : Alike O (checkCount n m) (V8.checkCount n m) := by
  unfold V8.checkCount
  split
  · exact fail _
  · exact pure _

variable {rec rec' : Tag → RM Val}

theorem decodeNext (hr : ∀ t, Alike O (rec t) (rec' t)) : Alike O (decodeNext rec) (V8.decodeNext rec') :=
  bind (lift _) hr

theorem decodePrimObj (t : Tag) : Alike O (decodePrimObj t) (V8.decodePrimObj t) :=
  bind (lift _) fun _ => bind (alloc _) fun _ => bind (recordD _) fun _ => bind (replaceD _ _) fun _ => pure _

theorem assertStr (v : Val) : Alike O (assertStr v) (V8.assertStr v) := by
  cases v <;> first | exact pure _ | exact fail _

theorem decodeRegExp (hr : ∀ t, Alike O (rec t) (rec' t)) : Alike O (decodeRegExp rec) (V8.decodeRegExp rec') :=
  bind (lift _) fun t => bind (hr t) fun _ => bind (assertStr _) fun _ => bind (lift _) fun _ => bind (orRaise _) fun _ =>
    bind (alloc _) fun _ => bind (recordD _) fun _ => pure _

theorem readErrText (hr : ∀ t, Alike O (rec t) (rec' t)) (want etag : ErrTag) :
    Alike O (readErrText rec want etag) (V8.readErrText rec' want etag) := by
  unfold V8.readErrText
  split
  · exact bind (lift _) fun t => bind (hr t) fun _ => bind (lift _) fun _ => bind (assertStr _) fun _ => pure _
  · exact pure _

theorem readErrCause (hr : ∀ t, Alike O (rec t) (rec' t)) (etag : ErrTag) :
    Alike O (readErrCause rec etag) (V8.readErrCause rec' etag) := by
  unfold V8.readErrCause
  split
  · exact bind (decodeNext hr) fun _ => bind (lift _) fun _ => pure _
  · exact pure _

theorem readLateStack (hr : ∀ t, Alike O (rec t) (rec' t)) (st : Option Str) (etag : ErrTag) :
    Alike O (readLateStack rec st etag) (V8.readLateStack rec' st etag) := by
  unfold V8.readLateStack
  split
  · exact readErrText hr _ _
  · exact pure _

theorem checkErrEnd (etag : ErrTag) : Alike O (checkErrEnd etag) (V8.checkErrEnd etag) := by
  unfold V8.checkErrEnd
  split
  · exact fail _
  · exact pure _

/-- The same contents for an object on both sides. -/
theorem setNode (i : Id) (m : Node) (hm : Opaque m) (n : Nat) (h0 : Heap) (hi : n ≤ i) :
    Both (Mid O n h0) (setNode i m) (V8.setNode i m) fun a b s s' => a = b ∧ Mid O n h0 s s' := by
  intro d s s' h
  have hsz := h.same.size
  have set_some : ∀ (l : Heap) (j : Nat), (∃ k, l[j]? = some k ∧ Opaque k) → ∃ k, (l.set i m)[j]? = some k ∧ Opaque k := by
    intro l j ⟨k, h1, h2⟩
    by_cases hij : i = j
    · subst hij
      have hl := (List.getElem?_eq_some_iff.1 h1).1
      exact ⟨m, by simp [hl], hm⟩
    · exact ⟨k, by rw [List.getElem?_set_ne hij]; exact h1, h2⟩
  refine .inr ⟨_, _, _, _, rfl, rfl, rfl, ⟨⟨h.same.pos, h.same.log, h.same.version, h.same.calls, ?_, ?_, ?_⟩, ?_, ?_⟩⟩
  · simp [hsz]
  · intro j hj
    show (s'.heap.set i m)[j]? = (s.heap.set i m)[j]?
    simp only [List.getElem?_set, hsz, h.same.agree j hj]
  · intro j hj
    have := h.same.unfinished j hj
    exact ⟨set_some _ _ this.1, set_some _ _ this.2⟩
  · simpa using h.size
  · intro j hj
    show (s'.heap.set i m)[j]? = _
    rw [List.getElem?_set_ne (by omega)]
    exact h.frame j hj

theorem decodeError (hr : ∀ t, Alike O (rec t) (rec' t)) : Alike O (decodeError rec) (V8.decodeError rec') :=
  bind (lift _) fun _ => bind (lift _) fun _ => bind (readErrText hr _ _) fun _ => bind (readErrText hr _ _) fun _ => by
    intro n h0
    refine (alloc_new _ n h0).bind fun i i' => Both.know (F := i = i' ∧ n ≤ i) (fun _ _ h => ⟨h.1.1, h.1.2.1⟩) fun hi => ?_
    obtain ⟨rfl, hi⟩ := hi
    refine (Both.bind (Q := fun a b s s' => a = b ∧ Mid O n h0 s s') ((recordD _ n h0).pre fun _ _ h => h.2) fun _ _ => ?_)
    refine Both.bind (Q := fun a b s s' => a = b ∧ Mid O n h0 s s') ((readErrCause hr _ n h0).pre fun _ _ h => h.2) fun c c' => ?_
    refine Both.know (F := c = c') (fun _ _ h => h.1) fun hc => ?_
    subst hc
    refine Both.bind (Q := fun a b s s' => a = b ∧ Mid O n h0 s s') ((readLateStack hr _ _ n h0).pre fun _ _ h => h.2) fun c c' => ?_
    refine Both.know (F := c = c') (fun _ _ h => h.1) fun hc => ?_
    subst hc
    refine Both.bind (Q := fun a b s s' => a = b ∧ Mid O n h0 s s') ((checkErrEnd _ n h0).pre fun _ _ h => h.2) fun _ _ => ?_
    refine Both.bind (Q := fun a b s s' => a = b ∧ Mid O n h0 s s') ((setNode i _ ?_ n h0 hi).pre fun _ _ h => h.2) fun _ _ => ?_
    · trivial
    exact (pure _ n h0).pre fun _ _ h => h.2

theorem decodeDate (env : DEnv) : Alike O (decodeDate env) (V8.decodeDate env) :=
  bind (lift _) fun _ => bind (orRaise _) fun _ => bind (alloc _) fun _ => bind (recordD _) fun _ => pure _

theorem readArrayBuffer (t : Tag) : Alike O (readArrayBuffer t) (V8.readArrayBuffer t) := by
  unfold V8.readArrayBuffer
  split
  · exact bind (lift _) fun _ => bind (orRaise _) fun _ => bind (alloc _) fun _ => bind (recordD _) fun _ => pure _
  · exact bind (lift _) fun _ => bind (orRaise _) fun _ => bind (alloc _) fun _ => bind (recordD _) fun _ => pure _
  · exact bind (lift _) fun _ => bind (alloc _) fun _ => pure _
  · exact bind (lift _) fun _ => bind (alloc _) fun _ => pure _
  · exact fail _

theorem viewTagOf (raw : Nat) : Alike O (viewTagOf raw) (V8.viewTagOf raw) := by
  unfold V8.viewTagOf
  split
  · exact pure _
  · exact fail _

theorem readViewFlags (version : Nat) : Alike O (readViewFlags version) (V8.readViewFlags version) := by
  unfold V8.readViewFlags
  split
  · exact bind (lift _) fun _ => orRaise _
  · exact pure _

theorem readView (buffer : Val) : Alike O (readView buffer) (V8.readView buffer) :=
  bind (lift _) fun _ => bind (lift _) fun _ => bind (viewTagOf _) fun _ => bind (lift _) fun _ => bind (lift _) fun _ =>
    bind getVersion fun _ => bind (readViewFlags _) fun _ => heap fun h h' hh => by
      rw [(hh buffer).1, (hh buffer).2.1]
      exact bind (orRaise _) fun _ => bind (alloc _) fun _ => bind (recordD _) fun _ => pure _

theorem viewAfter (buffer : Val) : Alike O (viewAfter buffer) (V8.viewAfter buffer) :=
  bind (lift _) fun b => by
    cases b
    · exact pure _
    · exact readView _

theorem decodeArrayBuffer (t : Tag) : Alike O (decodeArrayBuffer t) (V8.decodeArrayBuffer t) :=
  bind (readArrayBuffer t) fun _ => viewAfter _

theorem decodeReference : Alike O decodeReference V8.decodeReference :=
  bind (lift _) fun _ => bind (lookupD _) fun v => heap fun h h' hh => by
    rw [(hh v).2.2]
    split
    · exact viewAfter _
    · exact pure _

theorem decodeSharedRef : Alike O decodeSharedRef V8.decodeSharedRef :=
  bind (lift _) fun _ => bind (alloc _) fun _ => bind (recordD _) fun _ => pure _

theorem decodeHostObject (env : DEnv) : Alike O (decodeHostObject env) (V8.decodeHostObject env) := by
  unfold V8.decodeHostObject
  split
  · exact bind (lift _) fun _ => bind (orRaise _) fun _ => bind (alloc _) fun _ => bind (orRaise _) fun _ =>
      bind (alloc _) fun _ => pure _
  · exact fail _

end Alike

/-! ## Containers -/

/-- The object `i` is being filled, and so far is `node` for the decoder that fills in place. -/
structure Filling (O : List Id) (i : Id) (n : Nat) (h0 : Heap) (node : Node) (s s' : DS) : Prop where
  mid : Mid (i :: O) n h0 s s'
  here : s'.heap[i]? = some node
  new : n ≤ i

namespace Filling
variable {O : List Id} {i : Id} {n : Nat} {h0 : Heap} {node : Node} {α β : Type}

/-- Nested values leave the unfinished container as it is. -/
theorem run {x y : RM α} (hx : Alike (i :: O) x y) :
    Both (Filling O i n h0 node) x y fun a b s s' => a = b ∧ Filling O i n h0 node s s' := by
  intro d s s' h
  have hi : i < s'.heap.length := (List.getElem?_eq_some_iff.1 h.here).1
  rcases hx (i + 1) s'.heap d s s' ⟨h.mid.same, hi, fun _ _ => rfl⟩ with he | ⟨a, b, t, t', h1, h2, hab, hm⟩
  · exact .inl he
  · refine .inr ⟨a, b, t, t', h1, h2, hab, ⟨hm.same, ?_, ?_⟩, ?_, h.new⟩
    · have := hm.size
      have := h.new
      omega
    · intro j hj
      have := h.new
      rw [hm.frame j (by omega)]
      exact h.mid.frame j hj
    · rw [hm.frame i (by omega)]
      exact h.here

/-- ... and what follows may use that both gave the same. -/
theorem andThen {x y : RM α} {γ : Type} {f : α → RM β} {g : α → RM γ} {R : β → γ → DS → DS → Prop} (hx : Alike (i :: O) x y)
    (hf : ∀ a, Both (Filling O i n h0 node) (f a) (g a) R) : Both (Filling O i n h0 node) (x >>= f) (y >>= g) R := by
  refine (run hx).bind fun a b => Both.know (F := a = b) (fun _ _ h => h.1) fun hab => ?_
  subst hab
  exact (hf a).pre fun _ _ h => h.2

/-- Storing something in the container. -/
theorem store {s s' : DS} (h : Filling O i n h0 node s s') (node' : Node) (ho : Opaque node') :
    Filling O i n h0 node' s { s' with heap := s'.heap.set i node' } := by
  have hi : i < s'.heap.length := (List.getElem?_eq_some_iff.1 h.here).1
  refine ⟨⟨⟨h.mid.same.pos, h.mid.same.log, h.mid.same.version, h.mid.same.calls, ?_, ?_, ?_⟩, ?_, ?_⟩, ?_, h.new⟩
  · simpa using h.mid.same.size
  · intro j hj
    show (s'.heap.set i node')[j]? = _
    rw [List.getElem?_set_ne (by rintro rfl; exact hj List.mem_cons_self)]
    exact h.mid.same.agree j hj
  · intro j hj
    refine ⟨(h.mid.same.unfinished j hj).1, ?_⟩
    by_cases hij : i = j
    · subst hij
      exact ⟨node', by simp [hi], ho⟩
    · obtain ⟨k, h1, h2⟩ := (h.mid.same.unfinished j hj).2
      exact ⟨k, by show (s'.heap.set i node')[j]? = _; rw [List.getElem?_set_ne hij]; exact h1, h2⟩
  · simpa using h.mid.size
  · intro j hj
    have := h.new
    show (s'.heap.set i node')[j]? = _
    rw [List.getElem?_set_ne (by omega)]
    exact h.mid.frame j hj
  · simp [hi]

/-- Making the container. -/
theorem start (ho : Opaque node) {f : Id → RM α} {g : Id → RM β} {R : α → β → DS → DS → Prop}
    (hf : ∀ i, Both (Filling O i n h0 node) (f i) (g i) R) :
    Both (Mid O n h0) (alloc node >>= f) (alloc node >>= g) R := by
  refine (Alike.alloc_new node n h0).bind fun i i' => Both.know (F := i = i') (fun _ _ h => h.1.1) fun hi => ?_
  subst hi
  refine (hf i).pre fun s s' h => ⟨⟨⟨h.2.same.pos, h.2.same.log, h.2.same.version, h.2.same.calls, h.2.same.size, ?_, ?_⟩,
    h.2.size, h.2.frame⟩, h.1.2.2.2, h.1.2.1⟩
  · exact fun j hj => h.2.same.agree j fun hj' => hj (List.mem_cons_of_mem _ hj')
  · intro j hj
    rcases List.mem_cons.1 hj with rfl | hj
    · exact ⟨⟨node, h.1.2.2.1, ho⟩, node, h.1.2.2.2, ho⟩
    · exact h.2.same.unfinished j hj

/-- The complete container: one decoder puts it into the heap, for the other one it is there. -/
theorem finish : Both (Filling O i n h0 node) (setNode i node >>= fun _ => pure (Val.obj i)) (pure (Val.obj i))
    fun a b s s' => a = b ∧ Mid O n h0 s s' := by
  intro d s s' h
  have hi : i < s'.heap.length := (List.getElem?_eq_some_iff.1 h.here).1
  have hi' : i < s.heap.length := by rw [← h.mid.same.size]; exact hi
  refine .inr ⟨_, _, _, _, rfl, rfl, rfl, ⟨h.mid.same.pos, h.mid.same.log, h.mid.same.version, h.mid.same.calls, ?_, ?_, ?_⟩,
    h.mid.size, h.mid.frame⟩
  · simpa using h.mid.same.size
  · intro j hj
    show s'.heap[j]? = (s.heap.set i node)[j]?
    by_cases hij : i = j
    · subst hij
      rw [h.here]
      simp [hi']
    · rw [List.getElem?_set_ne hij]
      exact h.mid.same.agree j (by simp [hj, Ne.symm hij])
  · intro j hj
    obtain ⟨⟨k, h1, h2⟩, k', h3, h4⟩ := h.mid.same.unfinished j (List.mem_cons_of_mem _ hj)
    refine ⟨?_, k', h3, h4⟩
    by_cases hij : i = j
    · subst hij
      have : node = k' := Option.some.inj (h.here.symm.trans h3)
      exact ⟨node, by show (s.heap.set i node)[i]? = _; simp [hi'], this ▸ h4⟩
    · exact ⟨k, by show (s.heap.set i node)[j]? = _; rw [List.getElem?_set_ne hij]; exact h1, h2⟩

end Filling

theorem dictOfItems_items (m : JSMap Val) (h : m.Inv) : dictOfItems m.items = m := by
  have h2 : ∀ e ∈ m, sameValueZero e.2.1 = .ok e.1 := h.2
  clear h
  induction m with
  | nil => rfl
  | cons e t ih =>
    have h1 := h2 e List.mem_cons_self
    have ht := ih fun e he => h2 e (List.mem_cons_of_mem _ he)
    unfold dictOfItems JSMap.items at *
    rw [List.map_cons, List.filterMap_cons, h1]
    simp only [ht]

theorem dictOfMembers_members (m : JSSet) (h : m.Inv) : dictOfMembers m.members = m := by
  have h2 : ∀ e ∈ m, sameValueZero e.2 = .ok e.1 := h.2
  clear h
  induction m with
  | nil => rfl
  | cons e t ih =>
    have h1 := h2 e List.mem_cons_self
    have ht := ih fun e he => h2 e (List.mem_cons_of_mem _ he)
    unfold dictOfMembers JSSet.members at *
    rw [List.map_cons, List.filterMap_cons, h1]
    simp only [ht]

section
variable {O : List Id} {i : Id} {n : Nat} {h0 : Heap} {rec rec' : Tag → RM Val}

theorem putEntry_store (m : JSMap Val) (hm : m.Inv) (k v : Val) :
    Both (Filling O i n h0 (.jsmap m.items)) (putEntry m k v) (storeEntry i k v)
      fun m' _ s s' => m'.Inv ∧ Filling O i n h0 (.jsmap m'.items) s s' := by
  intro d s s' h
  unfold putEntry storeEntry
  simp only [h.here, dictOfItems_items m hm]
  unfold JSMap.setitem
  cases hk : sameValueZero k with
  | error e => exact .inl ⟨_, rfl, rfl⟩
  | ok key => exact .inr ⟨_, _, _, _, rfl, rfl, KeyedInv.set hm (k, v) key hk, h.store _ trivial⟩

theorem putMember_store (m : JSSet) (hm : m.Inv) (v : Val) :
    Both (Filling O i n h0 (.jsset m.members)) (putMember m v) (storeMember i v)
      fun m' _ s s' => m'.Inv ∧ Filling O i n h0 (.jsset m'.members) s s' := by
  intro d s s' h
  unfold putMember storeMember
  simp only [h.here, dictOfMembers_members m hm]
  unfold JSSet.add
  cases hk : sameValueZero v with
  | error e => exact .inl ⟨_, rfl, rfl⟩
  | ok key => exact .inr ⟨_, _, _, _, rfl, rfl, KeyedInv.set hm v key hk, h.store _ trivial⟩

/-- JSObject or JSArray. -/
inductive OfObj : (JSObj Val → Node) → Prop
  | obj : OfObj .jsobj
  | arr : OfObj .jsarr

theorem putProp_same (py : PyEnv) (o : JSObj Val) (key : RawKey) (v : Val) (d d' : Bytes) (s s' : DS) :
    (∃ e, putProp py o key v d s = .error e ∧ putProp py o key v d' s' = .error e) ∨
    ∃ o', putProp py o key v d s = .ok (o', s) ∧ putProp py o key v d' s' = .ok (o', s') := by
  unfold putProp
  cases normaliseKey py.floatStr key with
  | error e => exact .inl ⟨_, rfl, rfl⟩
  | ok k =>
    simp only
    rcases o.setitem k v.toElem with ⟨o', _ | e⟩
    · exact .inr ⟨_, rfl, rfl⟩
    · exact .inl ⟨_, rfl, rfl⟩

theorem putProp_store {mk : JSObj Val → Node} (hmk : OfObj mk) (py : PyEnv) (o : JSObj Val) (key : RawKey) (v : Val) :
    Both (Filling O i n h0 (mk o)) (putProp py o key v) (storeProp py i key v)
      fun o' _ s s' => Filling O i n h0 (mk o') s s' := by
  intro d s s' h
  unfold storeProp
  rcases putProp_same py o key v d d s s' with ⟨e, h1, h2⟩ | ⟨o', h1, h2⟩
  · cases hmk <;> simp only [h.here, h1, h2] <;> exact .inl ⟨e, rfl, rfl⟩
  · cases hmk <;> simp only [h.here, h1, h2] <;> exact .inr ⟨o', _, s, _, rfl, rfl, h.store _ trivial⟩

variable (hr : ∀ (O : List Id) t, Alike O (rec t) (rec' t))
include hr

theorem mapLoop_alike (f : Nat) (m : JSMap Val) (hm : m.Inv) (count : Nat) :
    Both (Filling O i n h0 (.jsmap m.items)) (V8.mapLoop rec f m count) (mapLoop rec' i f count)
      fun r c s s' => r.2 = c ∧ Filling O i n h0 (.jsmap r.1.items) s s' := by
  induction f generalizing m count with
  | zero => exact Both.fail _
  | succ f ih =>
    refine Filling.andThen (.lift _) fun t => ?_
    by_cases ht : t = .kEndJSMap
    · simp only [if_pos ht]
      exact Both.pure fun _ _ h => ⟨rfl, h⟩
    · simp only [if_neg ht]
      refine Filling.andThen (hr _ t) fun k => Filling.andThen (.decodeNext (hr _)) fun v => ?_
      refine (putEntry_store m hm k v).bind fun m' _ => Both.know (F := m'.Inv) (fun _ _ h => h.1) fun hm' => ?_
      exact (ih m' hm' _).pre fun _ _ h => h.2

theorem decodeJSMap_alike : Alike O (V8.decodeJSMap rec) (decodeJSMap rec') := fun n h0 => by
  refine Filling.start (node := .jsmap []) trivial fun i => Filling.andThen (.recordD _) fun _ => Filling.andThen .loopFuel fun f => ?_
  refine (mapLoop_alike hr f [] ⟨List.nodup_nil, fun _ h => absurd h List.not_mem_nil⟩ 0).bind fun r c => ?_
  refine Both.know (F := r.2 = c) (fun _ _ h => h.1) fun hc => ?_
  subst hc
  refine Both.pre (P := Filling O i n h0 (.jsmap r.1.items)) ?_ fun _ _ h => h.2
  exact Filling.andThen (.lift _) fun _ => Filling.andThen (.checkCount _ _) fun _ => Filling.finish

theorem setLoop_alike (f : Nat) (m : JSSet) (hm : m.Inv) (count : Nat) :
    Both (Filling O i n h0 (.jsset m.members)) (V8.setLoop rec f m count) (setLoop rec' i f count)
      fun r c s s' => r.2 = c ∧ Filling O i n h0 (.jsset r.1.members) s s' := by
  induction f generalizing m count with
  | zero => exact Both.fail _
  | succ f ih =>
    refine Filling.andThen (.lift _) fun t => ?_
    by_cases ht : t = .kEndJSSet
    · simp only [if_pos ht]
      exact Both.pure fun _ _ h => ⟨rfl, h⟩
    · simp only [if_neg ht]
      refine Filling.andThen (hr _ t) fun k => ?_
      refine (putMember_store m hm k).bind fun m' _ => Both.know (F := m'.Inv) (fun _ _ h => h.1) fun hm' => ?_
      exact (ih m' hm' _).pre fun _ _ h => h.2

theorem decodeJSSet_alike : Alike O (V8.decodeJSSet rec) (decodeJSSet rec') := fun n h0 => by
  refine Filling.start (node := .jsset []) trivial fun i => Filling.andThen (.recordD _) fun _ => Filling.andThen .loopFuel fun f => ?_
  refine (setLoop_alike hr f [] ⟨List.nodup_nil, fun _ h => absurd h List.not_mem_nil⟩ 0).bind fun r c => ?_
  refine Both.know (F := r.2 = c) (fun _ _ h => h.1) fun hc => ?_
  subst hc
  refine Both.pre (P := Filling O i n h0 (.jsset r.1.members)) ?_ fun _ _ h => h.2
  exact Filling.andThen (.lift _) fun _ => Filling.andThen (.checkCount _ _) fun _ => Filling.finish

omit hr in
theorem checkKey_alike (v : Val) : Alike O (checkKey v) (checkKey v) := by
  cases v <;> first | exact .pure _ | exact .fail _

theorem propsLoop_alike {mk : JSObj Val → Node} (hmk : OfObj mk) (env : DEnv) (endTag : Tag) (f : Nat) (o : JSObj Val) (count : Nat) :
    Both (Filling O i n h0 (mk o)) (V8.propsLoop env rec endTag f o count) (propsLoop env rec' endTag i f count)
      fun r c s s' => r.2 = c ∧ Filling O i n h0 (mk r.1) s s' := by
  induction f generalizing o count with
  | zero => exact Both.fail _
  | succ f ih =>
    refine Filling.andThen (.lift _) fun t => ?_
    by_cases ht : jsObjectKeyTags.contains t = true
    · simp only [if_pos ht]
      refine Filling.andThen (hr _ t) fun k => Filling.andThen (checkKey_alike k) fun key => Filling.andThen (.decodeNext (hr _)) fun v => ?_
      exact (putProp_store hmk env.py o key v).bind fun o' _ => ih o' _
    · simp only [if_neg ht]
      by_cases ht : t = endTag
      · simp only [if_pos ht]
        exact Both.pure fun _ _ h => ⟨rfl, h⟩
      · simp only [if_neg ht]
        exact Both.fail _

theorem readProps_alike {mk : JSObj Val → Node} (hmk : OfObj mk) (env : DEnv) (endTag : Tag) (o : JSObj Val) :
    Both (Filling O i n h0 (mk o)) (V8.readProps env rec endTag o) (readProps env rec' endTag i)
      fun o' _ s s' => Filling O i n h0 (mk o') s s' := by
  refine Filling.andThen .loopFuel fun f => ?_
  refine (propsLoop_alike hr hmk env endTag f o 0).bind fun r c => ?_
  refine Both.know (F := r.2 = c) (fun _ _ h => h.1) fun hc => ?_
  subst hc
  refine Both.pre (P := Filling O i n h0 (mk r.1)) ?_ fun _ _ h => h.2
  refine Filling.andThen (.lift _) fun m d s s' h => ?_
  rcases Filling.run (.checkCount m r.2) d s s' h with ⟨e, h1, h2⟩ | ⟨a, b, t, t', h1, h2, _, h3⟩
  · exact .inl ⟨e, RM.bind_error h1, h2⟩
  · exact .inr ⟨r.1, b, t, t', by rw [RM.bind_ok h1]; rfl, h2, h3⟩

theorem decodeJSObject_alike (env : DEnv) : Alike O (V8.decodeJSObject env rec) (decodeJSObject env rec') := fun n h0 => by
  refine Filling.start (node := .jsobj JSObj.empty) trivial fun i => Filling.andThen (.recordD _) fun _ => ?_
  exact (readProps_alike hr .obj env _ _).bind fun o _ => Filling.finish

theorem elemsLoop_alike (env : DEnv) (k : Nat) (j : Nat) (o : JSObj Val) :
    Both (Filling O i n h0 (.jsarr o)) (V8.elemsLoop env rec k j o) (elemsLoop env rec' i k j)
      fun o' _ s s' => Filling O i n h0 (.jsarr o') s s' := by
  induction k generalizing j o with
  | zero => exact Both.pure fun _ _ h => h
  | succ k ih =>
    refine Filling.andThen (.decodeNext (hr _)) fun v => ?_
    exact (putProp_store .arr env.py o (.int j) v).bind fun o' _ => ih _ o'

theorem decodeDenseArray_alike (env : DEnv) : Alike O (V8.decodeDenseArray env rec) (decodeDenseArray env rec') := fun n h0 => by
  refine Filling.start (node := .jsarr JSObj.empty) trivial fun i => Filling.andThen (.recordD _) fun _ => Filling.andThen (.lift _) fun k => ?_
  refine (elemsLoop_alike hr env k 0 _).bind fun o _ => ?_
  refine (readProps_alike hr .arr env _ _).bind fun o _ => ?_
  exact Filling.andThen (.lift _) fun _ => Filling.andThen (.checkCount _ _) fun _ => Filling.finish

omit hr in
theorem resizeTo_alike (env : DEnv) (k : Nat) (o : JSObj Val) :
    Both (Filling O i n h0 (.jsarr o)) (V8.resizeTo env k o) (resizeTo env k i)
      fun o' _ s s' => Filling O i n h0 (.jsarr o') s s' := by
  unfold V8.resizeTo resizeTo
  split
  · exact putProp_store .arr env.py o _ _
  · exact Both.pure fun _ _ h => h

theorem decodeSparseArray_alike (env : DEnv) : Alike O (V8.decodeSparseArray env rec) (decodeSparseArray env rec') := fun n h0 => by
  refine Filling.start (node := .jsarr JSObj.empty) trivial fun i => Filling.andThen (.recordD _) fun _ => Filling.andThen (.lift _) fun k => ?_
  refine (resizeTo_alike env k _).bind fun o _ => ?_
  refine (readProps_alike hr .arr env _ _).bind fun o _ => ?_
  exact Filling.andThen (.lift _) fun _ => Filling.andThen (.checkCount _ _) fun _ => Filling.finish

theorem tagReader_alike (env : DEnv) (t : Tag) :
    Alike O (V8.tagReader env rec t unhandledTag) (tagReader env rec' t unhandledTag) := by
  cases t <;> first
    | exact Alike.bind (Alike.lift _) fun _ => Alike.pure _
    | exact Alike.pure _
    | exact Alike.fail _
    | exact Alike.decodeRegExp (hr _)
    | exact decodeJSMap_alike hr
    | exact decodeJSSet_alike hr
    | exact Alike.decodeReference
    | exact decodeJSObject_alike hr env
    | exact decodeDenseArray_alike hr env
    | exact decodeSparseArray_alike hr env
    | exact Alike.decodeArrayBuffer _
    | exact Alike.decodePrimObj _
    | exact Alike.decodeError (hr _)
    | exact Alike.decodeDate env
    | exact Alike.decodeSharedRef
    | exact Alike.decodeHostObject env

end

theorem decodeTag_succ (env : DEnv) (f : Nat) (t : Tag) :
    decodeTag env (f + 1) t = (tick >>= fun _ => tagReader env (decodeTag env f) t unhandledTag) := by
  unfold decodeTag
  rw [decodeWith, chainFrom, dif_pos (by simp)]
  have : (fun b => chainFrom unhandledTag (List.map (fun s => s (decodeWith [tagReader env] f)) [tagReader env]) (0 + 1) b)
      = unhandledTag := by
    funext b
    rw [chainFrom, dif_neg (by simp)]
  rw [this]
  rfl

theorem decodeTag_alike (env : DEnv) (f : Nat) (O : List Id) (t : Tag) :
    Alike O (V8.decodeTag env f t) (decodeTag env f t) := by
  induction f generalizing O t with
  | zero => exact Alike.fail _
  | succ f ih =>
    rw [V8.decodeTag_succ, decodeTag_succ]
    exact Alike.bind Alike.tick fun _ => tagReader_alike (fun O t => ih O t) env t

theorem Same.eq {s s' : DS} (h : Same [] s s') : s' = s := by
  obtain ⟨p, l, hp, v, c⟩ := s
  obtain ⟨p', l', hp', v', c'⟩ := s'
  have h1 : hp' = hp := List.ext_getElem? fun j => h.agree j List.not_mem_nil
  obtain rfl : p' = p := h.pos
  obtain rfl : l' = l := h.log
  obtain rfl : v' = v := h.version
  obtain rfl : c' = c := h.calls
  rw [h1]

theorem Same.refl (s : DS) : Same [] s s :=
  ⟨rfl, rfl, rfl, rfl, rfl, fun _ _ => rfl, fun _ h => absurd h List.not_mem_nil⟩

/-- With nothing unfinished the results are the same. -/
theorem Alike.run_same {α : Type} {x y : RM α} (h : Alike [] x y) (d : Bytes) (s : DS) : y d s = x d s := by
  rcases h 0 [] d s s ⟨Same.refl s, Nat.zero_le _, fun _ hj => absurd hj (Nat.not_lt_zero _)⟩ with
    ⟨e, h1, h2⟩ | ⟨a, b, t, t', h1, h2, hab, hm⟩
  · rw [h1, h2]
  · rw [h1, h2, hab, hm.same.eq]

/-- Objects that exist are left alone. -/
theorem Alike.run_frame {α : Type} {x y : RM α} (h : Alike [] x y) (d : Bytes) (s : DS) {a : α} {t : DS}
    (hy : y d s = .ok (a, t)) (j : Nat) (hj : j < s.heap.length) : t.heap[j]? = s.heap[j]? := by
  rcases h s.heap.length s.heap d s s ⟨Same.refl s, Nat.le_refl _, fun _ _ => rfl⟩ with
    ⟨e, h1, h2⟩ | ⟨a', b, t1, t', h1, h2, hab, hm⟩
  · rw [h2] at hy
    cases hy
  · rw [h2] at hy
    cases hy
    exact hm.frame j hj

end V8.InPlace
