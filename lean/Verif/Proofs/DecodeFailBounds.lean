import Verif.Proofs.DecodeFail

/-!
# What exists when the decoder raises is bounded

The walk of `Proofs/DecodeBounds` once more, for the runs that end with an exception.
-/

namespace V8.Fail

/-- Things stored in unfinished containers. -/
def Stop.open (e : Stop) : Nat := (e.unfinished.map Node.stored).sum

/-- When `x` raises in state `s`, what was made and what is in unfinished containers, with `n` things in
containers around, is at most `T`.  (`_py` is there to make it known to the rules below.) -/
def EB {α : Type} (_py : PyEnv) (d : Bytes) (n T : Nat) (s : DS) (x : RM α) : Prop :=
  s.pos ≤ d.length → s.OK d → ∀ e, x d s = .error e → e.state.cost + e.open + n ≤ T

variable {α β : Type} {py : PyEnv} {d : Bytes} {n T : Nat} {s : DS}

theorem EB.pure (a : α) : EB py d n T s (Pure.pure a : RM α) := by
  intro _ _ e h
  cases h

theorem EB.fail {x : DErr} (h : s.pos ≤ d.length → s.cost + n ≤ T) : EB py d n T s (Fail.fail x : RM α) := by
  intro hp _ e he
  cases he
  simpa [Stop.open] using h hp

theorem EB.step {x : V8.RM α} (h : s.pos ≤ d.length → s.cost + n ≤ T) : EB py d n T s (Fail.step x) := by
  intro hp _ e he
  unfold Fail.step at he
  split at he
  · cases he
  · cases he
    simpa [Stop.open] using h hp

theorem EB.holding {x : RM α} (m : Node) (h : EB py d (n + m.stored) T s x) : EB py d n T s (Fail.holding m x) := by
  intro hp hok e he
  unfold Fail.holding at he
  split at he
  · cases he
  · rename_i e' hx
    cases he
    have := h hp hok e' hx
    simp only [Stop.open, List.map_cons, List.sum_cons] at this ⊢
    omega

theorem EB.bind {x : RM α} {f : α → RM β} {Q1 : α → DS → Prop} (ht : Tr py d s (forget x) Q1)
    (hx : EB py d n T s x) (hf : ∀ a s1, s1.pos ≤ d.length → Q1 a s1 → EB py d n T s1 (f a)) :
    EB py d n T s (x >>= f) := by
  intro hp hok e he
  have h1 := (ht hp hok).1
  change RM.bind x f d s = _ at he
  unfold RM.bind at he
  cases hr : x d s with
  | error e' =>
    rw [hr] at he
    cases he
    exact hx hp hok e hr
  | ok r =>
    obtain ⟨a, s1⟩ := r
    rw [hr] at he
    obtain ⟨g1, g2, g3⟩ := h1 a s1 (by unfold forget; rw [hr]; rfl)
    exact hf a s1 g1 g3 g1 g2 e he

/-- First a step that makes nothing when it raises. -/
theorem EB.bindStep {x : V8.RM α} {f : α → RM β} {Q1 : α → DS → Prop} (ht : Tr py d s x Q1)
    (h : s.pos ≤ d.length → s.cost + n ≤ T) (hf : ∀ a s1, s1.pos ≤ d.length → Q1 a s1 → EB py d n T s1 (f a)) :
    EB py d n T s (Fail.step x >>= f) :=
  EB.bind (by rw [forget_step]; exact ht) (.step h) hf

/-- The same while a container is being filled. -/
theorem EB.bindHeld {x : V8.RM α} {f : α → RM β} {Q1 : α → DS → Prop} (m : Node) (ht : Tr py d s x Q1)
    (h : s.pos ≤ d.length → s.cost + (n + m.stored) ≤ T)
    (hf : ∀ a s1, s1.pos ≤ d.length → Q1 a s1 → EB py d n T s1 (f a)) :
    EB py d n T s (Fail.holding m (Fail.step x) >>= f) :=
  EB.bind (by rw [forget_holding, forget_step]; exact ht) (.holding m (.step h)) hf

theorem EB.bindHolding {x : RM α} {f : α → RM β} {Q1 : α → DS → Prop} (m : Node) (ht : Tr py d s (forget x) Q1)
    (h : EB py d (n + m.stored) T s x) (hf : ∀ a s1, s1.pos ≤ d.length → Q1 a s1 → EB py d n T s1 (f a)) :
    EB py d n T s (Fail.holding m x >>= f) :=
  EB.bind (by rw [forget_holding]; exact ht) (.holding m h) hf

/-- What is asked of the nested decoder. -/
def RecEB (py : PyEnv) (d : Bytes) (lo T : Nat) (rec : Tag → RM Val) : Prop :=
  ∀ t s n, lo ≤ s.pos → t.byte ∈ d → s.cost + n + 10 * d.length + 9 ≤ T + 10 * s.pos → EB py d n T s (rec t)

variable {rec : Tag → RM Val} {lo : Nat}

theorem EB.decodeNext (he : RecEB py d lo T rec) (hlo : lo ≤ s.pos + 1)
    (hb : s.cost + n + 10 * d.length ≤ T + 10 * s.pos) : EB py d n T s (decodeNext rec) := by
  refine EB.bindStep (Tr.lift (RdT.readTag _)) (by omega) fun t s1 _ h1 => ?_
  exact he t s1 n (by omega) h1.2.2.1 (by omega)

theorem EB.decodePrimObj (t : Tag) (ht : t ∈ jsPrimitiveObjectTags)
    (hb : s.cost + n + 10 * d.length + 8 ≤ T + 10 * s.pos) : EB py d n T s (decodePrimObj t) := by
  refine EB.bindStep (Tr.lift (RdT.readPrimObj t ht)) (by omega) fun o s1 _ h1 => ?_
  have hst : (Node.primObj o).stored = 0 := rfl
  refine EB.bindStep (Tr.alloc _ trivial) (by omega) fun i s2 _ h2 => ?_
  refine EB.bindStep (Tr.recordD _ trivial) (by omega) fun k s3 _ h3 => ?_
  exact EB.bindStep (Tr.replaceD k o.value h1.2.2.1 h3.2.2) (by omega) fun _ s4 _ h4 => .pure _

theorem EB.decodeRegExp (hr : RecOK py d lo (fun t => forget (rec t))) (he : RecEB py d lo T rec) (hlo : lo ≤ s.pos + 1)
    (hb : s.cost + n + 10 * d.length + 8 ≤ T + 10 * s.pos) : EB py d n T s (decodeRegExp rec) := by
  refine EB.bindStep (Tr.lift (RdT.readTag _)) (by omega) fun t s1 _ h1 => ?_
  refine EB.bind (hr t s1 (by omega) h1.2.2.1) (he t s1 n (by omega) h1.2.2.1 (by omega)) fun v s2 _ h2 => ?_
  obtain ⟨g1, g2, g3, g4, _⟩ := h2
  obtain ⟨x, rfl⟩ := g4 h1.2.2.2
  refine EB.bindStep (Tr.assertStr x) (by omega) fun y s3 _ h3 => ?_
  obtain ⟨rfl, rfl⟩ := h3
  refine EB.bindStep (Tr.lift (RdT.readVarint _)) (by omega) fun flags s4 _ h4 => ?_
  cases hm : mkRegExp y flags with
  | error x =>
    intro hp hok e he'
    cases he'
    simp only [Stop.open, List.map_nil, List.sum_nil]
    omega
  | ok r =>
    refine EB.bindStep (Tr.orRaise (.ok r) (by simp)) (by omega) fun r s5 _ h5 => ?_
    obtain ⟨rfl, _⟩ := h5
    have hst : (Node.regexp r).stored = 0 := rfl
    refine EB.bindStep (Tr.alloc _ trivial) (by omega) fun i s6 _ h6 => ?_
    exact EB.bindStep (Tr.recordD _ trivial) (by omega) fun k s7 _ h7 => .pure _

theorem EB.readErrText (hr : RecOK py d lo (fun t => forget (rec t))) (he : RecEB py d lo T rec) (hlo : lo ≤ s.pos + 1)
    (ht : Tag.kError.byte ∈ d) (want etag : ErrTag) (hb : s.cost + n + 10 * d.length ≤ T + 10 * s.pos) :
    EB py d n T s (readErrText rec want etag) := by
  unfold Fail.readErrText
  split
  · refine EB.bindStep (Tr.lift (RdT.readTag _)) (by omega) fun t s1 _ h1 => ?_
    refine EB.bind (hr t s1 (by omega) h1.2.2.1) (he t s1 n (by omega) h1.2.2.1 (by omega)) fun v s2 _ h2 => ?_
    obtain ⟨g1, g2, g3, g4, _⟩ := h2
    obtain ⟨x, rfl⟩ := g4 h1.2.2.2
    refine EB.bindStep (Tr.lift (RdT.readErrTag ht)) (by omega) fun e s3 _ h3 => ?_
    exact EB.bindStep (Tr.assertStr x) (by omega) fun y s4 _ h4 => .pure _
  · exact .pure _

theorem EB.readErrCause (hr : RecOK py d lo (fun t => forget (rec t))) (he : RecEB py d lo T rec) (hlo : lo ≤ s.pos + 1)
    (ht : Tag.kError.byte ∈ d) (etag : ErrTag) (hb : s.cost + n + 10 * d.length ≤ T + 10 * s.pos) :
    EB py d n T s (readErrCause rec etag) := by
  unfold Fail.readErrCause
  split
  · refine EB.bind (by rw [forget_decodeNext]; exact Tr.decodeNext hr hlo) (.decodeNext he hlo hb) fun v s1 _ h1 => ?_
    exact EB.bindStep (Tr.lift (RdT.readErrTag ht)) (by omega) fun e s2 _ h2 => .pure _
  · exact .pure _

theorem EB.decodeError (hr : RecOK py d lo (fun t => forget (rec t))) (he : RecEB py d lo T rec) (hlo : lo ≤ s.pos + 1)
    (ht : Tag.kError.byte ∈ d) (hb : s.cost + n + 10 * d.length + 8 ≤ T + 10 * s.pos) :
    EB py d n T s (decodeError rec) := by
  refine EB.bindStep (Tr.lift (RdT.readErrTag ht)) (by omega) fun e s1 _ h1 => ?_
  refine EB.bindStep (Q1 := fun _ s' => s1.pos ≤ s'.pos ∧ s'.cost = s1.cost) ?_ (by omega) fun e' s2 _ h2 => ?_
  · unfold readAfterName
    split
    · exact (Tr.lift (RdT.readErrTag ht)).weaken fun _ s' _ h => ⟨by omega, h.1⟩
    · exact Tr.pure _ ⟨Nat.le_refl _, rfl⟩
  refine EB.bind (by rw [forget_readErrText]; exact Tr.readErrText hr (by omega) ht _ _)
    (.readErrText hr he (by omega) ht _ _ (by omega)) fun m s3 _ h3 => ?_
  refine EB.bind (by rw [forget_readErrText]; exact Tr.readErrText hr (by omega) ht _ _)
    (.readErrText hr he (by omega) ht _ _ (by omega)) fun st s4 _ h4 => ?_
  refine EB.bindStep (Tr.alloc _ ⟨⟨_, rfl⟩, rfl⟩) (by omega) fun i s5 _ h5 => ?_
  simp only [Node.stored] at h5
  refine EB.bindStep (Tr.recordD _ trivial) (by omega) fun k s6 _ h6 => ?_
  refine EB.bind (by rw [forget_readErrCause]; exact Tr.readErrCause hr (by omega) ht _)
    (.readErrCause hr he (by omega) ht _ (by omega)) fun c s7 _ h7 => ?_
  refine EB.bind (Q1 := fun _ s' => s7.pos ≤ s'.pos ∧ s'.cost + 10 * s7.pos ≤ s7.cost + 10 * s'.pos)
    ?_ ?_ fun st' s8 _ h8 => ?_
  · rw [forget_readLateStack]
    unfold V8.readLateStack
    split
    · exact Tr.readErrText hr (by omega) ht _ _
    · exact Tr.pure _ ⟨by omega, by omega⟩
  · unfold Fail.readLateStack
    split
    · exact .readErrText hr he (by omega) ht _ _ (by omega)
    · exact .pure _
  refine EB.bindStep (Q1 := fun _ s' => s' = s8) ?_ (by omega) fun _ s9 _ h9 => ?_
  · unfold checkErrEnd
    split
    · exact Tr.fail (e := .decode) trivial
    · exact Tr.pure _ rfl
  subst h9
  exact EB.bindStep (Tr.setNode _ _ ⟨⟨_, rfl⟩, rfl⟩) (by omega) fun _ s10 _ h10 => .pure _

theorem EB.decodeDate (env : DEnv) (hb : s.cost + n + 10 * d.length + 8 ≤ T + 10 * s.pos) :
    EB py d n T s (decodeDate env) := by
  refine EB.bindStep (Tr.lift RdT.readDouble) (by omega) fun x s1 _ h1 => ?_
  cases hm : env.py.msDate x with
  | error x =>
    intro hp hok e he'
    cases he'
    simp only [Stop.open, List.map_nil, List.sum_nil]
    omega
  | ok r =>
    refine EB.bindStep (Tr.orRaise (.ok r) (by simp)) (by omega) fun r s5 _ h5 => ?_
    obtain ⟨rfl, _⟩ := h5
    have hst : (Node.date r).stored = 0 := rfl
    refine EB.bindStep (Tr.alloc _ trivial) (by omega) fun i s6 _ h6 => ?_
    exact EB.bindStep (Tr.recordD _ trivial) (by omega) fun k s7 _ h7 => .pure _

/-! ## Map and Set -/

theorem stored_map (m : JSMap Val) : (Node.jsmap m.items).stored = 2 * m.length := by
  simp only [Node.stored, JSMap.items, List.length_map]

theorem stored_set (m : JSSet) : (Node.jsset m.members).stored = m.length := by
  simp only [Node.stored, JSSet.members, List.length_map]

theorem EB.mapLoop (hr : RecOK py d lo (fun t => forget (rec t))) (he : RecEB py d lo T rec) (f : Nat)
    (m : JSMap Val) (c : Nat) (hlo : lo ≤ s.pos + 1)
    (hb : s.cost + (n + 2 * m.length) + 10 * d.length ≤ T + 10 * s.pos) : EB py d n T s (mapLoop rec f m c) := by
  induction f generalizing s m c with
  | zero => exact .holding _ (.fail (by rw [stored_map]; omega))
  | succ f ih =>
    refine EB.bindHeld _ (Tr.lift (RdT.readTag _)) (by rw [stored_map]; omega) fun t s1 _ h1 => ?_
    split
    · exact .pure _
    · refine EB.bindHolding _ (hr t s1 (by omega) h1.2.2.1)
        (he t s1 _ (by omega) h1.2.2.1 (by rw [stored_map]; omega)) fun k s2 _ h2 => ?_
      obtain ⟨g1, g2, g3, _⟩ := h2
      refine EB.bindHolding _ (by rw [forget_decodeNext]; exact Tr.decodeNext hr (by omega))
        (.decodeNext he (by omega) (by rw [stored_map]; omega)) fun v s3 _ h3 => ?_
      refine EB.bindHeld _ (Tr.putEntry m k v g3) (by rw [stored_map]; omega) fun m' s4 _ h4 => ?_
      obtain ⟨rfl, h4⟩ := h4
      exact ih m' (c + 2) (by omega) (by omega)

theorem EB.setLoop (hr : RecOK py d lo (fun t => forget (rec t))) (he : RecEB py d lo T rec) (f : Nat)
    (m : JSSet) (c : Nat) (hlo : lo ≤ s.pos + 1)
    (hb : s.cost + (n + m.length) + 10 * d.length ≤ T + 10 * s.pos) : EB py d n T s (setLoop rec f m c) := by
  induction f generalizing s m c with
  | zero => exact .holding _ (.fail (by rw [stored_set]; omega))
  | succ f ih =>
    refine EB.bindHeld _ (Tr.lift (RdT.readTag _)) (by rw [stored_set]; omega) fun t s1 _ h1 => ?_
    split
    · exact .pure _
    · refine EB.bindHolding _ (hr t s1 (by omega) h1.2.2.1)
        (he t s1 _ (by omega) h1.2.2.1 (by rw [stored_set]; omega)) fun k s2 _ h2 => ?_
      obtain ⟨g1, g2, g3, _⟩ := h2
      refine EB.bindHeld _ (Tr.putMember m k g3) (by rw [stored_set]; omega) fun m' s4 _ h4 => ?_
      obtain ⟨rfl, h4⟩ := h4
      exact ih m' (c + 1) (by omega) (by omega)

theorem EB.decodeJSMap (hr : RecOK py d lo (fun t => forget (rec t))) (he : RecEB py d lo T rec) (hlo : lo ≤ s.pos + 1)
    (hb : s.cost + n + 10 * d.length + 8 ≤ T + 10 * s.pos) : EB py d n T s (decodeJSMap rec) := by
  refine EB.bindStep (Tr.alloc _ trivial) (by omega) fun i s1 _ h1 => ?_
  have h0 : (Node.jsmap []).stored = 0 := rfl
  refine EB.bindStep (Tr.recordD _ trivial) (by omega) fun k s2 _ h2 => ?_
  refine EB.bindStep Tr.loopFuel (by omega) fun f s3 _ h3 => ?_
  obtain ⟨rfl, h3⟩ := h3
  refine EB.bind (by rw [forget_mapLoop]; exact Tr.mapLoop hr f [] 0 (by omega) h3)
    (.mapLoop hr he f [] 0 (by omega) (by simp only [List.length_nil]; omega)) fun r s4 _ h4 => ?_
  simp only [List.length_nil] at h4
  refine EB.bindHeld _ (Tr.lift (RdT.readVarint _)) (by rw [stored_map]; omega) fun e s5 _ h5 => ?_
  refine EB.bindHeld _ (Tr.checkCount _ _ h5.2.2 (.inl (by omega))) (by rw [stored_map]; omega) fun _ s6 _ h6 => ?_
  obtain ⟨rfl, h6⟩ := h6
  exact EB.bindStep (Tr.setNode _ _ trivial) (by omega) fun _ s7 _ h7 => .pure _

theorem EB.decodeJSSet (hr : RecOK py d lo (fun t => forget (rec t))) (he : RecEB py d lo T rec) (hlo : lo ≤ s.pos + 1)
    (hb : s.cost + n + 10 * d.length + 8 ≤ T + 10 * s.pos) : EB py d n T s (decodeJSSet rec) := by
  refine EB.bindStep (Tr.alloc _ trivial) (by omega) fun i s1 _ h1 => ?_
  have h0 : (Node.jsset []).stored = 0 := rfl
  refine EB.bindStep (Tr.recordD _ trivial) (by omega) fun k s2 _ h2 => ?_
  refine EB.bindStep Tr.loopFuel (by omega) fun f s3 _ h3 => ?_
  obtain ⟨rfl, h3⟩ := h3
  refine EB.bind (by rw [forget_setLoop]; exact Tr.setLoop hr f [] 0 (by omega) h3)
    (.setLoop hr he f [] 0 (by omega) (by simp only [List.length_nil]; omega)) fun r s4 _ h4 => ?_
  simp only [List.length_nil] at h4
  refine EB.bindHeld _ (Tr.lift (RdT.readVarint _)) (by rw [stored_set]; omega) fun e s5 _ h5 => ?_
  refine EB.bindHeld _ (Tr.checkCount _ _ h5.2.2 (.inl (by omega))) (by rw [stored_set]; omega) fun _ s6 _ h6 => ?_
  obtain ⟨rfl, h6⟩ := h6
  exact EB.bindStep (Tr.setNode _ _ trivial) (by omega) fun _ s7 _ h7 => .pure _

/-! ## Objects and arrays -/

/-- The node holds what the object holds. -/
def Plain (mk : JSObj Val → Node) : Prop := ∀ o, (mk o).stored = o.stored

theorem plain_obj : Plain .jsobj := fun _ => rfl

theorem plain_arr : Plain .jsarr := fun _ => rfl

theorem EB.putProp {mk : JSObj Val → Node} (hm : Plain mk) (py' : PyEnv) {c : Nat} {o : JSObj Val}
    (ho : o.Bound (Holes d) c) (key : RawKey) (v : Val) (hv : ValOK d v)
    (h1 : s.pos ≤ d.length → s.cost + (n + o.stored) ≤ T)
    (h2 : s.pos ≤ d.length → s.cost + (n + (20 + 5 * c)) ≤ T) : EB py d n T s (putProp mk py' o key v) := by
  unfold Fail.putProp
  cases hn : normaliseKey py'.floatStr key with
  | error e => exact .holding _ (.fail (by rw [hm]; exact h1))
  | ok k =>
    have hval := normaliseKey_valid hn
    have hhole : v.toElem = none → Holes d := by
      intro h
      cases v <;> simp [Val.toElem] at h
      exact hv
    obtain ⟨g1, g2⟩ := ho.setitem k hval v.toElem hhole
    simp only
    cases hs : o.setitem k v.toElem with
    | mk o' e =>
      rw [hs] at g1 g2
      have := g1.stored_le
      cases e with
      | none => exact .pure _
      | some e =>
        refine .holding _ (.fail fun hp => ?_)
        rw [hm]
        simp only at this
        have := h2 hp
        omega

theorem EB.propsLoop {mk : JSObj Val → Node} (hm : Plain mk) (env : DEnv)
    (hr : RecOK py d lo (fun t => forget (rec t))) (he : RecEB py d lo T rec) (e : Tag) (f : Nat) (o : JSObj Val)
    (k c B : Nat) (hlo : lo ≤ s.pos + 1) (ho : o.Bound (Holes d) c) (h1 : o.stored ≤ B) (h2 : 15 + 5 * c ≤ B + 9)
    (hb : s.cost + (n + B) + 10 * d.length ≤ T + 10 * s.pos) :
    EB py d n T s (propsLoop mk env rec e f o k) := by
  induction f generalizing s o k c B with
  | zero => exact .holding _ (.fail (by rw [hm]; omega))
  | succ f ih =>
    refine EB.bindHeld _ (Tr.lift (RdT.readTag _)) (by rw [hm]; omega) fun t s1 _ g1 => ?_
    split
    · rename_i hk
      refine EB.bindHolding _ (hr t s1 (by omega) g1.2.2.1)
        (he t s1 _ (by omega) g1.2.2.1 (by rw [hm]; omega)) fun kv s2 _ g2 => ?_
      have g2' := g2
      obtain ⟨q1, q2, q3, _⟩ := g2
      refine EB.bindHeld _ (Tr.checkKey hk g2') (by rw [hm]; omega) fun key s3 _ g3 => ?_
      obtain ⟨rfl, g3⟩ := g3
      refine EB.bindHolding _ (by rw [forget_decodeNext]; exact Tr.decodeNext hr (by omega))
        (.decodeNext he (by omega) (by rw [hm]; omega)) fun v s4 _ g4 => ?_
      refine EB.bind (by rw [forget_putProp]; exact Tr.putProp env.py ho key g3 v g4.2.2)
        (.putProp hm env.py ho key v g4.2.2 (by omega) (by omega)) fun o' s5 _ g5 => ?_
      obtain ⟨rfl, g5⟩ := g5
      have := g5.stored_le
      exact ih o' (k + 1) (c + 1) (B + 14) (by omega) g5 (by omega) (by omega) (by omega)
    · split
      · exact .pure _
      · exact .holding _ (.fail (by rw [hm]; omega))

theorem EB.readProps {mk : JSObj Val → Node} (hm : Plain mk) (env : DEnv)
    (hr : RecOK py d lo (fun t => forget (rec t))) (he : RecEB py d lo T rec) (e : Tag) (o : JSObj Val)
    (c B : Nat) (hlo : lo ≤ s.pos + 1) (ho : o.Bound (Holes d) c) (h1 : o.stored ≤ B) (h2 : 15 + 5 * c ≤ B + 9)
    (hb : s.cost + (n + B) + 10 * d.length ≤ T + 10 * s.pos) :
    EB py d n T s (readProps mk env rec e o) := by
  refine EB.bindStep Tr.loopFuel (by omega) fun f s1 _ g1 => ?_
  obtain ⟨rfl, g1⟩ := g1
  refine EB.bind (by rw [forget_propsLoop]; exact Tr.propsLoop env hr e f o 0 c hlo g1 ho)
    (.propsLoop hm env hr he e f o 0 c B hlo ho h1 h2 hb) fun r s2 _ g2 => ?_
  obtain ⟨c', q1, q2, q3⟩ := g2
  have hs := q2.stored_le
  refine EB.bindHeld _ (Tr.lift (RdT.readVarint _)) (by rw [hm]; omega) fun k s3 _ g3 => ?_
  exact EB.bindHeld _ (Tr.checkCount _ _ g3.2.2 (.inl (by omega))) (by rw [hm]; omega) fun _ s4 _ g4 => .pure _

theorem EB.decodeJSObject (env : DEnv) (hr : RecOK py d lo (fun t => forget (rec t))) (he : RecEB py d lo T rec)
    (hlo : lo ≤ s.pos + 1) (hb : s.cost + n + 10 * d.length + 8 ≤ T + 10 * s.pos) :
    EB py d n T s (decodeJSObject env rec) := by
  have h0 := JSObj.empty_bound (α := Val) (Holes d)
  have hst : (Node.jsobj JSObj.empty).stored = 0 := rfl
  refine EB.bindStep (Tr.alloc _ h0.inv) (by omega) fun i s1 _ h1 => ?_
  refine EB.bindStep (Tr.recordD _ trivial) (by omega) fun k s2 _ h2 => ?_
  refine EB.bind (by rw [forget_readProps]; exact Tr.readProps env hr _ _ 0 (by omega) h0)
    (.readProps plain_obj env hr he _ _ 0 6 (by omega) h0 (by rw [← plain_obj, hst]; omega) (by omega) (by omega))
    fun o s3 _ h3 => ?_
  obtain ⟨c', g1, g2, g3⟩ := h3
  exact EB.bindStep (Tr.setNode _ _ g2.inv) (by omega) fun _ s4 _ h4 => .pure _

theorem EB.elemsLoop (env : DEnv) (hr : RecOK py d lo (fun t => forget (rec t))) (he : RecEB py d lo T rec)
    (k i : Nat) (o : JSObj Val) (c : Nat) (hlo : lo ≤ s.pos + 1) (hi : i ≤ s.pos) (ho : o.Bound (Holes d) c)
    (hb : s.cost + (n + (15 + 5 * c)) + 10 * d.length ≤ T + 10 * s.pos) :
    EB py d n T s (elemsLoop env rec k i o) := by
  induction k generalizing s i o c with
  | zero => exact .pure _
  | succ k ih =>
    have hs := ho.stored_le
    refine EB.bindHolding _ (by rw [forget_decodeNext]; exact Tr.decodeNext hr hlo)
      (.decodeNext he hlo (by rw [plain_arr]; omega)) fun v s1 hp1 h1 => ?_
    have hk : KeyOK d (.int i) := by
      by_cases h : 2000 ≤ d.length
      · exact Or.inr h
      · refine Or.inl ?_
        have : (i : Int).natAbs < 2 ^ 11 := by simp only [Int.natAbs_natCast]; omega
        refine Nat.lt_trans this (Nat.lt_trans ?_ two_pow_lt_ten_pow)
        exact Nat.pow_lt_pow_right (by omega) (by omega)
    refine EB.bind (by rw [forget_putProp]; exact Tr.putProp env.py ho _ hk v h1.2.2)
      (.putProp plain_arr env.py ho _ v h1.2.2 (by omega) (by omega)) fun o' s2 _ h2 => ?_
    obtain ⟨rfl, h2⟩ := h2
    exact ih (i + 1) o' (c + 1) (by omega) (by omega) h2 (by omega)

theorem EB.decodeDenseArray (env : DEnv) (hr : RecOK py d lo (fun t => forget (rec t))) (he : RecEB py d lo T rec)
    (hlo : lo ≤ s.pos + 1) (hb : s.cost + n + 10 * d.length + 8 ≤ T + 10 * s.pos) :
    EB py d n T s (decodeDenseArray env rec) := by
  have h0 := JSObj.empty_bound (α := Val) (Holes d)
  have hst : (Node.jsarr JSObj.empty).stored = 0 := rfl
  refine EB.bindStep (Tr.alloc _ h0.inv) (by omega) fun i s1 _ h1 => ?_
  refine EB.bindStep (Tr.recordD _ trivial) (by omega) fun k s2 _ h2 => ?_
  refine EB.bindHeld _ (Tr.lift (RdT.readVarint _)) (by omega) fun k s3 _ h3 => ?_
  refine EB.bind (by rw [forget_elemsLoop]; exact Tr.elemsLoop env hr k 0 _ 0 (by omega) (by omega) h0)
    (.elemsLoop env hr he k 0 _ 0 (by omega) (by omega) h0 (by omega)) fun o s4 _ h4 => ?_
  obtain ⟨c, g1, g2, g3⟩ := h4
  refine EB.bind (by rw [forget_readProps]; exact Tr.readProps env hr _ _ c (by omega) g2)
    (.readProps plain_arr env hr he _ _ c (15 + 5 * c) (by omega) g2 g2.stored_le (by omega) (by omega))
    fun o s5 _ h5 => ?_
  obtain ⟨c', g1', g2', g3'⟩ := h5
  have hs := g2'.stored_le
  refine EB.bindHeld _ (Tr.lift (RdT.readVarint _)) (by rw [plain_arr]; omega) fun m s6 _ h6 => ?_
  refine EB.bindHeld _ (Tr.checkCount _ _ h3.2.2 (.inr h6.2.2)) (by rw [plain_arr]; omega) fun _ s7 _ h7 => ?_
  obtain ⟨rfl, _⟩ := h7
  exact EB.bindStep (Tr.setNode _ _ g2'.inv) (by omega) fun _ s8 _ h8 => .pure _

/-- An empty object enlarged by a hole has at most fifteen slots. -/
theorem stored_hole (k : PKey) (hk : k.Valid) : ((JSObj.empty : JSObj Val).setitem k none).1.stored ≤ 15 := by
  obtain ⟨hb, he⟩ := JSObj.setitem_empty_hole (α := Val) k hk
  cases k with
  | name s => simp [JSObj.setitem, JSObj.stored, JSObj.empty, Arr.stored, Dict.del]
  | idx k =>
    have hk' : k < 2 ^ 32 - 1 := hk
    obtain ⟨e1, e2, e3⟩ := ensureCapacity_spec (JSObj.empty_inv (α := Val)).arr k hk'
    obtain ⟨a1, a2, a3⟩ := JSObj.setitem_array (JSObj.empty : JSObj Val) k none e2
    have hp : ((JSObj.empty : JSObj Val).setitem (.idx k) none).1.props.length = 0 := by rw [a3]; rfl
    unfold JSObj.stored
    rw [hp]
    have hused := hb.used
    cases ha : ((JSObj.empty : JSObj Val).setitem (.idx k) none).1.array with
    | sparse s =>
      rw [ha] at hused
      simp only [Arr.used, Sparse.used] at hused
      simp only [Arr.stored]
      omega
    | dense a =>
      simp only [Arr.stored]
      have h4 := (JSObj.setitem_spec (JSObj.empty_inv (α := Val)) (.idx k) hk none).2.2.2.1
      have hlen : a.items.length = k + 1 := by
        have h6 := congrArg List.length h4
        rw [ha] at h6
        have h7 : (Arr.dense a).abs.length = a.items.length := rfl
        have h8 : (JSObj.empty : JSObj Val).array.abs.length = 0 := rfl
        rw [h7, List.length_set, List.length_append, List.length_replicate, h8] at h6
        omega
      rw [a1] at ha
      cases hc : (JSObj.ensureCapacity (JSObj.empty : JSObj Val).array k).1 with
      | sparse s => rw [hc] at ha; simp [Arr.setitem] at ha
      | dense d' =>
        obtain ⟨_, h7⟩ := ensureCapacity_dense (JSObj.empty : JSObj Val).array k d' hc
        have hl : (JSObj.empty : JSObj Val).array.len = 0 := rfl
        have hu : (JSObj.empty : JSObj Val).array.used = 0 := rfl
        rw [hl, hu] at h7
        rcases h7 with h7 | h7 | h7 | h7
        · omega
        · omega
        · omega
        · exact absurd e2 h7

theorem EB.putHole (py' : PyEnv) (key : RawKey) (h : s.pos ≤ d.length → s.cost + n ≤ T) :
    EB py d n T s (Fail.putProp .jsarr py' JSObj.empty key .hole) := by
  unfold Fail.putProp
  have hst : (Node.jsarr JSObj.empty).stored = 0 := rfl
  cases hn : normaliseKey py'.floatStr key with
  | error e => exact .holding _ (.fail (by rw [hst]; exact h))
  | ok k =>
    have hval := normaliseKey_valid hn
    obtain ⟨g1, g2⟩ := JSObj.setitem_empty_hole (α := Val) k hval
    simp only [Val.toElem]
    cases hs : (JSObj.empty : JSObj Val).setitem k none with
    | mk o' e =>
      rw [hs] at g2
      simp only at g2
      subst g2
      exact .pure _

theorem EB.resizeTo (env : DEnv) (k : Nat) (h : s.pos ≤ d.length → s.cost + n ≤ T) :
    EB py d n T s (resizeTo env k JSObj.empty) := by
  unfold Fail.resizeTo
  split
  · exact .putHole _ _ h
  · exact .pure _

theorem putHole_stored {py' : PyEnv} {key : RawKey} {o' : JSObj Val} {s' : DS}
    (h : V8.putProp py' JSObj.empty key .hole d s = .ok (o', s')) : o'.stored ≤ 15 := by
  unfold V8.putProp at h
  cases hn : normaliseKey py'.floatStr key with
  | error e => rw [hn] at h; cases h
  | ok k =>
    have hs := stored_hole k (normaliseKey_valid hn)
    rw [hn] at h
    simp only [Val.toElem] at h
    cases hset : (JSObj.empty : JSObj Val).setitem k none with
    | mk o'' e =>
      rw [hset] at h hs
      cases e with
      | none => cases h; exact hs
      | some e => cases h

/-- The size of the enlarged array. -/
theorem Tr.resizeTo_stored (env : DEnv) (k : Nat) (hk : k < 2 ^ (7 * d.length)) :
    Tr py d s (V8.resizeTo env k JSObj.empty)
      (fun o' s' => s' = s ∧ o'.Bound (Holes d) 1 ∧ o'.stored ≤ 15) := by
  intro hp hok
  obtain ⟨h1, h2⟩ := V8.Tr.resizeTo (py := py) env k hk hp hok
  refine ⟨fun o' s' ho => ?_, h2⟩
  obtain ⟨g1, g2, g3, g4⟩ := h1 o' s' ho
  refine ⟨g1, g2, g3, g4, ?_⟩
  unfold V8.resizeTo at ho
  split at ho
  · exact putHole_stored ho
  · cases ho
    exact Nat.zero_le _

theorem EB.decodeSparseArray (env : DEnv) (hr : RecOK py d lo (fun t => forget (rec t))) (he : RecEB py d lo T rec)
    (hlo : lo ≤ s.pos + 1) (hb : s.cost + n + 10 * d.length + 8 ≤ T + 10 * s.pos) :
    EB py d n T s (decodeSparseArray env rec) := by
  have h0 := JSObj.empty_bound (α := Val) (Holes d)
  have hst : (Node.jsarr JSObj.empty).stored = 0 := rfl
  refine EB.bindStep (Tr.alloc _ h0.inv) (by omega) fun i s1 _ h1 => ?_
  refine EB.bindStep (Tr.recordD _ trivial) (by omega) fun k s2 _ h2 => ?_
  refine EB.bindHeld _ (Tr.lift (RdT.readVarint _)) (by omega) fun k s3 _ h3 => ?_
  refine EB.bind (by rw [forget_resizeTo]; exact Tr.resizeTo_stored env k h3.2.2)
    (.resizeTo env k (by omega)) fun o s4 _ h4 => ?_
  obtain ⟨rfl, g2, g3⟩ := h4
  refine EB.bind (by rw [forget_readProps]; exact Tr.readProps env hr _ _ 1 (by omega) g2)
    (.readProps plain_arr env hr he _ _ 1 15 (by omega) g2 g3 (by omega) (by omega))
    fun o s5 _ h5 => ?_
  obtain ⟨c', g1', g2', g3'⟩ := h5
  have hs := g2'.stored_le
  refine EB.bindHeld _ (Tr.lift (RdT.readVarint _)) (by rw [plain_arr]; omega) fun m s6 _ h6 => ?_
  refine EB.bindHeld _ (Tr.checkCount _ _ h3.2.2 (.inr h6.2.2)) (by rw [plain_arr]; omega) fun _ s7 _ h7 => ?_
  obtain ⟨rfl, _⟩ := h7
  exact EB.bindStep (Tr.setNode _ _ g2'.inv) (by omega) fun _ s8 _ h8 => .pure _

/-! ## Buffers and views -/

theorem EB.orRaise_bind {x : Except PyExc α} {f : α → RM β} (h : s.pos ≤ d.length → s.cost + n ≤ T)
    (hf : ∀ a, x = .ok a → EB py d n T s (f a)) : EB py d n T s (Fail.step (orRaise x) >>= f) := by
  cases x with
  | ok a => exact hf a rfl
  | error e =>
    intro hp _ e' he
    cases he
    simpa [Stop.open] using h hp

theorem EB.readView (b : Val) (hb : s.cost + n + 10 * d.length ≤ T + 10 * s.pos) :
    EB py d n T s (readView b) := by
  refine EB.bindStep (Tr.lift (RdT.readTag _)) (by omega) fun t s1 _ h1 => ?_
  refine EB.bindStep (Tr.lift (RdT.readVarint _)) (by omega) fun raw s2 _ h2 => ?_
  refine EB.bindStep (Q1 := fun _ s' => s' = s2) ?_ (by omega) fun tag s3 _ h3 => ?_
  · unfold viewTagOf
    split
    · exact Tr.pure _ rfl
    · exact Tr.fail (e := .decode) trivial
  subst h3
  refine EB.bindStep (Tr.lift RdT.readUint32) (by omega) fun off s4 _ h4 => ?_
  refine EB.bindStep (Tr.lift RdT.readUint32) (by omega) fun len s5 _ h5 => ?_
  refine EB.bindStep Tr.getVersion (by omega) fun ver s6 _ h6 => ?_
  subst h6
  refine EB.bindStep (Q1 := fun _ s' => s'.cost = s6.cost ∧ s6.pos ≤ s'.pos) ?_ (by omega) fun flags s7 _ h7 => ?_
  · unfold readViewFlags
    split
    · refine V8.Tr.bind (Tr.lift (RdT.readVarint _)) fun n s7 h7 => ?_
      refine (Tr.orRaise _ fun e he => ?_).weaken fun _ s' _ h => ?_
      · obtain ⟨rfl, hb⟩ := flagMember_error he
        exact .inl (.inr ((Fits.varint h7.2.2).resolve_left (Nat.not_lt.mpr hb)))
      · obtain ⟨rfl, _⟩ := h
        exact ⟨h7.1, by omega⟩
    · exact Tr.pure _ ⟨rfl, Nat.le_refl _⟩
  refine EB.bindStep Tr.getHeap (by omega) fun h s8 _ h8 => ?_
  subst h8
  refine EB.orRaise_bind (by omega) fun v _ => ?_
  have hst : (Node.view b v).stored = 0 := rfl
  refine EB.bindStep (Tr.alloc _ trivial) (by omega) fun i s10 _ h10 => ?_
  exact EB.bindStep (Tr.recordD _ trivial) (by omega) fun k s11 _ h11 => .pure _

theorem EB.viewAfter (b : Val) (hb : s.cost + n + 10 * d.length ≤ T + 10 * s.pos) :
    EB py d n T s (viewAfter b) := by
  refine EB.bindStep (Tr.lift RdT.peakIsView) (by omega) fun p s1 _ h1 => ?_
  split
  · exact .readView b (by omega)
  · exact .pure _

theorem EB.readFixedBuffer (hb : s.cost + n + 10 * d.length ≤ T + 10 * s.pos) :
    EB py d n T s readFixedBuffer := by
  refine EB.bindStep (Tr.lift RdT.readFixedContents) (by omega) fun bs s1 _ h1 => ?_
  refine EB.orRaise_bind (by omega) fun b hm => ?_
  rw [ABuf.mk'_fixed] at hm
  cases hm
  refine EB.bindStep (Tr.alloc _ trivial) (by omega) fun i s3 _ h3 => ?_
  simp only [Node.stored] at h3
  exact EB.bindStep (Tr.recordD _ trivial) (by omega) fun k s4 _ h4 => .pure _

theorem EB.readSharedBuffer (hb : s.cost + n + 10 * d.length ≤ T + 10 * s.pos) :
    EB py d n T s readSharedBuffer := by
  refine EB.bindStep (Tr.lift RdT.readUint32) (by omega) fun k s1 _ h1 => ?_
  exact EB.bindStep (Tr.alloc _ trivial) (by omega) fun i s2 _ h2 => .pure _

theorem EB.readTransferBuffer (hb : s.cost + n + 10 * d.length ≤ T + 10 * s.pos) :
    EB py d n T s readTransferBuffer := by
  refine EB.bindStep (Tr.lift RdT.readUint32) (by omega) fun k s1 _ h1 => ?_
  exact EB.bindStep (Tr.alloc _ trivial) (by omega) fun i s2 _ h2 => .pure _

/-- The contents read for a resizable buffer are in the data. -/
theorem resizable_inside (py : PyEnv) {p p' : Nat} {r : Bytes × Nat} (hp : p ≤ d.length)
    (h : readResizableContents d p = .ok (r, p')) : r.1.length + p + 2 ≤ d.length := by
  unfold readResizableContents at h
  obtain ⟨k, p1, h1, h⟩ := Rd.bind_eq_ok h
  obtain ⟨_, p2, h2, h⟩ := Rd.bind_eq_ok h
  obtain ⟨max, p3, h3, h⟩ := Rd.bind_eq_ok h
  obtain ⟨_, p4, h4, h⟩ := Rd.bind_eq_ok h
  obtain ⟨bs, p5, h5, h⟩ := Rd.bind_eq_ok h
  have g1 := (RdT.readUint32 (py := py) hp).1 _ _ h1
  have e2 : p2 = p1 := by
    unfold checkFitsResizable at h2
    split at h2
    · cases h2
    · cases h2; rfl
  subst e2
  have g3 := (RdT.readUint32 (py := py) g1.1).1 _ _ h3
  have e4 : p4 = p3 := by
    unfold checkMax at h4
    split at h4
    · cases h4
    · cases h4; rfl
  subst e4
  cases h5
  cases h
  simp only [List.length_take, List.length_drop]
  omega

theorem EB.decodeResizable (hb : s.cost + n + 10 * d.length + 8 ≤ T + 10 * s.pos) :
    EB py d n T s (Fail.decodeArrayBuffer .kResizableArrayBuffer) := by
  intro hp hok e he
  obtain ⟨g1, _⟩ := readResizableContents_spec (py := py) hp
  change RM.bind readResizableBuffer Fail.viewAfter d s = _ at he
  unfold RM.bind at he
  cases hc : readResizableContents d s.pos with
  | error x =>
    have hrun : readResizableBuffer d s = .error ⟨x, s, []⟩ := by
      show RM.bind (Fail.step (RM.lift readResizableContents)) _ d s = _
      unfold RM.bind Fail.step
      rw [RM.lift_error hc]
    rw [hrun] at he
    cases he
    simp only [Stop.open, List.map_nil, List.sum_nil]
    omega
  | ok r =>
    obtain ⟨r, p'⟩ := r
    obtain ⟨k1, k2, k3⟩ := g1 r p' hc
    have hin := resizable_inside py hp hc
    have hrun : readResizableBuffer d s = .ok (.obj s.heap.length,
        { s with pos := p', heap := s.heap ++ [.abuf ⟨r.1, r.2, true⟩],
                 log := (s.log.record (.obj s.heap.length)).1 }) := by
      show RM.bind (Fail.step (RM.lift readResizableContents)) _ d s = _
      unfold RM.bind Fail.step
      rw [RM.lift_ok hc]
      simp only [ABuf.mk'_resizable _ _ k1]
      rfl
    rw [hrun] at he
    have hcost : ({ s with pos := p', heap := s.heap ++ [.abuf ⟨r.1, r.2, true⟩], log := (s.log.record (.obj s.heap.length)).1 } : DS).cost = s.cost + r.1.length + 2 := by
      simp only [DS.cost, ObjLog.record, List.length_append, List.map_append, List.sum_append, List.map_cons,
        List.map_nil, List.sum_cons, List.sum_nil, List.length_cons, List.length_nil, Node.stored]
      omega
    by_cases hle : p' ≤ d.length
    · refine EB.viewAfter (py := py) (d := d) (n := n) (T := T) (.obj s.heap.length) ?_ hle ⟨fun x hx => ?_, fun m hm => ?_⟩ e he
      · rw [hcost]
        show _ ≤ T + 10 * p'
        omega
      · simp only [ObjLog.record, List.mem_append, List.mem_singleton] at hx
        rcases hx with hx | hx
        · exact hok.slots x hx
        · exact ⟨_, hx, trivial⟩
      · rcases List.mem_append.1 hm with h | h
        · exact hok.nodes m h
        · rw [List.mem_singleton.1 h]; trivial
    · have h3 : peakIsView d p' = .error (.py .indexError) := by
        refine Rd.bind_error ?_
        unfold peakTag
        rw [if_neg (by omega), List.getElem?_eq_none (by omega)]
      simp only at he
      change RM.bind (Fail.step (RM.lift peakIsView)) _ d _ = _ at he
      unfold RM.bind Fail.step at he
      rw [RM.lift_error h3] at he
      cases he
      simp only [Stop.open, List.map_nil, List.sum_nil]
      rw [hcost]
      omega

theorem EB.decodeArrayBuffer (t : Tag) (ht : t ∈ jsArrayBufferTags)
    (hb : s.cost + n + 10 * d.length + 8 ≤ T + 10 * s.pos) : EB py d n T s (decodeArrayBuffer t) := by
  simp only [jsArrayBufferTags, List.mem_cons, List.not_mem_nil, or_false] at ht
  rcases ht with rfl | rfl | rfl | rfl
  · refine EB.bind (by rw [forget_readArrayBuffer]; exact Tr.readFixedBuffer) (.readFixedBuffer (by omega))
      fun v s1 _ h1 => .viewAfter v (by omega)
  · exact .decodeResizable hb
  · refine EB.bind (by rw [forget_readArrayBuffer]; exact Tr.readSharedBuffer) (.readSharedBuffer (by omega))
      fun v s1 _ h1 => .viewAfter v (by omega)
  · refine EB.bind (by rw [forget_readArrayBuffer]; exact Tr.readTransferBuffer) (.readTransferBuffer (by omega))
      fun v s1 _ h1 => .viewAfter v (by omega)

theorem EB.decodeReference (hb : s.cost + n + 10 * d.length + 8 ≤ T + 10 * s.pos) :
    EB py d n T s decodeReference := by
  refine EB.bindStep (Tr.lift (RdT.readVarint _)) (by omega) fun k s1 _ h1 => ?_
  refine EB.bindStep (Tr.lookupD k) (by omega) fun v s2 _ h2 => ?_
  obtain ⟨rfl, h2⟩ := h2
  refine EB.bindStep Tr.getHeap (by omega) fun h s3 _ h3 => ?_
  subst h3
  split
  · exact .viewAfter v (by omega)
  · exact .pure _

theorem EB.decodeSharedRef (hb : s.cost + n + 10 * d.length + 8 ≤ T + 10 * s.pos) :
    EB py d n T s decodeSharedRef := by
  refine EB.bindStep (Tr.lift RdT.readUint32) (by omega) fun k s1 _ h1 => ?_
  refine EB.bindStep (Tr.alloc _ trivial) (by omega) fun i s2 _ h2 => ?_
  simp only [Node.stored] at h2
  exact EB.bindStep (Tr.recordD _ trivial) (by omega) fun k s3 _ h3 => .pure _

theorem EB.decodeNodeHostObject (hb : s.cost + n + 10 * d.length + 8 ≤ T + 10 * s.pos) :
    EB py d n T s decodeNodeHostObject := by
  refine EB.bindStep (Tr.lift RdT.readNodeContents) (by omega) fun r s1 _ h1 => ?_
  refine EB.orRaise_bind (by omega) fun b hm => ?_
  rw [ABuf.mk'_fixed] at hm
  cases hm
  refine EB.bindStep (Tr.alloc _ trivial) (by omega) fun i s3 _ h3 => ?_
  simp only [Node.stored] at h3
  refine EB.orRaise_bind (by omega) fun v _ => ?_
  exact EB.bindStep (Tr.alloc _ trivial) (by omega) fun j s5 _ h5 => .pure _

/-! ## The whole decoder -/

theorem EB.one {x : V8.RM α} {f : α → Val} (h : s.pos ≤ d.length → s.cost + n ≤ T) :
    EB py d n T s (Fail.step x >>= fun a => Pure.pure (f a)) := by
  intro hp hok e he
  change RM.bind (Fail.step x) _ d s = _ at he
  unfold RM.bind at he
  cases hr : Fail.step x d s with
  | error e' =>
    rw [hr] at he
    cases he
    exact EB.step (py := py) h hp hok e hr
  | ok r => rw [hr] at he; cases he

theorem EB.tagReader (env : DEnv) (hr : RecOK py d lo (fun t => forget (rec t))) (he : RecEB py d lo T rec)
    (hlo : lo ≤ s.pos + 1) (t : Tag) (ht : t.byte ∈ d) (hb : s.cost + n + 10 * d.length + 8 ≤ T + 10 * s.pos) :
    EB py d n T s (tagReader env rec t) := by
  have hc : s.pos ≤ d.length → s.cost + n ≤ T := by omega
  cases t <;> try first
    | exact .fail hc
    | exact .pure _
    | exact .one hc
  case kRegExp => exact .decodeRegExp hr he hlo hb
  case kBeginJSMap => exact .decodeJSMap hr he hlo hb
  case kBeginJSSet => exact .decodeJSSet hr he hlo hb
  case kObjectReference => exact .decodeReference hb
  case kBeginJSObject => exact .decodeJSObject env hr he hlo hb
  case kBeginDenseJSArray => exact .decodeDenseArray env hr he hlo hb
  case kBeginSparseJSArray => exact .decodeSparseArray env hr he hlo hb
  case kArrayBuffer => exact .decodeArrayBuffer _ (by decide) hb
  case kResizableArrayBuffer => exact .decodeArrayBuffer _ (by decide) hb
  case kSharedArrayBuffer => exact .decodeArrayBuffer _ (by decide) hb
  case kArrayBufferTransfer => exact .decodeArrayBuffer _ (by decide) hb
  case kTrueObject => exact .decodePrimObj _ (by decide) hb
  case kFalseObject => exact .decodePrimObj _ (by decide) hb
  case kNumberObject => exact .decodePrimObj _ (by decide) hb
  case kBigIntObject => exact .decodePrimObj _ (by decide) hb
  case kStringObject => exact .decodePrimObj _ (by decide) hb
  case kError => exact .decodeError hr he hlo ht hb
  case kDate => exact .decodeDate env hb
  case kSharedObject => exact .decodeSharedRef hb
  case kHostObject =>
    show EB py d n T s (decodeHostObject env)
    unfold decodeHostObject
    split
    · exact .decodeNodeHostObject hb
    · exact .fail hc

theorem RecEB.decodeTag (env : DEnv) (f : Nat) : RecEB env.py d (d.length + 1 - f) T (decodeTag env f) := by
  induction f with
  | zero =>
    intro t s n hlo _ _ hp
    omega
  | succ f ih =>
    intro t s n hlo ht hb
    rw [Fail.decodeTag]
    have hr : RecOK env.py d (d.length + 1 - f) (fun t => forget (Fail.decodeTag env f t)) := by
      have h : (fun t => forget (Fail.decodeTag env f t)) = V8.decodeTag env f := funext (forget_decodeTag env f)
      rw [h]
      exact RecOK.decodeTag env rfl f
    refine EB.bindStep Tr.tick (by omega) fun _ s1 _ h1 => ?_
    exact .tagReader env hr ih (by omega) t ht (by omega)

/-- What exists when `loads` raises. -/
theorem loads_stop (env : DEnv) (d : Bytes) (e : Stop) (h : loads env d = .error e) :
    e.state.cost + e.open ≤ 10 * d.length := by
  unfold loads at h
  cases hc : readHeader d 0 with
  | error e' =>
    rw [hc] at h
    cases h
    exact Nat.zero_le _
  | ok r =>
    obtain ⟨ver, p⟩ := r
    rw [hc] at h
    have hT := EB.decodeNext (py := env.py) (d := d) (n := 0) (T := 10 * d.length - 10 * p) (s := DS.start p ver)
      (RecEB.decodeTag env (d.length - p + 1)) (by show _ ≤ p + 1; omega)
    have hh : RdT env.py d 0 readHeader (fun _ p => 2 ≤ p) := by
      refine RdT.bind (RdT.readTag _) fun t p1 h1 => RdT.bind (RdT.readVarint _) fun ver p2 h2 => ?_
      split
      · intro hp
        refine ⟨by simp, fun e he => ?_⟩
        cases he
        exact (Fits.varint h2.2).allowed
      · exact RdT.pure _ (by omega)
    have hp := ((hh (Nat.zero_le _)).1 ver p hc).1
    have e1 : (DS.start p ver).pos = p := rfl
    have e2 : (DS.start p ver).cost = 0 := rfl
    rw [e1, e2] at hT
    have := hT (by omega) hp ⟨by simp [DS.start, ObjLog.empty], by simp [DS.start]⟩ e h
    omega

end V8.Fail
