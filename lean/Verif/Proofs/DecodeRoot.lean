import Verif.Proofs.DecodeBounds
import Verif.Proofs.DecodeTrail
import Verif.Props.Text

/-!
# Whole messages: what follows them, and cutting them short
-/

namespace V8

/-- The parts of a successful run. -/
theorem loads_inv {env : DEnv} {d : Bytes} {v : Val} {s : DS} (h : loads env d = .ok (v, s)) :
    ∃ ver p t p1, readHeader d 0 = .ok (ver, p) ∧ readAnyTag d p = .ok (t, p1) ∧
      decodeTag env (d.length - p + 1) t d { DS.start p ver with pos := p1 } = .ok (v, s) := by
  unfold loads at h
  cases hc : readHeader d 0 with
  | error e => simp [hc] at h
  | ok r =>
    obtain ⟨ver, p⟩ := r
    simp only [hc] at h
    obtain ⟨t, s1, h1, h2⟩ := RM.bind_eq_ok h
    obtain ⟨p1, h3, rfl⟩ := RM.lift_eq_ok h1
    exact ⟨ver, p, t, p1, rfl, h3, h2⟩

theorem loads_intro {env : DEnv} {d : Bytes} {ver p : Nat} {t : Tag} {p1 : Nat} {r : Val × DS}
    (h1 : readHeader d 0 = .ok (ver, p)) (h2 : readAnyTag d p = .ok (t, p1))
    (h3 : decodeTag env (d.length - p + 1) t d { DS.start p ver with pos := p1 } = .ok r) :
    loads env d = .ok r := by
  unfold loads
  simp only [h1]
  show (RM.lift readAnyTag >>= fun t => decodeTag env (d.length - p + 1) t) d (DS.start p ver) = _
  rw [RM.bind_ok (RM.lift_ok (s := DS.start p ver) h2)]
  exact h3

/-- The header and the first tag are read alike when more data follows. -/
theorem prefix_append {d suf : Bytes} {ver p : Nat} {t : Tag} {p1 : Nat}
    (h1 : readHeader d 0 = .ok (ver, p)) (h2 : readAnyTag d p = .ok (t, p1)) :
    readHeader (d ++ suf) 0 = .ok (ver, p) ∧ readAnyTag (d ++ suf) p = .ok (t, p1) := by
  have hp1 : p1 ≤ d.length := by
    obtain ⟨k, r, _, _, _, _, h⟩ := Props.readTag_ok h2
    exact h
  have hlt := StrictR.tag _ d p t p1 h2
  have a := uncR_closed.readHeader d 0 ver p h1
  have b := uncR_closed.readTag _ true d p t p1 h2
  exact ⟨a.2 (by omega) suf, b.2 hp1 suf⟩

theorem readArrayBuffer_isBuffer {t : Tag} {d : Bytes} {s s' : DS} {v : Val}
    (h : readArrayBuffer t d s = .ok (v, s')) : isBuffer s'.heap v = true := by
  have key : ∀ (i : Id) (n : Node) (s0 : DS), isBuffer (s0.heap ++ [n]) (.obj s0.heap.length)
      = (match n with | .abuf _ => true | .sharedBuf _ => true | .transferBuf _ => true | _ => false) := by
    intro i n s0
    simp only [isBuffer, List.getElem?_append_right (Nat.le_refl _), Nat.sub_self, List.getElem?_cons_zero]
    cases n <;> rfl
  unfold readArrayBuffer at h
  split at h
  · obtain ⟨_, s1, h1, h⟩ := RM.bind_eq_ok h
    obtain ⟨b, s2, h2, h⟩ := RM.bind_eq_ok h
    cases h
    exact key 0 _ s2
  · obtain ⟨_, s1, h1, h⟩ := RM.bind_eq_ok h
    obtain ⟨b, s2, h2, h⟩ := RM.bind_eq_ok h
    cases h
    exact key 0 _ s2
  · obtain ⟨_, s1, h1, h⟩ := RM.bind_eq_ok h
    cases h
    exact key 0 _ s1
  · obtain ⟨_, s1, h1, h⟩ := RM.bind_eq_ok h
    cases h
    exact key 0 _ s1
  · cases h

/-- The value is a view in this heap. -/
def IsView (h : Heap) (v : Val) : Prop := ∃ i b w, v = .obj i ∧ h[i]? = some (.view b w)

theorem readView_isView {b v : Val} {d : Bytes} {s s' : DS} (h : readView b d s = .ok (v, s')) :
    IsView s'.heap v := by
  obtain ⟨_, s1, -, h⟩ := RM.bind_eq_ok h
  obtain ⟨_, s2, -, h⟩ := RM.bind_eq_ok h
  obtain ⟨_, s3, -, h⟩ := RM.bind_eq_ok h
  obtain ⟨_, s4, -, h⟩ := RM.bind_eq_ok h
  obtain ⟨_, s5, -, h⟩ := RM.bind_eq_ok h
  obtain ⟨_, s6, -, h⟩ := RM.bind_eq_ok h
  obtain ⟨_, s7, -, h⟩ := RM.bind_eq_ok h
  obtain ⟨_, s8, -, h⟩ := RM.bind_eq_ok h
  obtain ⟨w, s9, -, h⟩ := RM.bind_eq_ok h
  cases h
  refine ⟨s9.heap.length, b, w, rfl, ?_⟩
  show (s9.heap ++ [_])[s9.heap.length]? = _
  simp

theorem decodeTag_buffer (env : DEnv) (f : Nat) {t : Tag} (ht : t ∈ jsArrayBufferTags) :
    decodeTag env (f + 1) t = (tick >>= fun _ => decodeArrayBuffer t) := by
  rw [decodeTag_succ]
  simp only [jsArrayBufferTags, List.mem_cons, List.not_mem_nil, or_false] at ht
  rcases ht with rfl | rfl | rfl | rfl <;> rfl

theorem peakIsView_ok {d : Bytes} {p : Nat} {b : Bool} {p' : Nat} (h : peakIsView d p = .ok (b, p')) :
    p' = p ∧ (b = true → p < d.length) ∧ (b = true ↔ d[p]? = some 0x56) := by
  unfold peakIsView at h
  obtain ⟨t, q, h1, h2⟩ := Rd.bind_eq_ok h
  simp only [Rd.pure_apply, Except.ok.injEq, Prod.mk.injEq] at h2
  obtain ⟨rfl, rfl⟩ := h2
  unfold peakTag at h1
  split at h1
  · rename_i hp
    simp only [Except.ok.injEq, Prod.mk.injEq] at h1
    obtain ⟨rfl, rfl⟩ := h1
    subst hp
    simp
  · split at h1
    · rename_i hp c hc
      simp only [Except.ok.injEq, Prod.mk.injEq] at h1
      obtain ⟨rfl, rfl⟩ := h1
      refine ⟨rfl, fun _ => (List.getElem?_eq_some_iff.1 hc).1, ?_⟩
      rw [hc, decide_eq_true_eq]
      constructor
      · intro he
        rw [← Tag.byte_of_ofByte he]; rfl
      · intro he
        simp only [Option.some.injEq] at he
        subst he
        rfl
    · simp at h1

/-- A buffer and what may follow it, when more data is added. -/
theorem decodeArrayBuffer_append {t : Tag} {d suf : Bytes} {s s' : DS} {v : Val}
    (h : decodeArrayBuffer t d s = .ok (v, s')) (hle : s'.pos ≤ d.length) :
    decodeArrayBuffer t (d ++ suf) s = .ok (v, s') ∨
    (isBuffer s'.heap v = true ∧ s'.pos = d.length ∧ suf.head? = some 0x56 ∧
      ∀ v2 s2, decodeArrayBuffer t (d ++ suf) s = .ok (v2, s2) → IsView s2.heap v2) := by
  unfold decodeArrayBuffer at h ⊢
  obtain ⟨b, s1, h1, h2⟩ := RM.bind_eq_ok h
  unfold viewAfter at h2
  obtain ⟨c, s2, h3, h4⟩ := RM.bind_eq_ok h2
  obtain ⟨q, h5, rfl⟩ := RM.lift_eq_ok h3
  obtain ⟨rfl, hc1, hc2⟩ := peakIsView_ok h5
  by_cases hn : NoView s1.pos d suf
  · refine Or.inl ?_
    have hs1 : s1.pos ≤ d.length := by
      cases c with
      | true => exact Nat.le_of_lt (hc1 rfl)
      | false => cases h4; exact hle
    have a1 := ((Unc.readArrayBuffer t) d s b s1 h1).2 hs1 suf
    have a2 := (locR_closed.peakIsView d s1.pos c s1.pos h5).2 hs1 suf hn
    rw [RM.bind_ok a1]
    unfold viewAfter
    rw [RM.bind_ok (RM.lift_ok a2)]
    cases c with
    | false => exact h4
    | true => exact ((Unc.readView b) d _ v s' h4).2 hle suf
  · unfold NoView at hn
    obtain ⟨hn1, hn2⟩ := not_or.1 hn
    have hcf : c = false := by
      cases c with
      | false => rfl
      | true => exact absurd (hc1 rfl) hn1
    subst hcf
    cases h4
    have hsuf : suf.head? = some 0x56 := Decidable.of_not_not hn2
    have hpos : s1.pos = d.length := Nat.le_antisymm hle (Nat.le_of_not_lt hn1)
    refine Or.inr ⟨readArrayBuffer_isBuffer h1, hpos, hsuf, fun v2 s2 hv => ?_⟩
    have a1 := ((Unc.readArrayBuffer t) d s _ s1 h1).2 hle suf
    rw [RM.bind_ok a1] at hv
    unfold viewAfter at hv
    obtain ⟨c, s3, k1, k2⟩ := RM.bind_eq_ok hv
    obtain ⟨q, k3, rfl⟩ := RM.lift_eq_ok k1
    obtain ⟨rfl, _, k4⟩ := peakIsView_ok k3
    have : c = true := by
      rw [k4, hpos]
      cases suf with
      | nil => simp at hsuf
      | cons x xs => simpa using hsuf
    subst this
    exact readView_isView k2

theorem lookupD_empty {n : Nat} {d : Bytes} {s s' : DS} {w : Val} (hs : s.log = .empty)
    (h : lookupD n d s = .ok (w, s')) : False := by
  have hg : s.log.getObject (n : Int) = .error .outOfRange := by
    rw [hs]
    unfold ObjLog.getObject
    have : pyIndex ObjLog.empty.slots.length (n : Int) = none := by
      have h0 : ¬ ((n : Int) < 0) := by omega
      have h1 : ¬ ((n : Int) < (ObjLog.empty.slots.length : Nat)) := by simp [ObjLog.empty]
      unfold pyIndex
      rw [if_neg h0, if_neg h1]
    rw [this]
  unfold lookupD at h
  rw [hg] at h
  cases h

/-- Adding data behind a message: the same result, unless the message is a bare buffer and the data
added begins with `V`. -/
theorem loads_append {env : DEnv} {d : Bytes} {v : Val} {s : DS} (h : loads env d = .ok (v, s))
    (suf : Bytes) :
    loads env (d ++ suf) = .ok (v, s) ∨
    (isBuffer s.heap v = true ∧ s.pos = d.length ∧ suf.head? = some 0x56 ∧
      ∀ v2 s2, loads env (d ++ suf) = .ok (v2, s2) → IsView s2.heap v2) := by
  have hle := ((loads_spec env d).1 v s h).1
  obtain ⟨ver, p, t, p1, h1, h2, h3⟩ := loads_inv h
  obtain ⟨a1, a2⟩ := prefix_append (suf := suf) h1 h2
  have hf : d.length - p + 1 ≤ (d ++ suf).length - p + 1 := by simp; omega
  by_cases hp : Unc.Peeks t
  · rcases hp with hb | rfl
    · rw [decodeTag_buffer env _ hb] at h3
      obtain ⟨u, s1, h4, h5⟩ := RM.bind_eq_ok h3
      cases h4
      rcases decodeArrayBuffer_append (suf := suf) h5 hle with h6 | ⟨b1, b2, b3, b4⟩
      · refine Or.inl (loads_intro a1 a2 ?_)
        rw [decodeTag_buffer env _ hb]
        exact h6
      · refine Or.inr ⟨b1, b2, b3, fun v2 s2 hv => ?_⟩
        obtain ⟨ver', p', t', p1', k1, k2, k3⟩ := loads_inv hv
        rw [a1] at k1
        cases k1
        rw [a2] at k2
        cases k2
        rw [decodeTag_buffer env _ hb] at k3
        obtain ⟨u, s1, k4, k5⟩ := RM.bind_eq_ok k3
        cases k4
        exact b4 v2 s2 k5
    · exfalso
      rw [decodeTag_succ] at h3
      obtain ⟨u, s1, h4, h5⟩ := RM.bind_eq_ok h3
      cases h4
      change decodeReference d _ = _ at h5
      obtain ⟨n, s2, h6, h7⟩ := RM.bind_eq_ok h5
      obtain ⟨q, h8, rfl⟩ := RM.lift_eq_ok h6
      obtain ⟨w, s3, h9, _⟩ := RM.bind_eq_ok h7
      exact lookupD_empty rfl h9
  · exact Or.inl (loads_intro a1 a2 ((Unc.decodeTag env _ _ hf t hp d _ v s h3).2 hle suf))

end V8
