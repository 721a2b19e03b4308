import Verif.Proofs.DecodeLocal
import Verif.Proofs.RoundTripError
import Verif.Spec.ErrorLayout
import Verif.Spec.Bodies

/-!
# Helper lemmas for C21

The decoder goes alike in two states that differ only in the contents of an error under construction
(and in the number of calls so far).
-/

namespace V8
open Spec

/-- Equal, or both an error. -/
def BothErr (n n' : Node) : Prop :=
  n = n' ∨ ∃ a b c d a' b' c' d', n = .error a b c d ∧ n' = .error a' b' c' d'

/-- States that differ only in the contents of error `i`, and in the count of calls. -/
structure UpTo (i : Nat) (a b : Nat) (s s' : DS) : Prop where
  pos : s'.pos = s.pos
  log : s'.log = s.log
  version : s'.version = s.version
  calls : s'.calls + a = s.calls + b
  size : s'.heap.length = s.heap.length
  others : ∀ j : Nat, j ≠ i → s'.heap[j]? = s.heap[j]?
  here : ∀ n, s.heap[i]? = some n → ∃ n', s'.heap[i]? = some n' ∧ BothErr n n'

theorem UpTo.alike {i a b : Nat} {s s' : DS} (h : UpTo i a b s s') : LooksAlike s.heap s'.heap := by
  have key : ∀ j : Nat, s.heap[j]? = s'.heap[j]? ∨
      ∃ n n', s.heap[j]? = some n ∧ s'.heap[j]? = some n' ∧ BothErr n n' := by
    intro j
    by_cases hj : j = i
    · subst hj
      cases hn : s.heap[j]? with
      | none =>
        left
        rw [List.getElem?_eq_none_iff] at hn
        symm
        rw [List.getElem?_eq_none_iff, h.size]
        exact hn
      | some n =>
        obtain ⟨n', h1, h2⟩ := h.here n hn
        exact .inr ⟨n, n', rfl, h1, h2⟩
    · exact .inl (h.others j hj).symm
  intro v
  cases v with
  | obj j =>
    rcases key j with hj | ⟨n, n', h1, h2, h3⟩
    · simp only [backingBytes, backingResizable, isBuffer]
      have hj' : s.heap[(j : Nat)]? = s'.heap[(j : Nat)]? := hj
      exact ⟨by rw [hj'], by rw [hj'], by rw [hj']⟩
    · rcases h3 with rfl | ⟨_, _, _, _, _, _, _, _, rfl, rfl⟩ <;>
      · simp only [backingBytes, backingResizable, isBuffer]
        exact ⟨by rw [h1, h2], by rw [h1, h2], by rw [h1, h2]⟩
  | _ => exact ⟨rfl, rfl, rfl⟩

/-- Every successful run of `x` goes alike, as a run of `y`, in a state that differs only so. -/
def Blind (i a b : Nat) {α : Type} (x y : RM α) : Prop := ∀ d s s' r t, UpTo i a b s s' →
  x d s = .ok (r, t) → ∃ t', y d s' = .ok (r, t') ∧ UpTo i a b t t'

theorem Blind.bind {i a b : Nat} {α β : Type} {x y : RM α} {f g : α → RM β} (hx : Blind i a b x y)
    (hf : ∀ r, Blind i a b (f r) (g r)) : Blind i a b (x >>= f) (y >>= g) := by
  intro d s s' r t hs h
  obtain ⟨q, s1, h1, h2⟩ := RM.bind_eq_ok h
  obtain ⟨t1, k1, hs1⟩ := hx _ _ _ _ _ hs h1
  rw [RM.bind_ok k1]
  exact hf _ _ _ _ _ _ hs1 h2

theorem blind_closed (i a b : Nat) : RelClosed (@Blind i a b) where
  pure x := by
    intro d s s' r t hs h
    simp only [RM.pure_apply, Except.ok.injEq, Prod.mk.injEq] at h
    obtain ⟨rfl, rfl⟩ := h
    exact ⟨s', rfl, hs⟩
  bind := Blind.bind
  fail e := by intro d s s' r t hs h; simp at h
  fuelLeft y := by intro d s s' r t hs h; simp at h
  leaf hr := by
    intro d s s' r t hs h
    obtain ⟨p, h1, rfl⟩ := RM.lift_eq_ok h
    rw [← hs.pos] at h1
    exact ⟨_, RM.lift_ok h1, ⟨rfl, hs.log, hs.version, hs.calls, hs.size, hs.others, hs.here⟩⟩
  alloc n := by
    intro d s s' r t hs h
    simp only [V8.alloc, Except.ok.injEq, Prod.mk.injEq] at h
    obtain ⟨rfl, rfl⟩ := h
    refine ⟨{ s' with heap := s'.heap ++ [n] }, by simp [V8.alloc, hs.size], ⟨hs.pos, hs.log, hs.version, hs.calls, ?_, ?_, ?_⟩⟩
    · simp [hs.size]
    · intro j hj
      simp only [List.getElem?_append, hs.size, hs.others j hj]
    · intro m hm
      simp only [List.getElem?_append] at hm ⊢
      rw [hs.size]
      split at hm
      · rename_i hlt
        rw [if_pos hlt]
        exact hs.here m hm
      · rename_i hlt
        rw [if_neg hlt]
        exact ⟨m, hm, .inl rfl⟩
  tick := by
    intro d s s' r t hs h
    simp only [V8.tick, Except.ok.injEq, Prod.mk.injEq] at h
    obtain ⟨-, rfl⟩ := h
    have hc := hs.calls
    exact ⟨{ s' with calls := s'.calls + 1 }, rfl, ⟨hs.pos, hs.log, hs.version, by simp only; omega, hs.size, hs.others, hs.here⟩⟩
  setNode j n := by
    intro d s s' r t hs h
    simp only [V8.setNode, Except.ok.injEq, Prod.mk.injEq] at h
    obtain ⟨-, rfl⟩ := h
    refine ⟨{ s' with heap := s'.heap.set j n }, rfl, ⟨hs.pos, hs.log, hs.version, hs.calls, by simp [hs.size], ?_, ?_⟩⟩
    · intro k hk
      simp only [List.getElem?_set, hs.size, hs.others k hk]
    · intro m hm
      simp only [List.getElem?_set, hs.size] at hm ⊢
      by_cases hj : j = i
      · rw [if_pos hj] at hm ⊢
        exact ⟨m, hm, .inl rfl⟩
      · rw [if_neg hj] at hm ⊢
        exact hs.here m hm
  recordD v := by
    intro d s s' r t hs h
    simp only [V8.recordD, Except.ok.injEq, Prod.mk.injEq] at h
    obtain ⟨rfl, rfl⟩ := h
    exact ⟨{ s' with log := (s.log.record v).1 }, by simp [V8.recordD, hs.log],
      ⟨hs.pos, rfl, hs.version, hs.calls, hs.size, hs.others, hs.here⟩⟩
  replaceD n v := by
    intro d s s' r t hs h
    unfold V8.replaceD at h ⊢
    rw [hs.log]
    cases hl : s.log.replace n (.obj v) with
    | error e => simp [hl] at h
    | ok l =>
      simp only [hl, Except.ok.injEq, Prod.mk.injEq] at h
      obtain ⟨-, rfl⟩ := h
      exact ⟨{ s' with log := l }, rfl, ⟨hs.pos, rfl, hs.version, hs.calls, hs.size, hs.others, hs.here⟩⟩
  lookupD n := by
    intro d s s' r t hs h
    unfold V8.lookupD at h ⊢
    rw [hs.log]
    cases hl : s.log.getObject n with
    | error e => simp [hl] at h
    | ok l =>
      cases l with
      | fwd v => simp [hl] at h
      | obj v =>
        simp only [hl, Except.ok.injEq, Prod.mk.injEq] at h
        obtain ⟨rfl, rfl⟩ := h
        exact ⟨s', rfl, hs⟩
  getVersion := by
    intro d s s' r t hs h
    simp only [V8.getVersion, Except.ok.injEq, Prod.mk.injEq] at h
    obtain ⟨rfl, rfl⟩ := h
    exact ⟨s', by simp [V8.getVersion, hs.version], hs⟩
  heap hk := by
    intro d s s' r t hs h
    have h0 : getHeap d s = .ok (s.heap, s) := rfl
    have h1 : getHeap d s' = .ok (s'.heap, s') := rfl
    rw [RM.bind_ok h0] at h
    rw [RM.bind_ok h1]
    exact hk _ _ hs.alike _ _ _ _ _ hs h
  loop hk := by
    intro d s s' r t hs h
    have h0 : loopFuel d s = .ok (d.length - s.pos + 1, s) := rfl
    have h1 : loopFuel d s' = .ok (d.length - s'.pos + 1, s') := rfl
    rw [RM.bind_ok h0] at h
    rw [RM.bind_ok h1]
    exact hk _ _ (by rw [hs.pos]) _ _ _ _ _ hs h

/-! ## Reading a value from other surroundings -/

theorem readsAlone {env : DEnv} {f : Nat} {C : Bytes} {s s2 : DS} {v : Val}
    (h : decodeNext (decodeTag env f) C (s.at 0) = .ok (v, s2)) (hend : s2.pos = C.length)
    {d : Bytes} {p : Nat} {suf : Bytes} (hh : Here d p C suf) (hv : suf.head? ≠ some 0x56) :
    decodeNext (decodeTag env f) d (s.at p) = .ok (v, s2.at (p + C.length)) := by
  have h1 := (loc_closed.decodeNext (fun t => loc_closed.decodeTag env f f (Nat.le_refl _) t) _ _ _ _ h).2
    (by omega) suf (.inr hv)
  have hsr : SameRest (C ++ suf) (s.at 0).pos d p := by
    have := hh.len
    refine ⟨?_, ?_⟩
    · rw [hh.2]; rfl
    · show (C ++ suf).length + p = d.length + 0
      simp only [List.length_append]
      omega
  obtain ⟨n, hn, h2⟩ := (shf_closed.decodeNext (fun t => shf_closed.decodeTag env f f (Nat.le_refl _) t) _ _ _ _ hsr).2 _ _ h1
  have : n = C.length := by rw [hend] at hn; have h0 : (s.at 0).pos = 0 := rfl; omega
  rw [this] at h2
  exact h2

/-! ## The parts of an Error -/

theorem text_read {env : DEnv} {F : Nat} {b : Bytes} {x : Str} (h : TextEnc b x) {want next : ErrTag} {d : Bytes}
    {ds : DS} {suf : Bytes} (hh : Here d ds.pos (b ++ writeVarint next.code) suf) :
    readErrText (decodeTag env (F + 1)) want want d ds
      = .ok ((some x, next), { ds with pos := ds.pos + (b.length + 1), calls := ds.calls + 1 }) := by
  have hl : (writeVarint next.code).length = 1 := by
    obtain ⟨c, hc, _⟩ := errTag_bytes next
    rw [hc]; rfl
  obtain ⟨t, sb, rfl, ht, hd⟩ : ∃ (t : Tag) (sb : Bytes), b = t.byte :: sb ∧
      Reads (readTagIn jsStringTags true) [t.byte] t ∧
      ∀ d (ds : DS) suf, Here d ds.pos sb suf → decodeTag env (F + 1) t d ds
        = .ok (.str x, { ds with pos := ds.pos + sb.length, calls := ds.calls + 1 }) := by
    cases h with
    | @utf8 _ bs h =>
      exact ⟨.kUtf8String, _, rfl, readTag_reads (accept := fun t => jsStringTags.contains t) rfl (by simp),
        dec_lift (g := fun (x : Str) => Val.str x) (readStringUtf8_reads (by simp [writeStringUtf8, h])) (fun _ _ => rfl)⟩
    | @latin1 _ bs h =>
      exact ⟨.kOneByteString, _, rfl, readTag_reads (accept := fun t => jsStringTags.contains t) rfl (by simp),
        dec_lift (g := fun (x : Str) => Val.str x) (readStringOneByte_reads (by simp [writeStringOneByte, h])) (fun _ _ => rfl)⟩
    | @utf16 _ bs h =>
      exact ⟨.kTwoByteString, _, rfl, readTag_reads (accept := fun t => jsStringTags.contains t) rfl (by simp),
        dec_lift (g := fun (x : Str) => Val.str x) (readStringTwoByte_reads h) (fun _ _ => rfl)⟩
  unfold readErrText
  simp only [if_true]
  rw [List.cons_append] at hh
  obtain ⟨hh1, hh2⟩ := hh.uncons
  have hstr := hd d { ds with pos := ds.pos + 1 } _ hh2.left
  have htag : readTagIn jsStringTags true d ds.pos = .ok (t, ds.pos + 1) := hh1.read ht
  rw [RM.bind_ok (RM.lift_ok (s := ds) htag), RM.bind_ok hstr,
    RM.bind_ok (Here.lift (s := { ds with pos := ds.pos + 1 + sb.length, calls := ds.calls + 1 }) hh2.right
      (readErrTag_reads next)),
    RM.bind_ok (x := assertStr _) rfl]
  show Except.ok _ = Except.ok _
  congr 2
  simp only [DS.mk.injEq, and_true, List.length_cons, hl]
  omega

/-- Name and message, up to the tag after them. -/
theorem errStart {env : DEnv} {F : Nat} {kind msg : Bytes} {name message : Str} (hk : KindEnc kind name)
    (hm : MessageEnc msg message) {next : ErrTag} (hn : next = .cause ∨ next = .stack) :
    ∀ (d : Bytes) (ds : DS) (suf : Bytes), Here d ds.pos (kind ++ msg ++ writeVarint next.code) suf →
      decodeError (decodeTag env (F + 1)) d ds
        = (do let st ← readErrText (decodeTag env (F + 1)) .stack next
              errTail (decodeTag env (F + 1)) name (some message) st.1 st.2) d
            { ds with pos := ds.pos + (kind.length + msg.length + 1), calls := ds.calls + (if msg = [] then 0 else 1) } := by
  have hl : ∀ t : ErrTag, (writeVarint t.code).length = 1 := by
    intro t
    obtain ⟨c, hc, _⟩ := errTag_bytes t
    rw [hc]; rfl
  obtain ⟨e1, R, hmR, hme, hmr⟩ : ∃ (e1 : ErrTag) (R : Bytes),
      msg ++ writeVarint next.code = writeVarint e1.code ++ R ∧ ErrName.forTag e1 = .error ∧
      ∀ (d : Bytes) (ds : DS) (suf : Bytes), Here d ds.pos R suf →
        ∃ m, readErrText (decodeTag env (F + 1)) .message e1 d ds
          = .ok ((m, next), { ds with pos := ds.pos + R.length, calls := ds.calls + (if msg = [] then 0 else 1) }) ∧ m.getD [] = message := by
    cases hm with
    | missing =>
      refine ⟨next, [], by simp, by rcases hn with rfl | rfl <;> rfl, fun d ds suf _ => ⟨none, ?_, rfl⟩⟩
      unfold readErrText
      rw [if_neg (by rcases hn with rfl | rfl <;> decide)]
      rfl
    | @text b _ h =>
      refine ⟨.message, b ++ writeVarint next.code,
        by rw [show writeVarint ErrTag.message.code = [109] by decide +kernel]; rfl, rfl, fun d ds suf hh => ⟨some message, ?_, rfl⟩⟩
      rw [text_read h hh]
      congr 2
      simp [hl]
  intro d ds suf hh
  rw [List.append_assoc, hmR] at hh
  have hlen : msg.length + 1 = 1 + R.length := by
    have := congrArg List.length hmR
    simp only [List.length_append, hl] at this
    exact this
  have hname : ∃ etag p1, readErrTag d ds.pos = .ok (etag, p1) ∧ (ErrName.forTag etag).value = name ∧
      readAfterName etag d p1 = .ok (e1, ds.pos + kind.length + 1) := by
    have two : ∀ (t : ErrTag) (b : UInt8) (rest : Bytes), writeVarint t.code = [b] →
        Here d ds.pos ([b] ++ (writeVarint e1.code ++ rest)) suf → ErrName.forTag t ≠ .error →
        ∃ etag p1, readErrTag d ds.pos = .ok (etag, p1) ∧ ErrName.forTag etag = ErrName.forTag t ∧
          readAfterName etag d p1 = .ok (e1, ds.pos + 1 + 1) := by
      intro t b rest hb hh ht
      rw [← hb] at hh
      refine ⟨t, ds.pos + 1, by rw [hh.left.read (readErrTag_reads t), hl], rfl, ?_⟩
      unfold readAfterName
      rw [if_pos ht]
      have h2 := hh.right
      rw [hl] at h2
      rw [h2.left.read (readErrTag_reads e1), hl]
    cases hk with
    | error =>
      refine ⟨e1, ds.pos + 1, by rw [List.nil_append] at hh; rw [hh.left.read (readErrTag_reads e1), hl], by rw [hme]; rfl, ?_⟩
      unfold readAfterName
      rw [if_neg (by simp [hme])]
      rfl
    | eval => obtain ⟨t, p1, h1, h2, h3⟩ := two .evalProto 69 R (by decide +kernel) hh (by decide); exact ⟨t, p1, h1, by rw [h2]; rfl, h3⟩
    | range => obtain ⟨t, p1, h1, h2, h3⟩ := two .rangeProto 82 R (by decide +kernel) hh (by decide); exact ⟨t, p1, h1, by rw [h2]; rfl, h3⟩
    | reference => obtain ⟨t, p1, h1, h2, h3⟩ := two .referenceProto 70 R (by decide +kernel) hh (by decide); exact ⟨t, p1, h1, by rw [h2]; rfl, h3⟩
    | «syntax» => obtain ⟨t, p1, h1, h2, h3⟩ := two .syntaxProto 83 R (by decide +kernel) hh (by decide); exact ⟨t, p1, h1, by rw [h2]; rfl, h3⟩
    | type => obtain ⟨t, p1, h1, h2, h3⟩ := two .typeProto 84 R (by decide +kernel) hh (by decide); exact ⟨t, p1, h1, by rw [h2]; rfl, h3⟩
    | uri => obtain ⟨t, p1, h1, h2, h3⟩ := two .uriProto 85 R (by decide +kernel) hh (by decide); exact ⟨t, p1, h1, by rw [h2]; rfl, h3⟩
  obtain ⟨etag, p1, h1, h2, h3⟩ := hname
  have hR : Here d (ds.pos + kind.length + 1) R suf := by
    have := hh.right.right
    rw [hl] at this
    exact this
  obtain ⟨m, h4, h5⟩ := hmr d { ds with pos := ds.pos + kind.length + 1 } suf hR
  unfold decodeError
  rw [RM.bind_ok (RM.lift_ok (s := ds) h1), RM.bind_ok (RM.lift_ok (s := { ds with pos := p1 }) h3), RM.bind_ok h4]
  simp only [h5, h2]
  have hp : ds.pos + kind.length + 1 + R.length = ds.pos + (kind.length + msg.length + 1) := by omega
  rw [hp]
  rfl

/-- The cause, read in the state that the error is in by then. -/
theorem cause_read {env : DEnv} {f : Nat} {name message : Str} {stack : Str} {C : Bytes} {s s2 : DS} {v : Val}
    (hc : decodeNext (decodeTag env f) C ((opened s (.error name (some message) (some stack) .null)).at 0) = .ok (v, s2))
    (hend : s2.pos = C.length) (st : Option Str) (k : Nat) {d : Bytes} {p : Nat} {suf : Bytes} (hh : Here d p C suf)
    (hv : suf.head? ≠ some 0x56) :
    ∃ h', decodeNext (decodeTag env f) d
        { s with pos := p, calls := s.calls + 1 + k, heap := s.heap ++ [.error name (some message) st .null],
                 log := (s.log.record (.obj s.heap.length)).1 }
      = .ok (v, { s2 with pos := p + C.length, calls := s2.calls + k, heap := h' }) ∧
        ∀ n, h'.set s.heap.length n = s2.heap.set s.heap.length n := by
  have hup : UpTo s.heap.length 0 k ((opened s (.error name (some message) (some stack) .null)).at 0)
      { s with pos := 0, calls := s.calls + 1 + k, heap := s.heap ++ [.error name (some message) st .null],
               log := (s.log.record (.obj s.heap.length)).1 } := by
    refine ⟨rfl, rfl, rfl, rfl, ?_, ?_, ?_⟩
    · simp [opened, DS.at]
    · intro j hj
      simp only [opened, DS.at, List.getElem?_append]
      by_cases hlt : j < s.heap.length
      · rw [if_pos hlt, if_pos hlt]
      · rw [if_neg hlt, if_neg hlt, List.getElem?_eq_none, List.getElem?_eq_none] <;>
        · simp only [List.length_cons, List.length_nil]
          omega
    · intro n hn
      simp only [opened, DS.at, List.getElem?_concat_length, Option.some.injEq] at hn
      refine ⟨.error name (some message) st .null, by simp, .inr ?_⟩
      exact ⟨_, _, _, _, _, _, _, _, hn.symm, rfl⟩
  have B := blind_closed s.heap.length 0 k
  obtain ⟨t', h1, h2⟩ := B.decodeNext (fun t => B.decodeTag env f f (Nat.le_refl _) t) _ _ _ _ _ hup hc
  have h3 := readsAlone (s := { s with calls := s.calls + 1 + k, heap := s.heap ++ [.error name (some message) st .null], log := (s.log.record (.obj s.heap.length)).1 })
    h1 (by rw [h2.pos, hend]) hh hv
  refine ⟨t'.heap, ?_, ?_⟩
  · have e1 := h2.log
    have e2 := h2.version
    have e3 := h2.calls
    rw [Nat.add_zero] at e3
    refine Eq.trans h3 ?_
    congr 2
    unfold DS.at
    rw [e1, e2, e3]
  · intro n
    apply List.ext_getElem?
    intro j
    simp only [List.getElem?_set, h2.size]
    split
    · rfl
    · rename_i hj
      exact h2.others j (fun h => hj h.symm)

theorem tail_run {env : DEnv} {f : Nat} {name message : Str} {stack : Str} {C : Bytes} {s s2 : DS} {v : Val}
    (hc : decodeNext (decodeTag env f) C ((opened s (.error name (some message) (some stack) .null)).at 0) = .ok (v, s2))
    (hend : s2.pos = C.length) (st : Option Str) (k : Nat) {e : ErrTag} {d : Bytes} {p : Nat} {suf : Bytes}
    (hh : Here d p (C ++ writeVarint e.code) suf) :
    ∃ h', (∀ n, h'.set s.heap.length n = s2.heap.set s.heap.length n) ∧
      errTail (decodeTag env f) name (some message) st .cause d { s with pos := p, calls := s.calls + 1 + k }
        = (do let st' ← readLateStack (decodeTag env f) st e
              checkErrEnd st'.2
              setNode s.heap.length (.error name (some message) st'.1 v)
              return .obj s.heap.length : RM Val) d { s2 with pos := p + C.length + 1, calls := s2.calls + k, heap := h' } := by
  have hv : (writeVarint e.code ++ suf).head? ≠ some 0x56 := by
    obtain ⟨b, hb, hne⟩ := errTag_bytes e
    rw [hb]
    simp only [List.cons_append, List.nil_append, List.head?_cons, ne_eq, Option.some.injEq]
    exact hne
  have hl : (writeVarint e.code).length = 1 := by
    obtain ⟨c, hc, _⟩ := errTag_bytes e
    rw [hc]; rfl
  obtain ⟨h', k1, k2⟩ := cause_read hc hend st k hh.left hv
  refine ⟨h', k2, ?_⟩
  have hcause : readErrCause (decodeTag env f) .cause d
      { s with pos := p, calls := s.calls + 1 + k, heap := s.heap ++ [.error name (some message) st .null],
               log := (s.log.record (.obj s.heap.length)).1 }
      = .ok ((v, e), { s2 with pos := p + C.length + 1, calls := s2.calls + k, heap := h' }) := by
    unfold readErrCause
    rw [if_pos rfl, RM.bind_ok k1,
      RM.bind_ok (Here.lift (s := { s2 with pos := p + C.length, calls := s2.calls + k, heap := h' }) hh.right (readErrTag_reads e)), hl]
    rfl
  unfold errTail
  rw [RM.bind_ok (x := alloc _) rfl, RM.bind_ok (x := recordD _) rfl, RM.bind_ok hcause]

/-- Both layouts end in the same state. -/
theorem layouts_run {env : DEnv} {f : Nat} {kind msg stk C : Bytes} {name message stack : Str} (hk : KindEnc kind name)
    (hm : MessageEnc msg message) (hs : TextEnc stk stack) {s s2 : DS} {v : Val}
    (hc : decodeNext (decodeTag env (f + 1)) C ((opened s (.error name (some message) (some stack) .null)).at 0) = .ok (v, s2))
    (hend : s2.pos = C.length) :
    ∃ s3 : DS, s3.log = s2.log ∧ s3.heap = s2.heap.set s.heap.length (.error name (some message) (some stack) v) ∧
      s3.pos = s.pos + (newLayout kind msg stk C).length ∧
      ∀ (d suf : Bytes), (Here d s.pos (newLayout kind msg stk C) suf ∨ Here d s.pos (oldLayout kind msg stk C) suf) →
        decodeTag env (f + 2) .kError d s = .ok (.obj s.heap.length, s3) := by
  have vs : writeVarint ErrTag.stack.code = [115] := by decide +kernel
  have vc : writeVarint ErrTag.cause.code = [99] := by decide +kernel
  have vf : writeVarint ErrTag.fin.code = [46] := by decide +kernel
  have eL : (newLayout kind msg stk C).length = kind.length + msg.length + stk.length + C.length + 3 := by
    simp only [newLayout, List.length_append, List.length_cons, List.length_nil]
    omega
  refine ⟨{ s2 with pos := s.pos + (newLayout kind msg stk C).length, calls := s2.calls + ((if msg = [] then 0 else 1) + 1), heap := s2.heap.set s.heap.length (.error name (some message) (some stack) v) }, rfl, rfl, rfl, ?_⟩
  rintro d suf (hh | hh)
  · have e : newLayout kind msg stk C = (kind ++ msg ++ writeVarint ErrTag.stack.code) ++
        ((stk ++ writeVarint ErrTag.cause.code) ++ (C ++ writeVarint ErrTag.fin.code)) := by
      simp [newLayout, vs, vc, vf]
    rw [e] at hh
    have h1 := hh.right
    have h2 := h1.right
    have l1 : (kind ++ msg ++ writeVarint ErrTag.stack.code).length = kind.length + msg.length + 1 := by simp [vs]; omega
    have l2 : (stk ++ writeVarint ErrTag.cause.code).length = stk.length + 1 := by simp [vc]
    rw [l1] at h1 h2
    rw [l2] at h2
    obtain ⟨h', k2, k1⟩ := tail_run hc hend (some stack) ((if msg = [] then 0 else 1) + 1) h2
    rw [decodeTag_run]
    show decodeError _ d _ = _
    rw [errStart hk hm (next := .stack) (.inr rfl) d { s with calls := s.calls + 1 } _ hh.left,
      RM.bind_ok (text_read hs (want := .stack) (next := .cause)
        (ds := { s with pos := s.pos + (kind.length + msg.length + 1), calls := s.calls + 1 + (if msg = [] then 0 else 1) }) h1.left)]
    refine Eq.trans k1 ?_
    rw [RM.bind_ok (x := readLateStack _ _ _) rfl, RM.bind_ok (x := checkErrEnd _) rfl, RM.bind_ok (x := setNode _ _) rfl]
    simp only [RM.pure_apply, Except.ok.injEq, Prod.mk.injEq, DS.mk.injEq, true_and, k2, and_true]
    omega
  · have e : oldLayout kind msg stk C = (kind ++ msg ++ writeVarint ErrTag.cause.code) ++
        ((C ++ writeVarint ErrTag.stack.code) ++ (stk ++ writeVarint ErrTag.fin.code)) := by
      simp [oldLayout, vs, vc, vf]
    rw [e] at hh
    have h1 := hh.right
    have h2 := h1.right
    have l1 : (kind ++ msg ++ writeVarint ErrTag.cause.code).length = kind.length + msg.length + 1 := by simp [vc]; omega
    have l2 : (C ++ writeVarint ErrTag.stack.code).length = C.length + 1 := by simp [vs]
    rw [l1] at h1 h2
    rw [l2, ← Nat.add_assoc] at h2
    obtain ⟨h', k2, k1⟩ := tail_run hc hend none (if msg = [] then 0 else 1) h1.left
    rw [decodeTag_run]
    show decodeError _ d _ = _
    rw [errStart hk hm (next := .cause) (.inl rfl) d { s with calls := s.calls + 1 } _ hh.left,
      RM.bind_ok (x := readErrText _ .stack .cause) rfl]
    refine Eq.trans k1 ?_
    have hlate : readLateStack (decodeTag env (f + 1)) none .stack = readErrText (decodeTag env (f + 1)) .stack .stack := rfl
    rw [hlate, RM.bind_ok (text_read hs (want := .stack) (next := .fin) (ds := { s2 with pos := _, calls := _, heap := h' }) h2),
      RM.bind_ok (x := checkErrEnd _) rfl, RM.bind_ok (x := setNode _ _) rfl]
    simp only [RM.pure_apply, Except.ok.injEq, Prod.mk.injEq, DS.mk.injEq, true_and, k2, and_true]
    omega

end V8
