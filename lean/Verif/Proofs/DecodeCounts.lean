import Verif.Proofs.DecodeBounds
import Verif.Spec.Bodies
import Verif.Props.Text

/-!
# The loops of the decoder read the entries that are there
-/

namespace V8
open Spec

variable {rec : Tag → RM Val} {d : Bytes}

/-- The reader of nested values never steps back. -/
def Fwd (rec : Tag → RM Val) : Prop := ∀ t d s v s', rec t d s = .ok (v, s') → s.pos ≤ s'.pos

theorem Fwd.decodeTag (env : DEnv) (f : Nat) : Fwd (decodeTag env f) := fun t d s v s' h =>
  (loc_closed.decodeTag env f f (Nat.le_refl _) t d s v s' h).1

theorem readAnyTag_le {d : Bytes} {p p' : Nat} {t : Tag} (h : readAnyTag d p = .ok (t, p')) :
    p + 1 ≤ p' ∧ p' ≤ d.length := by
  obtain ⟨k, r, _, _, _, h1, h2⟩ := Props.readTag_ok h
  omega

theorem Tag.byte_inj {t u : Tag} (h : t.byte = u.byte) : t = u := by
  have : Tag.ofByte t.byte = Tag.ofByte u.byte := congrArg _ h
  rw [Tag.ofByte_byte, Tag.ofByte_byte] at this
  exact Option.some.inj this

theorem Times.snoc {S : Type} {R : S → S → Prop} {n : Nat} {a b c : S} (h : Times R n a b) (hr : R b c) :
    Times R (n + 1) a c := by
  induction n generalizing a with
  | zero => obtain rfl := h; exact ⟨c, hr, rfl⟩
  | succ n ih => obtain ⟨m, h1, h2⟩ := h; exact ⟨m, h1, ih h2⟩

/-- If every step takes a byte, `n` steps take `n`. -/
theorem Times.bytes {R : DS → DS → Prop} (hR : ∀ s s', R s s' → s.pos + 1 ≤ s'.pos) {n : Nat} {a b : DS}
    (h : Times R n a b) : a.pos + n ≤ b.pos := by
  induction n generalizing a with
  | zero => obtain rfl := h; exact Nat.le_refl _
  | succ n ih =>
    obtain ⟨m, h1, h2⟩ := h
    have := ih h2
    have := hR _ _ h1
    omega

theorem ReadsValue.lt (hf : Fwd rec) {s s' : DS} (h : ReadsValue rec d s s') : s.pos + 1 ≤ s'.pos := by
  obtain ⟨t, p, v, h1, h2⟩ := h
  have := (readAnyTag_le h1).1
  have := hf _ _ _ _ _ h2
  change p ≤ s'.pos at this
  omega

theorem ReadsTagged.lt (hf : Fwd rec) {P : Tag → Prop} {s s' : DS} (h : ReadsTagged rec P d s s') :
    s.pos + 1 ≤ s'.pos := by
  obtain ⟨t, p, v, h1, _, h2⟩ := h
  exact ReadsValue.lt hf ⟨t, p, v, h1, h2⟩

theorem decodeNext_reads {s s' : DS} {v : Val} (h : decodeNext rec d s = .ok (v, s')) : ReadsValue rec d s s' := by
  obtain ⟨t, s1, h1, h2⟩ := RM.bind_eq_ok h
  obtain ⟨p, h3, rfl⟩ := RM.lift_eq_ok h1
  exact ⟨t, p, v, h3, h2⟩

theorem ReadsValue.decodeNext {s s' : DS} (h : ReadsValue rec d s s') : ∃ v, decodeNext rec d s = .ok (v, s') := by
  obtain ⟨t, p, v, h1, h2⟩ := h
  refine ⟨v, ?_⟩
  unfold V8.decodeNext
  rw [RM.bind_ok (RM.lift_ok h1)]
  exact h2

/-! ## Map -/

theorem putEntry_total (m : JSMap Val) (k v : Val) (s : DS) :
    (∃ m', putEntry m k v d s = .ok (m', s)) ∨ putEntry m k v d s = .error (.py .overflowError) := by
  unfold putEntry JSMap.setitem
  cases h : sameValueZero k with
  | ok key => exact .inl ⟨_, rfl⟩
  | error e =>
    obtain ⟨-, rfl⟩ := (svz_error_iff _ _).1 h
    exact .inr rfl

theorem putEntry_state {m m' : JSMap Val} {k v : Val} {s s' : DS} (h : putEntry m k v d s = .ok (m', s')) :
    s' = s := by
  rcases putEntry_total (d := d) m k v s with ⟨m1, h1⟩ | h1
  · rw [h1] at h; cases h; rfl
  · rw [h1] at h; cases h

theorem mapLoop_ok {f : Nat} {m m' : JSMap Val} {c c' : Nat} {s s' : DS}
    (h : mapLoop rec f m c d s = .ok ((m', c'), s')) :
    ∃ n s1 t, Times (MapEntry rec d) n s s1 ∧ readAnyTag d s1.pos = .ok (t, s'.pos) ∧ t.byte = 0x3a ∧
      c' = c + 2 * n := by
  induction f generalizing m c s with
  | zero => cases h
  | succ f ih =>
    unfold mapLoop at h
    obtain ⟨t, s1, h1, h2⟩ := RM.bind_eq_ok h
    obtain ⟨p, h3, rfl⟩ := RM.lift_eq_ok h1
    by_cases ht : t = .kEndJSMap
    · rw [if_pos ht] at h2
      subst ht
      cases h2
      exact ⟨0, s, _, rfl, h3, rfl, rfl⟩
    · rw [if_neg ht] at h2
      obtain ⟨k, s2, h4, h5⟩ := RM.bind_eq_ok h2
      obtain ⟨v, s3, h6, h7⟩ := RM.bind_eq_ok h5
      obtain ⟨m1, s4, h8, h9⟩ := RM.bind_eq_ok h7
      obtain rfl := putEntry_state h8
      obtain ⟨n, s5, u, g1, g2, g3, g4⟩ := ih h9
      have hne : t.byte ≠ 0x3a := fun he => ht (Tag.byte_inj (u := .kEndJSMap) he)
      exact ⟨n + 1, s5, u, ⟨s4, ⟨s2, ⟨t, p, k, h3, hne, h4⟩, decodeNext_reads h6⟩, g1⟩, g2, g3, by omega⟩

theorem mapLoop_of_entries {f n : Nat} {m : JSMap Val} {c : Nat} {s s1 : DS} {p : Nat} {t : Tag}
    (hn : Times (MapEntry rec d) n s s1) (he : readAnyTag d s1.pos = .ok (t, p)) (ht : t.byte = 0x3a) (hf : n < f) :
    (∃ m', mapLoop rec f m c d s = .ok ((m', c + 2 * n), { s1 with pos := p })) ∨
      mapLoop rec f m c d s = .error (.py .overflowError) := by
  induction n generalizing f m c s with
  | zero =>
    obtain ⟨f, rfl⟩ : ∃ g, f = g + 1 := ⟨f - 1, by omega⟩
    obtain rfl := hn
    obtain rfl := Tag.byte_inj (u := .kEndJSMap) ht
    unfold mapLoop
    rw [RM.bind_ok (RM.lift_ok he), if_pos rfl]
    exact .inl ⟨m, rfl⟩
  | succ n ih =>
    obtain ⟨f, rfl⟩ : ∃ g, f = g + 1 := ⟨f - 1, by omega⟩
    obtain ⟨s2, ⟨s3, ⟨t', p', k, g1, g2, g3⟩, g4⟩, g5⟩ := hn
    obtain ⟨v, g6⟩ := ReadsValue.decodeNext g4
    have hne : t' ≠ .kEndJSMap := by rintro rfl; exact g2 rfl
    unfold mapLoop
    rw [RM.bind_ok (RM.lift_ok g1), if_neg hne, RM.bind_ok g3, RM.bind_ok g6]
    rcases putEntry_total (d := d) m k v s2 with ⟨m1, h1⟩ | h1
    · rw [RM.bind_ok h1]
      rcases ih (f := f) (m := m1) (c := c + 2) g5 (by omega) with ⟨m', h⟩ | h
      · exact .inl ⟨m', by rw [h]; congr 3; omega⟩
      · exact .inr h
    · exact .inr (RM.bind_error h1)

/-! ## Set -/

theorem putMember_total (m : JSSet) (v : Val) (s : DS) :
    (∃ m', putMember m v d s = .ok (m', s)) ∨ putMember m v d s = .error (.py .overflowError) := by
  unfold putMember JSSet.add
  cases h : sameValueZero v with
  | ok key => exact .inl ⟨_, rfl⟩
  | error e =>
    obtain ⟨-, rfl⟩ := (svz_error_iff _ _).1 h
    exact .inr rfl

theorem putMember_state {m m' : JSSet} {v : Val} {s s' : DS} (h : putMember m v d s = .ok (m', s')) :
    s' = s := by
  rcases putMember_total (d := d) m v s with ⟨m1, h1⟩ | h1
  · rw [h1] at h; cases h; rfl
  · rw [h1] at h; cases h

theorem setLoop_ok {f : Nat} {m m' : JSSet} {c c' : Nat} {s s' : DS}
    (h : setLoop rec f m c d s = .ok ((m', c'), s')) :
    ∃ n s1 t, Times (SetEntry rec d) n s s1 ∧ readAnyTag d s1.pos = .ok (t, s'.pos) ∧ t.byte = 0x2c ∧
      c' = c + n := by
  induction f generalizing m c s with
  | zero => cases h
  | succ f ih =>
    unfold setLoop at h
    obtain ⟨t, s1, h1, h2⟩ := RM.bind_eq_ok h
    obtain ⟨p, h3, rfl⟩ := RM.lift_eq_ok h1
    by_cases ht : t = .kEndJSSet
    · rw [if_pos ht] at h2
      subst ht
      cases h2
      exact ⟨0, s, _, rfl, h3, rfl, rfl⟩
    · rw [if_neg ht] at h2
      obtain ⟨k, s2, h4, h5⟩ := RM.bind_eq_ok h2
      obtain ⟨m1, s4, h8, h9⟩ := RM.bind_eq_ok h5
      obtain rfl := putMember_state h8
      obtain ⟨n, s5, u, g1, g2, g3, g4⟩ := ih h9
      have hne : t.byte ≠ 0x2c := fun he => ht (Tag.byte_inj (u := .kEndJSSet) he)
      exact ⟨n + 1, s5, u, ⟨s4, ⟨t, p, k, h3, hne, h4⟩, g1⟩, g2, g3, by omega⟩

theorem setLoop_of_entries {f n : Nat} {m : JSSet} {c : Nat} {s s1 : DS} {p : Nat} {t : Tag}
    (hn : Times (SetEntry rec d) n s s1) (he : readAnyTag d s1.pos = .ok (t, p)) (ht : t.byte = 0x2c) (hf : n < f) :
    (∃ m', setLoop rec f m c d s = .ok ((m', c + n), { s1 with pos := p })) ∨
      setLoop rec f m c d s = .error (.py .overflowError) := by
  induction n generalizing f m c s with
  | zero =>
    obtain ⟨f, rfl⟩ : ∃ g, f = g + 1 := ⟨f - 1, by omega⟩
    obtain rfl := hn
    obtain rfl := Tag.byte_inj (u := .kEndJSSet) ht
    unfold setLoop
    rw [RM.bind_ok (RM.lift_ok he), if_pos rfl]
    exact .inl ⟨m, rfl⟩
  | succ n ih =>
    obtain ⟨f, rfl⟩ : ∃ g, f = g + 1 := ⟨f - 1, by omega⟩
    obtain ⟨s2, ⟨t', p', k, g1, g2, g3⟩, g5⟩ := hn
    have hne : t' ≠ .kEndJSSet := by rintro rfl; exact g2 rfl
    unfold setLoop
    rw [RM.bind_ok (RM.lift_ok g1), if_neg hne, RM.bind_ok g3]
    rcases putMember_total (d := d) m k s2 with ⟨m1, h1⟩ | h1
    · rw [RM.bind_ok h1]
      rcases ih (f := f) (m := m1) (c := c + 1) g5 (by omega) with ⟨m', h⟩ | h
      · exact .inl ⟨m', by rw [h]; congr 3; omega⟩
      · exact .inr h
    · exact .inr (RM.bind_error h1)

/-! ## Objects and arrays -/

theorem putProp_total (py : PyEnv) (o : JSObj Val) (k : RawKey) (v : Val) (s : DS) :
    (∃ o', putProp py o k v d s = .ok (o', s)) ∨ ∃ e, putProp py o k v d s = .error (.py e) := by
  unfold putProp
  cases h : normaliseKey py.floatStr k with
  | error e => exact .inr ⟨e, rfl⟩
  | ok key =>
    cases h2 : o.setitem key v.toElem with
    | mk o' e =>
      cases e with
      | none => exact .inl ⟨o', by simp only [h2]; rfl⟩
      | some e => exact .inr ⟨e, by simp only [h2]; rfl⟩

theorem putProp_state {py : PyEnv} {o o' : JSObj Val} {k : RawKey} {v : Val} {s s' : DS}
    (h : putProp py o k v d s = .ok (o', s')) : s' = s := by
  rcases putProp_total (d := d) py o k v s with ⟨m1, h1⟩ | ⟨e, h1⟩
  · rw [h1] at h; cases h; rfl
  · rw [h1] at h; cases h

theorem resizeTo_total (env : DEnv) (n : Nat) (s : DS) :
    (∃ o', resizeTo env n JSObj.empty d s = .ok (o', s)) ∨ ∃ e, resizeTo env n JSObj.empty d s = .error (.py e) := by
  unfold resizeTo
  by_cases h : n > 0
  · rw [if_pos h]
    exact putProp_total _ _ _ _ _
  · rw [if_neg h]
    exact .inl ⟨_, rfl⟩

theorem resizeTo_state {env : DEnv} {n : Nat} {o' : JSObj Val} {s s' : DS}
    (h : resizeTo env n JSObj.empty d s = .ok (o', s')) : s' = s := by
  rcases resizeTo_total (d := d) env n s with ⟨m1, h1⟩ | ⟨e, h1⟩
  · rw [h1] at h; cases h; rfl
  · rw [h1] at h; cases h

theorem checkKey_total (v : Val) (s : DS) :
    (∃ k, checkKey v d s = .ok (k, s)) ∨ checkKey v d s = .error (.py .typeError) := by
  cases v <;> first | exact .inl ⟨_, rfl⟩ | exact .inr rfl

theorem checkKey_state {v : Val} {k : RawKey} {s s' : DS} (h : checkKey v d s = .ok (k, s')) : s' = s := by
  rcases checkKey_total (d := d) v s with ⟨m1, h1⟩ | h1
  · rw [h1] at h; cases h; rfl
  · rw [h1] at h; cases h

theorem keyTags_iff (t : Tag) : jsObjectKeyTags.contains t = true ↔ t.byte ∈ keyBytes := by
  cases t <;> decide

theorem propsLoop_ok {env : DEnv} {e : Tag} {f : Nat} {o o' : JSObj Val} {c c' : Nat} {s s' : DS}
    (h : propsLoop env rec e f o c d s = .ok ((o', c'), s')) :
    ∃ n s1 t, Times (PropEntry rec d) n s s1 ∧ readAnyTag d s1.pos = .ok (t, s'.pos) ∧ t.byte = e.byte ∧
      c' = c + n := by
  induction f generalizing o c s with
  | zero => cases h
  | succ f ih =>
    unfold propsLoop at h
    obtain ⟨t, s1, h1, h2⟩ := RM.bind_eq_ok h
    obtain ⟨p, h3, rfl⟩ := RM.lift_eq_ok h1
    by_cases hk : jsObjectKeyTags.contains t = true
    · rw [if_pos hk] at h2
      obtain ⟨k, s2, h4, h5⟩ := RM.bind_eq_ok h2
      obtain ⟨key, s2', h4', h5'⟩ := RM.bind_eq_ok h5
      obtain rfl := checkKey_state h4'
      obtain ⟨v, s3, h6, h7⟩ := RM.bind_eq_ok h5'
      obtain ⟨m1, s4, h8, h9⟩ := RM.bind_eq_ok h7
      obtain rfl := putProp_state h8
      obtain ⟨n, s5, u, g1, g2, g3, g4⟩ := ih h9
      exact ⟨n + 1, s5, u, ⟨s4, ⟨s2', ⟨t, p, k, h3, (keyTags_iff t).1 hk, h4⟩, decodeNext_reads h6⟩, g1⟩, g2, g3,
        by omega⟩
    · rw [if_neg hk] at h2
      by_cases ht : t = e
      · rw [if_pos ht] at h2
        subst ht
        cases h2
        exact ⟨0, s, _, rfl, h3, rfl, rfl⟩
      · rw [if_neg ht] at h2
        cases h2

/-- Entries one after the other are read, or storing one of them raises. -/
theorem propsLoop_of_entries {env : DEnv} {e : Tag} {f n : Nat} {o : JSObj Val} {c : Nat} {s s1 : DS}
    (hn : Times (PropEntry rec d) n s s1) :
    (∃ o', propsLoop env rec e (f + n) o c d s = propsLoop env rec e f o' (c + n) d s1) ∨
      ∃ x, propsLoop env rec e (f + n) o c d s = .error (.py x) := by
  induction n generalizing o c s with
  | zero =>
    obtain rfl := hn
    exact .inl ⟨o, rfl⟩
  | succ n ih =>
    obtain ⟨s2, ⟨s3, ⟨t', p', k, g1, g2, g3⟩, g4⟩, g5⟩ := hn
    obtain ⟨v, g6⟩ := ReadsValue.decodeNext g4
    rw [show f + (n + 1) = f + n + 1 by omega]
    rcases checkKey_total (d := d) k s3 with ⟨key, h0⟩ | h0
    · rcases putProp_total (d := d) env.py o key v s2 with ⟨m1, h1⟩ | ⟨x, h1⟩
      · have hstep : propsLoop env rec e (f + n + 1) o c d s = propsLoop env rec e (f + n) m1 (c + 1) d s2 := by
          rw [propsLoop, RM.bind_ok (RM.lift_ok g1), if_pos ((keyTags_iff t').2 g2), RM.bind_ok g3, RM.bind_ok h0,
            RM.bind_ok g6, RM.bind_ok h1]
        rw [hstep, show c + (n + 1) = c + 1 + n by omega]
        exact ih g5
      · refine .inr ⟨x, ?_⟩
        rw [propsLoop, RM.bind_ok (RM.lift_ok g1), if_pos ((keyTags_iff t').2 g2), RM.bind_ok g3, RM.bind_ok h0,
            RM.bind_ok g6, RM.bind_error h1]
    · refine .inr ⟨.typeError, ?_⟩
      rw [propsLoop, RM.bind_ok (RM.lift_ok g1), if_pos ((keyTags_iff t').2 g2), RM.bind_ok g3, RM.bind_error h0]

theorem elemsLoop_ok {env : DEnv} {n i : Nat} {o o' : JSObj Val} {s s' : DS}
    (h : elemsLoop env rec n i o d s = .ok (o', s')) : Times (ReadsValue rec d) n s s' := by
  induction n generalizing i o s with
  | zero => cases h; rfl
  | succ n ih =>
    unfold elemsLoop at h
    obtain ⟨v, s3, h6, h7⟩ := RM.bind_eq_ok h
    obtain ⟨m1, s4, h8, h9⟩ := RM.bind_eq_ok h7
    obtain rfl := putProp_state h8
    exact ⟨s4, decodeNext_reads h6, ih h9⟩

theorem elemsLoop_of_values {env : DEnv} {n i : Nat} {o : JSObj Val} {s s' : DS} (h : Times (ReadsValue rec d) n s s') :
    (∃ o', elemsLoop env rec n i o d s = .ok (o', s')) ∨ ∃ x, elemsLoop env rec n i o d s = .error (.py x) := by
  induction n generalizing i o s with
  | zero => obtain rfl := h; exact .inl ⟨o, rfl⟩
  | succ n ih =>
    obtain ⟨s2, g4, g5⟩ := h
    obtain ⟨v, g6⟩ := ReadsValue.decodeNext g4
    unfold elemsLoop
    rw [RM.bind_ok g6]
    rcases putProp_total (d := d) env.py o (.int i) v s2 with ⟨m1, h1⟩ | ⟨x, h1⟩
    · rw [RM.bind_ok h1]
      exact ih g5
    · exact .inr ⟨x, RM.bind_error h1⟩

theorem checkCount_ok {a b : Nat} {s s' : DS} (h : checkCount a b d s = .ok ((), s')) : a = b ∧ s' = s := by
  unfold checkCount at h
  by_cases hab : a ≠ b
  · rw [if_pos hab] at h; cases h
  · rw [if_neg hab] at h; cases h; exact ⟨Decidable.of_not_not hab, rfl⟩

theorem checkCount_ne {a b : Nat} {s : DS} (h : a ≠ b) : checkCount a b d s = .error (throwFmt (max a b)) := by
  unfold checkCount
  rw [if_pos h]; rfl

theorem checkCount_bad {a b : Nat} {s : DS} (h : a ≠ b) :
    checkCount a b d s = .error .decode ∨
    (checkCount a b d s = .error (.py .valueError) ∧ 10 ^ maxStrDigits ≤ max a b) := by
  rw [checkCount_ne h]
  rcases throwFmt_cases (max a b) with he | ⟨he, hm⟩
  · exact .inl (congrArg _ he)
  · exact .inr ⟨congrArg _ he, hm⟩

theorem readProps_ok {env : DEnv} {e : Tag} {o o' : JSObj Val} {s s' : DS}
    (h : readProps env rec e o d s = .ok (o', s')) :
    ∃ n s1, Times (PropEntry rec d) n s s1 ∧ EndsWith d e.byte s1 n s'.pos := by
  obtain ⟨f, s1, h1, h⟩ := RM.bind_eq_ok h
  cases h1
  obtain ⟨⟨o1, c⟩, s2, h2, h⟩ := RM.bind_eq_ok h
  obtain ⟨n, s3, t, g1, g2, g3, g4⟩ := propsLoop_ok h2
  obtain ⟨ex, s4, h3, h⟩ := RM.bind_eq_ok h
  obtain ⟨p, h5, rfl⟩ := RM.lift_eq_ok h3
  obtain ⟨u, s5, h6, h⟩ := RM.bind_eq_ok h
  cases h
  obtain ⟨rfl, rfl⟩ := checkCount_ok h6
  refine ⟨n, s3, g1, t, s2.pos, g2, g3, ?_⟩
  simp only [Nat.zero_add] at g4
  subst g4
  exact h5

/-- A body followed by a wrong count is rejected, at the latest when the count is checked. -/
theorem readProps_wrong {env : DEnv} (hfwd : Fwd rec) {e : Tag} (hk : e.byte ∉ keyBytes) {o : JSObj Val} {s s1 : DS}
    {n c p : Nat} (h1 : Times (PropEntry rec d) n s s1) (h2 : EndsWith d e.byte s1 c p) (hne : c ≠ n) :
    readProps env rec e o d s = .error .decode ∨ ∃ x, readProps env rec e o d s = .error (.py x) := by
  obtain ⟨t, q, g1, g2, g3⟩ := h2
  obtain rfl := Tag.byte_inj g2
  have hb := Times.bytes (fun a b (h : PropEntry rec d a b) => by
    obtain ⟨m, x, y⟩ := h
    have := ReadsTagged.lt hfwd x
    have := ReadsValue.lt hfwd y
    omega) h1
  have hq := readAnyTag_le g1
  unfold readProps
  have hlf : loopFuel d s = .ok (d.length - s.pos + 1, s) := rfl
  rw [RM.bind_ok hlf]
  obtain ⟨f, hf⟩ : ∃ f, d.length - s.pos + 1 = (f + 1) + n := ⟨d.length - s.pos - n, by omega⟩
  rw [hf]
  rcases propsLoop_of_entries (env := env) (e := t) (f := f + 1) (o := o) (c := 0) h1 with ⟨o', h⟩ | ⟨x, h⟩
  · have hend : propsLoop env rec t (f + 1 + n) o 0 d s = .ok ((o', n), { s1 with pos := q }) := by
      rw [h]
      unfold propsLoop
      have hnk : ¬ jsObjectKeyTags.contains t = true := fun hc => hk ((keyTags_iff t).1 hc)
      rw [RM.bind_ok (RM.lift_ok g1), if_neg hnk, if_pos rfl]
      show Except.ok ((o', 0 + n), _) = _
      rw [Nat.zero_add]
    rw [RM.bind_ok hend, RM.bind_ok (RM.lift_ok g3)]
    rcases checkCount_bad (d := d) (s := { s1 with pos := p }) hne with hb | ⟨hb, _⟩
    · exact .inl (RM.bind_error hb)
    · exact .inr ⟨_, RM.bind_error hb⟩
  · exact .inr ⟨x, RM.bind_error h⟩

/-- A body followed by its count is accepted, unless storing an entry raises. -/
theorem readProps_right {env : DEnv} (hfwd : Fwd rec) {e : Tag} (hk : e.byte ∉ keyBytes) {o : JSObj Val} {s s1 : DS}
    {n p : Nat} (h1 : Times (PropEntry rec d) n s s1) (h2 : EndsWith d e.byte s1 n p) :
    (∃ o', readProps env rec e o d s = .ok (o', { s1 with pos := p })) ∨
      ∃ x, readProps env rec e o d s = .error (.py x) := by
  obtain ⟨t, q, g1, g2, g3⟩ := h2
  obtain rfl := Tag.byte_inj g2
  have hb := Times.bytes (fun a b (h : PropEntry rec d a b) => by
    obtain ⟨m, x, y⟩ := h
    have := ReadsTagged.lt hfwd x
    have := ReadsValue.lt hfwd y
    omega) h1
  have hq := readAnyTag_le g1
  unfold readProps
  have hlf : loopFuel d s = .ok (d.length - s.pos + 1, s) := rfl
  rw [RM.bind_ok hlf]
  obtain ⟨f, hf⟩ : ∃ f, d.length - s.pos + 1 = (f + 1) + n := ⟨d.length - s.pos - n, by omega⟩
  rw [hf]
  rcases propsLoop_of_entries (env := env) (e := t) (f := f + 1) (o := o) (c := 0) h1 with ⟨o', h⟩ | ⟨x, h⟩
  · left
    have hend : propsLoop env rec t (f + 1 + n) o 0 d s = .ok ((o', n), { s1 with pos := q }) := by
      rw [h]
      unfold propsLoop
      have hnk : ¬ jsObjectKeyTags.contains t = true := fun hc => hk ((keyTags_iff t).1 hc)
      rw [RM.bind_ok (RM.lift_ok g1), if_neg hnk, if_pos rfl]
      show Except.ok ((o', 0 + n), _) = _
      rw [Nat.zero_add]
    refine ⟨o', ?_⟩
    rw [RM.bind_ok hend, RM.bind_ok (RM.lift_ok g3)]
    have hcc : checkCount n n d { s1 with pos := p } = .ok ((), { s1 with pos := p }) := by
      unfold checkCount
      rw [if_neg (fun h => h rfl)]
      rfl
    rw [RM.bind_ok hcc]
    rfl
  · exact .inr ⟨x, RM.bind_error h⟩

/-- Another tag in the place of a key is rejected, at the latest when it is read. -/
theorem readProps_badKey {env : DEnv} (hfwd : Fwd rec) {e t : Tag} (hk : t.byte ∉ keyBytes) (hte : t ≠ e) {o : JSObj Val}
    {s s1 : DS} {n p : Nat} (h1 : Times (PropEntry rec d) n s s1) (h2 : readAnyTag d s1.pos = .ok (t, p)) :
    readProps env rec e o d s = .error .decode ∨ ∃ x, readProps env rec e o d s = .error (.py x) := by
  have hb := Times.bytes (fun a b (h : PropEntry rec d a b) => by
    obtain ⟨m, x, y⟩ := h
    have := ReadsTagged.lt hfwd x
    have := ReadsValue.lt hfwd y
    omega) h1
  have hq := readAnyTag_le h2
  unfold readProps
  have hlf : loopFuel d s = .ok (d.length - s.pos + 1, s) := rfl
  rw [RM.bind_ok hlf]
  obtain ⟨f, hf⟩ : ∃ f, d.length - s.pos + 1 = (f + 1) + n := ⟨d.length - s.pos - n, by omega⟩
  rw [hf]
  rcases propsLoop_of_entries (env := env) (e := e) (f := f + 1) (o := o) (c := 0) h1 with ⟨o', h⟩ | ⟨x, h⟩
  · left
    apply RM.bind_error
    rw [h]
    unfold propsLoop
    have hnk : ¬ jsObjectKeyTags.contains t = true := fun hc => hk ((keyTags_iff t).1 hc)
    rw [RM.bind_ok (RM.lift_ok h2), if_neg hnk, if_neg hte]
    rfl
  · exact .inr ⟨x, RM.bind_error h⟩

end V8
