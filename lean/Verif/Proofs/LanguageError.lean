import Verif.Proofs.LanguageLoops

/-! Regular expressions and errors. -/

namespace V8.Lang

open V8.Spec V8.Spec.Lang

variable {d : Bytes} {ver : Nat} {rec : Tag → RM Val} {R : Tag → Step Val}

theorem RdSpec.functional {α : Type} {x : Rd α} {F : Form α} (h : RdSpec x F) {i r r' : Bytes} {a a' : α}
    (h1 : F i a r) (h2 : F i a' r') : a = a' ∧ r = r' := by
  obtain ⟨p, g1, -, rfl⟩ := h.complete i 0 a r (Nat.zero_le _) (by simpa using h1)
  obtain ⟨p', g1', -, rfl⟩ := h.complete i 0 a' r' (Nat.zero_le _) (by simpa using h2)
  rw [g1] at g1'
  cases g1'
  exact ⟨rfl, rfl⟩

theorem varint_pos {bs : Bytes} {n : Nat} (h : Varint bs n) : 0 < bs.length := by
  cases h <;> simp

theorem number_ne {i r : Bytes} {n : Nat} (h : Number i n r) : r ≠ i := by
  obtain ⟨bs, h1, rfl⟩ := h
  intro h
  have hl := congrArg List.length h
  have := varint_pos h1
  rw [List.length_append] at hl
  omega

theorem letter_fun {t t' : ErrTag} {i r r' : Bytes} (h : Letter t i r) (h' : Letter t' i r') : t = t' ∧ r = r' := by
  obtain ⟨h1, h2⟩ := number_spec.functional h h'
  refine ⟨?_, h2⟩
  revert h1
  cases t <;> cases t' <;> simp [ErrTag.code]

theorem textTag_spec : RdSpec (readTagIn jsStringTags) (fun i t r => TagAt i t r ∧ textTag t) := by
  refine (tag_spec _).congr fun i t r => ?_
  unfold textTag
  rw [List.contains_iff_mem]
  rfl

theorem assertStr_spec (v : Val) :
    RMSpec d ver (assertStr v) (fun w i s w' r => v = .str s ∧ w' = w ∧ r = i) := by
  cases v
  case str s => exact (RMSpec.pure s).congr fun w i s' w' r => by simp [eq_comm]
  all_goals exact (RMSpec.fail _).congr fun w i s' w' r => by simp

theorem regexp_spec (hrec : ∀ t, RMSpec d ver (rec t) (R t)) : RMSpec d ver (decodeRegExp rec) (RegExpBody R) := by
  unfold decodeRegExp
  refine ((RMSpec.lift textTag_spec).bind fun t => (hrec t).bind fun v => (assertStr_spec v).bind fun source =>
    (RMSpec.lift number_spec).bind fun flags => (RMSpec.orRaise (mkRegExp source flags)).bind fun x =>
    make_spec (.regexp x)).congr fun w i v w' r => ?_
  have hmk : ∀ source flags x, mkRegExp source flags = .ok x ↔ flagMember 0b111111111 flags = .ok flags ∧
      ¬ (flags.testBit 4 = true ∧ flags.testBit 8 = true) ∧ x = ⟨if source = [] then str "(?:)" else source, flags⟩ := by
    intro source flags x
    unfold mkRegExp
    by_cases h1 : flagMember 0b111111111 flags = .ok flags
    · rw [if_neg (by simpa using h1)]
      by_cases h2 : flags.testBit 4 = true ∧ flags.testBit 8 = true
      · rw [if_pos (by rw [Bool.and_eq_true]; exact h2)]
        simp [h2]
      · rw [if_neg (by rw [Bool.and_eq_true]; exact h2)]
        simp only [Except.ok.injEq, h1, h2, not_false_eq_true, true_and]
        exact eq_comm
    · rw [if_pos h1]
      simp only [reduceCtorEq, false_iff]
      exact fun hc => h1 hc.1
  unfold RegExpBody Item
  constructor
  · rintro ⟨t, w1, m1, ⟨⟨g1, g2⟩, rfl⟩, v, w2, m2, g3, source, w3, m3, ⟨rfl, rfl, rfl⟩, flags, w4, m4, ⟨g4, rfl⟩, x, w5, m5,
      ⟨g5, rfl, rfl⟩, rfl, rfl, rfl⟩
    obtain ⟨k1, k2, rfl⟩ := (hmk _ _ _).1 g5
    exact ⟨source, flags, _, _, ⟨t, m1, g1, g2, g3⟩, g4, k1, k2, rfl, rfl⟩
  · rintro ⟨source, flags, w1, m, ⟨t, m1, g1, g2, g3⟩, g4, k1, k2, rfl, rfl⟩
    exact ⟨t, _, m1, ⟨⟨g1, g2⟩, rfl⟩, _, _, _, g3, source, _, _, ⟨rfl, rfl, rfl⟩, flags, _, _, ⟨g4, rfl⟩, _, _, _,
      ⟨(hmk _ _ _).2 ⟨k1, k2, rfl⟩, rfl, rfl⟩, rfl, rfl, rfl⟩

/-! ## Errors -/

theorem errTagOf_spec (code : Nat) : RdSpec (errTagOf code) (fun i t r => t.code = code ∧ r = i) := by
  have hc : ∀ t : ErrTag, ErrTag.ofCode t.code = some t := by intro t; cases t <;> decide
  have hs : ∀ t : ErrTag, ErrTag.ofCode code = some t → t.code = code := by
    intro t ht
    have := List.find?_some ht
    simpa using this
  unfold errTagOf
  cases h : ErrTag.ofCode code with
  | none =>
    constructor
    · intro d p a p' hp hx
      obtain ⟨_, p1, -, h2⟩ := Rd.bind_eq_ok hx
      simp [throwD_apply] at h2
    · rintro d p a r hp ⟨rfl, -⟩
      rw [hc] at h
      cases h
  | some t =>
    refine (RdSpec.pure t).congr fun i t' r => ?_
    constructor
    · rintro ⟨rfl, rfl⟩; exact ⟨hs _ h, rfl⟩
    · rintro ⟨rfl, rfl⟩
      rw [hc] at h
      cases h
      exact ⟨rfl, rfl⟩

theorem errTag_spec : RdSpec readErrTag (fun i t r => Letter t i r) := by
  unfold readErrTag
  refine ((ensure_spec 1).bind fun _ => number_spec.bind fun c => errTagOf_spec c).congr fun i t r => ?_
  unfold Letter
  constructor
  · rintro ⟨_, m, ⟨_, rfl⟩, c, m2, h1, rfl, rfl⟩; exact h1
  · intro h
    refine ⟨(), i, ⟨?_, rfl⟩, _, r, h, rfl, rfl⟩
    obtain ⟨bs, h1, rfl⟩ := h
    have := varint_pos h1
    rw [List.length_append]
    omega

/-- What `readErrText` does, with the letter it has in its hands and the one it leaves. -/
def TextStep (R : Tag → Step Val) (want etag : ErrTag) : Step (Option Str × ErrTag) := fun w i p w' r =>
  (etag = want ∧ ∃ s m, Item R textTag w i (.str s) w' m ∧ Letter p.2 m r ∧ p.1 = some s) ∨
  (etag ≠ want ∧ p = (none, etag) ∧ w' = w ∧ r = i)

theorem errText_spec (hrec : ∀ t, RMSpec d ver (rec t) (R t)) (want etag : ErrTag) :
    RMSpec d ver (readErrText rec want etag) (TextStep R want etag) := by
  unfold readErrText
  by_cases h : etag = want
  · rw [if_pos h]
    refine ((RMSpec.lift textTag_spec).bind fun t => (hrec t).bind fun v => (RMSpec.lift errTag_spec).bind fun e =>
      (assertStr_spec v).bind fun s => RMSpec.pure (some s, e)).congr fun w i p w' r => ?_
    unfold TextStep Item
    constructor
    · rintro ⟨t, w1, m1, ⟨⟨g1, g2⟩, rfl⟩, v, w2, m2, g3, e, w3, m3, ⟨g4, rfl⟩, s, w4, m4, ⟨rfl, rfl, rfl⟩, rfl, rfl, rfl⟩
      exact .inl ⟨h, s, m2, ⟨t, m1, g1, g2, g3⟩, g4, rfl⟩
    · obtain ⟨s', e⟩ := p
      rintro (⟨-, s, m2, ⟨t, m1, g1, g2, g3⟩, g4, rfl⟩ | ⟨hc, -⟩)
      · exact ⟨t, _, m1, ⟨⟨g1, g2⟩, rfl⟩, _, _, m2, g3, e, _, _, ⟨g4, rfl⟩, s, _, _, ⟨rfl, rfl, rfl⟩, rfl, rfl, rfl⟩
      · exact absurd h hc
  · rw [if_neg h]
    refine (RMSpec.pure (none, etag)).congr fun w i p w' r => ?_
    unfold TextStep
    constructor
    · rintro ⟨rfl, rfl, rfl⟩; exact .inr ⟨h, rfl, rfl, rfl⟩
    · rintro (⟨hc, -⟩ | ⟨-, rfl, rfl, rfl⟩)
      · exact absurd hc h
      · exact ⟨rfl, rfl, rfl⟩

/-- The same for the cause. -/
def CauseStep (R : Tag → Step Val) (etag : ErrTag) : Step (Val × ErrTag) := fun w i p w' r =>
  (etag = .cause ∧ ∃ m, Item R anyTag w i p.1 w' m ∧ Letter p.2 m r) ∨
  (etag ≠ .cause ∧ p = (.null, etag) ∧ w' = w ∧ r = i)

theorem errCause_spec (hrec : ∀ t, RMSpec d ver (rec t) (R t)) (etag : ErrTag) :
    RMSpec d ver (readErrCause rec etag) (CauseStep R etag) := by
  unfold readErrCause
  by_cases h : etag = .cause
  · rw [if_pos h]
    refine ((next_spec hrec).bind fun v => (RMSpec.lift errTag_spec).bind fun e => RMSpec.pure (v, e)).congr
      fun w i p w' r => ?_
    unfold CauseStep
    constructor
    · rintro ⟨v, w1, m1, g1, e, w3, m3, ⟨g4, rfl⟩, rfl, rfl, rfl⟩
      exact .inl ⟨h, m1, g1, g4⟩
    · obtain ⟨v, e⟩ := p
      rintro (⟨-, m1, g1, g4⟩ | ⟨hc, -⟩)
      · exact ⟨v, _, m1, g1, e, _, _, ⟨g4, rfl⟩, rfl, rfl, rfl⟩
      · exact absurd h hc
  · rw [if_neg h]
    refine (RMSpec.pure (Val.null, etag)).congr fun w i p w' r => ?_
    unfold CauseStep
    constructor
    · rintro ⟨rfl, rfl, rfl⟩; exact .inr ⟨h, rfl, rfl, rfl⟩
    · rintro (⟨hc, -⟩ | ⟨-, rfl, rfl, rfl⟩)
      · exact absurd hc h
      · exact ⟨rfl, rfl, rfl⟩

theorem errEnd_spec (etag : ErrTag) :
    RMSpec d ver (checkErrEnd etag) (fun w i _ w' r => etag = .fin ∧ w' = w ∧ r = i) := by
  unfold checkErrEnd
  by_cases h : etag = .fin
  · rw [if_neg (by simpa using h)]
    exact (RMSpec.pure ()).congr fun w i _ w' r => by simp [h]
  · rw [if_pos h]
    exact (RMSpec.fail _).congr fun w i _ w' r => by simp [h]

theorem afterName_spec (etag : ErrTag) : RdSpec (readAfterName etag) (fun i t r =>
    if ErrName.forTag etag ≠ .error then Letter t i r else t = etag ∧ r = i) := by
  unfold readAfterName
  split
  · rename_i h; exact errTag_spec
  · rename_i h; exact RdSpec.pure etag

/-- A text field, seen from the letter in front of it and the letter behind it. -/
theorem text_field (want : ErrTag) (i0 : Bytes) (w : World) (s : Option Str) (e' : ErrTag) (w' : World) (r : Bytes) :
    (∃ e i, Letter e i0 i ∧ TextStep R want e w i (s, e') w' r) ↔
    ∃ f i1, Field R textTag want w i0 f w' i1 ∧ Letter e' i1 r ∧ Text f s ∧ (f = none → e' ≠ want) := by
  constructor
  · rintro ⟨e, i, h1, (⟨rfl, s', m, g1, g2, g3⟩ | ⟨g1, g2, rfl, rfl⟩)⟩
    · simp only at g3 g2
      subst g3
      exact ⟨some (.str s'), m, .given h1 g1, g2, .given s', by simp⟩
    · cases g2
      exact ⟨none, i0, .missing _ _, h1, .missing, fun _ => g1⟩
  · rintro ⟨f, i1, h1, h2, h3, h4⟩
    cases h1 with
    | missing =>
      cases h3
      exact ⟨e', r, h2, .inr ⟨h4 rfl, rfl, rfl, rfl⟩⟩
    | given hl hv =>
      cases h3
      exact ⟨want, _, hl, .inl ⟨rfl, _, _, hv, h2, rfl⟩⟩

theorem cause_field (i0 : Bytes) (w : World) (v : Val) (e' : ErrTag) (w' : World) (r : Bytes) :
    (∃ e i, Letter e i0 i ∧ CauseStep R e w i (v, e') w' r) ↔
    ∃ f i1, Field R anyTag .cause w i0 f w' i1 ∧ Letter e' i1 r ∧ v = f.getD .null ∧ (f = none → e' ≠ .cause) := by
  constructor
  · rintro ⟨e, i, h1, (⟨rfl, m, g1, g2⟩ | ⟨g1, g2, rfl, rfl⟩)⟩
    · exact ⟨some v, m, .given h1 g1, g2, rfl, by simp⟩
    · cases g2
      exact ⟨none, i0, .missing _ _, h1, rfl, fun _ => g1⟩
  · rintro ⟨f, i1, h1, h2, rfl, h4⟩
    cases h1 with
    | missing => exact ⟨e', r, h2, .inr ⟨h4 rfl, rfl, rfl, rfl⟩⟩
    | given hl hv => exact ⟨.cause, _, hl, .inl ⟨rfl, _, hv, h2⟩⟩

/-- The kind of an error, seen from the letter behind it. -/
theorem kind_field (i : Bytes) (name : Str) (e' : ErrTag) (r : Bytes) :
    (∃ e m, Letter e i m ∧ name = (ErrName.forTag e).value ∧
      if ErrName.forTag e ≠ .error then Letter e' m r else e' = e ∧ r = m) ↔
    ∃ i1, Kind i name i1 ∧ Letter e' i1 r ∧ (i1 = i → ErrName.forTag e' = .error ∧ name = str "Error") := by
  have hne : ∀ {t : ErrTag} {a b : Bytes}, Letter t a b → b ≠ a := fun h => number_ne h
  constructor
  · rintro ⟨e, m, h1, rfl, h3⟩
    by_cases hn : ErrName.forTag e = .error
    · rw [if_neg (by simpa using hn)] at h3
      obtain ⟨rfl, rfl⟩ := h3
      exact ⟨i, by rw [hn]; exact .error i, h1, fun _ => ⟨hn, by rw [hn]; rfl⟩⟩
    · rw [if_pos hn] at h3
      refine ⟨m, ?_, h3, fun hc => absurd hc (hne h1)⟩
      cases e
      case evalProto => exact .eval h1
      case rangeProto => exact .range h1
      case referenceProto => exact .reference h1
      case syntaxProto => exact .syntax h1
      case typeProto => exact .type h1
      case uriProto => exact .uri h1
      all_goals exact absurd (by decide) hn
  · rintro ⟨i1, h1, h2, h3⟩
    cases h1 with
    | error =>
      obtain ⟨h3, -⟩ := h3 rfl
      exact ⟨e', r, h2, by rw [h3]; rfl, by rw [if_neg (by simpa using h3)]; exact ⟨rfl, rfl⟩⟩
    | eval h => exact ⟨_, _, h, by decide, by rw [if_pos (by decide)]; exact h2⟩
    | range h => exact ⟨_, _, h, by decide, by rw [if_pos (by decide)]; exact h2⟩
    | reference h => exact ⟨_, _, h, by decide, by rw [if_pos (by decide)]; exact h2⟩
    | «syntax» h => exact ⟨_, _, h, by decide, by rw [if_pos (by decide)]; exact h2⟩
    | type h => exact ⟨_, _, h, by decide, by rw [if_pos (by decide)]; exact h2⟩
    | uri h => exact ⟨_, _, h, by decide, by rw [if_pos (by decide)]; exact h2⟩

/-- The letter in front of a field that may be missing. -/
theorem field_letter {ok : Tag → Prop} {letter next : ErrTag} {w w' : World} {i i1 r : Bytes} {f : Option Val}
    (h : Field R ok letter w i f w' i1) (hn : Letter next i1 r) :
    ∃ m, Letter (if f = none then next else letter) i m := by
  cases h with
  | missing => exact ⟨r, by simpa using hn⟩
  | given hl hv => exact ⟨_, by simpa using hl⟩

theorem lateStack_spec (hrec : ∀ t, RMSpec d ver (rec t) (R t)) (stack : Option Str) (etag : ErrTag) :
    RMSpec d ver (readLateStack rec stack etag) (fun w i p w' r =>
      if stack.isNone = true then TextStep R .stack etag w i p w' r else p = (stack, etag) ∧ w' = w ∧ r = i) := by
  unfold readLateStack
  exact RMSpec.ite (errText_spec hrec .stack etag) (RMSpec.pure _)

theorem text_none {f : Option Val} {s : Option Str} (h : Text f s) : f = none ↔ s = none := by
  cases h <;> simp

theorem error_spec (hrec : ∀ t, RMSpec d ver (rec t) (R t)) : RMSpec d ver (decodeError rec) (ErrorBody R) := by
  unfold decodeError
  refine ((RMSpec.lift errTag_spec).bind fun e0 => (RMSpec.lift (afterName_spec e0)).bind fun e1 =>
    (errText_spec hrec .message e1).bind fun m => (errText_spec hrec .stack m.2).bind fun st =>
    (RMSpec.alloc (.error (ErrName.forTag e0).value (some (m.1.getD [])) st.1 .null)).bind fun j =>
    (RMSpec.recordD (.obj j)).bind fun _ => (errCause_spec hrec st.2).bind fun c =>
    (lateStack_spec hrec st.1 c.2).bind fun st' => (errEnd_spec st'.2).bind fun _ =>
    (RMSpec.setNode j (.error (ErrName.forTag e0).value (some (m.1.getD [])) st'.1 c.1)).bind fun _ =>
    RMSpec.pure _).congr fun w i v w' r => ?_
  unfold ErrorBody
  constructor
  · rintro ⟨e0, w0, m0, ⟨g0, rfl⟩, e1, w1, m1, ⟨g1, rfl⟩, ⟨ms, e2⟩, w2, m2, g2, ⟨st, e3⟩, w3, m3, g3, j, w4, m4, ⟨rfl, rfl, rfl⟩,
      _, w5, m5, ⟨_, rfl, rfl⟩, ⟨c, e4⟩, w6, m6, g4, ⟨st', e5⟩, w7, m7, g5, _, w8, m8, ⟨g6, rfl, rfl⟩, _, w9, m9, ⟨rfl, rfl⟩,
      rfl, rfl, rfl⟩
    simp only at g3 g4 g5 g6
    subst g6
    obtain ⟨i1, k1, k2, -⟩ := (kind_field i (ErrName.forTag e0).value e1 m1).1 ⟨e0, m0, g0, rfl, g1⟩
    obtain ⟨f1, i2, a1, a2, a3, -⟩ := (text_field (R := R) .message i1 w1 ms e2 w2 m2).1 ⟨e1, m1, k2, g2⟩
    obtain ⟨f2, i3, b1, b2, b3, b4⟩ := (text_field (R := R) .stack i2 w2 st e3 w3 _).1 ⟨e2, m2, a2, g3⟩
    obtain ⟨f3, i4, c1, c2, c3, -⟩ := (cause_field (R := R) i3 _ c e4 w6 m6).1 ⟨e3, _, b2, g4⟩
    by_cases hst : st = none
    · rw [if_pos (by simp [hst])] at g5
      obtain ⟨f4, i5, d1, d2, d3, -⟩ := (text_field (R := R) .stack i4 _ st' .fin _ _).1 ⟨e4, m6, c2, g5⟩
      have hearly := (text_none b3).2 hst
      refine ⟨_, f1, f2, f3, f4, ms, st, st', _, _, _, _, i1, i2, i3, i4, i5, k1, a1, b1, c1, d1, d2, a3, b3, d3, ?_, rfl, ?_⟩
      · intro hf4
        refine ⟨hearly, ?_⟩
        rintro rfl
        -- the cause is missing, so the letter in front of the late stack is the one behind the early one
        cases c1
        cases d1 with
        | missing => exact hf4 rfl
        | given hl hv => exact b4 hearly (letter_fun b2 hl).1
      · rw [hst, c3]; rfl
    · rw [if_neg (by simpa using hst)] at g5
      obtain ⟨g5, rfl, rfl⟩ := g5
      cases g5
      refine ⟨_, f1, f2, f3, none, ms, st, none, _, _, _, _, i1, i2, i3, i4, i4, k1, a1, b1, c1, .missing _ _, c2, a3, b3, .missing,
        by simp, rfl, ?_⟩
      rw [c3]
      simp [World.next]
  · rintro ⟨name, f1, f2, f3, f4, ms, st, l', w1, w2, w3, w4, i1, i2, i3, i4, i5, k1, a1, b1, c1, d1, d2, a3, b3, d3, hlate,
      rfl, rfl⟩
    obtain ⟨r4, l4⟩ := field_letter d1 d2
    obtain ⟨r3, l3⟩ := field_letter c1 l4
    obtain ⟨r2, l2⟩ := field_letter b1 l3
    obtain ⟨r1, l1⟩ := field_letter a1 l2
    obtain ⟨e0, m0, q1, q2, q3⟩ := (kind_field i name _ r1).2 ⟨i1, k1, l1, by
      rintro rfl
      constructor
      · split
        · split
          · split
            · split <;> decide
            · decide
          · decide
        · decide
      · cases k1 with
        | error => rfl
        | _ h => exact absurd rfl (number_ne h)⟩
    obtain ⟨e1, j1, x1, x2⟩ := (text_field (R := R) .message i1 w ms _ w1 r2).2 ⟨f1, i2, a1, l2, a3, by
      intro _
      split
      · split
        · split <;> decide
        · decide
      · decide⟩
    obtain ⟨e2, j2, y1, y2⟩ := (text_field (R := R) .stack i2 w1 st _ w2 r3).2 ⟨f2, i3, b1, l3, b3, by
      intro hf2
      split
      · rename_i hf3
        have : f4 = none := Decidable.byContradiction fun hc => (hlate hc).2 hf3
        rw [if_pos this]
        decide
      · decide⟩
    obtain ⟨e3, j3, z1, z2⟩ := (cause_field (R := R) i3 _ (f3.getD .null) _ w3 r4).2 ⟨f3, i4, c1, l4, rfl, by
      intro _
      split <;> decide⟩
    obtain ⟨rfl, rfl⟩ := letter_fun l1 x1
    obtain ⟨rfl, rfl⟩ := letter_fun l2 y1
    obtain ⟨rfl, rfl⟩ := letter_fun l3 z1
    subst q2
    refine ⟨e0, _, m0, ⟨q1, rfl⟩, _, _, r1, ⟨q3, rfl⟩, (ms, _), w1, r2, x2, (st, _), w2, r3, y2, _, _, _, ⟨rfl, rfl, rfl⟩, _, _, _,
      ⟨rfl, rfl, rfl⟩, (f3.getD .null, _), w3, r4, z2, (st.or l', .fin), w4, r, ?_, (), _, _, ⟨rfl, rfl, rfl⟩, (), _, _, ⟨rfl, rfl⟩,
      rfl, rfl, rfl⟩
    by_cases hst : st = none
    · rw [if_pos (by simp [hst])]
      obtain ⟨e4, j4, u1, u2⟩ := (text_field (R := R) .stack i4 w3 l' .fin w4 r).2 ⟨f4, i5, d1, d2, d3, by
        intro _; decide⟩
      obtain ⟨rfl, rfl⟩ := letter_fun l4 u1
      rw [hst]
      exact u2
    · rw [if_neg (by simpa using hst)]
      have hf2 : f2 ≠ none := fun hc => hst ((text_none b3).1 hc)
      have hf4 : f4 = none := Decidable.byContradiction fun hc => hf2 (hlate hc).1
      subst hf4
      cases d3
      cases d1
      obtain ⟨-, rfl⟩ := letter_fun l4 d2
      refine ⟨?_, rfl, rfl⟩
      simp

end V8.Lang
