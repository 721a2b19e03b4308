import Verif.Spec.BufferRepr

/-! # Lemmas about the text of buffers and views -/

namespace V8.BufRepr
open V8.Spec.BufRepr

/-- One byte put before what a reader found. -/
def consByte (b : UInt8) (p : Option (Bytes × Text)) : Option (Bytes × Text) :=
  match p with
  | none => none
  | some (bs, r) => some (b :: bs, r)

theorem hexVal_digitChar (n : Nat) (h : n < 16) : hexVal (Nat.digitChar n) = some n := by
  have : ∀ m : Fin 16, hexVal (Nat.digitChar m.val) = some m.val := by decide +kernel
  exact this ⟨n, h⟩

theorem charOf_byte (b : UInt8) : (Char.ofNat b.toNat).toNat = b.toNat := by
  have : ∀ m : Fin 256, (Char.ofNat m.val).toNat = m.val := by decide +kernel
  exact this ⟨b.toNat, b.toNat_lt⟩

theorem byteOf_char (b : UInt8) : UInt8.ofNat (Char.ofNat b.toNat).toNat = b := by
  rw [charOf_byte, UInt8.ofNat_toNat]

theorem readLiteral_plain (q c : Char) (t : Text) (hc : c ≠ '\\') (hq : c ≠ q) (ha : c.toNat < 128) (hn : c ≠ '\n') :
    readLiteral q (c :: t) = consByte (UInt8.ofNat c.toNat) (readLiteral q t) := by
  rw [readLiteral]
  · simp only [hq, if_false, ha, hn, ne_eq, not_false_eq_true, and_self, if_true, consByte]
    cases readLiteral q t <;> rfl
  · intro h; exact absurd h hc
  · intro a b t' h; exact absurd h hc
  · intro a b  h; exact absurd h hc

theorem readLiteral_esc (q c : Char) (t : Text) (v : UInt8) (h : (c, v) ∈ [('\\', 92), ('\'', 39), ('"', 34), ('t', 9),
    ('n', 10), ('r', 13)]) :
    readLiteral q ('\\' :: c :: t) = consByte v (readLiteral q t) := by
  simp only [List.mem_cons, Prod.mk.injEq, List.not_mem_nil, or_false] at h
  rcases h with ⟨rfl, rfl⟩ | ⟨rfl, rfl⟩ | ⟨rfl, rfl⟩ | ⟨rfl, rfl⟩ | ⟨rfl, rfl⟩ | ⟨rfl, rfl⟩ <;>
  · rw [readLiteral]
    · cases readLiteral q t with
      | none => rfl
      | some p => rfl
    all_goals simp

theorem readLiteral_hex (q : Char) (t : Text) (b : UInt8) :
    readLiteral q ('\\' :: 'x' :: Nat.digitChar (b.toNat / 16) :: Nat.digitChar (b.toNat % 16) :: t)
      = consByte b (readLiteral q t) := by
  have hb := b.toNat_lt
  rw [readLiteral, hexVal_digitChar _ (by omega), hexVal_digitChar _ (by omega)]
  have : UInt8.ofNat (16 * (b.toNat / 16) + b.toNat % 16) = b := by
    rw [show 16 * (b.toNat / 16) + b.toNat % 16 = b.toNat by omega, UInt8.ofNat_toNat]
  cases readLiteral q t with
  | none => rfl
  | some p => simp only [consByte, this]

theorem char_eq_of_toNat {a b : Char} (h : a.toNat = b.toNat) : a = b := Char.toNat_inj.mp h

theorem byte_of_char {b : UInt8} {c : Char} (h : Char.ofNat b.toNat = c) : b = UInt8.ofNat c.toNat := by
  rw [← h, byteOf_char]

theorem readLiteral_byte (q : Char) (hq : q = '\'' ∨ q = '"') (b : UInt8) (t : Text) :
    readLiteral q (escapeByte q b ++ t) = consByte b (readLiteral q t) := by
  unfold escapeByte
  simp only
  by_cases h1 : Char.ofNat b.toNat = q ∨ Char.ofNat b.toNat = '\\'
  · rw [if_pos h1]
    refine readLiteral_esc q _ t b ?_
    rcases h1 with h1 | h1
    · rcases hq with rfl | rfl
      · rw [h1, byte_of_char h1]; decide
      · rw [h1, byte_of_char h1]; decide
    · rw [h1, byte_of_char h1]; decide
  rw [if_neg h1]
  by_cases h2 : Char.ofNat b.toNat = '\t'
  · rw [if_pos h2]; refine readLiteral_esc q _ t b ?_; rw [byte_of_char h2]; decide
  rw [if_neg h2]
  by_cases h3 : Char.ofNat b.toNat = '\n'
  · rw [if_pos h3]; refine readLiteral_esc q _ t b ?_; rw [byte_of_char h3]; decide
  rw [if_neg h3]
  by_cases h4 : Char.ofNat b.toNat = '\r'
  · rw [if_pos h4]; refine readLiteral_esc q _ t b ?_; rw [byte_of_char h4]; decide
  rw [if_neg h4]
  by_cases h5 : b.toNat < 32 ∨ 127 ≤ b.toNat
  · rw [if_pos h5]; exact readLiteral_hex q t b
  rw [if_neg h5]
  have := readLiteral_plain q (Char.ofNat b.toNat) t (fun h => h1 (Or.inr h)) (fun h => h1 (Or.inl h))
    (by rw [charOf_byte]; omega) h3
  rw [byteOf_char] at this
  exact this

/-- Several bytes put before what a reader found. -/
def consBytes (b : Bytes) (p : Option (Bytes × Text)) : Option (Bytes × Text) := b.foldr consByte p

theorem consBytes_some (b bs : Bytes) (r : Text) : consBytes b (some (bs, r)) = some (b ++ bs, r) := by
  induction b with
  | nil => rfl
  | cons x b ih => rw [show consBytes (x :: b) (some (bs, r)) = consByte x (consBytes b (some (bs, r))) from rfl, ih]; rfl

theorem consBytes_none (b : Bytes) : consBytes b none = none := by
  induction b with
  | nil => rfl
  | cons x b ih => rw [show consBytes (x :: b) none = consByte x (consBytes b none) from rfl, ih]; rfl

theorem readLiteral_all (q : Char) (f : UInt8 → Text)
    (hf : ∀ b t, readLiteral q (f b ++ t) = consByte b (readLiteral q t)) (b : Bytes) (t : Text) :
    readLiteral q (b.flatMap f ++ t) = consBytes b (readLiteral q t) := by
  induction b with
  | nil => rfl
  | cons x b ih =>
    rw [List.flatMap_cons, List.append_assoc, hf, ih]; rfl

theorem quoteFor_or (b : Bytes) : quoteFor b = '\'' ∨ quoteFor b = '"' := by
  unfold quoteFor
  split
  · exact Or.inr rfl
  · exact Or.inl rfl

theorem readLiteral_end (q : Char) (hq : q = '\'' ∨ q = '"') (t : Text) : readLiteral q (q :: t) = some ([], t) := by
  rcases hq with rfl | rfl
  · rw [readLiteral] <;> simp
  · rw [readLiteral] <;> simp

theorem readLiteral_ellipsis (q : Char) (hq : q = '\'' ∨ q = '"') (t : Text) : readLiteral q ('…' :: t) = none := by
  rcases hq with rfl | rfl
  · rw [readLiteral] <;> simp
  · rw [readLiteral] <;> simp


/-! ## Lists of characters -/

theorem takeWhile_word (p : Char → Bool) (w : Text) (c : Char) (r : Text) (hw : w.all p = true) (hc : p c = false) :
    (w ++ c :: r).takeWhile p = w := by
  induction w with
  | nil => simp [hc]
  | cons x w ih =>
    simp only [List.all_cons, Bool.and_eq_true] at hw
    simp [hw.1, ih hw.2]

theorem dropWhile_word (p : Char → Bool) (w : Text) (c : Char) (r : Text) (hw : w.all p = true) (hc : p c = false) :
    (w ++ c :: r).dropWhile p = c :: r := by
  induction w with
  | nil => simp [hc]
  | cons x w ih =>
    simp only [List.all_cons, Bool.and_eq_true] at hw
    simp [hw.1, ih hw.2]

theorem joinWith_cons (sep p : Text) (ps : List Text) :
    joinWith sep (p :: ps) = p ++ ps.flatMap (sep ++ ·) := by
  induction ps generalizing p with
  | nil => simp [joinWith]
  | cons q ps ih => rw [joinWith, ih]; simp

theorem word_not_space (c : Char) (h : wordChar c = true) : space c = false := by
  by_cases h1 : c = ' '
  · subst h1; exact absurd h (by decide)
  by_cases h2 : c = '\n'
  · subst h2; exact absurd h (by decide)
  simp [space, h1, h2]

theorem digit_word (c : Char) (h : c.isDigit = true) : wordChar c = true := by
  simp [wordChar, Char.isAlphanum, h]

theorem pyNat_digits (n : Nat) : (pyNat n).all Char.isDigit = true := by
  rw [List.all_eq_true]
  exact fun c hc => Nat.isDigit_of_mem_toDigits (by decide) (by decide) hc

theorem pyNat_word (n : Nat) : (pyNat n).all wordChar = true := by
  rw [List.all_eq_true]
  exact fun c hc => digit_word c (Nat.isDigit_of_mem_toDigits (by decide) (by decide) hc)

theorem pyNat_ne_nil (n : Nat) : pyNat n ≠ [] := Nat.toDigits_ne_nil

/-! ## Keyword arguments -/

/-- The text of an argument that is no buffer. -/
def atomText : Atom → Text
  | .int n => pyNat n
  | .true => "True".toList
  | .none => "None".toList

theorem atomText_word (a : Atom) : (atomText a).all wordChar = true := by
  cases a with
  | int n => exact pyNat_word n
  | true => decide
  | none => decide

theorem readAtom_text (a : Atom) (c : Char) (r : Text) (hc : wordChar c = false) :
    readAtom (atomText a ++ c :: r) = some (a, c :: r) := by
  unfold readAtom
  simp only [takeWhile_word _ _ _ _ (atomText_word a) hc, dropWhile_word _ _ _ _ (atomText_word a) hc]
  cases a with
  | true => rfl
  | none => rfl
  | int n =>
    have h := pyNat_digits n
    have h1 : atomText (.int n) ≠ "True".toList := by
      intro h2
      rw [show pyNat n = "True".toList from h2] at h
      exact absurd h (by decide)
    have h2 : atomText (.int n) ≠ "None".toList := by
      intro h2
      rw [show pyNat n = "None".toList from h2] at h
      exact absurd h (by decide)
    rw [if_neg h1, if_neg h2, if_pos ⟨pyNat_ne_nil n, h⟩]
    rw [show atomText (.int n) = Nat.toDigits 10 n from rfl, Nat.ofDigitChars_ten_toDigits]

/-- The text of a keyword argument. -/
def kwText (p : Text × Atom) : Text := p.1 ++ '=' :: atomText p.2

/-- A name that can stand before `=`. -/
def Word (w : Text) : Prop := w.all wordChar = true ∧ w ≠ []

theorem readKw_text (p : Text × Atom) (hp : Word p.1) (c : Char) (r : Text) (hc : wordChar c = false) :
    readKw (kwText p ++ c :: r) = some (p, c :: r) := by
  have h : kwText p ++ c :: r = p.1 ++ '=' :: (atomText p.2 ++ c :: r) := by simp [kwText]
  unfold readKw
  rw [h, takeWhile_word _ _ _ _ hp.1 (by decide), dropWhile_word _ _ _ _ hp.1 (by decide)]
  simp only [readAtom_text p.2 c r hc]

/-- The text is read as the end of a call with these keyword arguments. -/
structure KwTail (t : Text) (kws : List (Text × Atom)) : Prop where
  reads : ∀ n rest, t.length < n → readKws n (t ++ rest) = some (kws, rest)
  head : ∃ c r, t = c :: r ∧ (c = ')' ∨ c = ',')

theorem kwTail_end : KwTail [')'] [] := by
  refine ⟨fun n rest h => ?_, ⟨')', [], rfl, Or.inl rfl⟩⟩
  cases n with
  | zero => simp at h
  | succ n => rfl

theorem dropWhile_spaces (sp : Text) (hs : sp.all space = true) (r : Text) :
    (sp ++ r).dropWhile space = r.dropWhile space := by
  induction sp with
  | nil => rfl
  | cons x sp ih =>
    simp only [List.all_cons, Bool.and_eq_true] at hs
    simp [hs.1, ih hs.2]

theorem kwTail_comma (sp : Text) (hs : sp.all space = true) : KwTail (',' :: (sp ++ [')'])) [] := by
  refine ⟨fun n rest h => ?_, ⟨',', _, rfl, Or.inr rfl⟩⟩
  cases n with
  | zero => simp at h
  | succ n =>
    have : (sp ++ [')'] ++ rest).dropWhile space = ')' :: rest := by
      rw [List.append_assoc, dropWhile_spaces sp hs]; rfl
    rw [List.cons_append, readKws]
    rw [show List.dropWhile space (',' :: (sp ++ [')'] ++ rest)) = ',' :: (sp ++ [')'] ++ rest) from rfl]
    simp only [this]

theorem kwTail_cons (sp : Text) (hs : sp.all space = true) (p : Text × Atom) (hp : Word p.1) (t : Text)
    (kws : List (Text × Atom)) (ht : KwTail t kws) : KwTail (',' :: (sp ++ kwText p ++ t)) (p :: kws) := by
  refine ⟨fun n rest h => ?_, ⟨',', _, rfl, Or.inr rfl⟩⟩
  cases n with
  | zero => simp at h
  | succ n =>
    obtain ⟨c, r, rfl, hc⟩ := ht.head
    have hcw : wordChar c = false := by rcases hc with rfl | rfl <;> decide
    obtain ⟨x, w, hx⟩ : ∃ x w, p.1 = x :: w := by
      cases h1 : p.1 with
      | nil => exact absurd h1 hp.2
      | cons x w => exact ⟨x, w, rfl⟩
    have hxw : wordChar x = true := by
      have := hp.1; rw [hx] at this; simp only [List.all_cons, Bool.and_eq_true] at this; exact this.1
    have hxp : x ≠ ')' := by rintro rfl; exact absurd hxw (by decide)
    have h1 : (sp ++ kwText p ++ c :: r ++ rest).dropWhile space = kwText p ++ c :: (r ++ rest) := by
      rw [List.append_assoc, List.append_assoc, dropWhile_spaces sp hs]
      have h2 : kwText p ++ (c :: r ++ rest) = x :: (w ++ '=' :: atomText p.2 ++ (c :: r ++ rest)) := by
        simp [kwText, hx]
      rw [h2, List.dropWhile_cons_of_neg (by simp [word_not_space x hxw]), ← h2]; rfl
    rw [List.cons_append, readKws]
    rw [show List.dropWhile space (',' :: (sp ++ kwText p ++ c :: r ++ rest)) = ',' :: (sp ++ kwText p ++ c :: r ++ rest) from rfl]
    simp only [h1]
    have h3 := readKw_text p hp c (r ++ rest) hcw
    have h4 := ht.reads n rest (by simp at h ⊢; omega)
    rw [List.cons_append] at h4
    split
    · rename_i h5
      rw [show kwText p ++ c :: (r ++ rest) = x :: (w ++ '=' :: atomText p.2 ++ (c :: (r ++ rest))) by
        simp [kwText, hx]] at h5
      exact absurd (List.cons.inj h5).1 hxp
    · rw [h3]
      simp only [h4]

/-! ## Expressions -/

/-- No method call follows. -/
def NoDot (t : Text) : Prop := t.head? ≠ some '.'

/-- The text can be the first argument of a call. -/
def StartsOk (a : Text) : Prop :=
  ∀ rest, (a ++ rest).dropWhile space = a ++ rest ∧ startsKw (a ++ rest) = false

/-- The text is read as the expression. -/
structure Good (k : Nat) (a : Text) (e : Expr) : Prop where
  reads : ∀ n rest, k ≤ n → NoDot rest → readExpr n (a ++ rest) = some (e, rest)
  start : StartsOk a

/-- The text is the start of no expression. -/
structure Bad (a : Text) : Prop where
  fails : ∀ n rest, readExpr n (a ++ rest) = none
  start : StartsOk a

theorem readCast_noDot (e : Expr) (r : Text) (h : NoDot r) : readCast e r = (e, r) := by
  unfold readCast
  split
  · exact absurd rfl h
  · rfl

theorem startsOk_call (w r : Text) (hw : Word w) : StartsOk (w ++ '(' :: r) := by
  intro rest
  obtain ⟨x, w', rfl⟩ : ∃ x w', w = x :: w' := by
    cases w with
    | nil => exact absurd rfl hw.2
    | cons x w' => exact ⟨x, w', rfl⟩
  have hx : wordChar x = true := by
    have := hw.1; simp only [List.all_cons, Bool.and_eq_true] at this; exact this.1
  constructor
  · rw [List.cons_append, List.cons_append, List.dropWhile_cons_of_neg (by simp [word_not_space x hx])]
  · rw [startsKw, show x :: w' ++ '(' :: r ++ rest = x :: w' ++ '(' :: (r ++ rest) by simp,
      dropWhile_word _ _ _ _ hw.1 (by decide)]
    rfl

theorem readExpr_word (n : Nat) (w r : Text) (hw : Word w) :
    readExpr (n + 1) (w ++ '(' :: r) =
      (if startsKw (r.dropWhile space) then
        match readKw (r.dropWhile space) with
        | none => none
        | some (kw, r) =>
          match readKws (r.length + 1) r with
          | none => none
          | some (kws, r) => some (readCast (.callKw w (kw :: kws)) r)
      else
        match readExpr n (r.dropWhile space) with
        | none => none
        | some (e, r) =>
          match readKws (r.length + 1) r with
          | none => none
          | some (kws, r) => some (readCast (.call w e kws) r)) := by
  have hq : ∀ c r', c = '\'' ∨ c = '"' → w ++ '(' :: r = 'b' :: c :: r' → False := by
    intro c r' hc h
    match w, hw with
    | [], hw => exact hw.2 rfl
    | [x], _ =>
      simp only [List.cons_append, List.nil_append, List.cons.injEq] at h
      rcases hc with rfl | rfl
      · exact absurd h.2.1 (by decide)
      · exact absurd h.2.1 (by decide)
    | x :: y :: w', hw =>
      simp only [List.cons_append, List.cons.injEq] at h
      have := hw.1
      simp only [List.all_cons, Bool.and_eq_true] at this
      rw [h.2.1] at this
      rcases hc with rfl | rfl
      · exact absurd this.2.1 (by decide)
      · exact absurd this.2.1 (by decide)
  rw [readExpr]
  · rw [takeWhile_word _ _ _ _ hw.1 (by decide), dropWhile_word _ _ _ _ hw.1 (by decide)]
    rfl
  · exact fun r' h => hq _ r' (Or.inl rfl) h
  · exact fun r' h => hq _ r' (Or.inr rfl) h

theorem readExpr_call (k n : Nat) (w lead a t rest : Text) (e : Expr) (kws : List (Text × Atom)) (hw : Word w)
    (hl : lead.all space = true) (ha : Good k a e) (ht : KwTail t kws) (hn : k + 1 ≤ n) :
    readExpr n (w ++ '(' :: (lead ++ a ++ t) ++ rest) = some (readCast (.call w e kws) rest) := by
  cases n with
  | zero => omega
  | succ n =>
    rw [List.append_assoc, List.cons_append, readExpr_word n w _ hw]
    have h1 : (lead ++ a ++ t ++ rest).dropWhile space = a ++ (t ++ rest) := by
      rw [List.append_assoc, List.append_assoc, dropWhile_spaces lead hl]
      exact (ha.start (t ++ rest)).1
    rw [h1, (ha.start (t ++ rest)).2]
    obtain ⟨c, r, hc, hc'⟩ := ht.head
    have hd : NoDot (t ++ rest) := by
      rw [hc, List.cons_append, NoDot]
      rcases hc' with rfl | rfl <;> simp
    rw [ha.reads n (t ++ rest) (by omega) hd]
    simp only [ht.reads ((t ++ rest).length + 1) rest (by simp; omega)]
    simp

theorem good_call (k : Nat) (w lead a t : Text) (e : Expr) (kws : List (Text × Atom)) (hw : Word w)
    (hl : lead.all space = true) (ha : Good k a e) (ht : KwTail t kws) :
    Good (k + 1) (w ++ '(' :: (lead ++ a ++ t)) (.call w e kws) := by
  refine ⟨fun n rest hn hr => ?_, startsOk_call w _ hw⟩
  rw [readExpr_call k n w lead a t rest e kws hw hl ha ht hn, readCast_noDot _ _ hr]

theorem good_cast (k : Nat) (w lead a t : Text) (e : Expr) (kws : List (Text × Atom)) (c : Char) (hw : Word w)
    (hl : lead.all space = true) (ha : Good k a e) (ht : KwTail t kws) :
    Good (k + 1) (w ++ '(' :: (lead ++ a ++ t) ++ ".cast('".toList ++ [c] ++ "')".toList) (.cast (.call w e kws) c) := by
  constructor
  · intro n rest hn hr
    have := readExpr_call k n w lead a t (".cast('".toList ++ [c] ++ "')".toList ++ rest) e kws hw hl ha ht hn
    rw [show w ++ '(' :: (lead ++ a ++ t) ++ ".cast('".toList ++ [c] ++ "')".toList ++ rest
      = w ++ '(' :: (lead ++ a ++ t) ++ (".cast('".toList ++ [c] ++ "')".toList ++ rest) by simp, this]
    rfl
  · intro rest
    have := startsOk_call w (lead ++ a ++ t) hw (".cast('".toList ++ [c] ++ "')".toList ++ rest)
    rw [show w ++ '(' :: (lead ++ a ++ t) ++ ".cast('".toList ++ [c] ++ "')".toList ++ rest
      = w ++ '(' :: (lead ++ a ++ t) ++ (".cast('".toList ++ [c] ++ "')".toList ++ rest) by simp]
    exact this

theorem bad_call (w lead a t : Text) (hw : Word w) (hl : lead.all space = true) (ha : Bad a) :
    Bad (w ++ '(' :: (lead ++ a ++ t)) := by
  refine ⟨fun n rest => ?_, startsOk_call w _ hw⟩
  cases n with
  | zero => rfl
  | succ n =>
    rw [List.append_assoc, List.cons_append, readExpr_word n w _ hw]
    have h1 : (lead ++ a ++ t ++ rest).dropWhile space = a ++ (t ++ rest) := by
      rw [List.append_assoc, List.append_assoc, dropWhile_spaces lead hl]
      exact (ha.start (t ++ rest)).1
    rw [h1, (ha.start (t ++ rest)).2, ha.fails]
    rfl

theorem good_kw (w : Text) (p : Text × Atom) (hw : Word w) (hp : Word p.1) :
    Good 1 (w ++ '(' :: (kwText p ++ [')'])) (.callKw w [p]) := by
  refine ⟨fun n rest hn hr => ?_, startsOk_call w _ hw⟩
  cases n with
  | zero => omega
  | succ n =>
    rw [List.append_assoc, List.cons_append, readExpr_word n w _ hw]
    obtain ⟨x, w', hx⟩ : ∃ x w', p.1 = x :: w' := by
      cases h1 : p.1 with
      | nil => exact absurd h1 hp.2
      | cons x w => exact ⟨x, w, rfl⟩
    have hxw : wordChar x = true := by
      have := hp.1; rw [hx] at this; simp only [List.all_cons, Bool.and_eq_true] at this; exact this.1
    have h2 : kwText p ++ [')'] ++ rest = x :: (w' ++ '=' :: atomText p.2 ++ ')' :: rest) := by
      simp [kwText, hx]
    have h1 : (kwText p ++ [')'] ++ rest).dropWhile space = kwText p ++ ')' :: rest := by
      rw [h2, List.dropWhile_cons_of_neg (by simp [word_not_space x hxw]), ← h2]; simp
    have h3 : startsKw (kwText p ++ ')' :: rest) = true := by
      rw [startsKw, show kwText p ++ ')' :: rest = p.1 ++ '=' :: (atomText p.2 ++ ')' :: rest) by simp [kwText],
        dropWhile_word _ _ _ _ hp.1 (by decide)]
      rfl
    rw [h1, h3, readKw_text p hp ')' rest (by decide)]
    have h4 := kwTail_end.reads ((')' :: rest).length + 1) rest (by simp)
    rw [show [')'] ++ rest = ')' :: rest from rfl] at h4
    simp only [if_true, h4, readCast_noDot _ _ hr]

theorem parse_good (k : Nat) (t : Text) (e : Expr) (h : Good k t e) (hk : k ≤ t.length + 1) : parse t = some e := by
  have := h.reads (t.length + 1) [] hk (by simp [NoDot])
  rw [List.append_nil] at this
  rw [parse, this]

theorem parse_bad (t : Text) (h : Bad t) : parse t = none := by
  have := h.fails (t.length + 1) []
  rw [List.append_nil] at this
  rw [parse, this]

/-! ## Bytes -/

theorem startsOk_quote (q : Char) (hq : q = '\'' ∨ q = '"') (t : Text) : StartsOk ('b' :: q :: t) := by
  intro rest
  rcases hq with rfl | rfl
  · exact ⟨rfl, rfl⟩
  · exact ⟨rfl, rfl⟩

theorem readExpr_quote (n : Nat) (q : Char) (hq : q = '\'' ∨ q = '"') (t : Text) :
    readExpr (n + 1) ('b' :: q :: t) = (readLiteral q t).map fun p => (.bytes p.1, p.2) := by
  rcases hq with rfl | rfl <;> rfl

theorem good_quote (q : Char) (hq : q = '\'' ∨ q = '"') (f : UInt8 → Text)
    (hf : ∀ b t, readLiteral q (f b ++ t) = consByte b (readLiteral q t)) (b : Bytes) :
    Good 1 ('b' :: q :: (b.flatMap f ++ [q])) (.bytes b) := by
  refine ⟨fun n rest hn _ => ?_, startsOk_quote q hq _⟩
  cases n with
  | zero => omega
  | succ n =>
    rw [List.cons_append, List.cons_append, readExpr_quote n q hq, List.append_assoc, readLiteral_all q f hf,
      List.singleton_append, readLiteral_end q hq, consBytes_some]
    simp

theorem good_pyBytes (b : Bytes) : Good 1 (pyBytes b) (.bytes b) :=
  good_quote (quoteFor b) (quoteFor_or b) _ (fun x t => readLiteral_byte _ (quoteFor_or b) x t) b

/-- The text of truncated bytes. -/
def cutBytes (b : Bytes) : Text :=
  'b' :: quoteFor b :: (b.flatMap (escapeByte (quoteFor b)) ++ ['…', quoteFor b])

theorem bad_cutBytes (b : Bytes) : Bad (cutBytes b) := by
  refine ⟨fun n rest => ?_, startsOk_quote _ (quoteFor_or b) _⟩
  cases n with
  | zero => rfl
  | succ n =>
    rw [cutBytes, List.cons_append, List.cons_append, readExpr_quote n _ (quoteFor_or b), List.append_assoc,
      readLiteral_all _ _ (fun x t => readLiteral_byte _ (quoteFor_or b) x t)]
    rw [show ['…', quoteFor b] ++ rest = '…' :: (quoteFor b :: rest) from rfl, readLiteral_ellipsis _ (quoteFor_or b),
      consBytes_none]
    rfl

theorem cut_pyBytes (b : Bytes) :
    (pyBytes b).dropLast ++ ['…'] ++ (pyBytes b).drop ((pyBytes b).length - 1) = cutBytes b := by
  have h : pyBytes b = ('b' :: quoteFor b :: b.flatMap (escapeByte (quoteFor b))) ++ [quoteFor b] := rfl
  rw [h, List.dropLast_concat]
  rw [List.length_append, List.length_singleton, Nat.add_sub_cancel, List.drop_left]
  simp [cutBytes]

theorem reprBytes_false (s : Settings) (b : Bytes) : reprBytes s b (some false) = pyBytes b := by
  simp [reprBytes]

theorem reprBytes_true (s : Settings) (b : Bytes) : reprBytes s b (some true) = cutBytes b := by
  rw [← cut_pyBytes b]
  simp [reprBytes]

theorem reprBytes_short (s : Settings) (b : Bytes) (h : b.length ≤ s.maxstring) : reprBytes s b none = pyBytes b := by
  simp [reprBytes, Nat.not_lt.2 h]

theorem reprBytes_long (s : Settings) (b : Bytes) (h : s.maxstring < b.length) :
    reprBytes s b none = cutBytes (b.take s.maxstring) := by
  rw [← cut_pyBytes]
  simp [reprBytes, h]

/-! ## Arguments joined -/

theorem kwTail_flat (sp : Text) (hs : sp.all space = true) (t : Text) (ht : KwTail t [])
    (kws : List (Text × Atom)) (hk : ∀ p ∈ kws, Word p.1) :
    KwTail (kws.flatMap (fun p => ',' :: (sp ++ kwText p)) ++ t) kws := by
  induction kws with
  | nil => exact ht
  | cons p kws ih =>
    have := kwTail_cons sp hs p (hk p (List.mem_cons_self ..)) _ kws (ih (fun q hq => hk q (List.mem_cons_of_mem _ hq)))
    rw [List.flatMap_cons]
    simpa using this

theorem all_replicate_space (n : Nat) : (List.replicate n ' ').all space = true := by
  induction n with
  | zero => rfl
  | succ n ih => rw [List.replicate_succ, List.all_cons, ih]; rfl

theorem take_indent (X : Text) (n : Nat) :
    ((',' :: (X ++ List.replicate n ' ')).drop 1).take ((',' :: (X ++ List.replicate n ' ')).length - 1 - n) = X := by
  rw [List.drop_succ_cons, List.drop_zero, List.length_cons, List.length_append, List.length_replicate]
  rw [show X.length + n + 1 - 1 - n = X.length by omega]
  exact List.take_left

theorem join_kws (s : Settings) (level : Nat) (d : Text) (kws : List (Text × Atom)) (hk : ∀ p ∈ kws, Word p.1) :
    ∃ lead t, s.join (d :: kws.map kwText) level ++ [')'] = lead ++ d ++ t ∧ lead.all space = true ∧ KwTail t kws := by
  unfold Settings.join
  cases s.indent with
  | none =>
    refine ⟨[], kws.flatMap (fun p => ',' :: ([' '] ++ kwText p)) ++ [')'], ?_, rfl, kwTail_flat _ (by decide) _ kwTail_end _ hk⟩
    rw [joinWith_cons, List.flatMap_map]
    simp
  | some n =>
    simp only
    rw [show (s.maxlevel - level + 1) * n = (s.maxlevel - level) * n + n by rw [Nat.add_mul, Nat.one_mul]]
    generalize (s.maxlevel - level) * n = m
    have hm : ('\n' :: List.replicate (m + n) ' ').all space = true := by
      rw [List.all_cons, all_replicate_space]; rfl
    have hm' : ('\n' :: List.replicate m ' ').all space = true := by
      rw [List.all_cons, all_replicate_space]; rfl
    refine ⟨'\n' :: List.replicate (m + n) ' ',
      kws.flatMap (fun p => ',' :: ('\n' :: List.replicate (m + n) ' ' ++ kwText p))
        ++ (',' :: ('\n' :: List.replicate m ' ' ++ [')'])), ?_, hm, kwTail_flat _ hm _ (kwTail_comma _ hm') _ hk⟩
    have h1 : joinWith (",\n".toList ++ List.replicate (m + n) ' ') ([[]] ++ (d :: kws.map kwText) ++ [[]])
        = ',' :: (('\n' :: List.replicate (m + n) ' ' ++ d
          ++ kws.flatMap (fun p => ',' :: ('\n' :: List.replicate (m + n) ' ' ++ kwText p))
          ++ (',' :: ('\n' :: List.replicate m ' '))) ++ List.replicate n ' ') := by
      rw [List.singleton_append, List.cons_append, joinWith_cons, List.flatMap_append, List.flatMap_cons,
        List.flatMap_map]
      simp
    rw [h1, take_indent]
    simp

/-! ## The data of a buffer -/

/-- The keyword arguments in the text of a buffer. -/
def bufKws (needsMax needsReadonly : Bool) (max : Nat) : List (Text × Atom) :=
  (if needsMax then [("max_byte_length".toList, Atom.int max)] else [])
    ++ (if needsReadonly then [("readonly".toList, Atom.true)] else [])

theorem bufKws_word (m r : Bool) (n : Nat) : ∀ p ∈ bufKws m r n, Word p.1 := by
  intro p hp
  have h1 : Word "max_byte_length".toList := ⟨by decide, by decide⟩
  have h2 : Word "readonly".toList := ⟨by decide, by decide⟩
  cases m <;> cases r <;> simp [bufKws] at hp
  · subst hp; exact h2
  · subst hp; exact h1
  · rcases hp with rfl | rfl
    · exact h1
    · exact h2

theorem reprBuf_text (s : Settings) (level : Nat) (b : Buf) (d : Text) (m r : Bool) (h : bufParts s b = .ok (d, m, r)) :
    ∃ lead t, reprBuf s level b = .ok ("JSArrayBuffer".toList ++ '(' :: (lead ++ d ++ t)) ∧ lead.all space = true ∧
      KwTail t (bufKws m r b.max) := by
  have hp : ([d] ++ (if m then ["max_byte_length=".toList ++ pyNat b.max] else [])
    ++ (if r then ["readonly=True".toList] else []) : List Text) = d :: (bufKws m r b.max).map kwText := by
    cases m <;> cases r <;> simp [bufKws, kwText, atomText]
  unfold reprBuf
  rw [h]
  simp only [bind, Except.bind, hp]
  by_cases hk : bufKws m r b.max = []
  · refine ⟨[], [')'], ?_, rfl, hk ▸ kwTail_end⟩
    rw [hk]
    simp
  · obtain ⟨lead, t, h1, h2, h3⟩ := join_kws s level d (bufKws m r b.max) (bufKws_word m r b.max)
    refine ⟨lead, t, ?_, h2, h3⟩
    have h4 : (d :: (bufKws m r b.max).map kwText).length ≠ 1 := by
      intro h5
      simp only [List.length_cons, List.length_map, Nat.add_eq_right, List.length_eq_zero_iff] at h5
      exact hk h5
    rw [if_pos h4, ← h1]
    simp

/-- The text is read as something that has the bytes `content`. -/
def GoodData (d : Text) (content : Bytes) : Prop :=
  ∃ e r, Good 3 d e ∧ eval e = .value (.raw r) ∧ r.content = content ∧ r.released = false

theorem Good.mono {k m : Nat} {a : Text} {e : Expr} (h : Good k a e) (hk : k ≤ m) : Good m a e :=
  ⟨fun n rest hn hr => h.reads n rest (by omega) hr, h.start⟩

theorem bytearray_word : Word "bytearray".toList := ⟨by decide, by decide⟩
theorem memoryview_word : Word "memoryview".toList := ⟨by decide, by decide⟩
theorem buffer_word : Word "JSArrayBuffer".toList := ⟨by decide, by decide⟩

theorem reprBytearray_short (s : Settings) (b : Bytes) (h : b.length ≤ s.maxstring) (tr : Option Bool)
    (ht : tr.getD false = false) :
    reprBytearray s b tr = "bytearray".toList ++ '(' :: ([] ++ pyBytes b ++ [')']) := by
  unfold reprBytearray
  rw [ht, List.take_of_length_le h, show decide (s.maxstring < b.length) = false by simp; omega]
  rw [show (false || false) = false from rfl, reprBytes_false]
  simp

theorem reprBytearray_long (s : Settings) (b : Bytes) (tr : Option Bool)
    (h : s.maxstring < b.length ∨ tr = some true) :
    reprBytearray s b tr = "bytearray".toList ++ '(' :: ([] ++ cutBytes (b.take s.maxstring) ++ [')']) := by
  unfold reprBytearray
  have : (tr.getD false || decide (s.maxstring < b.length)) = true := by
    rcases h with h | h
    · simp [h]
    · simp [h]
  rw [this, reprBytes_true]
  simp

theorem good_bytearray (b : Bytes) :
    Good 2 ("bytearray".toList ++ '(' :: ([] ++ pyBytes b ++ [')'])) (.call "bytearray".toList (.bytes b) []) :=
  good_call 1 _ [] _ _ _ _ bytearray_word rfl (good_pyBytes b) kwTail_end

theorem eval_bytearray (b : Bytes) :
    eval (.call "bytearray".toList (.bytes b) []) = .value (.raw (.bytearray b)) := by
  simp [eval, Raw.content]

theorem eval_memoryview (e : Expr) (r : Raw) (h : eval e = .value (.raw r)) :
    eval (.call "memoryview".toList e []) = .value (.raw (.mview ⟨r.content, r.readonly, 'B', false, false, []⟩)) := by
  rw [eval, h]
  simp

/-- What evaluating the text of a memoryview gives. -/
def plainView (v : MV) : MV := ⟨v.content, v.readonly, v.format, false, false, []⟩

theorem memoryview_inner (s : Settings) (v : MV) (hs : v.content.length ≤ s.maxstring) :
    ∃ a e r, (if v.readonly then reprBytes s v.content (some false) else reprBytearray s v.content (some false)) = a ∧
      Good 2 a e ∧ eval e = .value (.raw r) ∧ r.content = v.content ∧ r.readonly = v.readonly := by
  cases h : v.readonly with
  | true =>
    exact ⟨_, .bytes v.content, .bytes v.content, rfl, by
      rw [if_pos rfl, reprBytes_false]; exact (good_pyBytes _).mono (by omega), rfl, rfl, rfl⟩
  | false =>
    refine ⟨_, .call "bytearray".toList (.bytes v.content) [], .bytearray v.content, rfl, ?_, eval_bytearray _, rfl, rfl⟩
    rw [if_neg (by simp), reprBytearray_short s _ hs _ rfl]
    exact good_bytearray _

theorem memoryview_text (a : Text) (tail : Text) :
    "memoryview(".toList ++ a ++ ")".toList ++ tail = "memoryview".toList ++ '(' :: ([] ++ a ++ ([')'] ++ tail)) := by
  rw [show "memoryview(".toList = "memoryview".toList ++ ['('] from rfl, show ")".toList = [')'] from rfl]
  simp only [List.append_assoc, List.cons_append, List.nil_append]

theorem reprMemoryview_cast (s : Settings) (v : MV) (a : Text) (ha : Accessible (.mview v)) (hf : v.format ≠ 'B')
    (h : (if v.readonly then
        reprBytes s (v.content.take s.maxstring) (some (decide ((v.content.take s.maxstring).length < v.content.length)))
      else reprBytearray s (v.content.take s.maxstring)
        (some (decide ((v.content.take s.maxstring).length < v.content.length)))) = a) :
    reprMemoryview s v = .ok ("memoryview".toList ++ '(' :: ([] ++ a ++ ([')'] ++ (".cast('".toList ++ [v.format] ++ "')".toList)))) := by
  unfold reprMemoryview
  rw [ha.1, ha.2]
  simp only [Bool.false_eq_true, if_false, h]
  rw [if_pos hf, ← memoryview_text]
  simp only [List.append_assoc]

theorem reprMemoryview_plain (s : Settings) (v : MV) (a : Text) (ha : Accessible (.mview v)) (hf : v.format = 'B')
    (h : (if v.readonly then
        reprBytes s (v.content.take s.maxstring) (some (decide ((v.content.take s.maxstring).length < v.content.length)))
      else reprBytearray s (v.content.take s.maxstring)
        (some (decide ((v.content.take s.maxstring).length < v.content.length)))) = a) :
    reprMemoryview s v = .ok ("memoryview".toList ++ '(' :: ([] ++ a ++ [')'])) := by
  unfold reprMemoryview
  rw [ha.1, ha.2]
  simp only [Bool.false_eq_true, if_false, h]
  rw [if_neg (by simp [hf])]
  have := memoryview_text a []
  rw [List.append_nil, List.append_nil] at this
  rw [this]

theorem reprMemoryview_short (s : Settings) (v : MV) (hs : v.content.length ≤ s.maxstring) (hw : WellFormed (.mview v))
    (ha : Accessible (.mview v)) :
    ∃ t e, reprMemoryview s v = .ok t ∧ Good 3 t e ∧ eval e = .value (.raw (.mview (plainView v))) := by
  obtain ⟨a, e, r, h1, h2, h3, h4, h5⟩ := memoryview_inner s v hs
  obtain ⟨k, hk, hk'⟩ := hw
  have hcut : decide (v.content.length < v.content.length) = false := by simp
  by_cases hf : v.format = 'B'
  · refine ⟨"memoryview".toList ++ '(' :: ([] ++ a ++ [')']), .call "memoryview".toList e [], ?_,
      good_call 2 _ [] _ _ _ _ memoryview_word rfl h2 kwTail_end, ?_⟩
    · refine reprMemoryview_plain s v a ha hf ?_
      rw [List.take_of_length_le hs, hcut, h1]
    · rw [eval_memoryview e r h3, h4, h5, plainView, hf]
  · refine ⟨"memoryview".toList ++ '(' :: ([] ++ a ++ [')']) ++ ".cast('".toList ++ [v.format] ++ "')".toList,
      .cast (.call "memoryview".toList e []) v.format, ?_,
      good_cast 2 _ [] _ _ _ _ _ memoryview_word rfl h2 kwTail_end, ?_⟩
    · rw [reprMemoryview_cast s v a ha hf (by rw [List.take_of_length_le hs, hcut, h1])]
      simp only [List.append_assoc, List.cons_append, List.nil_append]
    · rw [eval, eval_memoryview e r h3]
      simp only [hk, h4, hk', if_true, h5]
      rfl

theorem reprMemoryview_long (s : Settings) (v : MV) (hs : s.maxstring < v.content.length)
    (ha : Accessible (.mview v)) : ∃ t, reprMemoryview s v = .ok t ∧ Bad t := by
  have hcut : decide ((v.content.take s.maxstring).length < v.content.length) = true := by simp; omega
  have h1 : ∃ a, (if v.readonly then reprBytes s (v.content.take s.maxstring) (some true)
      else reprBytearray s (v.content.take s.maxstring) (some true)) = a ∧ Bad a := by
    refine ⟨_, rfl, ?_⟩
    cases v.readonly with
    | true => rw [if_pos rfl, reprBytes_true]; exact bad_cutBytes _
    | false =>
      rw [if_neg (by simp), reprBytearray_long s _ _ (Or.inr rfl)]
      exact bad_call _ [] _ _ bytearray_word rfl (bad_cutBytes _)
  obtain ⟨a, h1, h2⟩ := h1
  by_cases hf : v.format = 'B'
  · refine ⟨"memoryview".toList ++ '(' :: ([] ++ a ++ [')']), ?_, bad_call _ [] _ _ memoryview_word rfl h2⟩
    exact reprMemoryview_plain s v a ha hf (by rw [hcut, h1])
  · exact ⟨_, reprMemoryview_cast s v a ha hf (by rw [hcut, h1]), bad_call _ [] _ _ memoryview_word rfl h2⟩

theorem bad_angle (t : Text) : Bad ('<' :: t) := by
  refine ⟨fun n rest => ?_, fun rest => ⟨rfl, rfl⟩⟩
  cases n with
  | zero => rfl
  | succ n => rfl

theorem bufParts_good (s : Settings) (b : Buf) (hw : WellFormed b.data) (ha : Accessible b.data)
    (hs : b.data.content.length ≤ s.maxstring) :
    ∃ d, bufParts s b = .ok (d, decide (b.data.content.length ≠ b.max), b.data.readonly) ∧
      GoodData d b.data.content := by
  obtain ⟨data, max, res⟩ := b
  cases data with
  | bytes c =>
    exact ⟨pyBytes c, by simp [bufParts, Raw.released, reprRaw, bind, Except.bind, reprBytes_short s c hs, Raw.content, Raw.readonly],
      .bytes c, .bytes c, (good_pyBytes c).mono (by omega), rfl, rfl, rfl⟩
  | bytearray c =>
    refine ⟨pyBytes c, ?_, .bytes c, .bytes c, (good_pyBytes c).mono (by omega), rfl, rfl, rfl⟩
    have hs' : c.length ≤ s.maxstring := hs
    have h : decide (s.maxstring < c.length) = false := by simp; omega
    simp only [bufParts, Raw.released, Raw.content, Raw.readonly, List.take_of_length_le hs', h, reprBytes_false]
    rfl
  | mview v =>
    obtain ⟨t, e, h1, h2, h3⟩ := reprMemoryview_short s v hs hw ha
    refine ⟨t, ?_, e, _, h2, h3, rfl, rfl⟩
    simp [bufParts, Raw.released, ha.1, reprRaw, h1, bind, Except.bind]

theorem bufParts_long (s : Settings) (b : Buf) (ha : Accessible b.data)
    (hs : s.maxstring < b.data.content.length) :
    ∃ d, bufParts s b = .ok (d, decide (b.data.content.length ≠ b.max), b.data.readonly) ∧ Bad d := by
  obtain ⟨data, max, res⟩ := b
  cases data with
  | bytes c =>
    exact ⟨_, by simp only [bufParts, Raw.released, reprRaw, bind, Except.bind, reprBytes_long s c hs]; rfl, bad_cutBytes _⟩
  | bytearray c =>
    refine ⟨cutBytes (c.take s.maxstring), ?_, bad_cutBytes _⟩
    have hs' : s.maxstring < c.length := hs
    have h : decide (s.maxstring < c.length) = true := by simp; omega
    simp only [bufParts, Raw.released, Raw.content, Raw.readonly, h, reprBytes_true]
    rfl
  | mview v =>
    obtain ⟨t, h1, h2⟩ := reprMemoryview_long s v hs ha
    refine ⟨t, ?_, h2⟩
    simp [bufParts, Raw.released, ha.1, reprRaw, h1, bind, Except.bind]

theorem bufParts_lost (s : Settings) (b : Buf) (ha : ¬ Accessible b.data) :
    bufParts s b = .error .typeError ∨ ∃ d m r, bufParts s b = .ok (d, m, r) ∧ Bad d := by
  obtain ⟨data, max, res⟩ := b
  cases data with
  | bytes c => exact absurd True.intro ha
  | bytearray c => exact absurd True.intro ha
  | mview v =>
    cases hr : v.released with
    | true =>
      refine Or.inr ⟨"<released memory at 0x".toList ++ v.addr ++ ">".toList, true, false, ?_, bad_angle _⟩
      simp [bufParts, Raw.released, hr, reprRaw, reprMemoryview, bind, Except.bind]
    | false =>
      cases ht : v.step with
      | false => exact absurd ⟨hr, ht⟩ ha
      | true =>
        refine Or.inl ?_
        simp [bufParts, Raw.released, hr, ht, reprRaw, reprMemoryview, bind, Except.bind]

/-! ## Buffers -/

/-- What evaluating the text of a buffer gives. -/
def bufOutcome (content : Bytes) (max : Nat) (readonly : Bool) : Except PyExc Buf :=
  if content.length = max then .ok ⟨if readonly then .bytes content else .bytearray content, max, false⟩
  else if readonly then .error .valueError
  else if max < content.length then .error .jsArrayBufferError
  else .ok ⟨.bytearray content, max, true⟩

theorem eval_buf (e : Expr) (r : Raw) (max : Nat) (ro : Bool) (h : eval e = .value (.raw r)) (hr : r.released = false) :
    eval (.call "JSArrayBuffer".toList e (bufKws (decide (r.content.length ≠ max)) ro max))
      = (match bufOutcome r.content max ro with
        | .ok b => .value (.buf b)
        | .error e => .raises e) := by
  have hn : kwNames (bufKws (decide (r.content.length ≠ max)) ro max) ["max_byte_length", "readonly"] = true := by
    cases (decide (r.content.length ≠ max)) <;> cases ro <;> simp [bufKws, kwNames]
  have h1 : ("JSArrayBuffer".toList = "bytearray".toList) = False := by decide
  have h2 : ("JSArrayBuffer".toList = "memoryview".toList) = False := by decide
  rw [eval, h]
  simp only [h1, h2, if_false, if_true, hn]
  by_cases hm : r.content.length = max
  · have : decide (r.content.length ≠ max) = false := by simp [hm]
    rw [this]
    cases ro with
    | true =>
      have a1 : kwArg (bufKws false true max) "max_byte_length" = none := by rfl
      have a2 : kwArg (bufKws false true max) "readonly" = some 1 := by rfl
      rw [a1, a2]
      simp [newBuf, Raw.taken, Raw.isBytearray, hr, bufOutcome, hm, Raw.size]
    | false =>
      have a1 : kwArg (bufKws false false max) "max_byte_length" = none := by rfl
      have a2 : kwArg (bufKws false false max) "readonly" = none := by rfl
      rw [a1, a2]
      simp [newBuf, Raw.taken, Raw.isBytearray, hr, bufOutcome, hm, Raw.size]
  · have : decide (r.content.length ≠ max) = true := by simp [hm]
    rw [this]
    cases ro with
    | true =>
      have a1 : kwArg (bufKws true true max) "max_byte_length" = some max := by rfl
      have a2 : kwArg (bufKws true true max) "readonly" = some 1 := by rfl
      rw [a1, a2]
      simp [newBuf, bufOutcome, hm]
    | false =>
      have a1 : kwArg (bufKws true false max) "max_byte_length" = some max := by rfl
      have a2 : kwArg (bufKws true false max) "readonly" = none := by rfl
      rw [a1, a2]
      by_cases hl : max < r.content.length
      · simp [newBuf, Raw.taken, Raw.isBytearray, hr, bufOutcome, hm, Raw.size, hl]
      · simp [newBuf, Raw.taken, Raw.isBytearray, hr, bufOutcome, hm, Raw.size, hl]

theorem reprBuf_good (s : Settings) (level : Nat) (b : Buf) (hw : WellFormed b.data) (ha : Accessible b.data)
    (hs : b.data.content.length ≤ s.maxstring) :
    ∃ t e, reprBuf s level b = .ok t ∧ Good 4 t e ∧
      eval e = (match bufOutcome b.data.content b.max b.data.readonly with
        | .ok b => .value (.buf b)
        | .error e => .raises e) := by
  obtain ⟨d, h1, e, r, h2, h3, h4, h5⟩ := bufParts_good s b hw ha hs
  obtain ⟨lead, t, h6, h7, h8⟩ := reprBuf_text s level b d _ _ h1
  refine ⟨_, _, h6, good_call 3 _ lead d t e _ buffer_word h7 h2 h8, ?_⟩
  rw [← h4]
  exact eval_buf e r b.max b.data.readonly h3 h5

theorem reprBuf_long (s : Settings) (level : Nat) (b : Buf) (ha : Accessible b.data)
    (hs : s.maxstring < b.data.content.length) : ∃ t, reprBuf s level b = .ok t ∧ Bad t := by
  obtain ⟨d, h1, h2⟩ := bufParts_long s b ha hs
  obtain ⟨lead, t, h6, h7, h8⟩ := reprBuf_text s level b d _ _ h1
  exact ⟨_, h6, bad_call _ lead d t buffer_word h7 h2⟩

theorem reprBuf_lost (s : Settings) (level : Nat) (b : Buf) (ha : ¬ Accessible b.data) :
    reprBuf s level b = .error .typeError ∨ ∃ t, reprBuf s level b = .ok t ∧ Bad t := by
  rcases bufParts_lost s b ha with h | ⟨d, m, r, h1, h2⟩
  · left; unfold reprBuf; rw [h]; rfl
  · obtain ⟨lead, t, h6, h7, h8⟩ := reprBuf_text s level b d _ _ h1
    exact Or.inr ⟨_, h6, bad_call _ lead d t buffer_word h7 h2⟩

theorem bufOutcome_same (s : Settings) (b : Buf) (ha : Accessible b.data) (hs : b.data.content.length ≤ s.maxstring) :
    (∃ c, bufOutcome b.data.content b.max b.data.readonly = .ok c ∧ SameBuf b c) ↔ PrintsWell s b := by
  unfold bufOutcome
  constructor
  · rintro ⟨c, h1, h2⟩
    refine ⟨ha, hs, ?_⟩
    by_cases hm : b.data.content.length = b.max
    · rw [if_pos hm] at h1
      cases h1
      exact Or.inl ⟨h2.resizable, hm.symm⟩
    · rw [if_neg hm] at h1
      cases hr : b.data.readonly with
      | true => rw [hr] at h1; simp at h1
      | false =>
        rw [hr] at h1
        by_cases hl : b.max < b.data.content.length
        · simp [hl] at h1
        · simp only [Bool.false_eq_true, if_false, hl] at h1
          cases h1
          exact Or.inr ⟨h2.resizable, by omega, rfl⟩
  · intro h
    rcases h.limits with ⟨h1, h2⟩ | ⟨h1, h2, h3⟩
    · rw [if_pos h2.symm]
      refine ⟨_, rfl, ?_, ?_, rfl, h1⟩
      · cases b.data.readonly <;> rfl
      · cases b.data.readonly <;> rfl
    · rw [if_neg (by omega), h3, if_neg (by simp), if_neg (by omega)]
      exact ⟨_, rfl, rfl, h3, rfl, h1⟩

theorem Good.length {k : Nat} {t : Text} {e : Expr} (h : Good k t e) (hk : k ≤ t.length + 1) :
    evalText t = eval e := by
  rw [evalText, parse_good k t e h hk]

theorem Bad.outcome {t : Text} (h : Bad t) : evalText t = .syntaxError := by
  rw [evalText, parse_bad t h]

theorem reprBuf_length (s : Settings) (level : Nat) (b : Buf) (t : Text) (h : reprBuf s level b = .ok t) :
    14 ≤ t.length := by
  unfold reprBuf at h
  cases hb : bufParts s b with
  | error e => rw [hb] at h; simp [bind, Except.bind] at h
  | ok p =>
    rw [hb] at h
    simp only [bind, Except.bind] at h
    cases h
    rw [List.length_append, List.length_append]
    have : "JSArrayBuffer(".toList.length = 14 := rfl
    omega

/-! ## Views -/

theorem bad_dot (t : Text) : Bad ('.' :: t) := by
  refine ⟨fun n rest => ?_, fun rest => ⟨rfl, rfl⟩⟩
  cases n with
  | zero => rfl
  | succ n => rfl

theorem good_pyBytearray (b : Bytes) : Good 2 (pyBytearray b) (.call "bytearray".toList (.bytes b) []) := by
  have h := good_quote (quoteFor b) (quoteFor_or b)
    (fun x => if x = 39 then ['\\', '\''] else escapeByte (quoteFor b) x) (fun x t => by
      by_cases hx : x = 39
      · rw [if_pos hx, hx]
        exact readLiteral_esc _ '\'' t 39 (by decide)
      · rw [if_neg hx]
        exact readLiteral_byte _ (quoteFor_or b) x t) b
  have := good_call 1 "bytearray".toList [] _ [')'] _ [] bytearray_word rfl h kwTail_end
  have h2 : pyBytearray b = "bytearray".toList ++ '(' :: ([] ++ 'b' :: quoteFor b ::
      (b.flatMap (fun x => if x = 39 then ['\\', '\''] else escapeByte (quoteFor b) x) ++ [quoteFor b]) ++ [')']) := by
    unfold pyBytearray
    rw [show "bytearray(b".toList = "bytearray".toList ++ ['(', 'b'] from rfl]
    simp only [List.append_assoc, List.cons_append, List.nil_append]
  rw [h2]
  exact this

theorem reprBacking_cases (s : Settings) (x : Backing) (hw : WellFormedBacking x) :
    (¬ BackingPrintsWell s x ∧ ((∃ exc, reprBacking s x = .error exc) ∨ (∃ t, reprBacking s x = .ok t ∧ Bad t) ∨
      ∃ t e exc, reprBacking s x = .ok t ∧ Good 4 t e ∧ eval e = .raises exc)) ∨
    ∃ t e y, reprBacking s x = .ok t ∧ Good 4 t e ∧ eval e = .value y ∧ (SameBacking x y ↔ BackingPrintsWell s x) := by
  cases x with
  | raw r =>
    cases r with
    | bytes b =>
      exact Or.inr ⟨_, _, _, rfl, (good_pyBytes b).mono (by omega), rfl, ⟨fun _ => trivial, fun _ => ⟨rfl, rfl⟩⟩⟩
    | bytearray b =>
      exact Or.inr ⟨_, _, _, rfl, (good_pyBytearray b).mono (by omega), eval_bytearray b,
        ⟨fun _ => trivial, fun _ => ⟨rfl, rfl⟩⟩⟩
    | mview v =>
      refine Or.inl ⟨fun h => h, Or.inr (Or.inl ?_)⟩
      cases hr : v.released with
      | true => exact ⟨_, rfl, by rw [hr]; exact bad_angle _⟩
      | false => exact ⟨_, rfl, by rw [hr]; exact bad_angle _⟩
  | shared n =>
    have hp : Word "buffer_id".toList := ⟨by decide, by decide⟩
    have h := good_kw "JSSharedArrayBuffer".toList ("buffer_id".toList, .int n) ⟨by decide, by decide⟩ hp
    refine Or.inr ⟨_, .callKw "JSSharedArrayBuffer".toList [("buffer_id".toList, .int n)], .shared n, rfl, ?_, rfl,
      ⟨fun _ => trivial, fun _ => rfl⟩⟩
    have h2 : "JSSharedArrayBuffer(buffer_id=".toList ++ pyNat n ++ ")".toList
        = "JSSharedArrayBuffer".toList ++ '(' :: (kwText ("buffer_id".toList, .int n) ++ [')']) := by
      rw [show "JSSharedArrayBuffer(buffer_id=".toList = "JSSharedArrayBuffer".toList ++ ('(' :: ("buffer_id".toList ++ ['='])) from rfl,
        show ")".toList = [')'] from rfl]
      simp only [kwText, atomText, List.append_assoc, List.cons_append, List.nil_append]
    rw [h2]
    exact h.mono (by omega)
  | transfer n =>
    have hp : Word "transfer_id".toList := ⟨by decide, by decide⟩
    have h := good_kw "JSArrayBufferTransfer".toList ("transfer_id".toList, .int n) ⟨by decide, by decide⟩ hp
    refine Or.inr ⟨_, .callKw "JSArrayBufferTransfer".toList [("transfer_id".toList, .int n)], .transfer n, rfl, ?_, rfl,
      ⟨fun _ => trivial, fun _ => rfl⟩⟩
    have h2 : "JSArrayBufferTransfer(transfer_id=".toList ++ pyNat n ++ ")".toList
        = "JSArrayBufferTransfer".toList ++ '(' :: (kwText ("transfer_id".toList, .int n) ++ [')']) := by
      rw [show "JSArrayBufferTransfer(transfer_id=".toList = "JSArrayBufferTransfer".toList ++ ('(' :: ("transfer_id".toList ++ ['='])) from rfl,
        show ")".toList = [')'] from rfl]
      simp only [kwText, atomText, List.append_assoc, List.cons_append, List.nil_append]
    rw [h2]
    exact h.mono (by omega)
  | buf b =>
    rw [show reprBacking s (.buf b) = jsReprBuf s b from rfl, jsReprBuf]
    by_cases hl : s.maxlevel = 0
    · rw [if_pos hl]
      exact Or.inl ⟨fun h => by have := h.1; omega, Or.inr (Or.inl ⟨_, rfl, bad_dot _⟩)⟩
    rw [if_neg hl]
    by_cases ha : Accessible b.data
    · by_cases hs : b.data.content.length ≤ s.maxstring
      · obtain ⟨t, e, h1, h2, h3⟩ := reprBuf_good s s.maxlevel b hw ha hs
        have h4 := bufOutcome_same s b ha hs
        cases ho : bufOutcome b.data.content b.max b.data.readonly with
        | error exc =>
          rw [ho] at h3 h4
          refine Or.inl ⟨fun h => ?_, Or.inr (Or.inr ⟨t, e, exc, h1, h2, h3⟩)⟩
          obtain ⟨c, h5, _⟩ := h4.2 h.2
          cases h5
        | ok c =>
          rw [ho] at h3 h4
          refine Or.inr ⟨t, e, .buf c, h1, h2, h3, ⟨fun h => ⟨by omega, h4.1 ⟨c, rfl, h⟩⟩, fun h => ?_⟩⟩
          obtain ⟨c', h5, h6⟩ := h4.2 h.2
          cases h5
          exact h6
      · obtain ⟨t, h1, h2⟩ := reprBuf_long s s.maxlevel b ha (by omega)
        exact Or.inl ⟨fun h => hs h.2.short, Or.inr (Or.inl ⟨t, h1, h2⟩)⟩
    · refine Or.inl ⟨fun h => ha h.2.accessible, ?_⟩
      rcases reprBuf_lost s s.maxlevel b ha with h | ⟨t, h1, h2⟩
      · exact Or.inl ⟨_, h⟩
      · exact Or.inr (Or.inl ⟨t, h1, h2⟩)

/-- The keyword arguments in the text of a view. -/
def viewKws (v : VObj) : List (Text × Atom) :=
  (if v.itemOffset = 0 then [] else [("item_offset".toList, Atom.int v.itemOffset)])
    ++ (match v.itemLength with
        | none => []
        | some n => [("item_length".toList, Atom.int n)])
    ++ (if v.readonly then [("readonly".toList, match v.itemLength with | none => Atom.none | some n => .int n)] else [])

theorem viewKws_word (v : VObj) : ∀ p ∈ viewKws v, Word p.1 := by
  have h1 : Word "item_offset".toList := ⟨by decide, by decide⟩
  have h2 : Word "item_length".toList := ⟨by decide, by decide⟩
  have h3 : Word "readonly".toList := ⟨by decide, by decide⟩
  intro p hp
  rw [viewKws, List.mem_append, List.mem_append] at hp
  rcases hp with (hp | hp) | hp
  · split at hp
    · cases hp
    · rw [List.mem_singleton] at hp; rw [hp]; exact h1
  · split at hp
    · cases hp
    · rw [List.mem_singleton] at hp; rw [hp]; exact h2
  · split at hp
    · rw [List.mem_singleton] at hp; rw [hp]; exact h3
    · cases hp

theorem className_word (bp : Bool) (t : ViewTag) : Word (className bp t) := by
  cases t <;> cases bp <;> exact ⟨by decide, by decide⟩

theorem className_length (bp : Bool) (t : ViewTag) : 10 ≤ (className bp t).length := by
  cases t <;> cases bp <;> decide

theorem reprView_text (bp : Bool) (s : Settings) (v : VObj) (d : Text) (h : reprBacking s v.backing = .ok d) :
    ∃ lead t, reprView bp s v = .ok (className bp v.tag ++ '(' :: (lead ++ d ++ t)) ∧ lead.all space = true ∧
      KwTail t (viewKws v) := by
  obtain ⟨lead, t, h1, h2, h3⟩ := join_kws ⟨0, 0, none⟩ 0 d (viewKws v) (viewKws_word v)
  refine ⟨lead, t, ?_, h2, h3⟩
  have hp : viewPieces v d = d :: (viewKws v).map kwText := by
    unfold viewPieces viewKws
    by_cases ho : v.itemOffset = 0
    · cases hl : v.itemLength <;> cases hr : v.readonly <;> simp [ho, kwText, atomText, pyOptNat]
    · cases hl : v.itemLength <;> cases hr : v.readonly <;> simp [ho, kwText, atomText, pyOptNat]
  unfold reprView
  rw [h]
  simp only [bind, Except.bind]
  rw [hp, ← h1]
  rw [show "(".toList = ['('] from rfl, show ")".toList = [')'] from rfl]
  simp only [Settings.join, List.append_assoc, List.cons_append, List.nil_append]

theorem viewNamed_className (t : ViewTag) : viewNamed (className false t) = some t := by
  cases t <;> decide

theorem viewNamed_backport (bp : Bool) (t : ViewTag) :
    viewNamed (className bp t) = if bp = true ∧ t = .float16 then none else some t := by
  cases t <;> cases bp <;> decide

theorem className_other (bp : Bool) (t : ViewTag) :
    className bp t ≠ "bytearray".toList ∧ className bp t ≠ "memoryview".toList ∧ className bp t ≠ "JSArrayBuffer".toList := by
  cases t <;> cases bp <;> decide

theorem kwArg_view (v : VObj) :
    (kwArg (viewKws v) "item_offset").getD 0 = v.itemOffset ∧ kwArg (viewKws v) "item_length" = v.itemLength ∧
      kwArg (viewKws v) "readonly" = (if v.readonly then v.itemLength else none) ∧
      kwNames (viewKws v) ["item_offset", "item_length", "readonly"] = true := by
  obtain ⟨tag, backing, off, len, ro⟩ := v
  by_cases ho : off = 0
  · subst ho
    cases len <;> cases ro <;> exact ⟨rfl, rfl, rfl, rfl⟩
  · have : ∀ len ro, viewKws ⟨tag, backing, off, len, ro⟩ = ("item_offset".toList, Atom.int off) ::
        viewKws ⟨tag, backing, 0, len, ro⟩ := by
      intro len ro
      unfold viewKws
      rw [if_neg ho, if_pos rfl]
      rfl
    rw [this]
    cases len <;> cases ro <;> exact ⟨rfl, rfl, rfl, rfl⟩

theorem eval_view (bp : Bool) (v : VObj) (e : Expr) (y : Backing) (h : eval e = .value y) :
    eval (.call (className bp v.tag) e (viewKws v)) =
      if bp = true ∧ v.tag = .float16 then .nameError else
        match newView v.tag y v.itemOffset v.itemLength (if v.readonly then v.itemLength else none) with
        | .ok w => .view w
        | .error e => .raises e := by
  obtain ⟨h1, h2, h3⟩ := className_other bp v.tag
  obtain ⟨k1, k2, k3, k4⟩ := kwArg_view v
  rw [eval, h]
  simp only [h1, h2, h3, if_false, viewNamed_backport]
  by_cases hb : bp = true ∧ v.tag = .float16
  · rw [if_pos hb, if_pos hb]
  · rw [if_neg hb, if_neg hb]
    simp only [k4, if_true, k1, k2, k3]
    split
    · rename_i h; rw [h]
    · rename_i h; rw [h]

theorem reprView_good (bp : Bool) (s : Settings) (v : VObj) (d : Text) (e : Expr)
    (h : reprBacking s v.backing = .ok d) (hd : Good 4 d e) :
    ∃ t, reprView bp s v = .ok t ∧ evalText t = eval (.call (className bp v.tag) e (viewKws v)) := by
  obtain ⟨lead, t, h1, h2, h3⟩ := reprView_text bp s v d h
  refine ⟨_, h1, (good_call 4 _ lead d t e _ (className_word bp v.tag) h2 hd h3).length ?_⟩
  have := className_length bp v.tag
  rw [List.length_append]
  omega

theorem reprView_bad (bp : Bool) (s : Settings) (v : VObj) (d : Text) (h : reprBacking s v.backing = .ok d)
    (hd : Bad d) : ∃ t, reprView bp s v = .ok t ∧ evalText t = .syntaxError := by
  obtain ⟨lead, t, h1, h2, h3⟩ := reprView_text bp s v d h
  exact ⟨_, h1, (bad_call _ lead d t (className_word bp v.tag) h2 hd).outcome⟩

end V8.BufRepr
