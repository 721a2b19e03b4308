import Verif.Spec.ValueObjects
import Verif.Proofs.NumInj
import Mathlib.Tactic.ByContra

/-!
# Lemmas about frozen dataclasses as values
-/

namespace V8.ValObj
open V8 V8.Spec.ValObj

theorem number_eq (v : Val) : number v = (numOf v).bind numberOf := by
  cases v with
  | bool b => cases b <;> rfl
  | _ => rfl

theorem numEq_iff {x y : FVal} {a b : Number} (hx : numberOf x = some a) (hy : numberOf y = some b) :
    numEq x y = true ↔ a = b := by
  cases x with
  | nan => cases hx
  | inf n =>
    cases y with
    | nan => cases hy
    | inf m => cases n <;> cases m <;> cases hx <;> cases hy <;> simp [numEq]
    | fin s => cases n <;> cases hx <;> cases hy <;> simp [numEq] <;> exact fun h => WithTop.coe_ne_top (WithBot.coe_injective h).symm
  | fin s =>
    cases y with
    | nan => cases hy
    | inf m => cases m <;> cases hx <;> cases hy <;> simp [numEq]
    | fin t =>
      cases hx
      cases hy
      simp only [numEq, beq_iff_eq, WithBot.coe_inj, WithTop.coe_inj]

theorem numLt_iff {x y : FVal} {a b : Number} (hx : numberOf x = some a) (hy : numberOf y = some b) :
    numLt x y = true ↔ a < b := by
  cases x with
  | nan => cases hx
  | inf n =>
    cases y with
    | nan => cases hy
    | inf m => cases n <;> cases m <;> cases hx <;> cases hy <;> simp [numLt]
    | fin s =>
      cases n <;> cases hx <;> cases hy <;> simp [numLt]
  | fin s =>
    cases y with
    | nan => cases hy
    | inf m =>
      cases m <;> cases hx <;> cases hy <;> simp [numLt]
      exact WithBot.coe_lt_coe.2 (WithTop.coe_lt_top s)
    | fin t =>
      cases hx
      cases hy
      simp only [numLt, decide_eq_true_eq, WithBot.coe_lt_coe, WithTop.coe_lt_coe]

theorem strLt_iff : ∀ (s t : Str), strLt s t = true ↔ s < t
  | [], [] => by simp [strLt]
  | [], _ :: _ => by simp [strLt]
  | _ :: _, [] => by simp [strLt]
  | a :: s, b :: t => by
    unfold strLt
    rw [List.cons_lt_cons_iff]
    split
    · rename_i h
      rw [strLt_iff s t]
      simp [h]
    · rename_i h
      simp [h]

/-- The answers "less", "equal" and "greater" of a linear order give the answer of each operator. -/
theorem pick_answers {α : Type} [LinearOrder α] (op : Op) (x y : α) (lt eq gt : Bool) (hl : lt = true ↔ x < y)
    (he : eq = true ↔ x = y) (hg : gt = true ↔ y < x) : Answers op x y (.ok (op.pick lt eq gt)) := by
  have e1 : lt = decide (x < y) := by rw [Bool.eq_iff_iff, hl, decide_eq_true_eq]
  have e2 : gt = decide (y < x) := by rw [Bool.eq_iff_iff, hg, decide_eq_true_eq]
  cases op with
  | lt => simp only [Answers, Op.pick, e1]
  | gt => simp only [Answers, Op.pick, e2]
  | le =>
    simp only [Answers, Op.pick]
    congr 1
    rw [Bool.eq_iff_iff, Bool.or_eq_true, hl, he, decide_eq_true_eq, le_iff_lt_or_eq]
  | ge =>
    simp only [Answers, Op.pick]
    congr 1
    rw [Bool.eq_iff_iff, Bool.or_eq_true, hg, he, decide_eq_true_eq, le_iff_lt_or_eq, eq_comm (a := x)]

theorem valEq_of_num {v w : Val} {x y : FVal} (hv : numOf v = some x) (hw : numOf w = some y) :
    valEq v w = numEq x y := by
  unfold valEq
  cases v <;> simp_all [numOf]

theorem valCmp_of_num (op : Op) {v w : Val} {x y : FVal} (hv : numOf v = some x) (hw : numOf w = some y) :
    valCmp op v w = .ok (op.pick (numLt x y) (numEq x y) (numLt y x)) := by
  unfold valCmp
  cases v <;> simp_all [numOf]

theorem number_some {v : Val} {a : Number} (h : number v = some a) : ∃ x, numOf v = some x ∧ numberOf x = some a := by
  rw [number_eq] at h
  cases hx : numOf v with
  | none => rw [hx] at h; cases h
  | some x => rw [hx] at h; exact ⟨x, rfl, h⟩

theorem valEq_number {v w : Val} {a b : Number} (hv : number v = some a) (hw : number w = some b) :
    valEq v w = true ↔ a = b := by
  obtain ⟨x, hx, hx'⟩ := number_some hv
  obtain ⟨y, hy, hy'⟩ := number_some hw
  rw [valEq_of_num hx hy, numEq_iff hx' hy']

theorem valCmp_number (op : Op) {v w : Val} {a b : Number} (hv : number v = some a) (hw : number w = some b) :
    Answers op a b (valCmp op v w) := by
  obtain ⟨x, hx, hx'⟩ := number_some hv
  obtain ⟨y, hy, hy'⟩ := number_some hw
  rw [valCmp_of_num op hx hy]
  exact pick_answers op a b _ _ _ (numLt_iff hx' hy') (numEq_iff hx' hy') (numLt_iff hy' hx')

theorem valEq_text (s t : Str) : valEq (.str s) (.str t) = true ↔ s = t := by simp [valEq]

theorem valCmp_text (op : Op) (s t : Str) : Answers op s t (valCmp op (.str s) (.str t)) :=
  pick_answers op s t _ _ _ (strLt_iff s t) (by simp) (strLt_iff t s)

/-- Equality of what fields refer to, in words: both texts or both numbers, and the same. -/
theorem valEq_iff (v w : Val) :
    valEq v w = true ↔ (text v ≠ none ∧ text v = text w) ∨ (number v ≠ none ∧ number v = number w) := by
  rw [number_eq, number_eq]
  by_cases hs : (∃ s, v = .str s) ∧ (∃ s, w = .str s)
  · obtain ⟨⟨s, rfl⟩, t, rfl⟩ := hs
    simp [valEq, text, numOf]
  · have h1 : valEq v w = match numOf v, numOf w with | some x, some y => numEq x y | _, _ => false := by
      unfold valEq
      cases v <;> cases w <;> first | rfl | exact absurd ⟨⟨_, rfl⟩, ⟨_, rfl⟩⟩ hs
    have h2 : ¬ (text v ≠ none ∧ text v = text w) := by
      rintro ⟨h, h'⟩
      cases v with
      | str s =>
        cases w with
        | str t => exact hs ⟨⟨_, rfl⟩, ⟨_, rfl⟩⟩
        | _ => cases h'
      | _ => exact h rfl
    rw [h1]
    simp only [h2, false_or]
    cases hv : numOf v with
    | none => simp
    | some x =>
      cases hw : numOf w with
      | none => simp
      | some y =>
        simp only [Option.bind_some]
        cases hx : numberOf x with
        | none =>
          cases x with
          | nan => simp [numEq]
          | inf n => cases n <;> cases hx
          | fin s => cases hx
        | some a =>
          cases hy : numberOf y with
          | none =>
            cases y with
            | nan => cases x <;> simp [numEq]
            | inf n => cases n <;> cases hy
            | fin s => cases hy
          | some b =>
            rw [numEq_iff hx hy]
            simp

theorem valEq_symm (v w : Val) (h : valEq v w = true) : valEq w v = true := by
  rw [valEq_iff] at h ⊢
  rcases h with ⟨h, h'⟩ | ⟨h, h'⟩
  · exact .inl ⟨h' ▸ h, h'.symm⟩
  · exact .inr ⟨h' ▸ h, h'.symm⟩

theorem text_number (v : Val) : text v = none ∨ number v = none := by
  cases v <;> first | exact .inl rfl | exact .inr rfl

theorem valEq_trans (u v w : Val) (h : valEq u v = true) (h' : valEq v w = true) : valEq u w = true := by
  rw [valEq_iff] at h h' ⊢
  rcases h with ⟨h, e⟩ | ⟨h, e⟩ <;> rcases h' with ⟨h', e'⟩ | ⟨h', e'⟩
  · exact .inl ⟨h, e.trans e'⟩
  · rcases text_number v with hv | hv
    · exact absurd (e ▸ hv) h
    · exact absurd hv h'
  · rcases text_number v with hv | hv
    · exact absurd hv h'
    · exact absurd (e ▸ hv) h
  · exact .inr ⟨h, e.trans e'⟩

theorem same_refl (a : Cell) : same a a = true := by simp [same]

theorem same_symm (a b : Cell) (h : same a b = true) : same b a = true := by
  simp only [same, Bool.or_eq_true, beq_iff_eq] at h ⊢
  exact h.imp Eq.symm (valEq_symm _ _)

theorem same_trans (a b c : Cell) (hab : a.id = b.id → a.val = b.val) (hbc : b.id = c.id → b.val = c.val)
    (h : same a b = true) (h' : same b c = true) : same a c = true := by
  simp only [same, Bool.or_eq_true, beq_iff_eq] at h h' ⊢
  rcases h with h | h <;> rcases h' with h' | h'
  · exact .inl (h.trans h')
  · exact .inr (hab h ▸ h')
  · exact .inr (hbc h' ▸ h)
  · exact .inr (valEq_trans _ _ _ h h')

theorem tupleEq_refl : ∀ l, tupleEq l l = true
  | [] => rfl
  | a :: l => by simp [tupleEq, same_refl, tupleEq_refl l]

theorem tupleEq_symm : ∀ l l', tupleEq l l' = true → tupleEq l' l = true
  | [], [], _ => rfl
  | [], _ :: _, h => by cases h
  | _ :: _, [], h => by cases h
  | a :: l, b :: l', h => by
    simp only [tupleEq, Bool.and_eq_true] at h ⊢
    exact ⟨same_symm _ _ h.1, tupleEq_symm _ _ h.2⟩

theorem tupleEq_trans : ∀ l l' l'', Coherent (l ++ l' ++ l'') → tupleEq l l' = true → tupleEq l' l'' = true →
    tupleEq l l'' = true
  | [], [], _, _, _, h' => h'
  | [], _ :: _, _, _, h, _ => by cases h
  | _ :: _, [], _, _, h, _ => by cases h
  | _ :: _, _ :: _, [], _, _, h => by cases h
  | a :: l, b :: l', c :: l'', hc, h, h' => by
    simp only [tupleEq, Bool.and_eq_true] at h h' ⊢
    refine ⟨same_trans a b c (hc a (by simp) b (by simp)) (hc b (by simp) c (by simp)) h.1 h'.1, ?_⟩
    refine tupleEq_trans l l' l'' (fun x hx y hy => hc x ?_ y ?_) h.2 h'.2
    · simp only [List.mem_append] at hx
      simp only [List.mem_append, List.mem_cons]
      rcases hx with (hx | hx) | hx <;> simp [hx]
    · simp only [List.mem_append] at hy
      simp only [List.mem_append, List.mem_cons]
      rcases hy with (hy | hy) | hy <;> simp [hy]

theorem hashCell_eq (h : PyHash) (a b : Cell) (hi : a.id = b.id → a.val = b.val) (hs : same a b = true) :
    hashCell h a = hashCell h b := by
  simp only [same, Bool.or_eq_true, beq_iff_eq] at hs
  rcases hs with hs | hs
  · have : a = b := by
      cases a; cases b
      simp only at hs hi
      rw [hs, hi hs]
    rw [this]
  · obtain ⟨i, v⟩ := a
    obtain ⟨j, w⟩ := b
    simp only at hs
    by_cases ht : (∃ s, v = .str s) ∧ (∃ s, w = .str s)
    · obtain ⟨⟨s, rfl⟩, t, rfl⟩ := ht
      rw [valEq_text] at hs
      rw [hs]
      rfl
    · have key : ∃ x, numOf v = some x ∧ numOf w = some x ∧ x ≠ .nan := by
        rw [show valEq v w = match numOf v, numOf w with | some x, some y => numEq x y | _, _ => false by
          unfold valEq
          cases v <;> cases w <;> first | rfl | exact absurd ⟨⟨_, rfl⟩, ⟨_, rfl⟩⟩ ht] at hs
        cases hv : numOf v with
        | none => rw [hv] at hs; cases hs
        | some x =>
          cases hw : numOf w with
          | none => rw [hv, hw] at hs; cases hs
          | some y =>
            rw [hv, hw] at hs
            cases x <;> cases y <;> simp_all [numEq]
      obtain ⟨x, hv, hw, hx⟩ := key
      have e : ∀ (i : Ident) (u : Val), numOf u = some x → hashCell h ⟨i, u⟩ = h.num x := by
        intro i u hu
        unfold hashCell
        cases u <;> cases x <;> simp_all [numOf]
      rw [e i v hv, e j w hw]

theorem hashCells_eq (h : PyHash) : ∀ l l', Coherent (l ++ l') → tupleEq l l' = true →
    l.map (hashCell h) = l'.map (hashCell h)
  | [], [], _, _ => rfl
  | [], _ :: _, _, e => by cases e
  | _ :: _, [], _, e => by cases e
  | a :: l, b :: l', hc, e => by
    simp only [tupleEq, Bool.and_eq_true] at e
    rw [List.map_cons, List.map_cons, hashCell_eq h a b (hc a (by simp) b (by simp)) e.1,
      hashCells_eq h l l' (fun x hx y hy => hc x ?_ y ?_) e.2]
    · simp only [List.mem_append] at hx
      simp only [List.mem_append, List.mem_cons]
      rcases hx with hx | hx <;> simp [hx]
    · simp only [List.mem_append] at hy
      simp only [List.mem_append, List.mem_cons]
      rcases hy with hy | hy <;> simp [hy]

/-- Two fields each of which has a key in a linear order: the tuple has the pair of the keys. -/
theorem tupleCmp_pair {α : Type} [LinearOrder α] (op : Op) (a b : Cell) (m n : Nat) (x y : α)
    (hs : same a b = true ↔ x = y) (hc : Answers op x y (valCmp op a.val b.val)) :
    Answers op (toLex (x, m)) (toLex (y, n))
      (tupleCmp op [a, ⟨.member m, .int m⟩] [b, ⟨.member n, .int n⟩]) ∧
    (tupleEq [a, ⟨.member m, .int m⟩] [b, ⟨.member n, .int n⟩] = true ↔ toLex (x, m) = toLex (y, n)) := by
  have hm : same ⟨.member m, .int m⟩ ⟨.member n, .int n⟩ = true ↔ m = n := by
    simp only [same, Bool.or_eq_true, beq_iff_eq, Ident.member.injEq]
    constructor
    · rintro (h | h)
      · exact_mod_cast h
      · simp only [valEq, numOf, numEq, beq_iff_eq] at h
        have h2 : (2 : Int) ^ 1074 ≠ 0 := by positivity
        exact_mod_cast Int.eq_of_mul_eq_mul_right h2 h
    · rintro rfl
      exact .inl rfl
  constructor
  · by_cases hxy : x = y
    · subst hxy
      rw [tupleCmp, if_pos (hs.2 rfl)]
      by_cases hmn : m = n
      · subst hmn
        rw [tupleCmp, if_pos (hm.2 rfl)]
        exact pick_answers op _ _ _ _ _ (by simp) (by simp) (by simp)
      · rw [tupleCmp, if_neg (fun h => hmn (hm.1 h))]
        rw [valCmp_of_num op (x := .fin (m * 2 ^ 1074)) (y := .fin (n * 2 ^ 1074)) rfl rfl]
        have h2 : (0 : Int) < 2 ^ 1074 := by positivity
        refine pick_answers op _ _ _ _ _ ?_ ?_ ?_
        · simp only [numLt, decide_eq_true_eq, Prod.Lex.toLex_lt_toLex, lt_irrefl, true_and, false_or]
          rw [Int.mul_lt_mul_right h2]
          exact_mod_cast Iff.rfl
        · simp only [numEq, beq_iff_eq, toLex_inj, Prod.mk.injEq, true_and]
          constructor
          · intro h
            exact_mod_cast Int.eq_of_mul_eq_mul_right (Int.ne_of_gt h2) h
          · rintro rfl; rfl
        · simp only [numLt, decide_eq_true_eq, Prod.Lex.toLex_lt_toLex, lt_irrefl, true_and, false_or]
          rw [Int.mul_lt_mul_right h2]
          exact_mod_cast Iff.rfl
    · rw [tupleCmp, if_neg (fun h => hxy (hs.1 h))]
      cases op with
      | lt =>
        simp only [Answers] at hc ⊢
        rw [hc]
        congr 1
        simp [Prod.Lex.toLex_lt_toLex, hxy]
      | le =>
        simp only [Answers] at hc ⊢
        rw [hc]
        congr 1
        simp [hxy, le_iff_lt_or_eq, Prod.Lex.toLex_lt_toLex]
      | gt =>
        simp only [Answers] at hc ⊢
        rw [hc]
        congr 1
        simp [Prod.Lex.toLex_lt_toLex, Ne.symm hxy]
      | ge =>
        simp only [Answers] at hc ⊢
        rw [hc]
        congr 1
        simp [Ne.symm hxy, le_iff_lt_or_eq, Prod.Lex.toLex_lt_toLex]
  · simp only [tupleEq, Bool.and_eq_true, hs, hm, and_true, toLex_inj, Prod.mk.injEq]

/-- A double that is an infinity is known by its sign. -/
theorem fval_inf_inj {x y : F64} {n : Bool} (hx : fval x = .inf n) (hy : fval y = .inf n) : x = y := by
  have key : ∀ {z : F64}, fval z = .inf n → fExp z.toNat = 2047 ∧ fFrac z.toNat = 0 ∧ fSign z.toNat = n := by
    intro z hz
    unfold fval at hz
    simp only at hz
    split at hz
    · rename_i h
      split at hz
      · rename_i h'
        injection hz with hz
        exact ⟨h, h', hz⟩
      · cases hz
    · cases hz
  obtain ⟨a1, a2, a3⟩ := key hx
  obtain ⟨b1, b2, b3⟩ := key hy
  have hlx := x.toNat_lt
  have hly := y.toNat_lt
  apply UInt64.toNat_inj.1
  have h5 : fSign x.toNat = fSign y.toNat := a3.trans b3.symm
  have h6 : x.toNat / 2 ^ 63 = y.toNat / 2 ^ 63 := by
    unfold fSign at h5
    have c1 : x.toNat / 2 ^ 63 < 2 := by omega
    have c2 : y.toNat / 2 ^ 63 < 2 := by omega
    by_cases d1 : x.toNat / 2 ^ 63 = 1 <;> by_cases d2 : y.toNat / 2 ^ 63 = 1
    · omega
    · have : y.toNat / 2 ^ 63 = 0 := by omega
      rw [d1, this] at h5
      cases h5
    · have : x.toNat / 2 ^ 63 = 0 := by omega
      rw [d2, this] at h5
      cases h5
    · omega
  unfold fExp at a1 b1
  unfold fFrac at a2 b2
  omega

theorem fval_zero {x : F64} (h : fval x = .fin 0) : x = 0 ∨ x = 0x8000000000000000 := by
  unfold fval at h
  simp only at h
  split at h
  · split at h <;> cases h
  rename_i he
  injection h with h
  have hm : fMag x.toNat = 0 := by split at h <;> omega
  unfold fMag at hm
  have hlx := x.toNat_lt
  have h0 : fExp x.toNat = 0 ∧ fFrac x.toNat = 0 := by
    split at hm
    · exact ⟨by assumption, hm⟩
    · exact absurd hm (Nat.mul_ne_zero (by omega) (by positivity))
  obtain ⟨h1, h2⟩ := h0
  unfold fExp at h1
  unfold fFrac at h2
  have : x.toNat = 0 ∨ x.toNat = 2 ^ 63 := by omega
  rcases this with h | h
  · exact .inl (UInt64.toNat_inj.1 h)
  · exact .inr (UInt64.toNat_inj.1 (by rw [h]; rfl))

theorem numEq_fval {x y : FVal} (h : numEq x y = true) : x = y ∧ x ≠ .nan := by
  cases x <;> cases y <;> simp_all [numEq]

/-- Two Numbers that are equal are written as the same double, if they are both or neither -0.0. -/
theorem double_eq {x y : F64} (h : numEq (fval x) (fval y) = true) (hz : x = 0x8000000000000000 ↔ y = 0x8000000000000000) : x = y := by
  obtain ⟨e, hn⟩ := numEq_fval h
  cases hx : fval x with
  | nan => exact absurd hx hn
  | inf n => exact fval_inf_inj hx (e ▸ hx)
  | fin s =>
    by_cases hs : s = 0
    · subst hs
      rcases fval_zero hx with h1 | h1 <;> rcases fval_zero (e ▸ hx) with h2 | h2
      · rw [h1, h2]
      · exact (hz.2 h2).trans h2.symm
      · exact h1.trans (hz.1 h1).symm
      · rw [h1, h2]
    · exact fval_inj hx (e ▸ hx) hs

theorem doubleOfInt_not_minus {n : Int} (hn : n.natAbs ≤ 2 ^ 53 - 1) : doubleOfInt n ≠ 0x8000000000000000 := by
  intro h
  have h1 := fval_doubleOfInt n hn
  rw [h, show fval 0x8000000000000000 = .fin 0 by decide +kernel] at h1
  injection h1 with h1
  have h2 : n = 0 := (Int.mul_eq_zero.1 h1.symm).resolve_right (by positivity)
  subst h2
  revert h
  decide

/-! ## Constructors -/

theorem mkPrimObject_value {v : Val} {t : Option Tag} {r : Val × Tag} (h : mkPrimObject v t = .ok r) : r.1 = v := by
  unfold mkPrimObject at h
  cases he : expectedTags v with
  | none => rw [he] at h; cases h
  | some p =>
    rw [he] at h
    cases t with
    | none => cases h; rfl
    | some t =>
      simp only at h
      split at h
      · cases h
      · cases h; rfl

theorem mkPrimObject_tag {v : Val} {t : Tag} {r : Val × Tag} (h : mkPrimObject v (some t) = .ok r) : t = r.2 := by
  unfold mkPrimObject at h
  cases he : expectedTags v with
  | none => rw [he] at h; cases h
  | some p =>
    rw [he] at h
    simp only at h
    split at h
    · cases h
    · cases h; rfl

theorem newPrim_ok {v : Cell} {t : Option Tag} {p : Obj} (h : newPrim v t = .ok p) :
    ∃ t', mkPrimObject v.val t = .ok (v.val, t') ∧ p = ⟨.primObject, 0, [v, tagCell t'], []⟩ := by
  unfold newPrim at h
  cases e : mkPrimObject v.val t with
  | error x => rw [e] at h; cases h
  | ok r =>
    rw [e] at h
    cases h
    exact ⟨r.2, by rw [← mkPrimObject_value e], rfl⟩

theorem mkPrimObject_float {x : F64} {t : Option Tag} {r : Val × Tag} (h : mkPrimObject (.float x) t = .ok r) :
    r.2 = .kNumberObject := by
  cases t with
  | none => cases h; rfl
  | some t =>
    simp only [mkPrimObject, expectedTags] at h
    split at h
    · cases h
    · cases h
      rename_i hn
      by_contra hne
      exact hn ⟨fun h => hne h.symm, by simp⟩

theorem mkPrimObject_str {s : Str} {t : Option Tag} {r : Val × Tag} (h : mkPrimObject (.str s) t = .ok r) :
    r.2 = .kStringObject := by
  cases t with
  | none => cases h; rfl
  | some t =>
    simp only [mkPrimObject, expectedTags] at h
    split at h
    · cases h
    · cases h
      rename_i hn
      by_contra hne
      exact hn ⟨fun h => hne h.symm, by simp⟩

theorem tag_byte_inj (t u : Tag) (h : t.byte.toNat = u.byte.toNat) : t = u := by
  have h' : t.byte = u.byte := UInt8.toNat_inj.1 h
  have e : ∀ t : Tag, Tag.ofByte t.byte = some t := by intro t; cases t <;> rfl
  exact Option.some.inj ((e t).symm.trans ((congrArg Tag.ofByte h').trans (e u)))

theorem tagCell_same (t u : Tag) : same (tagCell t) (tagCell u) = true ↔ t = u := by
  simp only [tagCell, same, Bool.or_eq_true, beq_iff_eq, Ident.member.injEq]
  constructor
  · rintro (h | h)
    · exact tag_byte_inj t u (by exact_mod_cast h)
    · simp only [valEq, numOf, numEq, beq_iff_eq] at h
      have h2 : (2 : Int) ^ 1074 ≠ 0 := by positivity
      exact tag_byte_inj t u (by exact_mod_cast Int.eq_of_mul_eq_mul_right h2 h)
  · rintro rfl
    exact .inl rfl

theorem newRegExp_ok {e i : Nat} {s : Str} {f : Nat} {p : Obj} (h : newRegExp e i s f = .ok p) :
    ∃ r, mkRegExp s f = .ok r ∧
      p = ⟨.regExp, 0, [⟨.obj (if s = [] then e else i), .str r.source⟩, ⟨.member r.flags, .int r.flags⟩], []⟩ := by
  unfold newRegExp at h
  cases hr : mkRegExp s f with
  | error x => rw [hr] at h; cases h
  | ok r =>
    rw [hr] at h
    cases h
    exact ⟨r, rfl, rfl⟩

theorem mkRegExp_source {s : Str} {f : Nat} {r : RegExp} (h : mkRegExp s f = .ok r) :
    r.source = if s = [] then V8.str "(?:)" else s := by
  unfold mkRegExp at h
  split at h
  · cases h
  · split at h
    · cases h
    · cases h; rfl

theorem regExp_same (e i j : Nat) (s s' : Str) (r r' : RegExp) (f f' : Nat) (hi : i = j → s = s') (hei : e ≠ i)
    (hej : e ≠ j) (h1 : mkRegExp s f = .ok r) (h2 : mkRegExp s' f' = .ok r') :
    same ⟨.obj (if s = [] then e else i), .str r.source⟩ ⟨.obj (if s' = [] then e else j), .str r'.source⟩ = true ↔
      r.source = r'.source := by
  simp only [same, Bool.or_eq_true, beq_iff_eq, Ident.obj.injEq, valEq_text]
  constructor
  · rintro (h | h)
    · rw [mkRegExp_source h1, mkRegExp_source h2]
      by_cases hs : s = [] <;> by_cases hs' : s' = []
      · rw [if_pos hs, if_pos hs']
      · rw [if_pos hs, if_neg hs'] at h
        exact absurd h hej
      · rw [if_neg hs, if_pos hs'] at h
        exact absurd h.symm hei
      · rw [if_neg hs, if_neg hs'] at h
        rw [if_neg hs, if_neg hs', hi h]
    · exact h
  · exact .inr

/-! ## Attributes -/

theorem lookup_contains {d : Attrs} {n : String} {c : Cell} (h : d.lookup n = some c) :
    (d.map (·.1)).contains n = true := by
  induction d with
  | nil => cases h
  | cons e d ih =>
    obtain ⟨m, x⟩ := e
    rw [List.lookup_cons] at h
    by_cases hm : n = m
    · subst hm; simp
    · rw [beq_eq_false_iff_ne.2 hm] at h
      simp only at h
      have := ih h
      simp only [List.map_cons, List.contains_cons, this, Bool.or_true]

theorem lookup_filter_ne {d : Attrs} {n m : String} (h : n ≠ m) :
    (d.filter (fun e => e.1 ≠ m)).lookup n = d.lookup n := by
  induction d with
  | nil => rfl
  | cons e d ih =>
    obtain ⟨k, x⟩ := e
    rw [List.filter_cons]
    by_cases hk : k = m
    · subst hk
      simp only [ne_eq, not_true_eq_false, decide_false, Bool.false_eq_true, if_false]
      rw [ih, List.lookup_cons, beq_eq_false_iff_ne.2 h]
    · simp only [ne_eq, hk, not_false_eq_true, decide_true, if_true]
      rw [List.lookup_cons, List.lookup_cons, ih]

theorem lookup_append_some {d e : Attrs} {n : String} {c : Cell} (h : d.lookup n = some c) :
    (d ++ e).lookup n = some c := by
  induction d with
  | nil => cases h
  | cons x d ih =>
    obtain ⟨k, y⟩ := x
    rw [List.cons_append, List.lookup_cons]
    rw [List.lookup_cons] at h
    cases hk : n == k with
    | true => rw [hk] at h; exact h
    | false => rw [hk] at h; exact ih h

theorem dictAct_keeps {d : Attrs} {n : String} {c : Cell} (act : Act) (hn : act.name ≠ n) (h : d.lookup n = some c) :
    (dictAct d act).1.lookup n = some c := by
  cases act with
  | set m x =>
    exact lookup_append_some ((lookup_filter_ne (Ne.symm hn)).trans h)
  | del m =>
    simp only [dictAct]
    split
    · exact (lookup_filter_ne (Ne.symm hn)).trans h
    · exact h

theorem onceAct_keeps {d : Attrs} {n : String} {c : Cell} (hf : n ∈ constraintFields) (act : Act)
    (h : d.lookup n = some c) : (onceAct d act).1.lookup n = some c := by
  have hf' : constraintFields.contains n = true := by simpa using hf
  by_cases hn : act.name = n
  · cases act with
    | set m x =>
      cases hn
      unfold onceAct
      simp only [Act.name] at hf' h
      simp only [hf', lookup_contains h, Bool.and_self, if_true]
      exact h
    | del m =>
      cases hn
      unfold onceAct
      simp only [Act.name] at hf' h
      simp only [hf', if_true]
      exact h
  · cases act with
    | set m x =>
      unfold onceAct
      simp only
      split
      · exact h
      · exact dictAct_keeps _ hn h
    | del m =>
      unfold onceAct
      simp only
      split
      · exact h
      · exact dictAct_keeps _ hn h

end V8.ValObj
