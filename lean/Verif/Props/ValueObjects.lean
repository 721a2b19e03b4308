import Verif.Proofs.ValueObjects
import Verif.Props.PrimObject

/-!
# C86: JSPrimitiveObject, JSRegExp and V8SharedObjectReference are values
-/

namespace V8.Props
open V8 V8.Spec V8.ValObj V8.Spec.ValObj

/-- C86: two JSPrimitiveObjects are equal exactly if they have the same tag and wrap the same object, the same text
or the same number. -/
theorem C86_equal (v w : Cell) (t u : Option Tag) (p q : Obj) (hp : newPrim v t = .ok p) (hq : newPrim w u = .ok q) :
    ∃ t' u', mkPrimObject v.val t = .ok (v.val, t') ∧ mkPrimObject w.val u = .ok (w.val, u') ∧
      (eqObj p q = true ↔ t' = u' ∧ (v.id = w.id ∨ (text v.val ≠ none ∧ text v.val = text w.val) ∨
        (number v.val ≠ none ∧ number v.val = number w.val))) := by
  obtain ⟨t', e1, rfl⟩ := newPrim_ok hp
  obtain ⟨u', e2, rfl⟩ := newPrim_ok hq
  refine ⟨t', u', e1, e2, ?_⟩
  rw [← valEq_iff]
  simp only [eqObj, and_self, if_true, tupleEq, Bool.and_eq_true, and_true, tagCell_same]
  simp only [same, Bool.or_eq_true, beq_iff_eq]
  exact and_comm

/-- The wrapper of 1 as a Number is equal to that of 1.0, and not to that of 1 as a BigInt nor to that of True. -/
example :
    let o (i : Nat) (v : Val) (t : Option Tag) := newPrim ⟨.obj i, v⟩ t
    ∃ a b c d, o 0 (.int 1) none = .ok a ∧ o 1 (.float 0x3ff0000000000000) none = .ok b ∧
      o 2 (.int 1) (some .kBigIntObject) = .ok c ∧ o 3 (.bool true) none = .ok d ∧
      eqObj a b = true ∧ eqObj a c = false ∧ eqObj a d = false :=
  ⟨_, _, _, _, rfl, rfl, rfl, rfl, by decide +kernel, by decide +kernel, by decide +kernel⟩

/-- C86: two JSRegExps are equal exactly if they have the same source and the same flags. -/
theorem C86_equal_regexp (e i j : Nat) (s s' : Str) (f f' : Nat) (p q : Obj) (hi : i = j → s = s')
    (hei : e ≠ i) (hej : e ≠ j)
    (hp : newRegExp e i s f = .ok p) (hq : newRegExp e j s' f' = .ok q) :
    ∃ r r', mkRegExp s f = .ok r ∧ mkRegExp s' f' = .ok r' ∧
      (eqObj p q = true ↔ r.source = r'.source ∧ r.flags = r'.flags) := by
  obtain ⟨r, h1, rfl⟩ := newRegExp_ok hp
  obtain ⟨r', h2, rfl⟩ := newRegExp_ok hq
  refine ⟨r, r', h1, h2, ?_⟩
  have hs := regExp_same e i j s s' r r' f f' hi hei hej h1 h2
  have := (tupleCmp_pair .lt ⟨.obj (if s = [] then e else i), .str r.source⟩ ⟨.obj (if s' = [] then e else j), .str r'.source⟩
    r.flags r'.flags r.source r'.source hs (valCmp_text .lt _ _)).2
  simp only [eqObj, and_self, if_true]
  refine this.trans ?_
  simp only [toLex_inj, Prod.mk.injEq]

/-- The empty source and `(?:)` give the same RegExp. -/
example : ∃ p q r, newRegExp 0 1 [] 5 = .ok p ∧ newRegExp 0 2 (V8.str "(?:)") 5 = .ok q ∧
    newRegExp 0 1 [] 4 = .ok r ∧ eqObj p q = true ∧ eqObj p r = false :=
  ⟨⟨.regExp, 0, [⟨.obj 0, .str (V8.str "(?:)")⟩, flagCell 5], []⟩, ⟨.regExp, 0, [⟨.obj 2, .str (V8.str "(?:)")⟩, flagCell 5], []⟩,
    ⟨.regExp, 0, [⟨.obj 0, .str (V8.str "(?:)")⟩, flagCell 4], []⟩,
    by decide +kernel, by decide +kernel, by decide +kernel, by decide +kernel, by decide +kernel⟩

/-- C86: `==` is an equivalence on the objects of the three classes and their subclasses. -/
theorem C86_equivalence (a b c : Obj) :
    eqObj a a = true ∧ (eqObj a b = true → eqObj b a = true) ∧
    (Coherent (a.fields ++ b.fields ++ c.fields) → eqObj a b = true → eqObj b c = true → eqObj a c = true) := by
  refine ⟨by simp [eqObj, tupleEq_refl], fun h => ?_, fun hc h h' => ?_⟩
  · unfold eqObj at h ⊢
    split at h
    · rename_i hk
      rw [if_pos ⟨hk.1.symm, hk.2.symm⟩]
      exact tupleEq_symm _ _ h
    · cases h
  · unfold eqObj at h h' ⊢
    split at h
    · rename_i hk
      split at h'
      · rename_i hk'
        rw [if_pos ⟨hk.1.trans hk'.1, hk.2.trans hk'.2⟩]
        exact tupleEq_trans _ _ _ hc h h'
      · cases h'
    · cases h

/-- C86: a wrapped NaN is equal to the wrapper of the same NaN object and to no other. -/
theorem C86_equal_nan (v w : Cell) (t u : Option Tag) (p q : Obj) (hp : newPrim v t = .ok p) (hq : newPrim w u = .ok q)
    (hn : IsNaN v.val) (hc : v.id = w.id → v.val = w.val) : eqObj p q = true ↔ v.id = w.id := by
  obtain ⟨t', u', h1, h2, h⟩ := C86_equal v w t u p q hp hq
  obtain ⟨x, hx, hx'⟩ := hn
  rw [h]
  have ht : text v.val = none := by rw [hx]; rfl
  have hnum : number v.val = none := by rw [hx]; simp [number, hx', numberOf]
  rw [ht, hnum]
  simp only [ne_eq, not_true_eq_false, false_and, or_false]
  refine ⟨fun h => h.2, fun h => ⟨?_, h⟩⟩
  have e := hc h
  rw [← e, hx] at h2
  rw [hx] at h1
  exact (mkPrimObject_float h1).trans (mkPrimObject_float h2).symm

example : ∃ p q, newPrim ⟨.obj 0, .float 0x7ff8000000000000⟩ none = .ok p ∧
    newPrim ⟨.obj 1, .float 0x7ff8000000000000⟩ none = .ok q ∧ eqObj p q = false ∧ eqObj p p = true ∧
    IsNaN (.float 0x7ff8000000000000) :=
  ⟨_, _, rfl, rfl, by decide +kernel, by decide +kernel, _, rfl, by decide +kernel⟩

/-- C86: equal objects have the same hash, whatever hash Python gives to numbers, text and tuples. -/
theorem C86_hash (h : PyHash) (a b : Obj) (hc : Coherent (a.fields ++ b.fields)) (e : eqObj a b = true) :
    hashObj h a = hashObj h b := by
  unfold eqObj at e
  split at e
  · unfold hashObj
    rw [hashCells_eq h _ _ hc e]
  · cases e

/-- 1 and 1.0 again. -/
example : ∃ a b, newPrim ⟨.obj 0, .int 1⟩ none = .ok a ∧ newPrim ⟨.obj 1, .float 0x3ff0000000000000⟩ none = .ok b ∧
    Coherent (a.fields ++ b.fields) ∧ eqObj a b = true ∧ a ≠ b :=
  ⟨_, _, rfl, rfl, by unfold Coherent; decide +kernel, by decide +kernel, by decide⟩

/-- C86: wrapped numbers other than NaN are ordered by their value and then by their tag, in a linear order that
`==` agrees with. -/
theorem C86_order_numbers (op : Op) (v w : Cell) (t u : Option Tag) (p q : Obj) (x y : Number)
    (hc : v.id = w.id → v.val = w.val) (hx : number v.val = some x) (hy : number w.val = some y)
    (hp : newPrim v t = .ok p) (hq : newPrim w u = .ok q) :
    ∃ t' u', mkPrimObject v.val t = .ok (v.val, t') ∧ mkPrimObject w.val u = .ok (w.val, u') ∧
      Answers op (toLex (x, t'.byte.toNat)) (toLex (y, u'.byte.toNat)) (cmpObj op p q) ∧
      (eqObj p q = true ↔ toLex (x, t'.byte.toNat) = toLex (y, u'.byte.toNat)) := by
  obtain ⟨t', e1, rfl⟩ := newPrim_ok hp
  obtain ⟨u', e2, rfl⟩ := newPrim_ok hq
  refine ⟨t', u', e1, e2, ?_⟩
  have hs : same v w = true ↔ x = y := by
    simp only [same, Bool.or_eq_true, beq_iff_eq, valEq_number hx hy]
    constructor
    · rintro (h | h)
      · rw [hc h, hy] at hx
        exact (Option.some.inj hx).symm
      · exact h
    · exact .inr
  have := tupleCmp_pair op v w t'.byte.toNat u'.byte.toNat x y hs (valCmp_number op hx hy)
  simp only [cmpObj, eqObj, Kind.ordered, and_self, if_true]
  exact this

/-- -1, 0.5, 1, True and the BigInt 1 in this order: 1, True and the BigInt 1 have the same value, and the tags `n`, `y`,
`z` decide. -/
example : ∃ a b c d e, newPrim ⟨.obj 0, .int (-1)⟩ none = .ok a ∧ newPrim ⟨.obj 1, .float 0x3fe0000000000000⟩ none = .ok b ∧
    newPrim ⟨.obj 2, .int 1⟩ none = .ok c ∧ newPrim ⟨.obj 3, .bool true⟩ none = .ok d ∧
    newPrim ⟨.obj 4, .int 1⟩ (some .kBigIntObject) = .ok e ∧
    cmpObj .lt a b = .ok true ∧ cmpObj .le b c = .ok true ∧ cmpObj .gt d c = .ok true ∧ cmpObj .ge d e = .ok false :=
  ⟨_, _, _, _, _, rfl, rfl, rfl, rfl, rfl, by decide +kernel, by decide +kernel, by decide +kernel, by decide +kernel⟩

/-- C86: wrapped strings are ordered by their code points. -/
theorem C86_order_strings (op : Op) (v w : Cell) (t u : Option Tag) (p q : Obj) (s s' : Str)
    (hc : v.id = w.id → v.val = w.val) (hx : v.val = .str s) (hy : w.val = .str s')
    (hp : newPrim v t = .ok p) (hq : newPrim w u = .ok q) :
    Answers op s s' (cmpObj op p q) ∧ (eqObj p q = true ↔ s = s') := by
  obtain ⟨t', e1, rfl⟩ := newPrim_ok hp
  obtain ⟨u', e2, rfl⟩ := newPrim_ok hq
  rw [hx] at e1
  rw [hy] at e2
  have ht := mkPrimObject_str e1
  have hu := mkPrimObject_str e2
  subst ht hu
  have hs : same v w = true ↔ s = s' := by
    simp only [same, Bool.or_eq_true, beq_iff_eq, hx, hy, valEq_text]
    constructor
    · rintro (h | h)
      · have := hc h
        rw [hx, hy] at this
        exact Val.str.inj this
      · exact h
    · exact .inr
  have := tupleCmp_pair op v w (Tag.kStringObject.byte.toNat) (Tag.kStringObject.byte.toNat) s s' hs
    (by rw [hx, hy]; exact valCmp_text op s s')
  simp only [cmpObj, eqObj, Kind.ordered, and_self, if_true]
  refine ⟨?_, this.2.trans (by simp)⟩
  have h1 := this.1
  unfold tagCell
  cases op <;> simp only [Answers] at h1 ⊢ <;> rw [h1] <;> congr 1 <;>
    simp [Prod.Lex.toLex_lt_toLex, Prod.Lex.toLex_le_toLex, le_iff_lt_or_eq]

example : ∃ a b, newPrim ⟨.obj 0, .str [97]⟩ none = .ok a ∧ newPrim ⟨.obj 1, .str [97, 97]⟩ none = .ok b ∧
    cmpObj .lt a b = .ok true ∧ cmpObj .ge a b = .ok false :=
  ⟨_, _, rfl, rfl, by decide +kernel, by decide +kernel⟩

/-- C86: a string is not ordered with a number: TypeError, for every operator. -/
theorem C86_order_mixed (op : Op) (v w : Cell) (t u : Option Tag) (p q : Obj) (s : Str) (hc : v.id ≠ w.id)
    (hx : v.val = .str s) (hy : text w.val = none) (hp : newPrim v t = .ok p) (hq : newPrim w u = .ok q) :
    cmpObj op p q = .error .typeError ∧ cmpObj op q p = .error .typeError := by
  obtain ⟨t', e1, rfl⟩ := newPrim_ok hp
  obtain ⟨u', e2, rfl⟩ := newPrim_ok hq
  have hm : ∀ w, text w = none → valEq (.str s) w = false ∧ valCmp op (.str s) w = .error .typeError ∧
      valEq w (.str s) = false ∧ valCmp op w (.str s) = .error .typeError := by
    intro w hw
    cases w with
    | str s' => cases hw
    | _ => simp [valEq, valCmp, numOf]
  obtain ⟨h1, h2, h3, h4⟩ := hm _ hy
  have hb : (v.id == w.id) = false := by simp [hc]
  have hb' : (w.id == v.id) = false := by simp [Ne.symm hc]
  constructor
  · simp [cmpObj, Kind.ordered, tupleCmp, same, hx, h1, h2, hb]
  · simp [cmpObj, Kind.ordered, tupleCmp, same, hx, h3, h4, hb']

example : ∃ a b, newPrim ⟨.obj 0, .str [97]⟩ none = .ok a ∧ newPrim ⟨.obj 1, .int 3⟩ none = .ok b ∧
    cmpObj .lt a b = .error .typeError ∧ cmpObj .lt b a = .error .typeError :=
  ⟨_, _, rfl, rfl, by decide +kernel, by decide +kernel⟩

/-- C86: a wrapped NaN is neither less nor greater than another wrapped number. -/
theorem C86_order_nan (op : Op) (v w : Cell) (t u : Option Tag) (p q : Obj) (hc : v.id ≠ w.id)
    (hx : IsNaN v.val) (hy : text w.val = none) (hp : newPrim v t = .ok p) (hq : newPrim w u = .ok q) :
    cmpObj op p q = .ok false ∧ cmpObj op q p = .ok false := by
  obtain ⟨t', e1, rfl⟩ := newPrim_ok hp
  obtain ⟨u', e2, rfl⟩ := newPrim_ok hq
  obtain ⟨x, hx, hx'⟩ := hx
  obtain ⟨y, hw⟩ : ∃ y, numOf w.val = some y := by
    cases hv : w.val with
    | str s => rw [hv] at hy; cases hy
    | bool b => exact ⟨_, rfl⟩
    | int n => exact ⟨_, rfl⟩
    | float x => exact ⟨_, rfl⟩
    | _ => rw [hv] at e2; simp [mkPrimObject, expectedTags] at e2
  have hv : numOf v.val = some .nan := by rw [hx]; simp [numOf, hx']
  have n1 : numEq .nan y = false := by simp [numEq]
  have n2 : numEq y .nan = false := by cases y <;> rfl
  have n3 : numLt y .nan = false := by cases y <;> rfl
  have n4 : numLt .nan y = false := by simp [numLt]
  have hb : (v.id == w.id) = false := by simp [hc]
  have hb' : (w.id == v.id) = false := by simp [Ne.symm hc]
  constructor
  · simp only [cmpObj, Kind.ordered, and_self, if_true, tupleCmp, same, hb, valEq_of_num hv hw, n1,
      valCmp_of_num op hv hw, n3, n4, Bool.or_self]
    cases op <;> rfl
  · simp only [cmpObj, Kind.ordered, and_self, if_true, tupleCmp, same, hb', valEq_of_num hw hv, n2,
      valCmp_of_num op hw hv, n3, n4, Bool.or_self]
    cases op <;> rfl

/-- C86: JSRegExps are ordered by source and then by flags, in a linear order that `==` agrees with. -/
theorem C86_order_regexp (op : Op) (e i j : Nat) (s s' : Str) (f f' : Nat) (p q : Obj) (hi : i = j → s = s')
    (hei : e ≠ i) (hej : e ≠ j)
    (hp : newRegExp e i s f = .ok p) (hq : newRegExp e j s' f' = .ok q) :
    ∃ r r', mkRegExp s f = .ok r ∧ mkRegExp s' f' = .ok r' ∧
      Answers op (toLex (r.source, r.flags)) (toLex (r'.source, r'.flags)) (cmpObj op p q) ∧
      (eqObj p q = true ↔ toLex (r.source, r.flags) = toLex (r'.source, r'.flags)) := by
  obtain ⟨r, h1, rfl⟩ := newRegExp_ok hp
  obtain ⟨r', h2, rfl⟩ := newRegExp_ok hq
  refine ⟨r, r', h1, h2, ?_⟩
  have hs := regExp_same e i j s s' r r' f f' hi hei hej h1 h2
  simp only [cmpObj, eqObj, Kind.ordered, and_self, if_true]
  exact tupleCmp_pair op ⟨.obj (if s = [] then e else i), .str r.source⟩ ⟨.obj (if s' = [] then e else j), .str r'.source⟩
    r.flags r'.flags r.source r'.source hs (valCmp_text op _ _)

example : ∃ p q, newRegExp 0 1 [97] 5 = .ok p ∧ newRegExp 0 2 [97] 6 = .ok q ∧ cmpObj .lt p q = .ok true ∧
    cmpObj .le q p = .ok false :=
  ⟨⟨.regExp, 0, [⟨.obj 1, .str [97]⟩, flagCell 5], []⟩, ⟨.regExp, 0, [⟨.obj 2, .str [97]⟩, flagCell 6], []⟩,
    by decide +kernel, by decide +kernel, by decide +kernel, by decide +kernel⟩

/-- C86: objects of two classes are not equal and not ordered, and V8SharedObjectReferences are not ordered. -/
theorem C86_classes (op : Op) (a b : Obj) :
    ((a.kind ≠ b.kind ∨ a.cls ≠ b.cls) → eqObj a b = false ∧ cmpObj op a b = .error .typeError) ∧
    (a.kind = .sharedRef → cmpObj op a b = .error .typeError) ∧
    (∀ i j, eqObj (newSharedRef i) (newSharedRef j) = same i j) := by
  refine ⟨fun h => ?_, fun h => ?_, fun i j => ?_⟩
  · have : ¬ (a.kind = b.kind ∧ a.cls = b.cls) := fun h' => h.elim (· h'.1) (· h'.2)
    simp [eqObj, cmpObj, this]
  · simp [cmpObj, h, Kind.ordered]
  · simp [eqObj, newSharedRef, tupleEq]

/-- C86: equal wrapped primitives, both or neither of them -0.0, are written with the same tag and the same bytes. -/
theorem C86_same_bytes (P Q : PrimObj) (i j : Ident) (a b : Obj) (hi : i = j → P.value = Q.value)
    (ha : newPrim ⟨i, P.value⟩ (some P.tag) = .ok a) (hb : newPrim ⟨j, Q.value⟩ (some Q.tag) = .ok b)
    (e : eqObj a b = true) (hz : IsMinusZero P.value ↔ IsMinusZero Q.value) :
    P.tag = Q.tag ∧ primObjPayload P = primObjPayload Q := by
  obtain ⟨t', e1, rfl⟩ := newPrim_ok ha
  obtain ⟨u', e2, rfl⟩ := newPrim_ok hb
  have ht : P.tag = t' := mkPrimObject_tag e1
  have hu : Q.tag = u' := mkPrimObject_tag e2
  subst ht hu
  simp only [eqObj, and_self, if_true, tupleEq, Bool.and_eq_true, and_true, tagCell_same] at e
  obtain ⟨es, et⟩ := e
  refine ⟨et, ?_⟩
  have hv : P.value = Q.value ∨ valEq P.value Q.value = true := by
    simp only [same, Bool.or_eq_true, beq_iff_eq] at es
    exact es.imp hi id
  have hsafe : ∀ R : PrimObj, mkPrimObject R.value (some R.tag) = .ok (R.value, R.tag) →
      ∀ n, R = .safeInt n → n.natAbs ≤ 2 ^ 53 - 1 := by
    intro R hR n hn
    subst hn
    by_contra h
    have := (C55_given_tag (.int n) .kNumberObject).2.1 trivial h
    rw [show PrimObj.value (.safeInt n) = .int n from rfl, show PrimObj.tag (.safeInt n) = .kNumberObject from rfl, this] at hR
    cases hR
  by_cases hPQ : P.value = Q.value
  · have : P = Q := by
      cases P with
      | str s => cases Q <;> first | exact congrArg _ (Val.str.inj hPQ) | cases hPQ
      | bool b => cases Q <;> first | exact congrArg _ (Val.bool.inj hPQ) | cases hPQ
      | float x => cases Q <;> first | exact congrArg _ (Val.float.inj hPQ) | cases hPQ
      | safeInt n =>
        cases Q with
        | safeInt m => exact congrArg _ (Val.int.inj hPQ)
        | bigint m => cases et
        | _ => cases hPQ
      | bigint n =>
        cases Q with
        | bigint m => exact congrArg _ (Val.int.inj hPQ)
        | safeInt m => cases et
        | _ => cases hPQ
    rw [this]
  · have hv' := hv.resolve_left hPQ
    cases P with
    | str s =>
      cases Q with
      | str s' => exact absurd (congrArg Val.str ((valEq_text s s').1 hv')) hPQ
      | bool b => cases b <;> cases et
      | _ => cases et
    | bool b =>
      cases Q with
      | bool b' => rfl
      | _ => cases b <;> cases et
    | float x =>
      cases Q with
      | float y =>
        have := double_eq ((valEq_of_num (v := .float x) (w := .float y) rfl rfl).symm.trans hv')
          ⟨fun h => Val.float.inj (hz.1 (congrArg Val.float h)), fun h => Val.float.inj (hz.2 (congrArg Val.float h))⟩
        rw [this]
      | safeInt n =>
        have hn := hsafe _ e2 n rfl
        have h1 : numEq (fval x) (fval (doubleOfInt n)) = true := by
          rw [fval_doubleOfInt n hn]
          exact (valEq_of_num (v := .float x) (w := .int n) rfl rfl).symm.trans hv'
        have h2 : ¬ IsMinusZero (.int n) := by intro h; cases h
        have := double_eq h1 ⟨fun h => absurd (hz.1 (congrArg Val.float h)) h2, fun h => absurd h (doubleOfInt_not_minus hn)⟩
        rw [this]
        rfl
      | bool b => cases b <;> cases et
      | _ => cases et
    | safeInt n =>
      have hn := hsafe _ e1 n rfl
      cases Q with
      | float y =>
        have h1 : numEq (fval (doubleOfInt n)) (fval y) = true := by
          rw [fval_doubleOfInt n hn]
          exact (valEq_of_num (v := .int n) (w := .float y) rfl rfl).symm.trans hv'
        have h2 : ¬ IsMinusZero (.int n) := by intro h; cases h
        have := double_eq h1 ⟨fun h => absurd h (doubleOfInt_not_minus hn), fun h => absurd (hz.2 (congrArg Val.float h)) h2⟩
        rw [← this]
        rfl
      | safeInt m =>
        have hm := hsafe _ e2 m rfl
        have h1 : numEq (fval (doubleOfInt n)) (fval (doubleOfInt m)) = true := by
          rw [fval_doubleOfInt n hn, fval_doubleOfInt m hm]
          exact (valEq_of_num (v := .int n) (w := .int m) rfl rfl).symm.trans hv'
        have := double_eq h1 ⟨fun h => absurd h (doubleOfInt_not_minus hn), fun h => absurd h (doubleOfInt_not_minus hm)⟩
        show Except.ok (writeDouble (doubleOfInt n)) = Except.ok (writeDouble (doubleOfInt m))
        rw [this]
      | bool b => cases b <;> cases et
      | _ => cases et
    | bigint n =>
      cases Q with
      | bigint m =>
        exfalso
        have h1 := (valEq_of_num (v := .int n) (w := .int m) rfl rfl).symm.trans hv'
        simp only [numEq, beq_iff_eq] at h1
        have h2 : (2 : Int) ^ 1074 ≠ 0 := by positivity
        exact hPQ (congrArg Val.int (Int.eq_of_mul_eq_mul_right h2 h1))
      | bool b => cases b <;> cases et
      | _ => cases et

example : ∃ a b, newPrim ⟨.obj 0, PrimObj.value (.safeInt 1)⟩ (some (PrimObj.tag (.safeInt 1))) = .ok a ∧
    newPrim ⟨.obj 1, PrimObj.value (.float 0x3ff0000000000000)⟩ (some (PrimObj.tag (.float 0x3ff0000000000000))) = .ok b ∧
    eqObj a b = true :=
  ⟨_, _, rfl, rfl, by decide +kernel⟩

/-- The condition on -0.0 is needed: the wrappers of 0.0 and -0.0 are equal. -/
example : ∃ a b, newPrim ⟨.obj 0, .float 0⟩ none = .ok a ∧ newPrim ⟨.obj 1, .float 0x8000000000000000⟩ none = .ok b ∧
    eqObj a b = true ∧ primObjPayload (.float 0) ≠ primObjPayload (.float 0x8000000000000000) :=
  ⟨_, _, rfl, rfl, by decide +kernel, by decide +kernel⟩

theorem fieldNames_iff (k : Kind) (n : String) : n ∈ k.fieldNames ↔ Spec.ValObj.isField k n := by
  cases k <;> simp [Kind.fieldNames, Spec.ValObj.isField]

/-- C86: no assignment to an attribute, no deletion and no sequence of these changes the class or a field.  Trying it
with a field always raises FrozenInstanceError. -/
theorem C86_frozen (slots : Bool) (o : Obj) (acts : List Act) :
    (frozenActs slots o acts).kind = o.kind ∧ (frozenActs slots o acts).cls = o.cls ∧
    (frozenActs slots o acts).fields = o.fields ∧
    ∀ act, Spec.ValObj.isField o.kind act.name → (frozenAct slots o act).2 = some .frozen := by
  have one : ∀ (o : Obj) (act : Act), (frozenAct slots o act).1.kind = o.kind ∧ (frozenAct slots o act).1.cls = o.cls ∧
      (frozenAct slots o act).1.fields = o.fields := by
    intro o act
    unfold frozenAct
    split
    · exact ⟨rfl, rfl, rfl⟩
    · split
      · exact ⟨rfl, rfl, rfl⟩
      · split <;> exact ⟨rfl, rfl, rfl⟩
  have all : ∀ (acts : List Act) (o : Obj), (frozenActs slots o acts).kind = o.kind ∧
      (frozenActs slots o acts).cls = o.cls ∧ (frozenActs slots o acts).fields = o.fields := by
    intro acts
    induction acts with
    | nil => exact fun o => ⟨rfl, rfl, rfl⟩
    | cons a as ih =>
      intro o
      have h1 := ih (frozenAct slots o a).1
      have h2 := one o a
      exact ⟨h1.1.trans h2.1, h1.2.1.trans h2.2.1, h1.2.2.trans h2.2.2⟩
  obtain ⟨h1, h2, h3⟩ := all acts o
  refine ⟨h1, h2, h3, fun act h => ?_⟩
  unfold frozenAct
  rw [if_pos (by simpa using (fieldNames_iff o.kind act.name).2 h)]

/-- C86: an object of the class itself, not of a subclass, gets no other attributes either; with `slots` the exception for
these is a TypeError, not the FrozenInstanceError that `frozen=True` documents. -/
theorem C86_frozen_other (o : Obj) (act : Act) (h : ¬ Spec.ValObj.isField o.kind act.name) (hc : o.cls = 0) :
    frozenAct true o act = (o, some .typeError) ∧ frozenAct false o act = (o, some .frozen) := by
  have : o.kind.fieldNames.contains act.name = false := by
    simpa using fun hm => h ((fieldNames_iff o.kind act.name).1 hm)
  simp only [frozenAct, this, hc, Bool.false_eq_true, if_false, if_true, and_self]

/-- C86: a TagConstraint keeps its name and its tags, whatever is assigned or deleted afterwards; calling `__init__`
again raises and changes nothing. -/
theorem C86_once (name allowed : Cell) (acts : List Act) :
    ∃ d, constraintInit [] name allowed = (d, none) ∧
      (onceActs d acts).lookup "name" = some name ∧ (onceActs d acts).lookup "allowed_tags" = some allowed ∧
      ∀ name' allowed', constraintInit (onceActs d acts) name' allowed' = (onceActs d acts, some .frozen) := by
  refine ⟨[("name", name), ("allowed_tags", allowed)], rfl, ?_⟩
  have key : ∀ (acts : List Act) (d : Attrs), d.lookup "name" = some name → d.lookup "allowed_tags" = some allowed →
      (onceActs d acts).lookup "name" = some name ∧ (onceActs d acts).lookup "allowed_tags" = some allowed := by
    intro acts
    induction acts with
    | nil => exact fun d h1 h2 => ⟨h1, h2⟩
    | cons a as ih =>
      intro d h1 h2
      exact ih _ (onceAct_keeps (by simp [constraintFields]) a h1) (onceAct_keeps (by simp [constraintFields]) a h2)
  obtain ⟨h1, h2⟩ := key acts [("name", name), ("allowed_tags", allowed)] rfl rfl
  refine ⟨h1, h2, fun n a => ?_⟩
  have hm : ((onceActs [("name", name), ("allowed_tags", allowed)] acts).map (·.1)).contains "name" = true :=
    lookup_contains h1
  unfold constraintInit
  have : onceAct (onceActs [("name", name), ("allowed_tags", allowed)] acts) (.set "name" n) =
      (onceActs [("name", name), ("allowed_tags", allowed)] acts, some .frozen) := by
    unfold onceAct
    simp only [hm, constraintFields]
    rfl
  rw [this]

/-- A TagConstraint takes other attributes. -/
example : (onceActs [("name", ⟨.obj 0, .str [97]⟩), ("allowed_tags", ⟨.obj 1, .obj 1⟩)]
    [.set "name" ⟨.obj 2, .int 3⟩, .set "x" ⟨.obj 2, .int 3⟩, .del "allowed_tags"]).lookup "x" = some ⟨.obj 2, .int 3⟩ := by
  decide

/-- C86: `frozen=True` does not stop `__init__`: a second call changes a JSPrimitiveObject.  If it raises, the value has
been changed all the same, and the object is one that the constructor refuses to make. -/
theorem C86_init_again :
    ∃ o o', newPrim ⟨.obj 0, .int 1⟩ none = .ok o ∧ primInitAgain o ⟨.obj 1, .str [97]⟩ (some .kNumberObject) =
        (o', some .valueError) ∧ o'.fields = [⟨.obj 1, .str [97]⟩, tagCell .kNumberObject] ∧
      newPrim ⟨.obj 1, .str [97]⟩ (some .kNumberObject) = .error .valueError :=
  ⟨_, _, rfl, rfl, rfl, rfl⟩

end V8.Props
