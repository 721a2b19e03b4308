import Verif.Model.ErrorObjects
import Verif.Proofs.VersionOrder
import Mathlib.Data.List.Induction

/-!
# C73: JSError and JSErrorData objects
-/

namespace V8.Props

open V8.ErrorObjects V8.Versions

variable {α : Type}

/-- Two errors have equal fields, the causes by `ceq`. -/
def SameFields (ceq : α → α → Bool) (a b : ErrObj α) : Prop :=
  a.name = b.name ∧ a.message = b.message ∧ a.stack = b.stack ∧ ceq a.cause b.cause = true

/-- What two errors need besides equal fields: two JSErrors the same traceback, two JSErrorData the same
class. -/
def Compatible (a b : ErrObj α) : Prop :=
  match a.kind, b.kind with
  | .jsError t, .jsError u => t = u
  | .data c, .data d => c = d
  | _, _ => True

/-- Errors with the same identity are the same error. -/
def ById (a b : ErrObj α) : Prop := a.id = b.id → a = b

theorem fieldsEq_iff (ceq : α → α → Bool) (a b : ErrObj α) : fieldsEq ceq a b = true ↔ SameFields ceq a b := by
  unfold fieldsEq SameFields
  simp [and_assoc]

theorem fieldsEq_symm (ceq : α → α → Bool) (hs : ∀ x y, ceq x y = ceq y x) (a b : ErrObj α) :
    fieldsEq ceq a b = fieldsEq ceq b a := by
  have e : ∀ x y : ErrObj α, SameFields ceq x y → SameFields ceq y x := fun x y ⟨h1, h2, h3, h4⟩ =>
    ⟨h1.symm, h2.symm, h3.symm, by rw [hs]; exact h4⟩
  rw [Bool.eq_iff_iff, fieldsEq_iff, fieldsEq_iff]
  exact ⟨e a b, e b a⟩

/-- C73: `==` means the same object, or equal fields (and for two JSErrors the same traceback, for two
JSErrorData the same class). -/
theorem C73_equal (ceq : α → α → Bool) (hs : ∀ x y, ceq x y = ceq y x) (a b : ErrObj α) :
    errEq ceq a b = true ↔ a.id = b.id ∨ (SameFields ceq a b ∧ Compatible a b) := by
  have hsym := fieldsEq_symm ceq hs b a
  rw [← fieldsEq_iff]
  unfold errEq eqMethod Compatible
  by_cases hid : a.id = b.id
  · rcases a with ⟨i, (t | c), n, m, s, x⟩ <;> rcases b with ⟨j, (u | d), n', m', s', y⟩ <;> simp_all
  · have hid' : ¬ b.id = a.id := fun h => hid h.symm
    cases hk : a.kind <;> cases hl : b.kind
    · rename_i t u
      by_cases h : t = u <;> simp [hid, h]
    · simp [hid]
    · simp [hid, hid', hsym]
    · rename_i c d
      by_cases h : c = d
      · simp [hid, h]
      · have h' : ¬ d = c := fun e => h e.symm
        simp [hid, hid', h, h']

example : errEq (α := Nat) (fun x y => x == y)
    ⟨0, .jsError none, str "TypeError", some (str "x"), none, 5⟩ ⟨1, .data 3, str "TypeError", some (str "x"), none, 5⟩ = true := by
  decide

/-- C73: `==` is symmetric, and every error equals itself. -/
theorem C73_symmetric (ceq : α → α → Bool) (hs : ∀ x y, ceq x y = ceq y x) (a b : ErrObj α) :
    errEq ceq a b = errEq ceq b a ∧ errEq ceq a a = true := by
  have hc : ∀ x y : ErrObj α, Compatible x y → Compatible y x := by
    intro x y h
    unfold Compatible at h ⊢
    cases hk : x.kind <;> cases hl : y.kind <;> simp_all
  have hf : ∀ x y : ErrObj α, SameFields ceq x y → SameFields ceq y x := fun x y ⟨h1, h2, h3, h4⟩ =>
    ⟨h1.symm, h2.symm, h3.symm, by rw [hs]; exact h4⟩
  constructor
  · rw [Bool.eq_iff_iff, C73_equal ceq hs, C73_equal ceq hs]
    constructor
    · rintro (h | ⟨h1, h2⟩)
      · exact Or.inl h.symm
      · exact Or.inr ⟨hf _ _ h1, hc _ _ h2⟩
    · rintro (h | ⟨h1, h2⟩)
      · exact Or.inl h.symm
      · exact Or.inr ⟨hf _ _ h1, hc _ _ h2⟩
  · exact (C73_equal ceq hs a a).2 (Or.inl rfl)

/-- C73: `==` is transitive between errors that are compatible.  Full statement: for all errors; false, see
`C73_not_transitive` and `C73_classes_not_transitive`. -/
theorem C73_transitive_partial (ceq : α → α → Bool) (hs : ∀ x y, ceq x y = ceq y x)
    (ht : ∀ x y z, ceq x y = true → ceq y z = true → ceq x z = true) (a b c : ErrObj α)
    (hab : ById a b) (hbc : ById b c) (hac : Compatible a c)
    (h1 : errEq ceq a b = true) (h2 : errEq ceq b c = true) : errEq ceq a c = true := by
  rw [C73_equal ceq hs] at h1 h2
  rcases h1 with h1 | ⟨f1, _⟩
  · have := hab h1
    subst this
    exact (C73_equal ceq hs _ _).2 h2
  · rcases h2 with h2 | ⟨f2, _⟩
    · have := hbc h2
      subst this
      exact (C73_equal ceq hs _ _).2 (Or.inr ⟨f1, hac⟩)
    · exact (C73_equal ceq hs _ _).2 (Or.inr ⟨⟨f1.1.trans f2.1, f1.2.1.trans f2.2.1, f1.2.2.1.trans f2.2.2.1,
        ht _ _ _ f1.2.2.2 f2.2.2.2⟩, hac⟩)

/-- `==` on causes that are numbers. -/
def numCause (x y : Nat) : Bool := x == y

example : (∀ x y, numCause x y = numCause y x) ∧
    (∀ x y z, numCause x y = true → numCause y z = true → numCause x z = true) := by
  constructor
  · intro x y; unfold numCause; rw [Bool.eq_iff_iff, beq_iff_eq, beq_iff_eq]; exact ⟨Eq.symm, Eq.symm⟩
  · intro x y z; unfold numCause; simp only [beq_iff_eq]; exact fun h1 h2 => h1.trans h2

example : Compatible (⟨0, .jsError (some 3), str "Error", some [], none, 1⟩ : ErrObj Nat) ⟨2, .jsError (some 3), str "Error", some [], none, 1⟩ ∧
    errEq numCause ⟨0, .jsError (some 3), str "Error", some [], none, 1⟩ ⟨1, .data 0, str "Error", some [], none, 1⟩ = true ∧
    errEq numCause ⟨1, .data 0, str "Error", some [], none, 1⟩ ⟨2, .jsError (some 3), str "Error", some [], none, 1⟩ = true :=
  ⟨rfl, by decide, by decide⟩

/-- C73 fails: an error that was raised and one that was not both equal the JSErrorData with their fields, but
not each other. -/
theorem C73_not_transitive : ∃ a b c : ErrObj Nat,
    errEq numCause a b = true ∧ errEq numCause b c = true ∧ errEq numCause a c = false :=
  ⟨newJSError 0 (str "Error") (some (str "x")) none 7, newData 1 0 (str "Error") (some (str "x")) none 7,
    (newJSError 2 (str "Error") (some (str "x")) none 7).apply (.raised 1), by decide⟩

/-- C73 fails: instances of two subclasses of JSErrorData both equal the same JSError, but not each other. -/
theorem C73_classes_not_transitive : ∃ a b c : ErrObj Nat,
    errEq numCause a b = true ∧ errEq numCause b c = true ∧ errEq numCause a c = false :=
  ⟨newData 0 1 (str "Error") (some (str "x")) none 7, newJSError 1 (str "Error") (some (str "x")) none 7,
    newData 2 2 (str "Error") (some (str "x")) none 7, by decide⟩

/-- C73: raising one of two different JSErrors that were never raised makes them unequal. -/
theorem C73_raised (ceq : α → α → Bool) (hs : ∀ x y, ceq x y = ceq y x) (a b : ErrObj α) (hid : a.id ≠ b.id) (t : Nat)
    (hb : b.kind = .jsError none) : errEq ceq (a.apply (.raised t)) b = false := by
  rw [Bool.eq_false_iff, ne_eq, C73_equal ceq hs]
  rintro (h | ⟨_, h⟩)
  · exact hid h
  · unfold Compatible ErrObj.apply at h
    rw [hb] at h
    simp at h

/-- C73: a copy by `JSError.from_js_error` (or the builder) equals the original exactly when the original has a
message and, if it is a JSError, has not been raised.  Full statement: always. -/
theorem C73_copy_partial (ceq : α → α → Bool) (hs : ∀ x y, ceq x y = ceq y x) (hr : ∀ x, ceq x x = true)
    (e : ErrObj α) (id : Nat) (hid : id ≠ e.id) :
    errEq ceq (fromJSError id e) e = true ↔
      e.message ≠ none ∧ ∀ t, e.kind ≠ .jsError (some t) := by
  rw [C73_equal ceq hs]
  unfold fromJSError newJSError SameFields Compatible
  cases hm : e.message with
  | none => simp [hid]
  | some m =>
    cases hk : e.kind with
    | data c => simp [hid, hr]
    | jsError t => cases t <;> simp [hid, hr]

/-- C73: a copy by `JSErrorData.builder` of any class equals the original exactly when that is a JSError or of
the same class, and its fields are those of the original. -/
theorem C73_copy_data (ceq : α → α → Bool) (hs : ∀ x y, ceq x y = ceq y x) (hr : ∀ x, ceq x x = true)
    (e : ErrObj α) (id cls : Nat) (hid : id ≠ e.id) :
    SameFields ceq (buildData id cls e) e ∧
    (errEq ceq (buildData id cls e) e = true ↔ ∀ c, e.kind = .data c → c = cls) := by
  refine ⟨⟨rfl, rfl, rfl, hr _⟩, ?_⟩
  rw [C73_equal ceq hs]
  unfold buildData newData SameFields Compatible
  cases hk : e.kind with
  | data c => simp [hid, hr, eq_comm]
  | jsError t => simp [hid, hr]

/-- C73 fails: a copy of an error without a message differs from it. -/
theorem C73_copy_none : ∃ e : ErrObj Nat, errEq numCause (fromJSError 1 e) e = false :=
  ⟨newData 0 0 (str "Error") none none 7, by decide⟩

/-- C73: whatever is done with a JSError, its message is a string: the one last assigned (or given to the
constructor), the empty string for None. -/
theorem C73_message (id : Nat) (name : Str) (message stack : Option Str) (cause : α) (ops : List (Op α)) :
    let e := ops.foldl ErrObj.apply (newJSError id name message stack cause)
    (∃ t, e.kind = .jsError t) ∧ e.id = id ∧
    e.message = some (((ops.filterMap fun
      | .setMessage m => some m
      | _ => none).getLast?.getD message).getD []) := by
  induction ops using List.reverseRecOn with
  | nil => exact ⟨⟨none, rfl⟩, rfl, rfl⟩
  | append_singleton ops op ih =>
    obtain ⟨⟨t, h1⟩, h2, h3⟩ := ih
    simp only [List.foldl_append, List.foldl_cons, List.foldl_nil, List.filterMap_append] at *
    cases op with
    | setMessage m => exact ⟨⟨t, h1⟩, h2, by simp [ErrObj.apply]⟩
    | setName n => exact ⟨⟨t, h1⟩, h2, by simpa [ErrObj.apply] using h3⟩
    | setStack s => exact ⟨⟨t, h1⟩, h2, by simpa [ErrObj.apply] using h3⟩
    | setCause c => exact ⟨⟨t, h1⟩, h2, by simpa [ErrObj.apply] using h3⟩
    | raised u => exact ⟨⟨some u, rfl⟩, h2, by simpa [ErrObj.apply] using h3⟩

example : ([Op.setMessage (some (str "a")), .raised 4, .setMessage none, .setCause 3].foldl ErrObj.apply
    (newJSError 0 (str "Error") (some (str "x")) none 7)).message = some [] := by decide

/-- The order of the fields of errors whose messages and stacks are strings. -/
def fieldOrder : Str × Str × Str → Str × Str × Str → Bool :=
  pairLt (listLt natLt) (pairLt (listLt natLt) (listLt natLt))

/-- Message, name and stack of an error, where they are strings. -/
def fieldsOf (e : ErrObj α) : Option (Str × Str × Str) :=
  match e.message, e.stack with
  | some m, some s => some (m, e.name, s)
  | _, _ => none

/-- C73: errors of one class derived from JSErrorData with messages, stacks and equal causes are ordered by
message, then name, then stack, and this is a strict total order of those fields.
Full statement: for all errors of one class; false without a message or stack, see
`C73_order_type_error`. -/
theorem C73_order_partial (ceq : α → α → Bool) (clt : α → α → Except PyExc Bool) (a b : ErrObj α) (cls : Nat)
    (ha : a.kind = .data cls) (hb : b.kind = .data cls) (hc : ceq a.cause b.cause = true)
    (x y : Str × Str × Str) (hx : fieldsOf a = some x) (hy : fieldsOf b = some y) :
    errLt ceq clt a b = .ok (fieldOrder x y) ∧ StrictTotal fieldOrder := by
  refine ⟨?_, pairLt_total (listLt_total natLt_total) (pairLt_total (listLt_total natLt_total) (listLt_total natLt_total))⟩
  unfold fieldsOf at hx hy
  cases hm : a.message with
  | none => rw [hm] at hx; cases hx
  | some m =>
    cases hst : a.stack with
    | none => rw [hm, hst] at hx; cases hx
    | some s =>
      cases hm' : b.message with
      | none => rw [hm'] at hy; cases hy
      | some m' =>
        cases hst' : b.stack with
        | none => rw [hm', hst'] at hy; cases hy
        | some s' =>
          rw [hm, hst] at hx
          rw [hm', hst'] at hy
          cases hx
          cases hy
          unfold errLt
          rw [ha, hb]
          simp only [if_true, fieldsLt, hm, hm', hst, hst', hc, optLt, fieldOrder, pairLt]
          by_cases h1 : m = m'
          · by_cases h2 : a.name = b.name
            · by_cases h3 : s = s'
              · simp [h1, h2, h3, (listLt_total natLt_total).irrefl]
              · simp [h1, h2, h3]
            · simp [h1, h2]
          · simp [h1]

example : errLt numCause (fun _ _ => .error .typeError)
    (newData 0 0 (str "Error") (some (str "a")) (some (str "z")) 7)
    (newData 1 0 (str "Error") (some (str "ab")) (some (str "b")) 7) = .ok true := by decide

/-- C73 fails: two errors of which one has no message, or two JSErrors, cannot be compared by `<`. -/
theorem C73_order_type_error :
    errLt numCause (fun _ _ => .error .typeError) (newData 0 0 (str "Error") none none 7)
      (newData 1 0 (str "Error") (some (str "ab")) none 7) = .error .typeError ∧
    errLt numCause (fun _ _ => .error .typeError) (newJSError 0 (str "Error") (some (str "a")) none 7)
      (newJSError 1 (str "Error") (some (str "ab")) none 7) = .error .typeError := by decide

/-- C73: `str()` of a JSError begins with its message. -/
theorem C73_str (repr : Str → Str) (crepr : α → Str) (e : ErrObj α) (m : Str) (h : e.message = some m) :
    (m ++ str ": ") <+: strOf repr crepr e := by
  unfold strOf
  rw [h]
  refine ⟨str "name=" ++ repr e.name ++ str ", _JSError__message=" ++ optRepr repr (some m) ++
    str ", stack=" ++ optRepr repr e.stack ++ str ", cause=" ++ crepr e.cause, ?_⟩
  have : str ": name=" = str ": " ++ str "name=" := rfl
  rw [this]
  simp only [Option.getD_some, List.append_assoc]

/-- C73 fails: it shows the message a second time, by the name of a private attribute. -/
theorem C73_str_private : strOf (α := Nat) (fun s => str "'" ++ s ++ str "'") (fun _ => str "None")
    (newJSError 0 (str "Error") (some (str "hi")) none 7) =
    str "hi: name='Error', _JSError__message='hi', stack=None, cause=None" := by decide +kernel

end V8.Props
