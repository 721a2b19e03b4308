import Verif.Proofs.Errors

/-!
# The exceptions of the package as Python objects (C83)
-/

namespace V8.Props

open V8.Errors V8.Spec

/-- **C83** A class of exceptions can be called exactly with the arguments that fit its parameters; any other call raises
TypeError. -/
theorem C83_call (fmt : Val → Val → Val) (c : Cls) (pos : List Val) (kw : List (String × Val)) :
    ((∃ e, make fmt c pos kw = .ok e ∧ e.cls = c) ↔ CallFits c.sig pos kw) ∧
      ((¬ ∃ e, make fmt c pos kw = .ok e) → make fmt c pos kw = .error .typeError) := by
  obtain ⟨h1, h2⟩ := bind_iff c.sig pos kw
  constructor
  · rw [← h1]
    constructor
    · rintro ⟨e, he, _⟩
      obtain ⟨vs, as, ks, hb, _⟩ := make_shape he
      exact ⟨_, hb⟩
    · rintro ⟨b, hb⟩
      obtain ⟨e, he⟩ := make_total fmt c pos kw hb
      exact ⟨e, he, (make_good he).2⟩
  · intro h
    cases hb : c.sig.bind pos kw with
    | error x =>
      have := h2 x hb
      subst this
      unfold make
      simp only [hb]
    | ok b => exact absurd (make_total fmt c pos kw hb) h

/-- **C83** (`_partial`: a JSError that is given None as its message has an empty one, `C83_no_message`, and a
ForwardReferenceError has no attribute `message`, `C83_forward_message`.)  Whatever is passed for a parameter is the value
of the attribute of that name. -/
theorem C83_fields_partial (fmt : Val → Val → Val) (c : Cls) (pos : List Val) (kw : List (String × Val)) (e : Err)
    (he : make fmt c pos kw = .ok e) (n : String) (v : Val) (hp : Passed c.sig pos kw n v)
    (h1 : ¬ (c = .forwardReference ∧ n = "message")) (h2 : ¬ (c = .jsError ∧ n = "message" ∧ v = .null)) :
    e.get n = .ok v :=
  make_get he hp h1 h2

/-- What is missing from `C83_fields_partial` for JSError: the message None is stored as an empty one. -/
theorem C83_no_message (fmt : Val → Val → Val) (pos : List Val) (kw : List (String × Val)) (e : Err)
    (he : make fmt .jsError pos kw = .ok e) (hp : Passed Cls.jsError.sig pos kw "message" .null) :
    e.get "message" = .ok (.str []) := by
  obtain ⟨vs, as, ks, hb, hs⟩ := make_shape he
  have hi := passed_bind hb hp
  cases hs with
  | plain hc => simp at hc
  | jsError =>
    rcases hi with ⟨i, d, a, b⟩ | ⟨i, d, a, b⟩ <;>
    rcases i with _ | _ | _ | _ | i <;> simp [Cls.sig] at a b <;> subst b <;> rfl

/-- What is missing from `C83_fields_partial` for ForwardReferenceError: the message is only in `args`. -/
theorem C83_forward_message (fmt : Val → Val → Val) (pos : List Val) (kw : List (String × Val)) (e : Err)
    (he : make fmt .forwardReference pos kw = .ok e) (v : Val)
    (hp : Passed Cls.forwardReference.sig pos kw "message" v) :
    e.get "message" = .error .attributeError ∧ e.args = [v] := by
  obtain ⟨vs, as, ks, hb, hs⟩ := make_shape he
  have hi := passed_bind hb hp
  cases hs with
  | plain hc => simp at hc
  | forwardReference =>
    rcases hi with ⟨i, d, a, b⟩ | ⟨i, d, a, b⟩ <;>
    rcases i with _ | _ | i <;> simp [Cls.sig] at a b <;> subst b <;> exact ⟨rfl, rfl⟩

/-- **C83** Assigning an attribute that is not a property stores the value and leaves the other attributes as they are.
The properties `message`, `tag` and `value`, which read `args`, cannot be assigned: AttributeError, and nothing
changes. -/
theorem C83_assign (e : Err) (n : String) (v : Val) :
    (e.cls.property n = none →
      (e.set n v).2 = none ∧ (e.set n v).1.get n = .ok v ∧ (e.set n v).1.args = e.args ∧
        ∀ m, m ≠ n → (e.cls.property m ≠ some (.attr n)) → (e.set n v).1.get m = e.get m) ∧
    (∀ i, e.cls.property n = some (.arg i) → e.set n v = (e, some .attributeError)) := by
  constructor
  · intro hp
    by_cases hs : e.cls.slot n = true
    · have he : e.set n v = ({ e with slots := setKey n v e.slots }, none) := by simp [Err.set, hp, hs]
      rw [he]
      refine ⟨rfl, by simp [Err.get, hp, hs, lookup_setKey], rfl, fun m hm hq => ?_⟩
      unfold Err.get
      cases hm' : e.cls.property m with
      | some a => cases a <;> rfl
      | none =>
        by_cases hsm : e.cls.slot m = true
        · simp only [hsm, if_true, lookup_setKey, hm, if_false]
        · simp [hsm]
    · have he : e.set n v = ({ e with dict := setKey n v e.dict }, none) := by simp [Err.set, hp, hs]
      rw [he]
      refine ⟨rfl, by simp [Err.get, hp, hs, lookup_setKey], rfl, fun m hm hq => ?_⟩
      unfold Err.get
      cases hm' : e.cls.property m with
      | some a =>
        cases a with
        | arg i => rfl
        | attr k =>
          have hk : k ≠ n := fun q => hq (by rw [hm', q])
          simp only [lookup_setKey, hk, if_false]
      | none =>
        by_cases hsm : e.cls.slot m = true
        · simp only [hsm, if_true]
        · simp [hsm, lookup_setKey, hm]
  · intro i hp
    simp [Err.set, hp]

/-- **C83** Two exceptions of one of the classes that compare by their fields are equal exactly if they have the same
class and each field has equal values; the comparison never raises.  `same` compares two values. -/
theorem C83_equal (fmt : Val → Val → Val) (same : Val → Val → Bool) (a b : Err) (ha : Made fmt a) (hb : Made fmt b) :
    ∃ r, a.eq same b = .ok r ∧
      (r = true ↔ a.cls = b.cls ∧ ∀ n ∈ a.cls.fields, ∃ v w, a.get n = .ok v ∧ b.get n = .ok w ∧ same v w = true) := by
  by_cases hc : a.cls = b.cls
  · obtain ⟨vs, h1, h2⟩ := readAll_ok (made_readable ha)
    obtain ⟨ws, g1, g2⟩ := readAll_ok (made_readable hb)
    rw [← hc] at g2
    obtain ⟨q1, q2⟩ := zip_all same h2 g2
    refine ⟨_, by simp only [Err.eq, if_pos hc, h1, g1]; rfl, ?_⟩
    rw [Bool.and_eq_true, decide_eq_true_eq, q2]
    exact ⟨fun h => ⟨hc, h.2⟩, fun h => ⟨q1, h.2⟩⟩
  · exact ⟨false, by simp only [Err.eq, if_neg hc], by simp [hc]⟩

/-- **C83** (`_partial`: the classes with further parameters are missing, `C83_copy_fails`.)  A copy of an exception of
these classes, by `copy` or by `pickle`, has the same class, `args` and attributes, however its attributes were
assigned before. -/
theorem C83_copy_partial (fmt : Val → Val → Val) (e : Err) (h : Made fmt e)
    (hc : e.cls ∈ [Cls.v8, .regExp, .encode, .reference, .arrayBuffer, .jsError]) :
    ∃ e', e.copy fmt = .ok e' ∧ SameError e' e := by
  obtain ⟨pos, kw, e₀, h1, h2, h3, h4⟩ := made_facts h
  obtain ⟨vs, as, ks, hb, hs⟩ := make_shape h1
  have slots : ∀ n, e.cls.slot n = false := by
    intro n
    simp only [List.mem_cons, List.not_mem_nil, or_false] at hc
    rcases hc with q | q | q | q | q | q <;> rw [q] <;> rfl
  generalize hcls : e.cls = c at hs hc hb
  cases hs with
  | @plain _ m as hp =>
    refine copy_same (y := ⟨c, m :: as, [], []⟩) h3 ?_ h2.symm (by simp) slots
    rw [hcls, h2]
    simp only [List.mem_cons, List.not_mem_nil, or_false] at hp
    rcases hp with rfl | rfl | rfl | rfl | rfl <;>
      simp [make, Sig.bind, Cls.sig, bindPositional, bindKeyword]
  | @jsError m n s x =>
    have hlen : pos.length ≤ 1 := by
      rcases ((bind_iff _ _ _).1.1 ⟨_, hb⟩).few with q | q
      · cases q
      · exact q
    refine copy_same (y := ⟨.jsError, pos, [("name", .str (str "Error")),
      ("_JSError__message", if (pos[0]?.getD .null) = .null then .str [] else (pos[0]?.getD .null)),
      ("stack", .null), ("cause", .null)], []⟩) h3 ?_ h2.symm ?_ slots
    · rw [hcls, h2]
      match pos, hlen with
      | [], _ => rfl
      | [p], _ => rfl
    · intro k hk
      exact h4 k hk
  | _ => simp at hc

/-- What is missing from `C83_copy_partial`: no exception of the other classes can be copied or pickled; the attempt
raises TypeError. -/
theorem C83_copy_fails (fmt : Val → Val → Val) (e : Err) (h : Made fmt e)
    (hc : e.cls ∉ [Cls.v8, .regExp, .encode, .reference, .arrayBuffer, .jsError]) :
    e.copy fmt = .error .typeError := by
  obtain ⟨pos, kw, e₀, h1, h2, h3, h4⟩ := made_facts h
  obtain ⟨vs, as, ks, hb, hs⟩ := make_shape h1
  suffices hf : ¬ CallFits e.cls.sig e.args [] by
    have hm := (C83_call fmt e.cls e.args []).2 fun ⟨y, hy⟩ =>
      hf ((C83_call fmt e.cls e.args []).1.1 ⟨y, hy, (make_good hy).2⟩)
    simp [Err.copy, hm]
  intro hf
  have k := hf.named
  have g := hf.given
  generalize e.cls = c at hs hc hb k g
  rw [h2] at g
  cases hs with
  | plain hp =>
    simp only [List.mem_cons, List.not_mem_nil, or_false] at hp hc
    rcases hp with rfl | rfl | rfl | rfl | rfl <;> simp at hc
  | jsError => simp at hc
  | decode | nodeHost => simpa using k "data" none (by simp [Cls.sig])
  | unhandledTag => simpa using k "tag" none (by simp [Cls.sig])
  | unhandledValue => simpa using k "value" none (by simp [Cls.sig])
  | feature => simpa using k "feature_required" none (by simp [Cls.sig])
  | notSerialized => simpa using k "obj" none (by simp [Cls.sig])
  | byteLength | itemSize => simpa using k "byte_length" none (by simp [Cls.sig])
  | idOutOfRange => simpa using g 1 "serialized_id" none rfl (by simp)
  | cyclic => simpa using g 1 "serialized_id" none rfl (by simp)
  | bounds => simpa using g 1 "byte_offset" none rfl (by simp)
  | normalizedKey => simpa using g 1 "raw_key" none rfl (by simp)
  | forwardReference => simpa using g 1 "forward_reference" none rfl (by simp)

/-- **C83** The first of the `args` of every exception that is a V8SerializeError, other than a JSError, is its message,
whatever else was passed to the class. -/
theorem C83_args_partial (fmt : Val → Val → Val) (e : Err) (h : Made fmt e)
    (hc : e.cls ∉ [Cls.jsError, .normalizedKey, .forwardReference]) :
    ∃ m rest, e.args = m :: rest ∧ e.get "message" = .ok m := by
  obtain ⟨pos, kw, e₀, h1, h2, h3, h4⟩ := made_facts h
  obtain ⟨vs, as, ks, hb, hs⟩ := make_shape h1
  generalize hcls : e.cls = c at hs hc hb
  have get : ∀ m rest, e₀.args = m :: rest → c.property "message" = some (.arg 0) →
      ∃ m rest, e.args = m :: rest ∧ e.get "message" = .ok m := by
    intro m rest ha hp
    refine ⟨m, rest, h2.trans ha, ?_⟩
    unfold Err.get
    rw [hcls, hp, h2, ha]
    rfl
  cases hs with
  | plain hp =>
    simp only [List.mem_cons, List.not_mem_nil, or_false] at hp
    rcases hp with rfl | rfl | rfl | rfl | rfl <;> exact get _ _ rfl rfl
  | jsError => simp at hc
  | normalizedKey => simp at hc
  | forwardReference => simp at hc
  | _ => exact get _ _ rfl rfl

/-- What is missing from `C83_args_partial`: the `args` of a JSError are the positional arguments of its call, so they
are empty if the message was passed by name, as `from_js_error` does. -/
theorem C83_js_error_args (fmt : Val → Val → Val) (kw : List (String × Val)) (e : Err)
    (he : make fmt .jsError [] kw = .ok e) : e.args = [] := by
  obtain ⟨vs, as, ks, hb, hs⟩ := make_shape he
  cases hs with
  | plain hc => simp at hc
  | jsError => rfl

/-- **C83** The classes that are subclasses of V8SerializeError: all but two, so that `except V8SerializeError` does not
catch a NormalizedKeyError or a ForwardReferenceError. -/
theorem C83_base (c : Cls) : c.Sub (.cls .v8) ↔ c ≠ .normalizedKey ∧ c ≠ .forwardReference := by
  constructor
  · intro h
    constructor
    · rintro rfl
      cases h with
      | base q => simp [Cls.bases] at q
      | up q _ => simp [Cls.bases] at q
    · rintro rfl
      cases h with
      | base q => simp [Cls.bases] at q
      | up q _ => simp [Cls.bases] at q
  · rintro ⟨h1, h2⟩
    cases c with
    | v8 => exact .self _
    | normalizedKey => exact absurd rfl h1
    | forwardReference => exact absurd rfl h2
    | decode | regExp | encode | reference | arrayBuffer | byteLength | jsError => exact .base (by simp [Cls.bases])
    | unhandledTag | nodeHost => exact .up (c := .decode) (by simp [Cls.bases]) (.base (by simp [Cls.bases]))
    | unhandledValue | feature => exact .up (c := .encode) (by simp [Cls.bases]) (.base (by simp [Cls.bases]))
    | notSerialized | idOutOfRange | cyclic =>
      exact .up (c := .reference) (by simp [Cls.bases]) (.base (by simp [Cls.bases]))
    | itemSize | bounds => exact .up (c := .arrayBuffer) (by simp [Cls.bases]) (.base (by simp [Cls.bases]))

/-- **C83** `except JSArrayBufferError` catches two of the three exceptions of the buffer types, and not the
ByteLengthJSArrayBufferError. -/
theorem C83_buffer_base (c : Cls) : c.Sub (.cls .arrayBuffer) ↔ c ∈ [Cls.arrayBuffer, .itemSize, .bounds] := by
  constructor
  · intro h
    have key : ∀ (a : Cls) (b : Base), a.Sub b → b = .cls .arrayBuffer → a ∈ [Cls.arrayBuffer, .itemSize, .bounds] := by
      intro a b hab
      induction hab with
      | self a =>
        intro q
        cases q
        decide
      | @base a b q =>
        rintro rfl
        cases a <;> simp [Cls.bases] at q ⊢
      | @up a c b q _ ih =>
        intro hb
        have := ih hb
        cases a <;> simp [Cls.bases] at q ⊢ <;> subst q <;> simp at this
    exact key c _ h rfl
  · intro h
    simp only [List.mem_cons, List.not_mem_nil, or_false] at h
    rcases h with rfl | rfl | rfl
    · exact .self _
    · exact .base (by simp [Cls.bases])
    · exact .base (by simp [Cls.bases])

/-- **C83** Of all exceptions of the package only the ForwardReferenceError can be hashed. -/
theorem C83_hash (c : Cls) : c.Hashable ↔ c = .forwardReference := by
  constructor
  · intro h
    by_cases h1 : c = .forwardReference
    · exact h1
    · by_cases h2 : c = .normalizedKey
      · subst h2
        have := h _ (.self _)
        cases this
      · have := h _ ((C83_base c).2 ⟨h2, h1⟩)
        cases this
  · rintro rfl c h
    cases h with
    | self => rfl
    | base q => simp [Cls.bases] at q
    | up q _ => simp [Cls.bases] at q

/-! ## Examples -/

/-- A text for NormalizedKeyError. -/
def exampleFormat (_ _ : Val) : Val := .str (str "'a' (normalized from 'a')")

/-- `UnhandledTagDecodeV8SerializeError("m", "more", tag=1, position=2, data=3)` -/
def exampleError : Except PyExc Err :=
  make exampleFormat .unhandledTag [.str (str "m"), .str (str "more")] [("tag", .int 1), ("data", .int 3),
    ("position", .int 2)]

example : CallFits Cls.unhandledTag.sig [.str (str "m"), .str (str "more")]
    [("tag", .int 1), ("data", .int 3), ("position", .int 2)] :=
  (C83_call exampleFormat _ _ _).1.1 ⟨_, rfl, rfl⟩

example : exampleError = .ok ⟨.unhandledTag, [.str (str "m"), .int 1, .str (str "more")],
    [("position", .int 2), ("data", .int 3)], []⟩ := by decide +kernel

example (e : Err) (h : exampleError = .ok e) : e.get "tag" = .ok (.int 1) ∧ e.get "position" = .ok (.int 2) :=
  ⟨C83_fields_partial _ _ _ _ _ h _ _ (.keyword rfl) (by simp) (by simp),
   C83_fields_partial _ _ _ _ _ h _ _ (.keyword rfl) (by simp) (by simp)⟩

example (e : Err) (h : exampleError = .ok e) : e.copy exampleFormat = .error .typeError := by
  have hc := (make_good h).2
  exact C83_copy_fails _ e ⟨_, _, _, e, [], h, rfl⟩ (by rw [hc]; decide)

/-- Missing and unknown arguments. -/
example : make exampleFormat .unhandledTag [.str (str "m")] [("tag", .int 1)] = .error .typeError ∧
    make exampleFormat .v8 [] [] = .error .typeError ∧
    make exampleFormat .idOutOfRange [.str (str "m"), .int 1, .int 2] [] = .error .typeError ∧
    make exampleFormat .idOutOfRange [.str (str "m")] [("message", .int 1), ("serialized_id", .int 1)]
      = .error .typeError := by decide +kernel

/-- Equal exceptions with different `args`: only the fields are compared. -/
example :
    (match make exampleFormat .v8 [.str (str "m"), .int 1] [], make exampleFormat .v8 [.str (str "m"), .int 2] [] with
      | .ok a, .ok b => a.eq (fun v w => decide (v = w)) b
      | _, _ => .ok false) = .ok true := by decide +kernel

/-- A JSError with assigned attributes and its copy. -/
example :
    (match make exampleFormat .jsError [.str (str "m")] [("cause", .int 1)] with
      | .ok e =>
        match (e.setAll [("message", .str (str "n")), ("extra", .int 5)]).copy exampleFormat with
        | .ok y => (y.args, y.get "message", y.get "cause", y.get "extra")
        | .error x => ([], .error x, .error x, .error x)
      | .error x => ([], .error x, .error x, .error x)) =
    ([.str (str "m")], .ok (.str (str "n")), .ok (.int 1), .ok (.int 5)) := by decide +kernel

/-- The properties cannot be assigned. -/
example (e : Err) (h : e.cls = .unhandledTag) (v : Val) : e.set "tag" v = (e, some .attributeError) :=
  (C83_assign e "tag" v).2 1 (by rw [h]; rfl)

example : make exampleFormat .jsError [] [("message", .str (str "m"))] =
    .ok ⟨.jsError, [], [("name", .str (str "Error")), ("_JSError__message", .str (str "m")), ("stack", .null),
      ("cause", .null)], []⟩ := by decide +kernel

end V8.Props
