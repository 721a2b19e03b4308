import Verif.Proofs.ErrorTexts
import Verif.Props.Errors

/-!
# The texts of the exceptions of the package (C90)
-/

namespace V8.Props

open V8.Errors V8.Spec V8.Spec.ErrorTexts

/-- **C90** (`_partial`: JSError also shows a private field, `C90_js_error`, and NormalizedKeyError shows its text in
quotes, `C90_key_error`.)  `str()` of an exception, however its attributes were assigned before, is its message, then a
colon and each other parameter of its class once, with the value that the attribute has now; without other parameters it
is the message. -/
theorem C90_str_partial (fmt : Val → Val → Val) (repr format : Val → Str) (hformat : ∀ s, format (.str s) = s)
    (e : Err) (he : Made fmt e) (hc : e.cls ∉ [Cls.jsError, .normalizedKey, .forwardReference])
    (m : Str) (hm : e.get "message" = .ok (.str m)) :
    ∃ l, Values e ((params e.cls).filter (fun n => n != "message")) l ∧
      e.text repr format = .ok (if l = [] then m else m ++ str ": " ++ listing repr l) := by
  obtain ⟨l, h1, h2, h3⟩ := pairs_ok (e := e) (names := e.cls.fields.filter (fun n => n != "message"))
    (fun n hn => made_readable he n (List.mem_filter.1 hn).1)
  refine ⟨l, ⟨?_, h3⟩, ?_⟩
  · rw [h2]
    generalize e.cls = c at hc
    cases c <;> first | (exact absurd (by decide) hc) | decide +kernel
  · have ht : e.text repr format = e.v8Str repr format := by
      generalize hcl : e.cls = c at hc
      unfold Err.text
      rw [hcl]
      cases c <;> first | (exact absurd (by decide) hc) | rfl
    rw [ht, Err.v8Str, h1]
    simp only [hm, joinPairs_eq, hformat]
    by_cases hl : l = []
    · subst hl; rfl
    · rw [if_pos (fun q => hl ((listing_nil repr l).1 q)), if_neg hl]

/-- **C90**, what is missing for JSError: the text shows the private field `_JSError__message`, so that the message is
there twice, although the field is declared with `repr=False`. -/
theorem C90_js_error (fmt : Val → Val → Val) (repr format : Val → Str)
    (e : Err) (he : Made fmt e) (hc : e.cls = .jsError) :
    ∃ m name stack cause, e.get "message" = .ok m ∧ e.get "name" = .ok name ∧ e.get "stack" = .ok stack ∧
      e.get "cause" = .ok cause ∧
      e.text repr format = .ok (format m ++ str ": " ++
        listing repr [("name", name), ("_JSError__message", m), ("stack", stack), ("cause", cause)]) := by
  have hf : e.cls.fields.filter (fun n => n != "message") = ["name", "_JSError__message", "stack", "cause"] := by
    rw [hc]; decide +kernel
  obtain ⟨l, h1, h2, h3⟩ := pairs_ok (e := e) (names := e.cls.fields.filter (fun n => n != "message"))
    (fun n hn => made_readable he n (List.mem_filter.1 hn).1)
  rw [hf] at h2
  obtain ⟨name, m, stack, cause, rfl⟩ := names4 h2
  have hm : e.get "message" = .ok m := by
    have := h3 ("_JSError__message", m) (by simp)
    unfold Err.get at this ⊢
    rw [hc] at this ⊢
    exact this
  refine ⟨m, name, stack, cause, hm, h3 ("name", name) (by simp), h3 ("stack", stack) (by simp),
    h3 ("cause", cause) (by simp), ?_⟩
  unfold Err.text
  rw [hc]
  simp only
  rw [Err.v8Str, h1]
  simp only [hm, joinPairs_eq]
  rw [if_pos (fun q => by simpa using (listing_nil repr _).1 q)]

/-- **C90**, what is missing for NormalizedKeyError: KeyError shows the `repr()` of the text, in quotes and with escapes,
and it is the text of the keys at the time of the call. -/
theorem C90_key_error (fmt : Val → Val → Val) (repr format : Val → Str) (pos : List Val) (kw : List (String × Val))
    (e : Err) (he : make fmt .normalizedKey pos kw = .ok e) (sets : List (String × Val)) :
    ∃ n r, Passed Cls.normalizedKey.sig pos kw "normalized_key" n ∧ Passed Cls.normalizedKey.sig pos kw "raw_key" r ∧
      (e.setAll sets).text repr format = .ok (repr (fmt n r)) := by
  obtain ⟨g, hcl⟩ := make_good he
  obtain ⟨_, a2, a3, _⟩ := setAll_good sets g
  obtain ⟨vs, as, ks, hb, hs⟩ := make_shape he
  obtain ⟨_, _, _, _, h5, _⟩ := bind_ok hb
  have hp : ∀ (i : Nat) n v, Cls.normalizedKey.sig.positional[i]? = some (n, none) → vs[i]? = some v →
      Passed Cls.normalizedKey.sig pos kw n v := by
    intro i n v h1 h2
    have := h5 i n none h1
    rw [h2] at this
    cases hpos : pos[i]? with
    | some w =>
      rw [hpos] at this
      simp at this
      exact .position h1 (by rw [hpos, this])
    | none =>
      rw [hpos] at this
      simp at this
      exact .keyword this.symm
  cases hs with
  | plain hc => simp at hc
  | normalizedKey =>
    refine ⟨_, _, hp 0 _ _ rfl rfl, hp 1 _ _ rfl rfl, ?_⟩
    unfold Err.text
    rw [a2, a3]

/-- **C90** `str()` of a ForwardReferenceError is its message. -/
theorem C90_forward (fmt : Val → Val → Val) (repr format : Val → Str) (pos : List Val) (kw : List (String × Val))
    (e : Err) (he : make fmt .forwardReference pos kw = .ok e) (m : Val)
    (hm : Passed Cls.forwardReference.sig pos kw "message" m) (sets : List (String × Val)) :
    (e.setAll sets).text repr format = .ok (format m) := by
  have h := (C83_forward_message fmt pos kw e he m hm).2
  obtain ⟨g, hcl⟩ := make_good he
  obtain ⟨_, a2, a3, _⟩ := setAll_good sets g
  unfold Err.text
  rw [a2, a3, hcl, h]

/-- **C90** `repr()` of an exception (of a class other than JSError and ForwardReferenceError) is the name of the class
with each of its parameters once and the value that the attribute has now.  It is a call: made with these values, the
exception has the same values again. -/
theorem C90_repr (fmt : Val → Val → Val) (repr : Val → Str) (e : Err) (he : Made fmt e)
    (hc : e.cls ∉ [Cls.jsError, .forwardReference]) :
    ∃ l, Values e (params e.cls) l ∧
      e.reprText repr = .ok (str e.cls.qualname ++ str "(" ++ listing repr l ++ str ")") ∧
      ∃ e', make fmt e.cls [] l = .ok e' ∧ e'.cls = e.cls ∧ ∀ n ∈ params e.cls, e'.get n = e.get n := by
  obtain ⟨l, h1, h2, h3⟩ := pairs_ok (e := e) (made_readable he)
  have hperm : e.cls.fields.Perm (params e.cls) := by
    generalize e.cls = c at hc
    cases c <;> first | (exact absurd (by decide) hc) | decide +kernel
  refine ⟨l, ⟨h2 ▸ hperm, h3⟩, ?_, ?_⟩
  · have : e.reprText repr = .ok (str e.cls.qualname ++ str "(" ++ joinPairs repr l ++ str ")") := by
      unfold Err.reprText
      generalize hcl : e.cls = c at hc h1
      cases c <;> first | (exact absurd (by decide) hc) | (simp only [h1])
    rw [this, joinPairs_eq]
  · suffices h : ∃ e', make fmt e.cls [] l = .ok e' ∧ e'.cls = e.cls ∧ ∀ p ∈ l, e'.get p.1 = .ok p.2 by
      obtain ⟨e', a, b, c⟩ := h
      refine ⟨e', a, b, fun n hn => ?_⟩
      have hn' : n ∈ l.map (·.1) := by rw [h2]; exact hperm.mem_iff.2 hn
      obtain ⟨p, hp, rfl⟩ := List.mem_map.1 hn'
      rw [c p hp, h3 p hp]
    clear h1 h3 hperm
    generalize e.cls = c at hc h2
    cases c
    all_goals first
      | exact absurd (by decide) hc
      | (obtain ⟨x, rfl⟩ := names1 h2
         refine ⟨_, rfl, rfl, ?_⟩
         simp [Err.get, Cls.property])
      | (obtain ⟨x, y, rfl⟩ := names2 h2
         refine ⟨_, rfl, rfl, ?_⟩
         simp [Err.get, Cls.property, Cls.slot, List.lookup])
      | (obtain ⟨x, y, z, rfl⟩ := names3 h2
         refine ⟨_, rfl, rfl, ?_⟩
         simp [Err.get, Cls.property, Cls.slot, List.lookup])
      | (obtain ⟨x, y, z, w, rfl⟩ := names4 h2
         refine ⟨_, rfl, rfl, ?_⟩
         simp [Err.get, Cls.property, Cls.slot, List.lookup])

/-! ## Examples -/

/-- A decode error whose position was assigned afterwards. -/
example : (match make exampleFormat .decode [.str (str "bad")] [("position", .int 3), ("data", .str (str "x"))] with
    | .ok e => (e.setAll [("position", .int 7)]).text (fun v => if v = Val.int 7 then str "7" else str "?")
        (fun v => match v with | .str s => s | _ => [])
    | .error x => .error x) = .ok (str "bad: position=7, data=?") := by decide +kernel

/-- `repr()` of an exception with two fields. -/
example : (match make exampleFormat .idOutOfRange [.str (str "no"), .int 4] [] with
    | .ok e => e.reprText (fun v => if v = Val.int 4 then str "4" else str "'no'")
    | .error x => .error x) = .ok (str "SerializedIdOutOfRangeV8SerializeError(message='no', serialized_id=4)") := by
  decide +kernel

/-- `str(JSError("boom"))` -/
example : (match make exampleFormat .jsError [.str (str "boom")] [] with
    | .ok e => e.text (fun v => match v with | .str s => str "'" ++ s ++ str "'" | _ => str "None")
        (fun v => match v with | .str s => s | _ => [])
    | .error x => .error x) = .ok (str "boom: name='Error', _JSError__message='boom', stack=None, cause=None") := by
  decide +kernel

end V8.Props
