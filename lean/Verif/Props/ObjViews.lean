import Verif.Proofs.ObjViews
import Verif.Props.Keys
import Verif.Props.PlainEq

/-!
# C82: the views of a JSObject

`Spec/ObjViews.lean` says which objects the API makes (`BuiltObject`), which keys are in the form in which they are
stored (`StoredKey`) and what Python does with such keys (`PlainKeys`).  `FloatNames` (`Spec/Decoded.lean`) says that
`str()` of a float that is no integer does not spell an index.  `o.keys` and `o.items` are the keys and properties of
the object in the order of iteration (C59).
-/

namespace V8.Props
open V8 V8.Spec

variable {β : Type}

/-! ## Going through the views -/

theorem lookUp_items {fs : F64 → Str} {o : JSObj β} (h : Viewable fs o) (l : List (PKey × β))
    (hl : ∀ e ∈ l, e ∈ o.items) :
    o.lookUp fs ((l.map (·.1)).map PKey.toVal) = .ok (l.map fun e => (e.1.toVal, e.2)) := by
  induction l with
  | nil => rfl
  | cons e t ih =>
    have he := hl e List.mem_cons_self
    have hg : o.getVal fs e.1.toVal = .ok e.2 := by
      have hs : normaliseVal fs e.1.toVal = .ok e.1 :=
        h.stored e.1 (by rw [h.keys]; exact List.mem_map_of_mem he)
      unfold JSObj.getVal
      rw [hs]
      exact h.found e.1 e.2 he
    have h2 := ih (fun x hx => hl x (List.mem_cons_of_mem _ hx))
    simp only [List.map_cons, JSObj.lookUp, hg, h2]

/-- **C82.** Looking every key up again, the views of the items and of the values go through the properties of the
object in order, without an exception. -/
theorem C82_iteration {py : PyEnv} (hpy : FloatNames py) (o : JSObj β) (h : BuiltObject py.floatStr o) :
    o.itemsIter py.floatStr = .ok (o.items.map fun e => (e.1.toVal, e.2)) ∧
    o.valuesIter py.floatStr = .ok (o.items.map (·.2)) := by
  have hv := viewable hpy h
  have hi : o.itemsIter py.floatStr = .ok (o.items.map fun e => (e.1.toVal, e.2)) := by
    unfold JSObj.itemsIter
    rw [hv.keys]
    exact lookUp_items hv o.items (fun _ he => he)
  refine ⟨hi, ?_⟩
  unfold JSObj.valuesIter
  rw [hi]
  simp [Except.map, Function.comp_def]

/-! ## Membership -/

/-- The JavaScript name of a value used as a property key: the decimal text of an int or an integral float, a string
itself. -/
def nameOf : Val → Option Str
  | .int n => jsName (.int n)
  | .float x => jsName (.float x)
  | .str s => jsName (.str s)
  | _ => none

/-- **C82.** `v in o.keys()` for a value with the JavaScript name `s`: the object has a property of that name.
(Beyond 4300 characters Python may refuse to convert the number.) -/
theorem C82_key_in {py : PyEnv} (hpy : FloatNames py) (o : JSObj β) (h : BuiltObject py.floatStr o) (v : Val) (s : Str)
    (hs : nameOf v = some s) (hl : s.length ≤ 4300) :
    ∃ b, (o.keysView py.floatStr).has v = .ok b ∧ (b = true ↔ ∃ k ∈ o.keys, PKey.text k = s) := by
  have hv := viewable hpy h
  obtain ⟨raw, hraw, hjs⟩ : ∃ raw, normaliseVal py.floatStr v = normaliseKey py.floatStr raw ∧ jsName raw = some s := by
    cases v with
    | int n => exact ⟨.int n, rfl, hs⟩
    | float x => exact ⟨.float x, rfl, hs⟩
    | str t => exact ⟨.str t, rfl, hs⟩
    | hole => cases hs
    | undef => cases hs
    | null => cases hs
    | bool b => cases hs
    | bytes b => cases hs
    | obj i => cases hs
  obtain ⟨k, hk⟩ := C30_total py.floatStr raw s hjs hl
  refine ⟨_, hasVal_eq hv (hraw.trans hk), ?_⟩
  rw [decide_eq_true_eq]
  constructor
  · intro hm
    exact ⟨k, hm, C30_same_name _ _ _ _ hjs hk⟩
  · rintro ⟨k', hm, ht⟩
    have h1 := normaliseKey_of_name py.floatStr raw k s hjs hk
    have h2 : normaliseKey py.floatStr (.str s) = .ok k' := by
      have hst := hv.stored k' hm
      cases k' with
      | idx n => exact normaliseKey_of_name py.floatStr (.int n) (.idx n) s (by rw [← ht]; rfl) hst
      | name t => rw [← ht]; exact hst
    rw [h1] at h2
    cases h2
    exact hm

/-- **C82.** `(v, x) in o.items()` for a value that is normalised to the key `k`: the object has a property with this
key, and its value is `x` or equals it. -/
theorem C82_item_in {py : PyEnv} (hpy : FloatNames py) (c : PyCompare) (o : JSObj Val) (h : BuiltObject py.floatStr o)
    (v x : Val) (k : PKey) (hk : normaliseVal py.floatStr v = .ok k) :
    o.itemsHas py.floatStr c (v, x) = .ok true ↔ ∃ w, (k, w) ∈ o.items ∧ Equal c w x := by
  have hv := viewable hpy h
  unfold JSObj.itemsHas JSObj.getVal
  rw [hk]
  simp only
  by_cases hm : k ∈ o.keys
  · rw [hv.keys] at hm
    obtain ⟨⟨k', w⟩, he, rfl⟩ := List.mem_map.1 hm
    rw [hv.found k' w he]
    simp only
    rw [same_or_eq_true]
    constructor
    · exact fun hq => ⟨w, he, hq⟩
    · rintro ⟨w', he', hq⟩
      have := (hv.found k' w' he').symm.trans (hv.found k' w he)
      cases this
      exact hq
  · rw [hv.missing k hm]
    simp only [Except.ok.injEq, Bool.false_eq_true, false_iff]
    rintro ⟨w, he, _⟩
    exact hm (by rw [hv.keys]; exact List.mem_map.2 ⟨_, he, rfl⟩)

/-- **C82.** `x in o.values()`: some value is `x` or equals it (where comparing values raises nothing). -/
theorem C82_value_in {py : PyEnv} (hpy : FloatNames py) (c : PyCompare) (o : JSObj Val) (h : BuiltObject py.floatStr o)
    (x : Val) (ht : ∀ e ∈ o.items, ∃ b, c.eq e.2 x = .ok b) :
    ∃ b, o.valuesHas py.floatStr c x = .ok b ∧ (b = true ↔ ∃ e ∈ o.items, Equal c e.2 x) := by
  have hv := viewable hpy h
  have key : ∀ l : List (PKey × Val), (∀ e ∈ l, e ∈ o.items) →
      ∃ b, o.valuesHasIn py.floatStr c x ((l.map (·.1)).map PKey.toVal) = .ok b ∧
        (b = true ↔ ∃ e ∈ l, Equal c e.2 x) := by
    intro l
    induction l with
    | nil => intro _; exact ⟨false, rfl, by simp⟩
    | cons e t ih =>
      intro hl
      have he := hl e List.mem_cons_self
      obtain ⟨b, hb, hbq⟩ := ih (fun x hx => hl x (List.mem_cons_of_mem _ hx))
      have h1 : o.getVal py.floatStr e.1.toVal = .ok e.2 := by
        have hs : normaliseVal py.floatStr e.1.toVal = .ok e.1 :=
          hv.stored e.1 (by rw [hv.keys]; exact List.mem_map_of_mem he)
        unfold JSObj.getVal
        rw [hs]
        exact hv.found e.1 e.2 he
      obtain ⟨d, hd⟩ : ∃ d, c.same_or_eq e.2 x = .ok d := by
        unfold PyCompare.same_or_eq
        by_cases hs : c.same e.2 x = true
        · exact ⟨true, by rw [if_pos hs]⟩
        · rw [if_neg hs]; exact ht e he
      have hq := same_or_eq_true (py := c) (v := e.2) (w := x)
      rw [hd] at hq
      simp only [List.map_cons, JSObj.valuesHasIn, h1, hd]
      cases d with
      | true => exact ⟨true, rfl, by simp [hq.1 rfl]⟩
      | false =>
        refine ⟨b, hb, hbq.trans ?_⟩
        have hn : ¬ Equal c e.2 x := fun hh => by have := hq.2 hh; cases this
        simp [hn]
  unfold JSObj.valuesHas
  rw [hv.keys]
  exact key o.items (fun _ he => he)

/-! ## Two objects -/

/-- **C82.** The keys of two objects compare as sets: `<=` and `>=` are inclusion, `<` and `>` proper inclusion, and
they are `==` when both have the same keys, in any order. -/
theorem C82_compare_keys {py : PyEnv} (hpy : FloatNames py) (o o' : JSObj β) (h : BuiltObject py.floatStr o)
    (h' : BuiltObject py.floatStr o') :
    let a := o.keysView py.floatStr
    let a' := o'.keysView py.floatStr
    (∃ b, a.le a' = .ok b ∧ (b = true ↔ o.keys ⊆ o'.keys)) ∧
    (∃ b, a.ge a' = .ok b ∧ (b = true ↔ o'.keys ⊆ o.keys)) ∧
    (∃ b, a.lt a' = .ok b ∧ (b = true ↔ o.keys ⊆ o'.keys ∧ ¬ o'.keys ⊆ o.keys)) ∧
    (∃ b, a.gt a' = .ok b ∧ (b = true ↔ o'.keys ⊆ o.keys ∧ ¬ o.keys ⊆ o'.keys)) ∧
    (∃ b, a.eqv a' = .ok b ∧ (b = true ↔ o.keys ⊆ o'.keys ∧ o'.keys ⊆ o.keys)) :=
  (keySet_object (viewable hpy h)).compare (keySet_object (viewable hpy h'))

/-- **C82.** `&`, `|`, `-` and `^` of the keys of two objects are the Python sets of the keys that both have, that one
of them has, that only the first has, and that exactly one has. -/
theorem C82_operators {py : PyEnv} (hpy : FloatNames py) {c : PyCompare} (hw : HashesWell c) (hp : PlainKeys c)
    (o o' : JSObj β) (h : BuiltObject py.floatStr o) (h' : BuiltObject py.floatStr o') :
    let a := o.keysView py.floatStr
    let a' := o'.keysView py.floatStr
    (∃ r, SetView.and c a a'.els = .ok (r.map PKey.toVal) ∧ SetOf r fun k => k ∈ o.keys ∧ k ∈ o'.keys) ∧
    (∃ r, SetView.or c a a'.els = .ok (r.map PKey.toVal) ∧ SetOf r fun k => k ∈ o.keys ∨ k ∈ o'.keys) ∧
    (∃ r, SetView.sub c a a' = .ok (r.map PKey.toVal) ∧ SetOf r fun k => k ∈ o.keys ∧ k ∉ o'.keys) ∧
    (∃ r, SetView.xor c a a' = .ok (r.map PKey.toVal) ∧
      SetOf r fun k => (k ∈ o.keys ∧ k ∉ o'.keys) ∨ (k ∈ o'.keys ∧ k ∉ o.keys)) :=
  have ha := keySet_object (viewable hpy h)
  have ha' := keySet_object (viewable hpy h')
  ⟨ha.and hw hp (viewable hpy h').stored, ha.or hw hp o'.keys, ha.sub hw hp ha', ha.xor hw hp ha'⟩

theorem objItems_le {py : PyEnv} (hpy : FloatNames py) {c : PyCompare} (ht : ∀ v w, ∃ b, c.eq v w = .ok b)
    {o o' : JSObj Val} (h : BuiltObject py.floatStr o) (h' : BuiltObject py.floatStr o') :
    ∃ b, o.itemsLe py.floatStr c o' = .ok b ∧ (b = true ↔ ∀ e ∈ o.items, ∃ e' ∈ o'.items, SameProperty c e e') := by
  have hv := viewable hpy h
  have hv' := viewable hpy h'
  unfold JSObj.itemsLe
  by_cases hl : o.len > o'.len
  · refine ⟨false, by rw [if_pos hl], ?_⟩
    simp only [Bool.false_eq_true, false_iff]
    intro hall
    have hsub : o.keys ⊆ o'.keys := by
      intro k hk
      rw [hv.keys] at hk
      obtain ⟨e, he, rfl⟩ := List.mem_map.1 hk
      obtain ⟨e', he', hs, _⟩ := hall e he
      rw [hv'.keys, ← hs]
      exact List.mem_map_of_mem he'
    have := (hv.nodup.subperm hsub).length_le
    rw [hv.len, hv'.len] at hl
    omega
  · rw [if_neg hl, (C82_iteration hpy o h).1]
    have key : ∀ l : List (PKey × Val), (∀ e ∈ l, e ∈ o.items) →
        ∃ b, o'.allItems py.floatStr c (l.map fun e => (e.1.toVal, e.2)) = .ok b ∧
          (b = true ↔ ∀ e ∈ l, ∃ e' ∈ o'.items, SameProperty c e e') := by
      intro l
      induction l with
      | nil => intro _; exact ⟨true, rfl, by simp⟩
      | cons e t ih =>
        intro hl
        obtain ⟨b, hb, hbq⟩ := ih (fun x hx => hl x (List.mem_cons_of_mem _ hx))
        have hs : normaliseVal py.floatStr e.1.toVal = .ok e.1 :=
          hv.stored e.1 (by rw [hv.keys]; exact List.mem_map_of_mem (hl e List.mem_cons_self))
        have hin : o'.itemsHas py.floatStr c (e.1.toVal, e.2) = .ok true ↔ ∃ e' ∈ o'.items, SameProperty c e e' := by
          rw [C82_item_in hpy c o' h' _ e.2 e.1 hs]
          constructor
          · rintro ⟨w, hw, hq⟩
            exact ⟨(e.1, w), hw, rfl, hq⟩
          · rintro ⟨⟨k, w⟩, hw, hk, hq⟩
            simp only at hk
            subst hk
            exact ⟨w, hw, hq⟩
        obtain ⟨d, hd⟩ : ∃ d, o'.itemsHas py.floatStr c (e.1.toVal, e.2) = .ok d := by
          unfold JSObj.itemsHas JSObj.getVal
          rw [hs]
          simp only
          by_cases hm : e.1 ∈ o'.keys
          · rw [hv'.keys] at hm
            obtain ⟨⟨k, w⟩, he', hk⟩ := List.mem_map.1 hm
            simp only at hk
            subst hk
            rw [hv'.found _ w he']
            simp only
            unfold PyCompare.same_or_eq
            by_cases hq : c.same w e.2 = true
            · exact ⟨true, by rw [if_pos hq]⟩
            · rw [if_neg hq]; exact ht _ _
          · rw [hv'.missing _ hm]
            exact ⟨false, rfl⟩
        rw [hd] at hin
        simp only [List.map_cons]
        unfold JSObj.allItems
        rw [hd]
        cases d with
        | false =>
          refine ⟨false, rfl, ?_⟩
          simp only [Bool.false_eq_true, false_iff]
          intro hall
          have := hin.2 (hall e List.mem_cons_self)
          cases this
        | true =>
          refine ⟨b, hb, ?_⟩
          rw [hbq, List.forall_mem_cons]
          exact ⟨fun hh => ⟨hin.1 rfl, hh⟩, fun hh => hh.2⟩
    exact key o.items (fun _ he => he)

/-- **C82.** The items of an object are `<=` the items of another one when each is in the other, with the same key and
an equal value; they are `==` when the properties match one to one in any order (where comparing values raises
nothing).  So `o.items() == o'.items()` compares objects as dicts do, without regard to the lengths of arrays. -/
theorem C82_compare_items {py : PyEnv} (hpy : FloatNames py) {c : PyCompare} (ht : ∀ v w, ∃ b, c.eq v w = .ok b)
    (o o' : JSObj Val) (h : BuiltObject py.floatStr o) (h' : BuiltObject py.floatStr o') :
    (∃ b, o.itemsLe py.floatStr c o' = .ok b ∧
      (b = true ↔ ∀ e ∈ o.items, ∃ e' ∈ o'.items, SameProperty c e e')) ∧
    ∃ b, o.itemsEq py.floatStr c o' = .ok b ∧
      (b = true ↔ AgreeInAnyOrder (SameProperty c) o.items o'.items) := by
  have hv := viewable hpy h
  have hv' := viewable hpy h'
  have hlen : o.len = o.items.length := by rw [hv.len, hv.keys, List.length_map]
  have hlen' : o'.len = o'.items.length := by rw [hv'.len, hv'.keys, List.length_map]
  obtain ⟨b, hb, hq⟩ := objItems_le hpy ht h h'
  refine ⟨⟨b, hb, hq⟩, ?_⟩
  unfold JSObj.itemsEq
  by_cases hl : o.len = o'.len
  · rw [if_pos hl]
    refine ⟨b, hb, hq.trans ⟨fun hall => ?_, fun hag => (mem_of_agree hag).2⟩⟩
    rw [hlen, hlen'] at hl
    refine agree_of_inj _ _ (by omega) hall ?_
    have ho := hv.nodup
    rw [hv.keys] at ho
    unfold List.Nodup at ho
    rw [List.pairwise_map] at ho
    exact ho.imp (fun hn b hb hb' => hn (hb.1.symm.trans hb'.1))
  · rw [if_neg hl]
    refine ⟨false, rfl, ?_⟩
    simp only [Bool.false_eq_true, false_iff]
    intro hag
    rw [hlen, hlen'] at hl
    exact hl (by rw [(mem_of_agree hag).1])

/-! ## An object and a Python set -/

/-- **C82.** The keys of an object compare as a set with a Python set of keys, if these are in the form in which they
are stored.  Missing from the full statement: other spellings of keys (`C82_spelling`) and values that are no keys
(`C82_no_key`). -/
theorem C82_compare_set_partial {py : PyEnv} (hpy : FloatNames py) {c : PyCompare} (hw : HashesWell c)
    (hp : PlainKeys c) (o : JSObj β) (h : BuiltObject py.floatStr o) (ks : List PKey) (hn : ks.Nodup)
    (hs : ∀ k ∈ ks, StoredKey py.floatStr k) :
    let a := o.keysView py.floatStr
    let s := SetView.ofSet c (ks.map PKey.toVal)
    (∃ b, a.le s = .ok b ∧ (b = true ↔ o.keys ⊆ ks)) ∧
    (∃ b, a.ge s = .ok b ∧ (b = true ↔ ks ⊆ o.keys)) ∧
    (∃ b, a.lt s = .ok b ∧ (b = true ↔ o.keys ⊆ ks ∧ ¬ ks ⊆ o.keys)) ∧
    (∃ b, a.gt s = .ok b ∧ (b = true ↔ ks ⊆ o.keys ∧ ¬ o.keys ⊆ ks)) ∧
    (∃ b, a.eqv s = .ok b ∧ (b = true ↔ o.keys ⊆ ks ∧ ks ⊆ o.keys)) :=
  (keySet_object (viewable hpy h)).compare (keySet_set hw hp hn hs)

/-- **C82.** `&`, `|`, `-`, reflected `-` and `^` of the keys of an object and a Python set of keys in the form in which
they are stored.  Missing from the full statement: other spellings of keys (`C82_spelling`) and values that are no
keys (`C82_no_key`). -/
theorem C82_operators_set_partial {py : PyEnv} (hpy : FloatNames py) {c : PyCompare} (hw : HashesWell c)
    (hp : PlainKeys c) (o : JSObj β) (h : BuiltObject py.floatStr o) (ks : List PKey) (hn : ks.Nodup)
    (hs : ∀ k ∈ ks, StoredKey py.floatStr k) :
    let a := o.keysView py.floatStr
    let l := ks.map PKey.toVal
    (∃ r, SetView.and c a l = .ok (r.map PKey.toVal) ∧ SetOf r fun k => k ∈ o.keys ∧ k ∈ ks) ∧
    (∃ r, SetView.or c a l = .ok (r.map PKey.toVal) ∧ SetOf r fun k => k ∈ o.keys ∨ k ∈ ks) ∧
    (∃ r, SetView.sub c a (.ofSet c l) = .ok (r.map PKey.toVal) ∧ SetOf r fun k => k ∈ o.keys ∧ k ∉ ks) ∧
    (∃ r, SetView.sub c (.ofSet c l) a = .ok (r.map PKey.toVal) ∧ SetOf r fun k => k ∈ ks ∧ k ∉ o.keys) ∧
    (∃ r, SetView.xor c a (.ofSet c l) = .ok (r.map PKey.toVal) ∧
      SetOf r fun k => (k ∈ o.keys ∧ k ∉ ks) ∨ (k ∈ ks ∧ k ∉ o.keys)) :=
  have ha := keySet_object (viewable hpy h)
  have hb := keySet_set hw hp hn hs
  ⟨ha.and hw hp hs, ha.or hw hp ks, ha.sub hw hp hb, hb.sub hw hp ha, ha.xor hw hp hb⟩

/-- **C82.** `keys & other` with any spelling of keys: what a Python set keeps of the values of the other side that name
a property of the object.  These values come back, not the keys of the object. -/
theorem C82_and_any_spelling {py : PyEnv} (hpy : FloatNames py) {c : PyCompare} (hw : HashesWell c) (o : JSObj β)
    (h : BuiltObject py.floatStr o) (l : List Val) (name : Val → PKey)
    (hn : ∀ v ∈ l, normaliseVal py.floatStr v = .ok (name v)) (hh : ∀ v ∈ l, CanHash c v) :
    ∃ r, SetView.and c (o.keysView py.floatStr) l = .ok r ∧
      Spec.Keeps c (l.filter fun v => decide (name v ∈ o.keys)) r :=
  makeSet_ok hw (fun v hv => hasVal_eq (viewable hpy h) (hn v hv)) (fun v hv _ => hh v hv)

/-! ## Where the full statement fails -/

/-- `v in o`, `v in o.keys()` and `(v, x) in o.items()` raise AttributeError for a value that is no str, int, bool or
float (`None in o`, `o.keys() & {None}`), where a dict would answer False. -/
theorem C82_no_key {fs : F64 → Str} (o : JSObj β) (v : Val) (hv : v = .null ∨ v = .undef ∨ v = .hole ∨
      (∃ b, v = .bytes b) ∨ ∃ i, v = .obj i) :
    (o.keysView fs).has v = .error .attributeError ∧
    (∀ (c : PyCompare) (o' : JSObj Val) (x : Val), o'.itemsHas fs c (v, x) = .error .attributeError) ∧
    ∀ (c : PyCompare) (t : List Val), SetView.and c (o.keysView fs) (v :: t) = .error .attributeError := by
  have key : (o.keysView fs).has v = .error .attributeError := by
    rcases hv with rfl | rfl | rfl | ⟨b, rfl⟩ | ⟨i, rfl⟩ <;> rfl
  refine ⟨key, fun c o' x => ?_, fun c t => ?_⟩
  · rcases hv with rfl | rfl | rfl | ⟨b, rfl⟩ | ⟨i, rfl⟩ <;> rfl
  unfold SetView.and SetView.makeSet SetView.gather
  rw [key]
  rfl

/-- The assumption `PlainKeys` holds of the ints and strs of Python. -/
theorem exampleCompare_plainKeys : PlainKeys exampleCompare where
  hash k := by cases k <;> rfl
  equal k k' := by
    rw [exampleCompare_equal (by cases k <;> rfl) (by cases k' <;> rfl)]
    constructor
    · rintro (h | ⟨a, h1, h2, _⟩)
      · exact toVal_inj h
      · cases k with
        | name s => cases h1
        | idx n =>
          cases k' with
          | name s => cases h2
          | idx m =>
            simp only [PKey.toVal, numOf, Option.some.injEq] at h1 h2
            rw [← h2] at h1
            simp only [FVal.fin.injEq] at h1
            have : (n : Int) = m := Int.eq_of_mul_eq_mul_right (by decide +kernel) h1
            congr 1
            omega
    · rintro rfl
      exact .inl rfl

/-- For `o = JSObject({1: None})` and the Python set `s = {'1'}` all of these hold: `'1' in o`, `o.keys() >= s` and
`o.keys() & s == s`, but `o.keys() != s`, `o.keys() - s == {1}`, `s - o.keys() == set()` and `o.keys() | s` has two
members; `o.keys() ^ s` is `{1}`.  The keys are looked up as JavaScript names in the object, and as Python values in
the set. -/
theorem C82_spelling : ∃ (py : PyEnv) (c : PyCompare) (o : JSObj Val), FloatNames py ∧ HashesWell c ∧ PlainKeys c ∧
    BuiltObject py.floatStr o ∧
    let a := o.keysView py.floatStr
    let s := SetView.ofSet c [.str [49]]
    a.els = [.int 1] ∧ a.has (.str [49]) = .ok true ∧ a.ge s = .ok true ∧
    SetView.and c a [.str [49]] = .ok [.str [49]] ∧ a.le s = .ok false ∧ a.eqv s = .ok false ∧
    SetView.sub c a s = .ok [.int 1] ∧ SetView.sub c s a = .ok [] ∧
    SetView.or c a [.str [49]] = .ok [.int 1, .str [49]] ∧ SetView.xor c a s = .ok [.int 1] := by
  refine ⟨examplePy, exampleCompare, (runHist objStepX JSObj.empty [.set (.idx 1) (some .null)]).1,
    floatNames_example, exampleCompare_hashesWell, ?_, ⟨_, ?_, rfl⟩, ?_⟩
  · exact exampleCompare_plainKeys
  · intro op ho k hk
    cases List.mem_singleton.1 ho
    cases hk
    exact ⟨.int 1, by decide +kernel⟩
  · decide +kernel

/-! ## Examples -/

/-- `o = JSObject({'b': 1, '7': 2, -1: 3})`, with the keys in normal form. -/
def exampleObjectViewed : JSObj Val :=
  (runHist objStepX JSObj.empty [.set (.name [98]) (some (.int 1)), .set (.idx 7) (some (.int 2)),
    .set (.name [45, 49]) (some (.int 3))]).1

theorem exampleObjectViewed_built : BuiltObject examplePy.floatStr exampleObjectViewed := by
  refine ⟨_, ?_, rfl⟩
  intro op ho k hk
  simp only [List.mem_cons, List.not_mem_nil, or_false] at ho
  rcases ho with rfl | rfl | rfl <;> cases hk
  · exact ⟨.str [98], by decide +kernel⟩
  · exact ⟨.str [55], by decide +kernel⟩
  · exact ⟨.int (-1), by decide +kernel⟩

example : exampleObjectViewed.itemsIter examplePy.floatStr =
      .ok [(.int 7, .int 2), (.str [98], .int 1), (.str [45, 49], .int 3)] ∧
    (exampleObjectViewed.keysView examplePy.floatStr).has (.str [55]) = .ok true ∧
    (exampleObjectViewed.keysView examplePy.floatStr).has (.int (-1)) = .ok true ∧
    (exampleObjectViewed.keysView examplePy.floatStr).has (.str [48, 55]) = .ok false ∧
    exampleObjectViewed.itemsHas examplePy.floatStr exampleCompare (.float 0x401c000000000000, .int 2) = .ok true ∧
    exampleObjectViewed.valuesHas examplePy.floatStr exampleCompare (.bool true) = .ok true := by decide +kernel

/-- A Python set of keys in the form in which they are stored, as the theorems about Python sets want it. -/
example : ([.idx 7, .name [120]] : List PKey).Nodup ∧
    (∀ k ∈ ([.idx 7, .name [120]] : List PKey), StoredKey examplePy.floatStr k) ∧
    SetView.and exampleCompare (exampleObjectViewed.keysView examplePy.floatStr) [.int 7, .str [120]] = .ok [.int 7] ∧
    SetView.xor exampleCompare (exampleObjectViewed.keysView examplePy.floatStr)
      (.ofSet exampleCompare [.int 7, .str [120]]) = .ok [.str [98], .str [45, 49], .str [120]] := by
  refine ⟨by decide +kernel, ?_, by decide +kernel, by decide +kernel⟩
  unfold StoredKey
  decide +kernel

/-- Two objects with the same properties in another order and with arrays of other lengths: not `==`, but their items
are. -/
example :
    let o := (runHist objStepX (JSObj.empty : JSObj Val) [.set (.name [98]) (some (.int 1)),
      .set (.name [97]) (some (.int 2))]).1
    let o' := (runHist objStepX (JSObj.empty : JSObj Val) [.set (.name [97]) (some (.int 2)), .set (.idx 3) (some .null),
      .set (.name [98]) (some (.int 1)), .del (.idx 3)]).1
    o.itemsEq examplePy.floatStr exampleCompare o' = .ok true ∧ o.array.len = 0 ∧ o'.array.len = 4 ∧
    (o.keysView examplePy.floatStr).eqv (o'.keysView examplePy.floatStr) = .ok true := by decide +kernel

end V8.Props
