import Verif.Spec.MapArgs
import Verif.Props.SetAlgebra

/-!
# C87: the arguments of JSMap and JSSet
-/

namespace V8.Props
open V8 V8.Spec V8.MapArgs V8.Spec.MapArgs

theorem setitem_tooBig (m : JSMap Val) {k : Val} (hb : TooBig k) (v : Val) : m.setitem k v = (m, some .overflowError) := by
  cases k with
  | int n =>
    have : ¬ n.natAbs < isnanIntLimit := by
      intro h
      exact absurd hb (by simp only [TooBig]; unfold isnanIntLimit at h; omega)
    simp only [JSMap.setitem, sameValueZero, if_neg this]
  | _ => exact hb.elim

theorem svz_tooBig {k : Val} (hb : TooBig k) : sameValueZero k = .error .overflowError := by
  cases k with
  | int n =>
    have : ¬ n.natAbs < isnanIntLimit := by
      intro h
      exact absurd hb (by simp only [TooBig]; unfold isnanIntLimit at h; omega)
    simp only [sameValueZero, if_neg this]
  | _ => exact hb.elim

theorem svz_fits {k : Val} (hb : ¬ TooBig k) : ∃ s, sameValueZero k = .ok s := by
  cases k with
  | int n =>
    have : n.natAbs < isnanIntLimit := by
      by_contra h
      exact hb (by simp only [TooBig]; unfold isnanIntLimit at h; omega)
    exact ⟨_, by simp only [sameValueZero, if_pos this]; rfl⟩
  | float x => simp only [sameValueZero]; split <;> exact ⟨_, rfl⟩
  | _ => exact ⟨_, rfl⟩

/-- What a part of the model does is to store the steps. -/
def Does (m : JSMap Val) (s : List Step) (r : JSMap Val × Option PyExc) : Prop :=
  r.1.Inv ∧ (r.1.items, r.2) = storeAll m.items s

/-- Go on unless there was an exception. -/
def andThen (r : JSMap Val × Option PyExc) (f : JSMap Val → JSMap Val × Option PyExc) : JSMap Val × Option PyExc :=
  match r with
  | (m', some e) => (m', some e)
  | (m', none) => f m'

theorem does_setitem {m : JSMap Val} (h : m.Inv) (k v : Val) (t : List Step) (f : JSMap Val → JSMap Val × Option PyExc)
    (hf : ∀ m' : JSMap Val, m'.Inv → Does m' t (f m')) :
    Does m (.ok (k, v) :: t)
      (andThen (m.setitem k v) f) := by
  unfold andThen
  by_cases hb : TooBig k
  · rw [setitem_tooBig m hb]
    exact ⟨h, by simp only [storeAll, if_pos hb]⟩
  · obtain ⟨m', e1, e2, e3⟩ := setitem_ok h hb v
    rw [e1]
    obtain ⟨g1, g2⟩ := hf m' e2
    exact ⟨g1, by simp only [storeAll, if_neg hb]; rw [g2, e3]⟩

theorem update_cons (m : JSMap Val) (k v : Val) (t : List (Val × Val)) :
    m.update ((k, v) :: t) = andThen (m.setitem k v) (fun m' => m'.update t) := by
  rw [JSMap.update]
  unfold andThen
  rcases m.setitem k v with ⟨_, _ | _⟩ <;> rfl

theorem storeItems_pair (m : JSMap Val) (fails : Option PyExc) (k v : Val) (t : List Item) :
    storeItems m fails (.pair k v :: t) = andThen (m.setitem k v) (fun m' => storeItems m' fails t) := by
  rw [storeItems]
  unfold andThen
  rcases m.setitem k v with ⟨_, _ | _⟩ <;> rfl

theorem update_one (m : JSMap Val) (a : Arg) (kw : Keywords) :
    update m [a] kw = andThen (storeSource m a.source) (fun m' => m'.update kw.items) := by
  rw [MapArgs.update]
  unfold andThen
  rcases storeSource m a.source with ⟨_, _ | _⟩ <;> rfl

theorem does_update : ∀ (items : List (Val × Val)) (m : JSMap Val), m.Inv → Does m (items.map .ok) (m.update items)
  | [], m, h => ⟨h, rfl⟩
  | (k, v) :: t, m, h => by
    rw [update_cons]
    exact does_setitem h k v _ (fun m' => m'.update t) (fun m' h' => does_update t m' h')

theorem does_keyed : ∀ (entries : List (Val × Except PyExc Val)) (m : JSMap Val), m.Inv →
    Does m (steps (.keyed entries)) (storeKeyed m entries)
  | [], m, h => ⟨h, rfl⟩
  | (k, r) :: t, m, h => by
    unfold storeKeyed
    by_cases hb : TooBig k
    · rw [svz_tooBig hb]
      exact ⟨h, by simp only [steps, List.map_cons, if_pos hb, storeAll]⟩
    · obtain ⟨s, hs⟩ := svz_fits hb
      rw [hs]
      cases r with
      | error e => exact ⟨h, by simp only [steps, List.map_cons, if_neg hb, storeAll]⟩
      | ok v =>
        have e : steps (.keyed ((k, .ok v) :: t)) = .ok (k, v) :: steps (.keyed t) := by
          simp only [steps, List.map_cons, if_neg hb]
        rw [e]
        have := does_setitem h k v _ (fun m' => storeKeyed m' t) (fun m' h' => does_keyed t m' h')
        unfold andThen at this
        simp only
        rcases hd : m.setitem k v with ⟨m', _ | x⟩ <;> rw [hd] at this <;> exact this

theorem does_items (fails : Option PyExc) : ∀ (items : List Item) (m : JSMap Val), m.Inv →
    Does m (steps (.iterable items fails)) (storeItems m fails items)
  | [], m, h => by cases fails <;> exact ⟨h, rfl⟩
  | .bad e :: t, m, h => ⟨h, rfl⟩
  | .pair k v :: t, m, h => by
    rw [storeItems_pair]
    exact does_setitem h k v _ (fun m' => storeItems m' fails t) (fun m' h' => does_items fails t m' h')

theorem does_source (s : Source) (m : JSMap Val) (h : m.Inv) : Does m (steps s) (storeSource m s) := by
  cases s with
  | mapping items => exact does_update items m h
  | keyed entries => exact does_keyed entries m h
  | iterable items fails => exact does_items fails items m h
  | plain => exact ⟨h, rfl⟩

theorem storeAll_append (s t : List Step) : ∀ l, storeAll l (s ++ t) =
    match storeAll l s with
    | (l', some e) => (l', some e)
    | (l', none) => storeAll l' t := by
  induction s with
  | nil => intro l; rfl
  | cons a s ih =>
    intro l
    cases a with
    | error e => rfl
    | ok e =>
      obtain ⟨k, v⟩ := e
      simp only [List.cons_append, storeAll]
      split
      · rfl
      · exact ih _

theorem does_append {m : JSMap Val} {s t : List Step} {r : JSMap Val × Option PyExc} (hr : Does m s r)
    (f : JSMap Val → JSMap Val × Option PyExc) (hf : ∀ m' : JSMap Val, m'.Inv → Does m' t (f m')) :
    Does m (s ++ t) (andThen r f) := by
  obtain ⟨m', o⟩ := r
  obtain ⟨h1, h2⟩ := hr
  simp only at h1 h2
  cases o with
  | some e =>
    refine ⟨h1, ?_⟩
    rw [storeAll_append, ← h2]
    rfl
  | none =>
    obtain ⟨g1, g2⟩ := hf m' h1
    refine ⟨g1, ?_⟩
    rw [storeAll_append, ← h2]
    exact g2

theorem keywordSteps_eq (kw : Keywords) : keywordSteps kw = kw.items.map .ok := by
  simp [keywordSteps, Keywords.items, List.map_map, Function.comp_def]

/-- C87: `m.update(*pos, **kw)` stores the entries of the source and one for each keyword, whatever the keywords are
called, up to the first exception. -/
theorem C87_update (ops : List (MapOp Val)) (pos : List Arg) (kw : Keywords) :
    let m := (runHist jsMapStep [] ops).1
    ((update m pos kw).1.items, (update m pos kw).2) = storeAll m.items (wanted pos kw) := by
  have h : (runHist jsMapStep ([] : JSMap Val) ops).1.Inv := (jsMap_hist ops ([] : JSMap Val) JSMap.inv_empty).1
  revert h
  generalize (runHist jsMapStep ([] : JSMap Val) ops).1 = m
  intro h
  match pos with
  | [] =>
    have := (does_update kw.items m h).2
    rw [← keywordSteps_eq] at this
    exact this
  | [a] =>
    simp only [update_one]
    exact (does_append (t := keywordSteps kw) (does_source a.source m h) (fun m' => m'.update kw.items)
      (fun m' h' => by rw [keywordSteps_eq]; exact does_update kw.items m' h')).2
  | _ :: _ :: _ => rfl

/-- An object with `keys`, then keywords that are called like parameters. -/
example :
    let m : JSMap Val := (runHist jsMapStep [] [.set (.int 1) (.bool true)]).1
    (update m [⟨.obj 9, .keyed [(.float 0x3ff0000000000000, .ok (.bool false)), (.int 2, .ok .null)]⟩]
      [(str "other", ⟨.int 5, .plain⟩), (str "self", ⟨.int 6, .plain⟩)]).1.items =
    [(.float 0x3ff0000000000000, .bool false), (.int 2, .null), (.str (str "other"), .int 5), (.str (str "self"), .int 6)] := by
  decide +kernel

theorem initBody_eq (init : Arg) (kwargs : Keywords) (hn : init.val = .null → init = Arg.none) :
    (initBody init kwargs).map JSMap.items =
      filled ((if init = Arg.none then [] else steps init.source) ++ keywordSteps kwargs) := by
  have h1 : Does [] (if init = Arg.none then [] else steps init.source)
      (if init.val = .null then (([] : JSMap Val), (none : Option PyExc)) else update [] [init] []) := by
    by_cases hv : init.val = .null
    · rw [if_pos hv, if_pos (hn hv)]
      exact ⟨JSMap.inv_empty, rfl⟩
    · rw [if_neg hv, if_neg (fun h => hv (by rw [h]; rfl))]
      have h := does_append (t := []) (does_source init.source [] JSMap.inv_empty) (fun m' => m'.update [])
        (fun m' h' => ⟨h', rfl⟩)
      rw [List.append_nil] at h
      rw [update_one]
      exact h
  have h2 : ∀ m : JSMap Val, m.Inv → Does m (keywordSteps kwargs)
      (if kwargs = [] then (m, (none : Option PyExc)) else update m [⟨.obj 0, .mapping kwargs.items⟩] []) := by
    intro m h
    by_cases hk : kwargs = []
    · rw [if_pos hk, hk]
      exact ⟨h, rfl⟩
    · rw [if_neg hk, keywordSteps_eq]
      have h := does_append (t := []) (does_source (.mapping kwargs.items) m h) (fun m' => m'.update [])
        (fun m' h' => ⟨h', rfl⟩)
      rw [List.append_nil] at h
      rw [update_one]
      exact h
  have h3 := does_append h1 _ h2
  unfold initBody filled
  revert h3
  generalize (if init.val = .null then (([] : JSMap Val), (none : Option PyExc)) else update [] [init] []) = r
  intro h3
  obtain ⟨m, o⟩ := r
  cases o with
  | some e =>
    simp only [andThen] at h3 ⊢
    rw [show ([] : List (Val × Val)) = JSMap.items ([] : JSMap Val) from rfl, ← h3.2]
    rfl
  | none =>
    simp only [andThen] at h3 ⊢
    revert h3
    generalize (if kwargs = [] then (m, (none : Option PyExc)) else update m [⟨.obj 0, .mapping kwargs.items⟩] []) = q
    intro h3
    obtain ⟨m', o'⟩ := q
    rw [show ([] : List (Val × Val)) = JSMap.items ([] : JSMap Val) from rfl, ← h3.2]
    cases o' <;> rfl

/-- An argument that is None is None. -/
def NoneIsNone (pos : List Arg) : Prop := ∀ a ∈ pos, a.val = .null → a = Arg.none

/-- C87: `JSMap(*pos, **kw)` has what `dict(*pos, **kw)` would have (None is no source), if no keyword is called `self` or
`init`.  Missing from the full claim: keywords with these two names, see `C87_init` and `C87_self`. -/
theorem C87_new_partial (pos : List Arg) (kw : Keywords) (hp : NoneIsNone pos)
    (hs : str "self" ∉ kw.map (·.1)) (hi : str "init" ∉ kw.map (·.1)) :
    (pos.length ≤ 1 → (new pos kw).map JSMap.items = filled (wanted (pos.filter (· ≠ Arg.none)) kw)) ∧
    (2 ≤ pos.length → new pos kw = .error .typeError) := by
  have c1 : (kw.map (·.1)).contains (str "self") = false := by simpa using hs
  have c2 : (kw.map (·.1)).contains (str "init") = false := by simpa using hi
  match pos with
  | [] =>
    refine ⟨fun _ => ?_, fun h => absurd h (by simp)⟩
    have e1 : kw.lookup (str "init") = none := by
      induction kw with
      | nil => rfl
      | cons e t ih =>
        obtain ⟨k, a⟩ := e
        simp only [List.map_cons, List.mem_cons, not_or] at hs hi
        rw [List.lookup_cons, beq_eq_false_iff_ne.2 hi.1]
        exact ih hs.2 hi.2 (by simpa using hs.2) (by simpa using hi.2)
    have e2 : kw.filter (fun e => e.1 ≠ str "init") = kw := by
      rw [List.filter_eq_self]
      intro a ha
      simp only [ne_eq, decide_not, Bool.not_eq_eq_eq_not, Bool.not_true, decide_eq_false_iff_not]
      exact fun h => hi (h ▸ List.mem_map_of_mem ha)
    simp only [new, c1, Bool.false_eq_true, if_false, e1, e2, Option.getD_none]
    rw [initBody_eq _ _ (fun _ => rfl)]
    rfl
  | [a] =>
    refine ⟨fun _ => ?_, fun h => absurd h (by simp)⟩
    simp only [new, c1, c2, Bool.false_eq_true, if_false]
    rw [initBody_eq _ _ (hp a (by simp))]
    by_cases ha : a = Arg.none
    · subst ha
      rfl
    · rw [if_neg ha]
      have : [a].filter (· ≠ Arg.none) = [a] := by simp [ha]
      rw [this]
      rfl
  | a :: b :: t =>
    exact ⟨fun h => absurd h (by simp), fun _ => by simp only [new, c1, Bool.false_eq_true, if_false]⟩

example : (new [⟨.obj 1, .iterable [.pair (.int 1) (.int 2), .pair (.bool true) (.int 3)] none⟩] [(str "x", ⟨.int 4, .plain⟩)]).map
    JSMap.items = .ok [(.int 1, .int 2), (.bool true, .int 3), (.str (str "x"), .int 4)] := by decide +kernel
example : (new [Arg.none] [(str "x", ⟨.int 4, .plain⟩)]).map JSMap.items = .ok [(.str (str "x"), .int 4)] := by
  decide +kernel
example : new [⟨.obj 1, .iterable [.pair (.int 1) (.int 2), .bad .valueError] none⟩] [] = .error .valueError := by
  decide +kernel

/-- C87: the keyword `init` never becomes an entry.  Without a positional argument it is taken for the source:
`JSMap(init=x, **kw)` is `JSMap(x, **kw)`.  With one it is a TypeError. -/
theorem C87_init (x : Arg) (kw : Keywords) (hi : str "init" ∉ kw.map (·.1)) :
    new [] ((str "init", x) :: kw) = new [x] kw ∧ ∀ a, new [a] ((str "init", x) :: kw) = .error .typeError := by
  have c2 : (kw.map (·.1)).contains (str "init") = false := by simpa using hi
  have e2 : kw.filter (fun e => e.1 ≠ str "init") = kw := by
    rw [List.filter_eq_self]
    intro a ha
    simp only [ne_eq, decide_not, Bool.not_eq_eq_eq_not, Bool.not_true, decide_eq_false_iff_not]
    exact fun h => hi (h ▸ List.mem_map_of_mem ha)
  have e3 : ((str "init", x) :: kw).filter (fun e => e.1 ≠ str "init") = kw := by
    rw [List.filter_cons]
    simp only [ne_eq, not_true_eq_false, decide_false, Bool.false_eq_true, if_false]
    exact e2
  have e4 : (((str "init", x) :: kw).map (·.1)).contains (str "self") = (kw.map (·.1)).contains (str "self") := by
    rw [List.map_cons, List.contains_cons, show (str "self" == str "init") = false by decide, Bool.false_or]
  constructor
  · unfold new
    rw [e4]
    simp only [e3, c2, Bool.false_eq_true, if_false, List.lookup_cons, beq_self_eq_true, Option.getD_some]
  · intro a
    unfold new
    rw [e4]
    simp

/-- `JSMap(init=1)` raises TypeError, where `dict(init=1)` is `{"init": 1}`; `JSMap(init={"a": 2})` is `{"a": 2}`. -/
example : new [] [(str "init", ⟨.int 1, .plain⟩)] = .error .typeError ∧
    filled (wanted [] [(str "init", ⟨.int 1, .plain⟩)]) = .ok [(.str (str "init"), .int 1)] ∧
    (new [] [(str "init", ⟨.obj 1, .mapping [(.str (str "a"), .int 2)]⟩)]).map JSMap.items = .ok [(.str (str "a"), .int 2)] := by
  decide +kernel

/-- C87: the keyword `self` is a TypeError. -/
theorem C87_self (pos : List Arg) (kw : Keywords) (h : str "self" ∈ kw.map (·.1)) : new pos kw = .error .typeError := by
  have : (kw.map (·.1)).contains (str "self") = true := by simpa using h
  simp only [new, this, if_true]

/-- Store members one after the other, up to an integer too big for a double. -/
def storeMembers (l : List Val) : List Val → List Val × Option PyExc
  | [] => (l, none)
  | v :: t => if TooBig v then (l, some .overflowError) else storeMembers (setStore v l) t

theorem addAll_eq (fails : Option PyExc) : ∀ (vs : List Val) (s : JSSet), s.Inv →
    ((addAll s fails vs).1.members, (addAll s fails vs).2) =
      ((storeMembers s.members vs).1, (storeMembers s.members vs).2.or fails)
  | [], s, _ => rfl
  | v :: t, s, h => by
    have hstep := jsSet_step s h (.add v)
    obtain ⟨h1, h2, h3⟩ := hstep
    simp only [jsSetStep, jsSetStep.ret, setSpecStep] at h1 h2 h3
    unfold addAll storeMembers
    by_cases hb : TooBig v
    · simp only [if_pos hb] at h2 h3 ⊢
      rcases hd : s.add v with ⟨s', _ | e⟩
      · rw [hd] at h3; cases h3
      · rw [hd] at h2 h3
        simp only at h2 h3
        injection h3 with h3
        simp only [h2, h3, Option.some_or]
    · simp only [if_neg hb] at h2 h3 ⊢
      rcases hd : s.add v with ⟨s', _ | e⟩
      · rw [hd] at h1 h2
        simp only at h1 h2 ⊢
        rw [addAll_eq fails t s' h1, h2]
      · rw [hd] at h3; cases h3

/-- C87: `JSSet(iterable)` has the members of the iterable, each once; the first exception goes through.  `JSSet()` and
`JSSet(None)` are empty; anything else is a TypeError. -/
theorem C87_set (pos : List SetArg) (keywords : Bool) :
    (newSet pos keywords).map JSSet.members =
      match keywords, pos with
      | false, [] => .ok []
      | false, [a] =>
        if a.val = .null then .ok [] else
        match a.members with
        | none => .error .typeError
        | some (vs, fails) =>
          match (storeMembers [] vs).2.or fails with
          | none => .ok (storeMembers [] vs).1
          | some e => .error e
      | _, _ => .error .typeError := by
  cases keywords with
  | true => rfl
  | false =>
    match pos with
    | [] => rfl
    | a :: b :: t => rfl
    | [a] =>
      simp only [newSet, Bool.false_eq_true, if_false]
      by_cases hv : a.val = .null
      · simp only [if_pos hv]; rfl
      · simp only [if_neg hv]
        cases a.members with
        | none => rfl
        | some q =>
          obtain ⟨vs, fails⟩ := q
          simp only
          have := addAll_eq fails vs [] JSSet.inv_empty
          rw [show JSSet.members [] = [] from rfl] at this
          rcases hd : addAll [] fails vs with ⟨s, _ | e⟩
          · rw [hd] at this
            have h1 := congrArg Prod.fst this
            have h2 := congrArg Prod.snd this
            simp only at h1 h2 ⊢
            rw [← h2, ← h1]
            rfl
          · rw [hd] at this
            have h2 := congrArg Prod.snd this
            simp only at h2 ⊢
            rw [← h2]
            rfl

example : (newSet [⟨.obj 1, some ([.int 1, .float 0x3ff0000000000000, .bool true], none)⟩] false).map JSSet.members =
    .ok [.float 0x3ff0000000000000, .bool true] := by decide +kernel

end V8.Props
