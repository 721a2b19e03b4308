import Verif.Spec.Errors
import Mathlib.Data.List.Forall2

/-! # Lemmas about the exceptions of the package (`Model/Errors`) -/

namespace V8.Errors

open V8.Spec

theorem lookup_some {kw : List (String × Val)} {n : String} {v : Val} (h : kw.lookup n = some v) :
    n ∈ kw.map (·.1) := by
  induction kw with
  | nil => simp at h
  | cons e t ih =>
    obtain ⟨a, b⟩ := e
    rw [List.lookup_cons] at h
    split at h
    · rename_i q
      simp [beq_iff_eq.1 q]
    · exact List.mem_cons_of_mem _ (ih h)

theorem lookup_none {kw : List (String × Val)} {n : String} (h : kw.lookup n = none) : n ∉ kw.map (·.1) := by
  induction kw with
  | nil => simp
  | cons e t ih =>
    obtain ⟨a, b⟩ := e
    rw [List.lookup_cons] at h
    split at h
    · cases h
    · rename_i q
      rw [List.map_cons, List.mem_cons, not_or]
      exact ⟨fun q' => by simp [q'] at q, ih h⟩

theorem lookup_isSome {kw : List (String × Val)} {n : String} (h : n ∈ kw.map (·.1)) : ∃ v, kw.lookup n = some v := by
  cases q : kw.lookup n with
  | none => exact absurd h (lookup_none q)
  | some v => exact ⟨v, rfl⟩

/-- What `bindPositional` returns. -/
theorem bindPositional_ok (kw : List (String × Val)) :
    ∀ (ps : List (String × Option Val)) (pos vs rest : List Val), bindPositional kw ps pos = .ok (vs, rest) →
      vs.length = ps.length ∧ rest = pos.drop ps.length ∧
      (∀ (i : Nat) n d, ps[i]? = some (n, d) → i < pos.length → n ∉ kw.map (·.1)) ∧
      (∀ (i : Nat) n d, ps[i]? = some (n, d) → vs[i]? = ((pos[i]?).or (kw.lookup n)).or d)
  | [], pos, vs, rest, h => by
    cases h
    simp
  | (n, d) :: ps, v :: pos, vs, rest, h => by
    simp only [bindPositional] at h
    split at h
    · cases h
    · rename_i hn
      split at h
      · cases h
      · rename_i vs' rest' q
        cases h
        obtain ⟨h1, h2, h3, h4⟩ := bindPositional_ok kw ps pos vs' rest q
        refine ⟨by simp [h1], by simp [h2], ?_, ?_⟩
        · intro i n' d' hi hl
          cases i with
          | zero =>
            simp only [List.getElem?_cons_zero, Option.some.injEq, Prod.mk.injEq] at hi
            rw [← hi.1]
            exact hn
          | succ i =>
            rw [List.getElem?_cons_succ] at hi
            exact h3 i n' d' hi (by simpa using hl)
        · intro i n' d' hi
          cases i with
          | zero => simp
          | succ i =>
            rw [List.getElem?_cons_succ] at hi
            simpa using h4 i n' d' hi
  | (n, d) :: ps, [], vs, rest, h => by
    have key : ∃ v vs', bindPositional kw ps [] = .ok (vs', rest) ∧ vs = v :: vs' ∧ some v = (kw.lookup n).or d := by
      simp only [bindPositional] at h
      cases hl : kw.lookup n with
      | none =>
        cases d with
        | none => simp [hl] at h
        | some v =>
          simp only [hl] at h
          cases hb : bindPositional kw ps [] with
          | error x => simp [hb] at h
          | ok r =>
            obtain ⟨vs', rest'⟩ := r
            simp only [hb, Except.ok.injEq, Prod.mk.injEq] at h
            exact ⟨v, vs', by rw [h.2], h.1.symm, by simp⟩
      | some v =>
        simp only [hl] at h
        cases hb : bindPositional kw ps [] with
        | error x => simp [hb] at h
        | ok r =>
          obtain ⟨vs', rest'⟩ := r
          simp only [hb, Except.ok.injEq, Prod.mk.injEq] at h
          exact ⟨v, vs', by rw [h.2], h.1.symm, by simp⟩
    obtain ⟨v, vs', q, e, hv⟩ := key
    obtain ⟨h1, h2, _, h4⟩ := bindPositional_ok kw ps [] vs' rest q
    refine ⟨by simp [e, h1], by simpa using h2, by simp, ?_⟩
    intro i n' d' hi
    cases i with
    | zero =>
      simp only [List.getElem?_cons_zero, Option.some.injEq, Prod.mk.injEq] at hi
      rw [← hi.1, ← hi.2, e]
      simpa using hv
    | succ i =>
      rw [List.getElem?_cons_succ] at hi
      rw [e]
      simpa using h4 i n' d' hi

/-- When `bindPositional` succeeds, and that it raises TypeError otherwise. -/
theorem bindPositional_iff (kw : List (String × Val)) :
    ∀ (ps : List (String × Option Val)) (pos : List Val),
      ((∀ (i : Nat) n d, ps[i]? = some (n, d) → i < pos.length → n ∉ kw.map (·.1)) ∧
        (∀ (i : Nat) n d, ps[i]? = some (n, d) → pos.length ≤ i → n ∈ kw.map (·.1) ∨ ∃ v, d = some v) →
        ∃ r, bindPositional kw ps pos = .ok r) ∧
      (∀ x, bindPositional kw ps pos = .error x → x = .typeError)
  | [], pos => ⟨fun _ => ⟨_, rfl⟩, by simp [bindPositional]⟩
  | (n, d) :: ps, v :: pos => by
    obtain ⟨ih1, ih2⟩ := bindPositional_iff kw ps pos
    constructor
    · intro ⟨h1, h2⟩
      obtain ⟨r, hr⟩ := ih1 ⟨fun i n' d' hi hl => h1 (i + 1) n' d' (by simpa using hi) (by simpa using hl),
        fun i n' d' hi hl => h2 (i + 1) n' d' (by simpa using hi) (by simpa using hl)⟩
      have := h1 0 n d rfl (by simp)
      exact ⟨(v :: r.1, r.2), by simp only [bindPositional, if_neg this, hr]⟩
    · intro x h
      simp only [bindPositional] at h
      split at h
      · cases h
        rfl
      · cases hb : bindPositional kw ps pos with
        | error y =>
          simp only [hb, Except.error.injEq] at h
          rw [← h]
          exact ih2 y hb
        | ok r => simp [hb] at h
  | (n, d) :: ps, [] => by
    obtain ⟨ih1, ih2⟩ := bindPositional_iff kw ps []
    constructor
    · intro ⟨_, h2⟩
      obtain ⟨r, hr⟩ := ih1 ⟨by simp, fun i n' d' hi _ => h2 (i + 1) n' d' (by simpa using hi) (by simp)⟩
      cases hl : kw.lookup n with
      | some v => exact ⟨(v :: r.1, r.2), by simp only [bindPositional, hl, hr]⟩
      | none =>
        rcases h2 0 n d rfl (by simp) with h | ⟨v, rfl⟩
        · exact absurd h (lookup_none hl)
        · exact ⟨(v :: r.1, r.2), by simp only [bindPositional, hl, hr]⟩
    · intro x h
      simp only [bindPositional] at h
      cases hl : kw.lookup n with
      | none =>
        cases d with
        | none =>
          simp only [hl, Except.error.injEq] at h
          exact h.symm
        | some v =>
          simp only [hl] at h
          cases hb : bindPositional kw ps [] with
          | error y =>
            simp only [hb, Except.error.injEq] at h
            rw [← h]
            exact ih2 y hb
          | ok r => simp [hb] at h
      | some v =>
        simp only [hl] at h
        cases hb : bindPositional kw ps [] with
        | error y =>
          simp only [hb, Except.error.injEq] at h
          rw [← h]
          exact ih2 y hb
        | ok r => simp [hb] at h

/-- Conversely, success of `bindPositional` means that every parameter has a value. -/
theorem bindPositional_given {kw : List (String × Val)} {ps : List (String × Option Val)} {pos vs rest : List Val}
    (h : bindPositional kw ps pos = .ok (vs, rest)) (i : Nat) (n : String) (d : Option Val)
    (hi : ps[i]? = some (n, d)) (hl : pos.length ≤ i) : n ∈ kw.map (·.1) ∨ ∃ v, d = some v := by
  obtain ⟨h1, _, _, h4⟩ := bindPositional_ok kw ps pos vs rest h
  have := h4 i n d hi
  rw [List.getElem?_eq_none hl, Option.none_or] at this
  cases q : kw.lookup n with
  | some v => exact .inl (lookup_some q)
  | none =>
    cases d with
    | some v => exact .inr ⟨v, rfl⟩
    | none =>
      rw [q, Option.none_or, List.getElem?_eq_none_iff] at this
      have := (List.getElem?_eq_some_iff.1 hi).1
      omega

theorem bindKeyword_ok (kw : List (String × Val)) :
    ∀ (ps : List (String × Option Val)) (ks : List Val), bindKeyword kw ps = .ok ks →
      ks.length = ps.length ∧ ∀ (i : Nat) n d, ps[i]? = some (n, d) → ks[i]? = (kw.lookup n).or d
  | [], ks, h => by
    cases h
    simp
  | (n, d) :: ps, ks, h => by
    have key : ∃ v ks', bindKeyword kw ps = .ok ks' ∧ ks = v :: ks' ∧ some v = (kw.lookup n).or d := by
      simp only [bindKeyword] at h
      cases hl : kw.lookup n with
      | none =>
        cases d with
        | none => simp [hl] at h
        | some v =>
          simp only [hl] at h
          cases hb : bindKeyword kw ps with
          | error x => simp [hb] at h
          | ok r =>
            simp only [hb, Except.ok.injEq] at h
            exact ⟨v, r, rfl, h.symm, by simp⟩
      | some v =>
        simp only [hl] at h
        cases hb : bindKeyword kw ps with
        | error x => simp [hb] at h
        | ok r =>
          simp only [hb, Except.ok.injEq] at h
          exact ⟨v, r, rfl, h.symm, by simp⟩
    obtain ⟨v, ks', q, e, hv⟩ := key
    obtain ⟨h1, h2⟩ := bindKeyword_ok kw ps ks' q
    refine ⟨by simp [e, h1], ?_⟩
    intro i n' d' hi
    cases i with
    | zero =>
      simp only [List.getElem?_cons_zero, Option.some.injEq, Prod.mk.injEq] at hi
      rw [← hi.1, ← hi.2, e]
      simpa using hv
    | succ i =>
      rw [List.getElem?_cons_succ] at hi
      rw [e]
      simpa using h2 i n' d' hi

theorem bindKeyword_iff (kw : List (String × Val)) :
    ∀ (ps : List (String × Option Val)),
      ((∃ r, bindKeyword kw ps = .ok r) ↔ ∀ n d, (n, d) ∈ ps → n ∈ kw.map (·.1) ∨ ∃ v, d = some v) ∧
      (∀ x, bindKeyword kw ps = .error x → x = .typeError)
  | [] => by simp [bindKeyword]
  | (n, d) :: ps => by
    obtain ⟨ih1, ih2⟩ := bindKeyword_iff kw ps
    have step : ∀ v, (match bindKeyword kw ps with
        | .error e => (.error e : Except PyExc (List Val))
        | .ok vs => .ok (v :: vs)) = bindKeyword kw ((n, d) :: ps) →
        (n ∈ kw.map (·.1) ∨ ∃ v, d = some v) →
        ((∃ r, bindKeyword kw ((n, d) :: ps) = .ok r) ↔
          ∀ n' d', (n', d') ∈ (n, d) :: ps → n' ∈ kw.map (·.1) ∨ ∃ v, d' = some v) ∧
        (∀ x, bindKeyword kw ((n, d) :: ps) = .error x → x = .typeError) := by
      intro v hv hd
      rw [← hv]
      cases hb : bindKeyword kw ps with
      | error y =>
        refine ⟨⟨by simp, fun h => ?_⟩, fun x hx => ?_⟩
        · obtain ⟨r, hr⟩ := ih1.2 fun n' d' hm => h n' d' (List.mem_cons_of_mem _ hm)
          rw [hb] at hr
          cases hr
        · simp only [Except.error.injEq] at hx
          rw [← hx]
          exact ih2 y hb
      | ok r =>
        refine ⟨⟨fun _ n' d' hm => ?_, fun _ => ⟨_, rfl⟩⟩, by simp⟩
        rcases List.mem_cons.1 hm with h | h
        · cases h
          exact hd
        · exact ih1.1 ⟨r, hb⟩ n' d' h
    cases hl : kw.lookup n with
    | some v => exact step v (by simp only [bindKeyword, hl]; cases bindKeyword kw ps <;> rfl) (.inl (lookup_some hl))
    | none =>
      cases d with
      | some v => exact step v (by simp only [bindKeyword, hl]; cases bindKeyword kw ps <;> rfl) (.inr ⟨v, rfl⟩)
      | none =>
        have hb : bindKeyword kw ((n, none) :: ps) = .error .typeError := by simp only [bindKeyword, hl]
        rw [hb]
        refine ⟨⟨by simp, fun h => ?_⟩, fun x hx => by cases hx; rfl⟩
        rcases h n none (by simp) with h | ⟨v, h⟩
        · exact absurd h (lookup_none hl)
        · cases h

theorem known_iff (s : Sig) (kw : List (String × Val)) :
    kw.any (fun e => !(s.positional ++ s.keyword).any (fun p => p.1 == e.1)) = false ↔
      ∀ n ∈ kw.map (·.1), ∃ d, (n, d) ∈ s.positional ∨ (n, d) ∈ s.keyword := by
  rw [List.any_eq_false]
  constructor
  · intro h n hn
    obtain ⟨e, he, rfl⟩ := List.mem_map.1 hn
    have := h e he
    simp only [Bool.not_eq_true, Bool.not_eq_false', List.any_eq_true, beq_iff_eq] at this
    obtain ⟨p, hp, hq⟩ := this
    refine ⟨p.2, ?_⟩
    rw [← hq]
    exact List.mem_append.1 hp
  · intro h e he
    obtain ⟨d, hd⟩ := h e.1 (List.mem_map.2 ⟨e, he, rfl⟩)
    simp only [Bool.not_eq_true, Bool.not_eq_false', List.any_eq_true, beq_iff_eq]
    exact ⟨(e.1, d), List.mem_append.2 hd, rfl⟩

/-- `Sig.bind` succeeds exactly on the calls that fit; otherwise it raises TypeError. -/
theorem bind_iff (s : Sig) (pos : List Val) (kw : List (String × Val)) :
    ((∃ r, s.bind pos kw = .ok r) ↔ CallFits s pos kw) ∧ ∀ x, s.bind pos kw = .error x → x = .typeError := by
  obtain ⟨p1, p2⟩ := bindPositional_iff kw s.positional pos
  obtain ⟨k1, k2⟩ := bindKeyword_iff kw s.keyword
  have hk := known_iff s kw
  by_cases c1 : kw.any (fun e => !(s.positional ++ s.keyword).any (fun p => p.1 == e.1)) = true
  · rw [Sig.bind, if_pos c1]
    refine ⟨⟨by simp, fun h => ?_⟩, fun x hx => by cases hx; rfl⟩
    have := hk.2 h.known
    rw [c1] at this
    cases this
  · rw [Sig.bind, if_neg c1]
    rw [Bool.not_eq_true] at c1
    have known := hk.1 c1
    cases hp : bindPositional kw s.positional pos with
    | error y =>
      refine ⟨⟨by simp, fun h => ?_⟩, fun x hx => ?_⟩
      · obtain ⟨r, hr⟩ := p1 ⟨h.once, h.given⟩
        rw [hp] at hr
        cases hr
      · simp only [Except.error.injEq] at hx
        rw [← hx]
        exact p2 y hp
    | ok r =>
      obtain ⟨vs, rest⟩ := r
      obtain ⟨h1, h2, h3, h4⟩ := bindPositional_ok kw _ _ _ _ hp
      have h5 := bindPositional_given hp
      have hrest : rest ≠ [] ↔ s.positional.length < pos.length := by
        rw [h2, Ne, List.drop_eq_nil_iff]
        omega
      by_cases c2 : rest ≠ [] ∧ s.star = false
      · simp only [if_pos c2]
        refine ⟨⟨by simp, fun h => ?_⟩, fun x hx => by cases hx; rfl⟩
        rcases h.few with q | q
        · rw [c2.2] at q
          cases q
        · have := hrest.1 c2.1
          omega
      · simp only [if_neg c2]
        have few : s.star = true ∨ pos.length ≤ s.positional.length := by
          cases hs : s.star with
          | true => exact .inl rfl
          | false =>
            refine .inr ?_
            by_cases q : s.positional.length < pos.length
            · exact absurd ⟨hrest.2 q, hs⟩ c2
            · omega
        cases hb : bindKeyword kw s.keyword with
        | error y =>
          refine ⟨⟨by simp, fun h => ?_⟩, fun x hx => ?_⟩
          · obtain ⟨r, hr⟩ := k1.2 h.named
            rw [hb] at hr
            cases hr
          · simp only [Except.error.injEq] at hx
            rw [← hx]
            exact k2 y hb
        | ok ks => exact ⟨⟨fun _ => ⟨known, few, h3, h5, k1.1 ⟨ks, hb⟩⟩, fun _ => ⟨_, rfl⟩⟩, by simp⟩

/-- What `Sig.bind` returns. -/
theorem bind_ok {s : Sig} {pos : List Val} {kw : List (String × Val)} {vs as ks : List Val}
    (h : s.bind pos kw = .ok (vs, as, ks)) :
    vs.length = s.positional.length ∧ ks.length = s.keyword.length ∧ as = pos.drop s.positional.length ∧
    (s.star = false → as = []) ∧
    (∀ (i : Nat) n d, s.positional[i]? = some (n, d) → vs[i]? = ((pos[i]?).or (kw.lookup n)).or d) ∧
    (∀ (i : Nat) n d, s.keyword[i]? = some (n, d) → ks[i]? = (kw.lookup n).or d) := by
  unfold Sig.bind at h
  split at h
  · cases h
  · split at h
    · cases h
    · rename_i vs' rest hp
      split at h
      · cases h
      · rename_i c
        split at h
        · cases h
        · rename_i ks' hb
          cases h
          obtain ⟨h1, h2, _, h4⟩ := bindPositional_ok kw _ _ _ _ hp
          obtain ⟨h5, h6⟩ := bindKeyword_ok kw _ _ hb
          refine ⟨h1, h5, h2, ?_, h4, h6⟩
          intro hs
          by_cases q : as = []
          · exact q
          · exact absurd ⟨q, hs⟩ c

theorem len1 {α : Type} {l : List α} (h : l.length = 1) : ∃ a, l = [a] := List.length_eq_one_iff.1 h

theorem len2 {α : Type} {l : List α} (h : l.length = 2) : ∃ a b, l = [a, b] := by
  match l, h with
  | [a, b], _ => exact ⟨a, b, rfl⟩

theorem len3 {α : Type} {l : List α} (h : l.length = 3) : ∃ a b c, l = [a, b, c] := by
  match l, h with
  | [a, b, c], _ => exact ⟨a, b, c, rfl⟩

theorem len4 {α : Type} {l : List α} (h : l.length = 4) : ∃ a b c d, l = [a, b, c, d] := by
  match l, h with
  | [a, b, c, d], _ => exact ⟨a, b, c, d, rfl⟩

/-- A value that is passed for a parameter is found by `Sig.bind`. -/
theorem passed_bind {s : Sig} {pos : List Val} {kw : List (String × Val)} {vs as ks : List Val}
    (h : s.bind pos kw = .ok (vs, as, ks)) {n : String} {v : Val} (hp : Passed s pos kw n v) :
    (∃ (i : Nat) (d : Option Val), s.positional[i]? = some (n, d) ∧ vs[i]? = some v) ∨
      ∃ (i : Nat) (d : Option Val), s.keyword[i]? = some (n, d) ∧ ks[i]? = some v := by
  obtain ⟨_, _, _, _, h5, h6⟩ := bind_ok h
  have fits := (bind_iff s pos kw).1.1 ⟨_, h⟩
  cases hp with
  | @position i _ d _ h1 h2 =>
    refine .inl ⟨i, d, h1, ?_⟩
    rw [h5 i n d h1, h2]
    rfl
  | keyword h1 =>
    obtain ⟨d, hd | hd⟩ := fits.known n (lookup_some h1)
    · obtain ⟨i, hi⟩ := List.mem_iff_getElem?.1 hd
      refine .inl ⟨i, d, hi, ?_⟩
      have : pos.length ≤ i := by
        by_cases q : i < pos.length
        · exact absurd (lookup_some h1) (fits.once i n d hi q)
        · omega
      rw [h5 i n d hi, List.getElem?_eq_none this, h1]
      rfl
    · obtain ⟨i, hi⟩ := List.mem_iff_getElem?.1 hd
      refine .inr ⟨i, d, hi, ?_⟩
      rw [h6 i n d hi, h1]
      rfl
  | @default i _ _ h1 h2 h3 =>
    refine .inl ⟨i, some v, h1, ?_⟩
    rw [h5 i n _ h1, h2, h3]
    rfl
  | defaultNamed h1 h2 =>
    obtain ⟨i, hi⟩ := List.mem_iff_getElem?.1 h1
    refine .inr ⟨i, some v, hi, ?_⟩
    rw [h6 i n _ hi, h2]
    rfl

/-- `make` in terms of what `Sig.bind` found: there is always a case for it. -/
theorem make_total (fmt : Val → Val → Val) (c : Cls) (pos : List Val) (kw : List (String × Val))
    {b : List Val × List Val × List Val} (h : c.sig.bind pos kw = .ok b) : ∃ e, make fmt c pos kw = .ok e := by
  obtain ⟨vs, as, ks⟩ := b
  obtain ⟨h1, h2, _, h3, _, _⟩ := bind_ok h
  cases c <;> simp only [Cls.sig, List.length_cons, List.length_nil, Nat.zero_add, Nat.reduceAdd, List.length_eq_zero_iff,
    forall_const, reduceCtorEq, false_implies] at h1 h2 h3 <;>
  first
  | (obtain ⟨a, rfl⟩ := len1 h1)
  | (obtain ⟨a, b, rfl⟩ := len2 h1)
  | (obtain ⟨a, b, c, rfl⟩ := len3 h1)
  | (obtain ⟨a, b, c, d, rfl⟩ := len4 h1)
  all_goals first
  | (subst h2)
  | (obtain ⟨p, rfl⟩ := len1 h2)
  | (obtain ⟨p, q, rfl⟩ := len2 h2)
  | (obtain ⟨p, q, r, rfl⟩ := len3 h2)
  all_goals first
  | subst h3
  | skip
  all_goals
    unfold make
    simp only [h]
    exact ⟨_, rfl⟩

/-- What `make` stores, given what `Sig.bind` found. -/
inductive Shape (fmt : Val → Val → Val) (pos : List Val) : Cls → List Val → List Val → List Val → Err → Prop where
  | plain {c m as} : c ∈ [Cls.v8, .regExp, .encode, .reference, .arrayBuffer] →
      Shape fmt pos c [m] as [] ⟨c, m :: as, [], []⟩
  | decode {m as p d} : Shape fmt pos .decode [m] as [p, d] ⟨.decode, m :: as, [("position", p), ("data", d)], []⟩
  | nodeHost {m as p d} : Shape fmt pos .nodeHost [m] as [p, d] ⟨.nodeHost, m :: as, [("position", p), ("data", d)], []⟩
  | unhandledTag {m as t p d} :
      Shape fmt pos .unhandledTag [m] as [t, p, d] ⟨.unhandledTag, m :: t :: as, [("position", p), ("data", d)], []⟩
  | unhandledValue {m as v} : Shape fmt pos .unhandledValue [m] as [v] ⟨.unhandledValue, m :: v :: as, [], []⟩
  | feature {m f} : Shape fmt pos .feature [m] [] [f] ⟨.feature, [m], [("feature_required", f)], []⟩
  | notSerialized {m as o} : Shape fmt pos .notSerialized [m] as [o] ⟨.notSerialized, m :: as, [("obj", o)], []⟩
  | idOutOfRange {m i} : Shape fmt pos .idOutOfRange [m, i] [] [] ⟨.idOutOfRange, [m], [("serialized_id", i)], []⟩
  | cyclic {m i o} : Shape fmt pos .cyclic [m, i, o] [] [] ⟨.cyclic, [m], [("serialized_id", i), ("obj", o)], []⟩
  | byteLength {m l x} :
      Shape fmt pos .byteLength [m] [] [l, x] ⟨.byteLength, [m], [("byte_length", l), ("max_byte_length", x)], []⟩
  | itemSize {m i o l} : Shape fmt pos .itemSize [m] [] [i, o, l]
      ⟨.itemSize, [m], [("itemsize", i), ("byte_offset", o), ("byte_length", l)], []⟩
  | bounds {m o l b} : Shape fmt pos .bounds [m, o, l, b] [] []
      ⟨.bounds, [m], [("byte_offset", o), ("byte_length", l), ("buffer_byte_length", b)], []⟩
  | jsError {m n s x} : Shape fmt pos .jsError [m] [] [n, s, x]
      ⟨.jsError, pos, [("name", n), ("_JSError__message", if m = .null then .str [] else m), ("stack", s),
        ("cause", x)], []⟩
  | normalizedKey {n r} : Shape fmt pos .normalizedKey [n, r] [] []
      ⟨.normalizedKey, [fmt n r], [], [("normalized_key", n), ("raw_key", r)]⟩
  | forwardReference {m f} : Shape fmt pos .forwardReference [m, f] [] []
      ⟨.forwardReference, [m], [("forward_reference", f)], []⟩

theorem make_shape {fmt : Val → Val → Val} {c : Cls} {pos : List Val} {kw : List (String × Val)} {e : Err}
    (he : make fmt c pos kw = .ok e) :
    ∃ vs as ks, c.sig.bind pos kw = .ok (vs, as, ks) ∧ Shape fmt pos c vs as ks e := by
  cases h : c.sig.bind pos kw with
  | error x =>
    unfold make at he
    simp only [h] at he
    cases he
  | ok b =>
    obtain ⟨vs, as, ks⟩ := b
    refine ⟨vs, as, ks, rfl, ?_⟩
    obtain ⟨h1, h2, _, h3, _, _⟩ := bind_ok h
    cases c <;> simp only [Cls.sig, List.length_cons, List.length_nil, Nat.zero_add, Nat.reduceAdd,
      List.length_eq_zero_iff, forall_const, reduceCtorEq, false_implies] at h1 h2 h3 <;>
    first
    | (obtain ⟨a, rfl⟩ := len1 h1)
    | (obtain ⟨a, b, rfl⟩ := len2 h1)
    | (obtain ⟨a, b, c, rfl⟩ := len3 h1)
    | (obtain ⟨a, b, c, d, rfl⟩ := len4 h1)
    all_goals first
    | (subst h2)
    | (obtain ⟨p, rfl⟩ := len1 h2)
    | (obtain ⟨p, q, rfl⟩ := len2 h2)
    | (obtain ⟨p, q, r, rfl⟩ := len3 h2)
    all_goals first
    | subst h3
    | skip
    all_goals
      unfold make at he
      simp only [h, Except.ok.injEq] at he
      subst he
      first
      | exact .plain (by decide)
      | constructor

/-- A parameter is read back as an attribute; JSError turns the message None into an empty one, and
ForwardReferenceError has no attribute `message`. -/
theorem make_get {fmt : Val → Val → Val} {c : Cls} {pos : List Val} {kw : List (String × Val)} {e : Err}
    (he : make fmt c pos kw = .ok e) {n : String} {v : Val} (hp : Passed c.sig pos kw n v)
    (h1 : ¬ (c = .forwardReference ∧ n = "message")) (h2 : ¬ (c = .jsError ∧ n = "message" ∧ v = .null)) :
    e.get n = .ok v := by
  obtain ⟨vs, as, ks, hb, hs⟩ := make_shape he
  have hi := passed_bind hb hp
  cases hs with
  | plain hc =>
    simp only [List.mem_cons, List.not_mem_nil, or_false] at hc
    rcases hc with rfl | rfl | rfl | rfl | rfl <;>
    · rcases hi with ⟨i, d, a, b⟩ | ⟨i, d, a, b⟩ <;>
      rcases i with _ | i <;> simp [Cls.sig] at a b <;> obtain ⟨rfl, rfl⟩ := a <;> subst b <;> rfl
  | _ =>
    rcases hi with ⟨i, d, a, b⟩ | ⟨i, d, a, b⟩ <;>
    rcases i with _ | _ | _ | _ | i <;> simp [Cls.sig] at a b <;> obtain ⟨rfl, rfl⟩ := a <;> subst b <;>
    simp_all [Err.get, Cls.property, Cls.slot, List.lookup]

theorem lookup_setKey (n : String) (v : Val) (k : String) :
    ∀ d : List (String × Val), (setKey n v d).lookup k = if k = n then some v else d.lookup k
  | [] => by
    by_cases h : k = n
    · simp [setKey, h]
    · simp [setKey, List.lookup_cons, beq_eq_false_iff_ne.2 h, h]
  | (a, b) :: t => by
    have ih := lookup_setKey n v k t
    by_cases ha : a = n
    · subst ha
      by_cases h : k = a
      · simp [setKey, h]
      · simp [setKey, List.lookup_cons, beq_eq_false_iff_ne.2 h, h]
    · rw [setKey, if_neg ha, List.lookup_cons, List.lookup_cons, ih]
      by_cases h : k = n
      · have : (k == a) = false := beq_eq_false_iff_ne.2 fun q => ha (q.symm.trans h)
        simp [h ▸ this, h]
      · simp [h]

theorem keys_setKey (n : String) (v : Val) (k : String) :
    ∀ d : List (String × Val), k ∈ (setKey n v d).map (·.1) ↔ k = n ∨ k ∈ d.map (·.1)
  | [] => by simp [setKey]
  | (a, b) :: t => by
    have ih := keys_setKey n v k t
    by_cases ha : a = n
    · subst ha
      simp [setKey]
    · rw [setKey, if_neg ha, List.map_cons, List.mem_cons, ih, List.map_cons, List.mem_cons]
      constructor
      · rintro (h | h | h)
        · exact .inr (.inl h)
        · exact .inl h
        · exact .inr (.inr h)
      · rintro (h | h | h)
        · exact .inr (.inl h)
        · exact .inl h
        · exact .inr (.inr h)

theorem nodup_setKey (n : String) (v : Val) :
    ∀ d : List (String × Val), (d.map (·.1)).Nodup → ((setKey n v d).map (·.1)).Nodup
  | [], _ => by simp [setKey]
  | (a, b) :: t, h => by
    rw [List.map_cons, List.nodup_cons] at h
    by_cases ha : a = n
    · subst ha
      rw [setKey, if_pos rfl, List.map_cons, List.nodup_cons]
      exact h
    · rw [setKey, if_neg ha, List.map_cons, List.nodup_cons]
      refine ⟨fun q => ?_, nodup_setKey n v t h.2⟩
      rcases (keys_setKey n v a t).1 q with q | q
      · exact ha q
      · exact h.1 q

/-- What holds of the `__dict__` of an exception, however its attributes are assigned. -/
structure GoodDict (e : Err) : Prop where
  plain : ∀ k ∈ e.dict.map (·.1), e.cls.property k = none ∧ e.cls.slot k = false
  nodup : (e.dict.map (·.1)).Nodup

theorem property_attr {c : Cls} {n m : String} (h : c.property n = some (.attr m)) :
    c = .jsError ∧ m = "_JSError__message" ∧ n = "message" := by
  unfold Cls.property at h
  split at h <;> simp_all

theorem set_good {e : Err} (h : GoodDict e) (n : String) (v : Val) :
    GoodDict (e.set n v).1 ∧ (e.set n v).1.cls = e.cls ∧ (e.set n v).1.args = e.args ∧
      ∀ k ∈ e.dict.map (·.1), k ∈ (e.set n v).1.dict.map (·.1) := by
  unfold Err.set
  split
  · exact ⟨h, rfl, rfl, fun _ q => q⟩
  · rename_i m q
    obtain ⟨h1, h2, _⟩ := property_attr q
    refine ⟨⟨?_, nodup_setKey _ _ _ h.nodup⟩, rfl, rfl, fun k hk => (keys_setKey _ _ k _).2 (.inr hk)⟩
    intro k hk
    rcases (keys_setKey _ _ k _).1 hk with rfl | hk
    · simp only [h1, h2]
      exact ⟨by decide, rfl⟩
    · exact h.plain k hk
  · rename_i q
    split
    · exact ⟨⟨h.plain, h.nodup⟩, rfl, rfl, fun _ q => q⟩
    · rename_i hs
      refine ⟨⟨?_, nodup_setKey _ _ _ h.nodup⟩, rfl, rfl, fun k hk => (keys_setKey _ _ k _).2 (.inr hk)⟩
      intro k hk
      rcases (keys_setKey _ _ k _).1 hk with rfl | hk
      · exact ⟨q, by simpa using hs⟩
      · exact h.plain k hk

theorem setAll_good : ∀ (sets : List (String × Val)) {e : Err}, GoodDict e →
    GoodDict (e.setAll sets) ∧ (e.setAll sets).cls = e.cls ∧ (e.setAll sets).args = e.args ∧
      ∀ k ∈ e.dict.map (·.1), k ∈ (e.setAll sets).dict.map (·.1)
  | [], e, h => ⟨h, rfl, rfl, fun _ q => q⟩
  | (n, v) :: t, e, h => by
    obtain ⟨h1, h2, h3, h4⟩ := set_good h n v
    obtain ⟨g1, g2, g3, g4⟩ := setAll_good t h1
    exact ⟨g1, g2.trans h2, g3.trans h3, fun k hk => g4 k (h4 k hk)⟩

theorem make_good {fmt : Val → Val → Val} {c : Cls} {pos : List Val} {kw : List (String × Val)} {e : Err}
    (he : make fmt c pos kw = .ok e) : GoodDict e ∧ e.cls = c := by
  obtain ⟨vs, as, ks, _, hs⟩ := make_shape he
  cases hs <;> exact ⟨⟨by simp [Cls.property, Cls.slot], by simp⟩, rfl⟩

/-- Assigning attributes that are neither properties nor slots. -/
theorem setAll_plain : ∀ (d : List (String × Val)) (y : Err),
    (∀ k ∈ d.map (·.1), y.cls.property k = none ∧ y.cls.slot k = false) → (d.map (·.1)).Nodup →
    (y.setAll d).cls = y.cls ∧ (y.setAll d).args = y.args ∧ (y.setAll d).slots = y.slots ∧
      ∀ k, (y.setAll d).dict.lookup k = (d.lookup k).or (y.dict.lookup k)
  | [], y, _, _ => ⟨rfl, rfl, rfl, by simp [Err.setAll]⟩
  | (n, v) :: t, y, h, hd => by
    rw [List.map_cons, List.nodup_cons] at hd
    obtain ⟨p, s⟩ := h n (by simp)
    have e : (y.set n v).1 = { y with dict := setKey n v y.dict } := by simp [Err.set, p, s]
    obtain ⟨g1, g2, g3, g4⟩ := setAll_plain t (y.set n v).1
      (by rw [e]; exact fun k hk => h k (List.mem_cons_of_mem _ hk)) hd.2
    rw [Err.setAll]
    refine ⟨g1.trans (by rw [e]), g2.trans (by rw [e]), g3.trans (by rw [e]), fun k => ?_⟩
    rw [g4 k, e, List.lookup_cons, lookup_setKey]
    by_cases hk : k = n
    · subst hk
      have : t.lookup k = none := by
        cases q : t.lookup k with
        | none => rfl
        | some w => exact absurd (lookup_some q) hd.1
      simp [this]
    · simp [beq_eq_false_iff_ne.2 hk, hk]

theorem made_facts {fmt : Val → Val → Val} {e : Err} (h : Made fmt e) :
    ∃ pos kw e₀, make fmt e.cls pos kw = .ok e₀ ∧ e.args = e₀.args ∧ GoodDict e ∧
      ∀ k ∈ e₀.dict.map (·.1), k ∈ e.dict.map (·.1) := by
  obtain ⟨c, pos, kw, e₀, sets, h1, rfl⟩ := h
  obtain ⟨g, hc⟩ := make_good h1
  obtain ⟨a1, a2, a3, a4⟩ := setAll_good sets g
  refine ⟨pos, kw, e₀, ?_, a3, a1, a4⟩
  rw [a2, hc]
  exact h1

/-- If the class can be called with `args`, the copy is the same, provided that the fresh exception has no further
attributes and no slots. -/
theorem copy_same {fmt : Val → Val → Val} {e y : Err} (he : GoodDict e) (hy : make fmt e.cls e.args [] = .ok y)
    (ha : y.args = e.args) (hk : ∀ k ∈ y.dict.map (·.1), k ∈ e.dict.map (·.1)) (hs : ∀ n, e.cls.slot n = false) :
    ∃ e', e.copy fmt = .ok e' ∧ SameError e' e := by
  have hc := (make_good hy).2
  obtain ⟨g1, g2, g3, g4⟩ := setAll_plain e.dict y (by rw [hc]; exact he.plain) he.nodup
  refine ⟨y.setAll e.dict, by simp [Err.copy, hy], g1.trans hc, g2.trans ha, fun n => ?_⟩
  have hl : ∀ k, (y.setAll e.dict).dict.lookup k = e.dict.lookup k := by
    intro k
    rw [g4 k]
    cases q : e.dict.lookup k with
    | some v => rfl
    | none =>
      cases r : y.dict.lookup k with
      | none => rfl
      | some v => exact absurd (hk k (lookup_some r)) (lookup_none q)
  unfold Err.get
  rw [g1, hc, g2, ha]
  simp only [hs, hl, Bool.false_eq_true, if_false]

theorem lookup_setKey_some {n k : String} {v : Val} {d : List (String × Val)} (h : ∃ w, d.lookup k = some w) :
    ∃ w, (setKey n v d).lookup k = some w := by
  rw [lookup_setKey]
  split
  · exact ⟨v, rfl⟩
  · exact h

/-- An attribute that can be read can still be read after an assignment. -/
theorem set_readable {e : Err} {n : String} (h : ∃ v, e.get n = .ok v) (m : String) (w : Val) :
    ∃ v, (e.set m w).1.get n = .ok v := by
  have hc : (e.set m w).1.cls = e.cls ∧ (e.set m w).1.args = e.args ∧
      (∀ k, (∃ x, e.dict.lookup k = some x) → ∃ x, (e.set m w).1.dict.lookup k = some x) ∧
      (∀ k, (∃ x, e.slots.lookup k = some x) → ∃ x, (e.set m w).1.slots.lookup k = some x) := by
    unfold Err.set
    split
    · exact ⟨rfl, rfl, fun _ q => q, fun _ q => q⟩
    · exact ⟨rfl, rfl, fun _ q => lookup_setKey_some q, fun _ q => q⟩
    · split
      · exact ⟨rfl, rfl, fun _ q => q, fun _ q => lookup_setKey_some q⟩
      · exact ⟨rfl, rfl, fun _ q => lookup_setKey_some q, fun _ q => q⟩
  obtain ⟨h1, h2, h3, h4⟩ := hc
  obtain ⟨v, hv⟩ := h
  unfold Err.get at hv ⊢
  rw [h1, h2]
  split at hv
  · rename_i i q
    exact ⟨v, by simpa only [q] using hv⟩
  · rename_i k q
    cases r : e.dict.lookup k with
    | none => simp [r] at hv
    | some x =>
      obtain ⟨y, hy⟩ := h3 k ⟨x, r⟩
      exact ⟨y, by simp only [hy]⟩
  · rename_i q
    by_cases hs : e.cls.slot n = true
    · simp only [hs, if_true] at hv ⊢
      cases r : e.slots.lookup n with
      | none => simp [r] at hv
      | some x =>
        obtain ⟨y, hy⟩ := h4 n ⟨x, r⟩
        exact ⟨y, by simp only [hy]⟩
    · simp only [hs] at hv ⊢
      cases r : e.dict.lookup n with
      | none => simp [r] at hv
      | some x =>
        obtain ⟨y, hy⟩ := h3 n ⟨x, r⟩
        exact ⟨y, by simp [hy]⟩

theorem setAll_readable : ∀ (sets : List (String × Val)) {e : Err} {n : String}, (∃ v, e.get n = .ok v) →
    ∃ v, (e.setAll sets).get n = .ok v
  | [], _, _, h => h
  | (m, w) :: t, _, _, h => setAll_readable t (set_readable h m w)

theorem setAll_cls : ∀ (sets : List (String × Val)) (e : Err), (e.setAll sets).cls = e.cls
  | [], _ => rfl
  | (m, w) :: t, e => by
    rw [Err.setAll, setAll_cls t]
    unfold Err.set
    split
    · rfl
    · rfl
    · split <;> rfl

/-- Every field of an exception can be read. -/
theorem made_readable {fmt : Val → Val → Val} {e : Err} (h : Made fmt e) :
    ∀ n ∈ e.cls.fields, ∃ v, e.get n = .ok v := by
  obtain ⟨c, pos, kw, e₀, sets, h1, rfl⟩ := h
  intro n hn
  rw [setAll_cls] at hn
  refine setAll_readable sets ?_
  obtain ⟨vs, as, ks, _, hs⟩ := make_shape h1
  cases hs with
  | plain hc =>
    simp only [List.mem_cons, List.not_mem_nil, or_false] at hc
    rcases hc with rfl | rfl | rfl | rfl | rfl <;> simp only [Cls.fields, List.mem_singleton] at hn <;> subst hn <;>
      exact ⟨_, rfl⟩
  | _ =>
    simp only [Cls.fields, List.mem_cons, List.not_mem_nil, or_false] at hn <;>
    rcases hn with rfl | rfl | rfl | rfl | rfl <;> exact ⟨_, rfl⟩

theorem readAll_ok {e : Err} : ∀ {l : List String}, (∀ n ∈ l, ∃ v, e.get n = .ok v) →
    ∃ vs, e.readAll l = .ok vs ∧ List.Forall₂ (fun n v => e.get n = .ok v) l vs
  | [], _ => ⟨[], rfl, .nil⟩
  | n :: t, h => by
    obtain ⟨v, hv⟩ := h n (by simp)
    obtain ⟨vs, h1, h2⟩ := readAll_ok (l := t) fun m hm => h m (List.mem_cons_of_mem _ hm)
    exact ⟨v :: vs, by simp only [Err.readAll, hv, h1], .cons hv h2⟩

theorem zip_all (same : Val → Val → Bool) {a b : Err} : ∀ {l : List String} {vs ws : List Val},
    List.Forall₂ (fun n v => a.get n = .ok v) l vs → List.Forall₂ (fun n v => b.get n = .ok v) l ws →
    vs.length = ws.length ∧
    ((vs.zip ws).all (fun e => same e.1 e.2) = true ↔
      ∀ n ∈ l, ∃ v w, a.get n = .ok v ∧ b.get n = .ok w ∧ same v w = true)
  | [], _, _, .nil, .nil => ⟨rfl, by simp⟩
  | n :: t, v :: vs, w :: ws, .cons h1 h2, .cons g1 g2 => by
    obtain ⟨i1, i2⟩ := zip_all same h2 g2
    refine ⟨by simp [i1], ?_⟩
    rw [List.zip_cons_cons, List.all_cons, Bool.and_eq_true, i2]
    constructor
    · rintro ⟨q, r⟩ m hm
      rcases List.mem_cons.1 hm with rfl | hm
      · exact ⟨v, w, h1, g1, q⟩
      · exact r m hm
    · intro q
      refine ⟨?_, fun m hm => q m (List.mem_cons_of_mem _ hm)⟩
      obtain ⟨v', w', a1, a2, a3⟩ := q n (by simp)
      rw [h1] at a1
      rw [g1] at a2
      cases a1
      cases a2
      exact a3

end V8.Errors
