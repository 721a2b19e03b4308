import Verif.Spec.ReprGuard

/-!
# Lemmas about the recursion guard of `repr()` (C89)
-/

namespace V8.ReprGuard

theorem alone_bind {β γ : Type} (p : Proc β) (f : β → Proc γ) (s : List Id) :
    alone (p.bind f) s = alone (f (alone p s).1) (alone p s).2 := by
  induction p generalizing s with
  | done r => rfl
  | ask x k ih => exact ih _ _
  | add x k ih => exact ih _
  | discard x k ih => exact ih _

/-! ## The same without a procedure: the set is handed down -/

def eachP (f : Id → Except Exc Text) : List Id → Except Exc (List Text)
  | [] => .ok []
  | x :: xs => match f x with
    | .error e => .error e
    | .ok t => match eachP f xs with
      | .error e => .error e
      | .ok ts => .ok (t :: ts)

mutual
def repr1P (h : Heap) (maxlevel : Nat) : Nat → Nat → Id → List Id → Except Exc Text
  | 0, _, _, _ => .error .recursion
  | n + 1, level, x, s =>
    if level = 0 then .ok .fill
    else if s.contains x then .ok .fill
    else match h[x]? with
      | none => .ok (.scalar x)
      | some nd =>
        if methods.contains nd.typename then
          showParts nd.typename (eachP (fun y => repr1P h maxlevel n (level - 1) y (x :: s)) nd.parts)
        else rescue nd (pyReprP h maxlevel n x (x :: s))
def pyReprP (h : Heap) (maxlevel : Nat) : Nat → Id → List Id → Except Exc Text
  | 0, _, _ => .error .recursion
  | n + 1, x, s =>
    match h[x]? with
    | none => .ok (.scalar x)
    | some nd =>
      if nd.js then repr1P h maxlevel n maxlevel x s
      else ownParts x nd (eachP (fun y => pyReprP h maxlevel n y s) nd.parts)
end

theorem alone_each (f : Id → Proc (Except Exc Text)) (g : Id → Except Exc Text) (s : List Id)
    (hf : ∀ x, alone (f x) s = (g x, s)) (xs : List Id) : alone (each f xs) s = (eachP g xs, s) := by
  induction xs with
  | nil => rfl
  | cons x xs ih =>
    rw [each, alone_bind, hf, eachP]
    cases hg : g x with
    | error e => rfl
    | ok t =>
      simp only
      rw [alone_bind, ih]
      cases eachP g xs <;> rfl

theorem discard_add (s : List Id) (x : Id) (hx : s.contains x = false) :
    setDiscard (setAdd s x) x = s := by
  have hm : x ∉ s := by simpa using hx
  rw [setAdd, hx]
  simp only [Bool.false_eq_true, if_false, setDiscard]
  rw [List.filter_cons]
  simp only [beq_self_eq_true, Bool.not_true, Bool.false_eq_true, if_false]
  rw [List.filter_eq_self]
  intro y hy
  have : y ≠ x := fun e => hm (e ▸ hy)
  simp [this]

theorem alone_eq (h : Heap) (m : Nat) (n : Nat) :
    (∀ level x s, alone (repr1 h m n level x) s = (repr1P h m n level x s, s)) ∧
    (∀ x s, alone (pyRepr h m n x) s = (pyReprP h m n x s, s)) := by
  induction n with
  | zero => exact ⟨fun _ _ _ => by rw [repr1, repr1P]; rfl, fun _ _ => by rw [pyRepr, pyReprP]; rfl⟩
  | succ n ih =>
    refine ⟨fun level x s => ?_, fun x s => ?_⟩
    · rw [repr1, repr1P]
      by_cases hl : level = 0
      · rw [if_pos hl, if_pos hl]; rfl
      rw [if_neg hl, if_neg hl, guarded, alone]
      cases hc : s.contains x with
      | true => rfl
      | false =>
        have hadd : setAdd s x = x :: s := by rw [setAdd, hc]; rfl
        have hd := discard_add s x hc
        rw [hadd] at hd
        simp only [Bool.false_eq_true, if_false]
        rw [alone, alone_bind, hadd]
        cases hx : h[x]? with
        | none => simp only [alone]; rw [hd]
        | some nd =>
          simp only
          by_cases hm : methods.contains nd.typename = true
          · rw [if_pos hm, if_pos hm, alone_bind,
              alone_each _ _ (x :: s) (fun y => ih.1 (level - 1) y (x :: s))]
            simp only [alone]; rw [hd]
          · rw [if_neg hm, if_neg hm, alone_bind, ih.2]
            simp only [alone]; rw [hd]
    · rw [pyRepr, pyReprP]
      cases hx : h[x]? with
      | none => rfl
      | some nd =>
        simp only
        cases nd.js with
        | true => exact ih.1 _ _ _
        | false =>
          simp only [Bool.false_eq_true, if_false]
          rw [alone_bind, alone_each _ _ s (fun y => ih.2 y s)]
          rfl

/-! ## Threads -/

/-- The objects of thread `t` in the shared set. -/
def mine (g : List (Id × Thread)) (t : Thread) : List Id := (g.filter (fun k => k.2 == t)).map (·.1)

theorem mem_mine (g : List (Id × Thread)) (t : Thread) (x : Id) : x ∈ mine g t ↔ (x, t) ∈ g := by
  simp [mine]

theorem mine_contains (g : List (Id × Thread)) (t : Thread) (x : Id) :
    (mine g t).contains x = g.contains (x, t) := by
  rw [Bool.eq_iff_iff]; simp [mine]

theorem mine_add (g : List (Id × Thread)) (t : Thread) (x : Id) :
    mine (setAdd g (x, t)) t = setAdd (mine g t) x := by
  rw [setAdd, setAdd, mine_contains]
  split
  · rfl
  · simp [mine]

theorem mine_add_other (g : List (Id × Thread)) (t u : Thread) (x : Id) (h : u ≠ t) :
    mine (setAdd g (x, u)) t = mine g t := by
  rw [setAdd]
  split
  · rfl
  · simp [mine, h]

theorem mine_discard (g : List (Id × Thread)) (t : Thread) (x : Id) :
    mine (setDiscard g (x, t)) t = setDiscard (mine g t) x := by
  rw [setDiscard, setDiscard, mine, mine]
  induction g with
  | nil => rfl
  | cons k g ih =>
    obtain ⟨y, u⟩ := k
    by_cases hu : u = t
    · subst hu
      by_cases hy : y = x
      · subst hy; simpa using ih
      · simp [hy] at ih ⊢; exact ih
    · simp [hu] at ih ⊢; exact ih

theorem mine_discard_other (g : List (Id × Thread)) (t u : Thread) (x : Id) (h : u ≠ t) :
    mine (setDiscard g (x, u)) t = mine g t := by
  rw [setDiscard, mine, mine]
  induction g with
  | nil => rfl
  | cons k g ih =>
    obtain ⟨y, v⟩ := k
    by_cases hv : v = t
    · subst hv
      have : ¬ (v = u) := fun e => h e.symm
      simp [this] at ih ⊢; exact ih
    · by_cases hk : y = x ∧ v = u
      · obtain ⟨rfl, rfl⟩ := hk
        simp [hv] at ih ⊢; exact ih
      · have hk' : ¬ (y = x ∧ v = u) := hk
        by_cases hvu : v = u
        · have hyx : ¬ y = x := fun e => hk ⟨e, hvu⟩
          simp [hvu, hyx, h] at ih ⊢; exact ih
        · simp [hv, hvu] at ih ⊢; exact ih

/-- A step of any thread does not change what thread `t` will end with. -/
theorem step_alone {β : Type} (s : Process β) (t u : Thread) :
    alone ((s.step u).todo t) (mine (s.step u).guard t) = alone (s.todo t) (mine s.guard t) := by
  by_cases hu : u = t
  · subst hu
    rw [Process.step]
    cases hp : s.todo u with
    | done r => simp only; rw [hp]
    | ask x k => simp only [Process.set, if_true, alone, mine_contains]
    | add x k => simp [Process.set, alone, mine_add]
    | discard x k => simp [Process.set, alone, mine_discard]
  · have hu' : ¬ t = u := fun e => hu e.symm
    rw [Process.step]
    cases hp : s.todo u with
    | done r => rfl
    | ask x k => simp [Process.set, hu']
    | add x k => simp [Process.set, hu', mine_add_other _ _ _ _ hu]
    | discard x k => simp [Process.set, hu', mine_discard_other _ _ _ _ hu]

theorem run_alone {β : Type} (s : Process β) (t : Thread) (sched : List Thread) :
    alone ((s.run sched).todo t) (mine (s.run sched).guard t) = alone (s.todo t) (mine s.guard t) := by
  induction sched generalizing s with
  | nil => rfl
  | cons u us ih =>
    show alone (((s.step u).run us).todo t) (mine ((s.step u).run us).guard t) = _
    rw [ih, step_alone]

/-- How many steps a procedure takes at most. -/
theorem finishes {β : Type} (p : Proc β) : ∃ n : Nat, ∀ (s : Process β) (t : Thread) (sched : List Thread),
    s.todo t = p → n ≤ sched.count t → ∃ r, (s.run sched).todo t = .done r := by
  have other : ∀ (s : Process β) (t u : Thread), u ≠ t → (s.step u).todo t = s.todo t := by
    intro s t u h
    have hu' : ¬ t = u := fun e => h e.symm
    rw [Process.step]
    cases s.todo u <;> simp [Process.set, hu']
  -- waiting for the next step of thread t
  have wait : ∀ (n : Nat) (p : Proc β),
      (∀ (s : Process β) (t : Thread) (sched : List Thread), s.todo t = p → n ≤ sched.count t →
        ∃ r, ((s.step t).run sched).todo t = .done r) →
      ∀ (s : Process β) (t : Thread) (sched : List Thread), s.todo t = p → n + 1 ≤ sched.count t →
        ∃ r, (s.run sched).todo t = .done r := by
    intro n p hp s t sched
    induction sched generalizing s with
    | nil => intro _ h; simp at h
    | cons u us ih =>
      intro hs hn
      show ∃ r, ((s.step u).run us).todo t = .done r
      by_cases hu : u = t
      · subst hu
        rw [List.count_cons_self] at hn
        exact hp s u us hs (by omega)
      · rw [List.count_cons_of_ne hu] at hn
        exact ih (s.step u) (by rw [other s t u hu, hs]) hn
  induction p with
  | done r =>
    refine ⟨0, fun s t sched hs _ => ⟨r, ?_⟩⟩
    induction sched generalizing s with
    | nil => exact hs
    | cons u us ih =>
      show ((s.step u).run us).todo t = .done r
      apply ih
      by_cases hu : u = t
      · subst hu; rw [Process.step, hs]; exact hs
      · rw [other s t u hu, hs]
      exact Nat.zero_le _
  | ask x k ih =>
    obtain ⟨n1, h1⟩ := ih true
    obtain ⟨n2, h2⟩ := ih false
    refine ⟨n1 + n2 + 1, wait _ _ ?_⟩
    intro s t sched hs hn
    cases hc : s.guard.contains (x, t) with
    | true => exact h1 _ _ _ (by simp only [Process.step, hs, Process.set, if_true, hc]) (by omega)
    | false => exact h2 _ _ _ (by simp only [Process.step, hs, Process.set, if_true, hc]) (by omega)
  | add x k ih =>
    obtain ⟨n, hn⟩ := ih
    exact ⟨n + 1, wait _ _ fun s t sched hs hc => hn _ _ _ (by simp [Process.step, hs, Process.set]) hc⟩
  | discard x k ih =>
    obtain ⟨n, hn⟩ := ih
    exact ⟨n + 1, wait _ _ fun s t sched hs hc => hn _ _ _ (by simp [Process.step, hs, Process.set]) hc⟩

/-! ## Depth -/

/-- The objects of the heap whose text is not being made. -/
def free (h : Heap) (s : List Id) : Nat := ((List.range h.length).filter (fun i => !s.contains i)).length

theorem filter_one (l : List Id) (hn : l.Nodup) (s : List Id) (x : Id) (hx : x ∈ l) (hs : x ∉ s) :
    (l.filter (fun i => !(x :: s).contains i)).length + 1 = (l.filter (fun i => !s.contains i)).length := by
  induction l with
  | nil => cases hx
  | cons y l ih =>
    rw [List.nodup_cons] at hn
    by_cases hy : y = x
    · subst hy
      have e : l.filter (fun i => !(y :: s).contains i) = l.filter (fun i => !s.contains i) := by
        apply List.filter_congr
        intro i hi
        have : i ≠ y := fun e => hn.1 (e ▸ hi)
        simp [this]
      rw [List.filter_cons, List.filter_cons, e]
      simp [hs]
    · have hx' : x ∈ l := by
        rcases List.mem_cons.1 hx with e | e
        · exact absurd e.symm hy
        · exact e
      have := ih hn.2 hx'
      rw [List.filter_cons, List.filter_cons]
      by_cases hys : y ∈ s
      · simp [hys] at this ⊢; exact this
      · simp [hys, hy] at this ⊢; exact this

theorem free_cons (h : Heap) (s : List Id) (x : Id) (nd : Node) (hx : h[x]? = some nd) (hs : x ∉ s) :
    free h (x :: s) + 1 = free h s := by
  have hl : x < h.length := by
    rw [List.getElem?_eq_some_iff] at hx
    exact hx.1
  exact filter_one _ List.nodup_range s x (List.mem_range.2 hl) hs

theorem eachP_ok (F : Nat → Id → Except Exc Text) (N : Nat) (xs : List Id)
    (hF : ∀ y ∈ xs, ∃ t, ∀ n, N ≤ n → F n y = .ok t) :
    ∃ ts : List Text, ∀ n, N ≤ n → eachP (F n) xs = .ok ts := by
  induction xs with
  | nil => exact ⟨[], fun _ _ => rfl⟩
  | cons x xs ih =>
    obtain ⟨t, ht⟩ := hF x (List.mem_cons_self ..)
    obtain ⟨ts, hts⟩ := ih fun y hy => hF y (List.mem_cons_of_mem _ hy)
    exact ⟨t :: ts, fun n hn => by rw [eachP, ht n hn, hts n hn]⟩

/-- The own `__repr__` of an object shows only objects whose text the guard watches, and others that show nothing. -/
def Plain (h : Heap) : Prop :=
  ∀ (nd : Node), nd ∈ h → nd.js = false → ∀ y ∈ nd.parts, ∀ nd', h[y]? = some nd' → nd'.js = true

/-- The parts of an object that fails or not: a text, or always the exception of the object. -/
theorem repr1P_ends (h : Heap) (hp : Plain h) (m : Nat) (f : Nat) :
    ∀ s, free h s = f → ∀ level x, ∃ t, ∀ n, 3 * f + 1 ≤ n → repr1P h m n level x s = .ok t := by
  induction f with
  | zero =>
    intro s hf level x
    by_cases hl : level = 0
    · refine ⟨.fill, fun n hn => ?_⟩
      obtain ⟨n, rfl⟩ : ∃ k, n = k + 1 := ⟨n - 1, by omega⟩
      rw [repr1P, if_pos hl]
    · cases hc : s.contains x with
      | true =>
        refine ⟨.fill, fun n hn => ?_⟩
        obtain ⟨n, rfl⟩ : ∃ k, n = k + 1 := ⟨n - 1, by omega⟩
        rw [repr1P, if_neg hl, hc]; rfl
      | false =>
        cases hx : h[x]? with
        | none =>
          refine ⟨.scalar x, fun n hn => ?_⟩
          obtain ⟨n, rfl⟩ : ∃ k, n = k + 1 := ⟨n - 1, by omega⟩
          rw [repr1P, if_neg hl, hc, hx]; rfl
        | some nd =>
          have := free_cons h s x nd hx (by simpa using hc)
          omega
  | succ f ih =>
    intro s hf level x
    by_cases hl : level = 0
    · refine ⟨.fill, fun n hn => ?_⟩
      obtain ⟨n, rfl⟩ : ∃ k, n = k + 1 := ⟨n - 1, by omega⟩
      rw [repr1P, if_pos hl]
    · cases hc : s.contains x with
      | true =>
        refine ⟨.fill, fun n hn => ?_⟩
        obtain ⟨n, rfl⟩ : ∃ k, n = k + 1 := ⟨n - 1, by omega⟩
        rw [repr1P, if_neg hl, hc]; rfl
      | false =>
        cases hx : h[x]? with
        | none =>
          refine ⟨.scalar x, fun n hn => ?_⟩
          obtain ⟨n, rfl⟩ : ∃ k, n = k + 1 := ⟨n - 1, by omega⟩
          rw [repr1P, if_neg hl, hc, hx]; rfl
        | some nd =>
          have hfr : free h (x :: s) = f := by
            have := free_cons h s x nd hx (by simpa using hc)
            omega
          by_cases hm : methods.contains nd.typename = true
          · obtain ⟨ts, hts⟩ := eachP_ok (fun n y => repr1P h m n (level - 1) y (x :: s)) (3 * f + 1) nd.parts
              (fun y _ => ih (x :: s) hfr (level - 1) y)
            refine ⟨.shown nd.typename ts, fun n hn => ?_⟩
            obtain ⟨n, rfl⟩ : ∃ k, n = k + 1 := ⟨n - 1, by omega⟩
            rw [repr1P, if_neg hl, hc, hx]
            simp only [Bool.false_eq_true, if_false]
            rw [if_pos hm, hts n (by omega)]
            rfl
          · cases hj : nd.js with
            | true =>
              obtain ⟨t, ht⟩ := ih (x :: s) hfr m x
              refine ⟨t, fun n hn => ?_⟩
              obtain ⟨n, rfl⟩ : ∃ k, n = k + 1 + 1 := ⟨n - 2, by omega⟩
              rw [repr1P, if_neg hl, hc, hx]
              simp only [Bool.false_eq_true, if_false]
              rw [if_neg hm, pyReprP, hx]
              simp only [hj, if_true]
              rw [ht n (by omega)]
              rfl
            | false =>
              obtain ⟨ts, hts⟩ := eachP_ok (fun n y => pyReprP h m n y (x :: s)) (3 * f + 2) nd.parts (by
                intro y hy
                cases hy' : h[y]? with
                | none =>
                  refine ⟨.scalar y, fun n hn => ?_⟩
                  obtain ⟨n, rfl⟩ : ∃ k, n = k + 1 := ⟨n - 1, by omega⟩
                  rw [pyReprP, hy']
                | some nd' =>
                  have hj' := hp nd (List.mem_of_getElem? hx) hj y hy nd' hy'
                  obtain ⟨t, ht⟩ := ih (x :: s) hfr m y
                  refine ⟨t, fun n hn => ?_⟩
                  obtain ⟨n, rfl⟩ : ∃ k, n = k + 1 := ⟨n - 1, by omega⟩
                  rw [pyReprP, hy']
                  simp only [hj', if_true]
                  exact ht n (by omega))
              refine ⟨if nd.fails then .broken nd.typename else .own nd.typename ts, fun n hn => ?_⟩
              obtain ⟨n, rfl⟩ : ∃ k, n = k + 1 + 1 := ⟨n - 2, by omega⟩
              rw [repr1P, if_neg hl, hc, hx]
              simp only [Bool.false_eq_true, if_false]
              rw [if_neg hm, pyReprP, hx]
              simp only [hj, Bool.false_eq_true, if_false]
              rw [hts n (by omega), ownParts]
              cases nd.fails <;> rfl

/-! ## What is shown -/

theorem eachP_texts (g : Id → Except Exc Text) (xs : List Id) (P : Id → Text → Prop)
    (hg : ∀ y, ∃ t, g y = .ok t ∧ P y t) :
    ∃ ts, eachP g xs = .ok ts ∧ ts.length = xs.length ∧
      ∀ (i : Nat) y t, xs[i]? = some y → ts[i]? = some t → P y t := by
  induction xs with
  | nil => exact ⟨[], rfl, rfl, fun i y t h => by simp at h⟩
  | cons x xs ih =>
    obtain ⟨t, ht, hP⟩ := hg x
    obtain ⟨ts, hts, hlen, hall⟩ := ih
    refine ⟨t :: ts, by rw [eachP, ht, hts], by simp [hlen], ?_⟩
    intro i y t' h1 h2
    cases i with
    | zero =>
      simp only [List.getElem?_cons_zero, Option.some.injEq] at h1 h2
      rw [← h1, ← h2]; exact hP
    | succ i =>
      simp only [List.getElem?_cons_succ] at h1 h2
      exact hall i y t' h1 h2

theorem repr1P_shows (h : Heap) (m : Nat) (hm : ∀ nd ∈ h, nd.typename ∈ methods) (level : Nat) :
    ∀ n, level + 1 ≤ n → ∀ x s, ∃ t, repr1P h m n level x s = .ok t ∧ Spec.ReprGuard.Shows h s level x t := by
  induction level with
  | zero =>
    intro n hn x s
    obtain ⟨n, rfl⟩ : ∃ k, n = k + 1 := ⟨n - 1, by omega⟩
    exact ⟨.fill, by rw [repr1P, if_pos rfl], .deep s x⟩
  | succ level ih =>
    intro n hn x s
    obtain ⟨n, rfl⟩ : ∃ k, n = k + 1 := ⟨n - 1, by omega⟩
    rw [repr1P, if_neg (by omega)]
    cases hc : s.contains x with
    | true => exact ⟨.fill, rfl, .again (by simpa using hc)⟩
    | false =>
      have hxs : x ∉ s := by simpa using hc
      cases hx : h[x]? with
      | none => exact ⟨.scalar x, rfl, .scalar (by omega) hxs hx⟩
      | some nd =>
        have hmem := hm nd (List.mem_of_getElem? hx)
        obtain ⟨ts, hts, hlen, hall⟩ := eachP_texts (fun y => repr1P h m n (level + 1 - 1) y (x :: s)) nd.parts
          (fun y t => Spec.ReprGuard.Shows h (x :: s) level y t) (fun y => ih n (by omega) y (x :: s))
        refine ⟨.shown nd.typename ts, ?_, .parts (by omega) hxs hx hlen hall⟩
        simp only [Bool.false_eq_true, if_false]
        rw [if_pos (by simpa using hmem), hts]
        rfl

end V8.ReprGuard
