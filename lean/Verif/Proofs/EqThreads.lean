import Verif.Model.EqThreads
import Verif.Proofs.RecursiveEqMain
import Mathlib.Data.List.Basic

/-!
# Lemmas about comparisons in several threads
-/

namespace V8

/-- A program run to its end with nobody else making steps. -/
def Prog.exec {α : Type} : Prog α → List EqKey → α × List EqKey
  | .ret a, s => (a, s)
  | .has k next, s => (next (decide (k ∈ s))).exec s
  | .add k next, s => next.exec (if k ∈ s then s else k :: s)
  | .remove k next, s => (next (decide (k ∈ s))).exec (s.erase k)

theorem exec_step {α : Type} (p : Prog α) (s : List EqKey) : (p.step s).1.exec (p.step s).2 = p.exec s := by
  cases p <;> rfl

theorem exec_bind {α β : Type} (p : Prog α) (f : α → Prog β) : ∀ s,
    (p.bind f).exec s = (f (p.exec s).1).exec (p.exec s).2 := by
  induction p with
  | ret a => intro s; rfl
  | has k next ih => intro s; simp only [Prog.bind, Prog.exec, ih]
  | add k next ih => intro s; simp only [Prog.bind, Prog.exec, ih]
  | remove k next ih => intro s; simp only [Prog.bind, Prog.exec, ih]

/-- All operations are on keys of the thread. -/
def Prog.Own {α : Type} (t : Thread) : Prog α → Prop
  | .ret _ => True
  | .has k next => k.2 = t ∧ ∀ b, (next b).Own t
  | .add k next => k.2 = t ∧ next.Own t
  | .remove k next => k.2 = t ∧ ∀ b, (next b).Own t

theorem own_bind {α β : Type} {t : Thread} {p : Prog α} {f : α → Prog β} (hp : p.Own t)
    (hf : ∀ a, (f a).Own t) : (p.bind f).Own t := by
  induction p with
  | ret a => exact hf a
  | has k next ih => exact ⟨hp.1, fun b => ih b (hp.2 b)⟩
  | add k next ih => exact ⟨hp.1, ih hp.2⟩
  | remove k next ih => exact ⟨hp.1, fun b => ih b (hp.2 b)⟩

/-- The ids in the keys of one thread. -/
def proj (t : Thread) (s : List EqKey) : List Id := (s.filter (fun k => decide (k.2 = t))).map Prod.fst

theorem mem_proj {t : Thread} {s : List EqKey} {i : Id} : i ∈ proj t s ↔ (i, t) ∈ s := by
  unfold proj
  simp only [List.mem_map, List.mem_filter, decide_eq_true_eq]
  constructor
  · rintro ⟨⟨j, u⟩, ⟨h1, h2⟩, h3⟩
    simp only at h2 h3
    rw [← h2, ← h3]; exact h1
  · intro h
    exact ⟨(i, t), ⟨h, rfl⟩, rfl⟩

theorem proj_add (t : Thread) (s : List EqKey) (i : Id) :
    proj t (if (i, t) ∈ s then s else (i, t) :: s) = addKey i (proj t s) := by
  unfold addKey
  by_cases h : (i, t) ∈ s
  · rw [if_pos h, if_pos (mem_proj.2 h)]
  · rw [if_neg h, if_neg (fun h' => h (mem_proj.1 h'))]
    simp [proj]

theorem proj_add_other {t : Thread} {k : EqKey} (h : k.2 ≠ t) (s : List EqKey) :
    proj t (if k ∈ s then s else k :: s) = proj t s := by
  split
  · rfl
  · simp [proj, h]

theorem proj_erase (t : Thread) (s : List EqKey) (i : Id) :
    proj t (s.erase (i, t)) = (proj t s).erase i := by
  induction s with
  | nil => rfl
  | cons k s ih =>
    obtain ⟨j, u⟩ := k
    by_cases hu : u = t
    · subst hu
      by_cases hj : j = i
      · subst hj
        simp [proj]
      · have h1 : (j, u) ≠ (i, u) := fun h => hj (Prod.mk.inj h).1
        rw [List.erase_cons_tail (by simpa using h1)]
        have : proj u ((j, u) :: s) = j :: proj u s := by simp [proj]
        rw [this, List.erase_cons_tail (by simpa using hj)]
        have : proj u ((j, u) :: s.erase (i, u)) = j :: proj u (s.erase (i, u)) := by simp [proj]
        rw [this, ih]
    · have h1 : (j, u) ≠ (i, t) := fun h => hu (Prod.mk.inj h).2
      rw [List.erase_cons_tail (by simpa using h1)]
      have e : ∀ l, proj t ((j, u) :: l) = proj t l := fun l => by simp [proj, hu]
      rw [e, e, ih]

theorem proj_erase_other {t : Thread} {k : EqKey} (h : k.2 ≠ t) (s : List EqKey) :
    proj t (s.erase k) = proj t s := by
  induction s with
  | nil => rfl
  | cons x s ih =>
    by_cases hx : x = k
    · subst hx
      simp [proj, h]
    · rw [List.erase_cons_tail (by simpa using hx)]
      unfold proj at ih ⊢
      simp only [List.filter_cons]
      split
      · simp only [List.map_cons, ih]
      · exact ih

/-- A program with keys of one thread depends on, and changes, the keys of that thread only. -/
theorem exec_own {α : Type} {t : Thread} {p : Prog α} (hp : p.Own t) : ∀ s s' : List EqKey,
    proj t s = proj t s' → (p.exec s).1 = (p.exec s').1 ∧ proj t (p.exec s).2 = proj t (p.exec s').2 := by
  have hmem : ∀ {s s' : List EqKey} (k : EqKey), k.2 = t → proj t s = proj t s' →
      decide (k ∈ s) = decide (k ∈ s') := by
    intro s s' k hk h
    have : k = (k.1, t) := by rw [← hk]
    rw [this, decide_eq_decide, ← mem_proj, ← mem_proj, h]
  induction p with
  | ret a => intro s s' h; exact ⟨rfl, h⟩
  | has k next ih =>
    intro s s' h
    simp only [Prog.exec]
    rw [hmem k hp.1 h]
    exact ih _ (hp.2 _) s s' h
  | add k next ih =>
    intro s s' h
    simp only [Prog.exec]
    refine ih hp.2 _ _ ?_
    have : k = (k.1, t) := by rw [← hp.1]
    rw [this, proj_add, proj_add, h]
  | remove k next ih =>
    intro s s' h
    simp only [Prog.exec]
    rw [hmem k hp.1 h]
    refine ih _ (hp.2 _) _ _ ?_
    have : k = (k.1, t) := by rw [← hp.1]
    rw [this, proj_erase, proj_erase, h]

theorem step_own {α : Type} {t : Thread} {p : Prog α} (hp : p.Own t) (s : List EqKey) : (p.step s).1.Own t := by
  cases p with
  | ret a => exact hp
  | has k next => exact hp.2 _
  | add k next => exact hp.2
  | remove k next => exact hp.2 _

theorem step_other {α : Type} {t u : Thread} {p : Prog α} (hp : p.Own u) (h : u ≠ t) (s : List EqKey) :
    proj t (p.step s).2 = proj t s := by
  cases p with
  | ret a => rfl
  | has k next => rfl
  | add k next => exact proj_add_other (by rw [hp.1]; exact h) s
  | remove k next => exact proj_erase_other (by rw [hp.1]; exact h) s

/-! ## The comparison -/

/-- A program of one thread computes what a function on that thread's ids does. -/
def Does {α : Type} (t : Thread) (p : Prog α) (m : List Id → α × List Id) : Prop :=
  p.Own t ∧ ∀ s, ((p.exec s).1, proj t (p.exec s).2) = m (proj t s)

theorem does_ret {α : Type} (t : Thread) (a : α) : Does t (.ret a) (fun run => (a, run)) :=
  ⟨trivial, fun _ => rfl⟩

theorem does_bind {α β : Type} {t : Thread} {p : Prog α} {m : List Id → α × List Id} {f : α → Prog β}
    {g : α → List Id → β × List Id} (hp : Does t p m) (hf : ∀ a, Does t (f a) (g a)) :
    Does t (p.bind f) (fun run => g (m run).1 (m run).2) := by
  refine ⟨own_bind hp.1 fun a => (hf a).1, fun s => ?_⟩
  rw [exec_bind, (hf _).2]
  simp only [← hp.2]

theorem does_congr {α : Type} {t : Thread} {p : Prog α} {m m' : List Id → α × List Id} (h : Does t p m)
    (e : ∀ run, m run = m' run) : Does t p m' := by
  have : m = m' := funext e
  rw [← this]; exact h

theorem does_runCmps {t : Thread} {eqp : Val → Val → Prog (Except EqErr Bool)} {eqm : Val → Val → EqM Bool}
    (he : ∀ v w, Does t (eqp v w) (eqm v w)) (cs : List Cmp) :
    Does t (runCmpsProg eqp cs) (runCmps eqm cs) := by
  induction cs with
  | nil => exact does_ret t _
  | cons c cs ih =>
    cases c with
    | differ => exact does_ret t _
    | raise e => exact does_ret t _
    | pair shortcut v w =>
      simp only [runCmpsProg]
      by_cases h : (shortcut && isSame v w) = true
      · rw [if_pos h]
        refine does_congr ih fun run => ?_
        simp only [runCmps]
        rw [if_pos h]
      · rw [if_neg h]
        refine does_congr (does_bind (g := fun r => match r with
          | .ok true => runCmps eqm cs
          | .ok false => fun run => (.ok false, run)
          | .error e => fun run => (.error e, run)) (he v w) ?_) ?_
        · intro a
          match a with
          | .ok true => exact ih
          | .ok false => exact does_ret t _
          | .error e => exact does_ret t _
        · intro run
          simp only [runCmps]
          rw [if_neg h]
          match eqm v w run with
          | (.ok true, r) => rfl
          | (.ok false, r) => rfl
          | (.error e, r) => rfl

theorem does_finally {α : Type} (t : Thread) (i j : Id) (r : Except EqErr α) :
    Does t (finallyProg t i j r) (fun run => finallyRemove i j (r, run)) := by
  refine ⟨⟨rfl, fun b => ?_⟩, fun s => ?_⟩
  · cases b
    · exact trivial
    · exact ⟨rfl, fun b => by cases b <;> exact trivial⟩
  · unfold finallyProg finallyRemove removeKey
    simp only [Prog.exec]
    by_cases h1 : (i, t) ∈ s
    · have h1' : i ∈ proj t s := mem_proj.2 h1
      simp only [h1, decide_true, if_true, h1', Prog.exec]
      by_cases h2 : (j, t) ∈ s.erase (i, t)
      · have h2' : j ∈ (proj t s).erase i := by rw [← proj_erase]; exact mem_proj.2 h2
        simp only [h2, decide_true, if_true, h2', Prog.exec, proj_erase]
      · have h2' : j ∉ (proj t s).erase i := by rw [← proj_erase]; exact fun h => h2 (mem_proj.1 h)
        simp only [h2, decide_false, Bool.false_eq_true, if_false, h2', Prog.exec, List.erase_of_not_mem h2,
          proj_erase]
    · have h1' : i ∉ proj t s := fun h => h1 (mem_proj.1 h)
      simp only [h1, decide_false, Bool.false_eq_true, if_false, h1', Prog.exec, List.erase_of_not_mem h1]

theorem does_recursive {t : Thread} {eqp : Val → Val → Prog (Except EqErr Bool)} {eqm : Val → Val → EqM Bool}
    (he : ∀ v w, Does t (eqp v w) (eqm v w)) (i j : Id) (n m : Node) :
    Does t (recursiveEqProg eqp t i j n m) (recursiveEq eqm i j n m) := by
  have hw : Does t (wrappedProg eqp n m) (fun run => match nodeCmps n m with
      | none => (.ok none, run)
      | some cmps =>
        match runCmps eqm cmps run with
        | (.ok b, run) => (.ok (some b), run)
        | (.error e, run) => (.error e, run)) := by
    unfold wrappedProg
    cases nodeCmps n m with
    | none => exact does_ret t _
    | some cmps =>
      refine does_congr (does_bind (g := fun r run => match r with
        | .ok b => (.ok (some b), run)
        | .error e => (.error e, run)) (does_runCmps he cmps) ?_) ?_
      · intro a
        cases a <;> exact does_ret t _
      · intro run
        simp only
        match runCmps eqm cmps run with
        | (.ok b, r) => rfl
        | (.error e, r) => rfl
  have hb := does_bind hw (does_finally t i j)
  unfold recursiveEqProg
  by_cases hij : i = j
  · rw [if_pos hij]
    refine does_congr (does_ret t _) fun run => ?_
    unfold recursiveEq
    rw [if_pos hij]
  · rw [if_neg hij]
    refine ⟨⟨rfl, fun b => ⟨rfl, fun b' => ?_⟩⟩, fun s => ?_⟩
    · simp only
      split
      · exact trivial
      · exact ⟨rfl, rfl, hb.1⟩
    · simp only [Prog.exec]
      unfold recursiveEq
      rw [if_neg hij]
      have e1 : decide (i ∈ proj t s) = decide ((i, t) ∈ s) := by rw [decide_eq_decide, mem_proj]
      have e2 : decide (j ∈ proj t s) = decide ((j, t) ∈ s) := by rw [decide_eq_decide, mem_proj]
      simp only [e1, e2]
      by_cases hr : (decide ((i, t) ∈ s) || decide ((j, t) ∈ s)) = true
      · rw [if_pos hr, if_pos hr]
        rfl
      · rw [if_neg hr, if_neg hr]
        simp only [Prog.exec]
        have := hb.2 (if (j, t) ∈ (if (i, t) ∈ s then s else (i, t) :: s)
          then (if (i, t) ∈ s then s else (i, t) :: s)
          else (j, t) :: (if (i, t) ∈ s then s else (i, t) :: s))
        rw [this, proj_add, proj_add]
        cases nodeCmps n m <;> rfl

theorem does_pyEq (env : EqEnv) (t : Thread) (fuel : Nat) : ∀ v w,
    Does t (pyEqProg env t fuel v w) (pyEq env fuel v w) := by
  induction fuel with
  | zero => intro v w; exact does_ret t _
  | succ fuel ih =>
    intro v w
    unfold pyEqProg
    have hx : ∀ run, pyEq env (fuel + 1) v w run = pyEq env (fuel + 1) v w run := fun _ => rfl
    conv at hx => intro run; rhs; unfold pyEq
    refine does_congr ?_ fun run => (hx run).symm
    match hv : trackedNode env.heap v, hw : trackedNode env.heap w with
    | some (i, n), some (j, m) =>
      simp only
      refine does_congr (does_bind (g := fun r => match r with
        | .error e => fun run => (.error e, run)
        | .ok (some b) => fun run => (.ok b, run)
        | .ok none => fun run =>
          match recursiveEq (pyEq env fuel) j i m n run with
          | (.error e, run) => (.error e, run)
          | (.ok (some b), run) => (.ok b, run)
          | (.ok none, run) => (.ok (decide (i = j)), run)) (does_recursive ih i j n m) ?_) ?_
      · intro a
        match a with
        | .error e => exact does_ret t _
        | .ok (some b) => exact does_ret t _
        | .ok none =>
          refine does_congr (does_bind (g := fun r run => match r with
            | .error e => (.error e, run)
            | .ok (some b) => (.ok b, run)
            | .ok none => (.ok (decide (i = j)), run)) (does_recursive ih j i m n) ?_) ?_
          · intro a
            match a with
            | .error e => exact does_ret t _
            | .ok (some b) => exact does_ret t _
            | .ok none => exact does_ret t _
          · intro run
            simp only
            match recursiveEq (pyEq env fuel) j i m n run with
            | (.error e, r) => rfl
            | (.ok (some b), r) => rfl
            | (.ok none, r) => rfl
      · intro run
        match recursiveEq (pyEq env fuel) i j n m run with
        | (.error e, r) => rfl
        | (.ok (some b), r) => rfl
        | (.ok none, r) => rfl
    | some _, none => exact does_ret t _
    | none, some _ => exact does_ret t _
    | none, none =>
      simp only
      have hl : Does t (match env.leaf v w with
          | Except.ok b => Prog.ret (Except.ok b)
          | Except.error e => Prog.ret (Except.error (EqErr.exc e)))
          (fun run => match env.leaf v w with
          | Except.ok b => (Except.ok b, run)
          | Except.error e => (Except.error (EqErr.exc e), run)) := by
        cases env.leaf v w <;> exact does_ret t _
      cases v <;> cases w <;> first | exact hl | exact does_ret t _

theorem does_thread (t : Thread) (jobs : List EqJob) :
    (threadProg t jobs).Own t ∧ ∀ s, proj t s = [] →
      ((threadProg t jobs).exec s).1 = jobs.map (fun j => (pyEqTop j.env j.left j.right).1) ∧
      proj t ((threadProg t jobs).exec s).2 = [] := by
  induction jobs with
  | nil => exact ⟨trivial, fun s h => ⟨rfl, h⟩⟩
  | cons j js ih =>
    have hd := does_pyEq j.env t (j.env.heap.length + 1) j.left j.right
    refine ⟨own_bind hd.1 fun a => own_bind ih.1 fun _ => trivial, fun s h => ?_⟩
    have h1 := hd.2 s
    rw [h] at h1
    have h2 : proj t ((pyEqProg j.env t (j.env.heap.length + 1) j.left j.right).exec s).2 = [] := by
      have := congrArg Prod.snd h1
      simp only at this
      rw [this]
      exact pyEq_run _ _ _ _ _
    simp only [threadProg, exec_bind]
    obtain ⟨h3, h4⟩ := ih.2 _ h2
    refine ⟨?_, h4⟩
    simp only [Prog.exec, List.map_cons, h3]
    rw [congrArg Prod.fst h1]
    rfl

/-! ## Schedules -/

/-- The invariant: every thread has its own keys only, and alone it would end with the results due. -/
structure Isolated (jobs : Thread → List EqJob) (sys : EqSys) : Prop where
  own : ∀ t, (sys.prog t).Own t
  due : ∀ t, ((sys.prog t).exec sys.keys).1 = (jobs t).map (fun j => (pyEqTop j.env j.left j.right).1)
  clean : ∀ t, proj t ((sys.prog t).exec sys.keys).2 = []

theorem isolated_start (jobs : Thread → List EqJob) : Isolated jobs (EqSys.start jobs) where
  own := fun t => (does_thread t (jobs t)).1
  due := fun t => ((does_thread t (jobs t)).2 [] rfl).1
  clean := fun t => ((does_thread t (jobs t)).2 [] rfl).2

theorem isolated_step {jobs : Thread → List EqJob} {sys : EqSys} (h : Isolated jobs sys) (t : Thread) :
    Isolated jobs (sys.step t) := by
  have key : ∀ u, (((sys.step t).prog u).Own u) ∧
      (((sys.step t).prog u).exec (sys.step t).keys).1 = ((sys.prog u).exec sys.keys).1 ∧
      proj u (((sys.step t).prog u).exec (sys.step t).keys).2 = proj u ((sys.prog u).exec sys.keys).2 := by
    intro u
    unfold EqSys.step
    simp only
    by_cases hu : u = t
    · subst hu
      rw [if_pos rfl]
      refine ⟨step_own (h.own u) _, ?_⟩
      rw [exec_step]
      exact ⟨rfl, rfl⟩
    · rw [if_neg hu]
      refine ⟨h.own u, ?_⟩
      exact exec_own (h.own u) _ _ (step_other (h.own t) (fun e => hu e.symm) _)
  exact ⟨fun u => (key u).1, fun u => (key u).2.1.trans (h.due u), fun u => (key u).2.2.trans (h.clean u)⟩

theorem isolated_run {jobs : Thread → List EqJob} (schedule : List Thread) : ∀ {sys : EqSys},
    Isolated jobs sys → Isolated jobs (sys.run schedule) := by
  induction schedule with
  | nil => intro sys h; exact h
  | cons t ts ih => intro sys h; exact ih (isolated_step h t)

/-- The most steps a program can make. -/
def Prog.size {α : Type} : Prog α → Nat
  | .ret _ => 0
  | .has _ next => 1 + max (next true).size (next false).size
  | .add _ next => 1 + next.size
  | .remove _ next => 1 + max (next true).size (next false).size

theorem size_zero {α : Type} {p : Prog α} (h : p.size = 0) : ∃ a, p = .ret a := by
  cases p with
  | ret a => exact ⟨a, rfl⟩
  | has k next => simp [Prog.size] at h
  | add k next => simp [Prog.size] at h
  | remove k next => simp [Prog.size] at h

theorem size_step {α : Type} (p : Prog α) (s : List EqKey) : (p.step s).1.size ≤ p.size - 1 := by
  cases p with
  | ret a => exact Nat.le_refl _
  | has k next => 
    simp only [Prog.step, Prog.size]
    cases decide (k ∈ s) <;> omega
  | add k next => simp only [Prog.step, Prog.size]; omega
  | remove k next =>
    simp only [Prog.step, Prog.size]
    cases decide (k ∈ s) <;> omega

theorem size_run (t : Thread) (schedule : List Thread) : ∀ sys : EqSys,
    ((sys.run schedule).prog t).size ≤ (sys.prog t).size - schedule.count t := by
  induction schedule with
  | nil => intro sys; exact Nat.le_refl _
  | cons u us ih =>
    intro sys
    have h1 := ih (sys.step u)
    show (((sys.step u).run us).prog t).size ≤ _
    by_cases hu : t = u
    · subst hu
      have h2 : ((sys.step t).prog t).size ≤ (sys.prog t).size - 1 := by
        unfold EqSys.step
        simp only [if_true]
        exact size_step _ _
      rw [List.count_cons_self]
      omega
    · have h2 : (sys.step u).prog t = sys.prog t := by
        unfold EqSys.step
        simp only [if_neg hu]
      rw [h2] at h1
      rw [List.count_cons_of_ne (fun e => hu e.symm)]
      exact h1

end V8
