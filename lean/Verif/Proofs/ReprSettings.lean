import Verif.Spec.ReprSettings
import Verif.Proofs.Dict
import Mathlib.Data.List.Basic

/-! Lemmas for `Props/ReprSettings`. -/

namespace V8
open Spec

/-- The JSRepr objects around one another: `active` is that of the first block, its initial one that of the second,
and so on to `a0`. -/
inductive Chain (bs : List ReprBlock) (a0 : Nat) : List Nat → Nat → Prop
  | nil : Chain bs a0 [] a0
  | cons {k b rest} : bs[k]? = some b → Chain bs a0 rest b.initial → Chain bs a0 (k :: rest) b.jsRepr

theorem Chain.append {bs a0 st a} (h : Chain bs a0 st a) (more : List ReprBlock) : Chain (bs ++ more) a0 st a := by
  induction h with
  | nil => exact .nil
  | cons hb _ ih =>
    refine .cons ?_ ih
    rw [List.getElem?_append_left]
    · exact hb
    · exact (List.getElem?_eq_some_iff.mp hb).1

theorem Chain.close {bs a0 st a k b} (h : Chain bs a0 st a) (hk : bs[k]? = some b) :
    Chain (bs.set k { b with isOpen := false }) a0 st a := by
  induction h with
  | nil => exact .nil
  | @cons j c rest hb _ ih =>
    by_cases hj : k = j
    · subst hj
      rw [hk] at hb; cases hb
      have hlt := (List.getElem?_eq_some_iff.mp hk).1
      exact .cons (b := { b with isOpen := false }) (by rw [List.getElem?_set_self hlt]) ih
    · exact .cons (by rw [List.getElem?_set_ne hj]; exact hb) ih

theorem Chain.lt {bs a0 st a} (h : Chain bs a0 st a) : ∀ k ∈ st, k < bs.length := by
  induction h with
  | nil => intro k hk; cases hk
  | cons hb _ ih =>
    intro j hj
    rcases List.mem_cons.mp hj with rfl | hj
    · exact (List.getElem?_eq_some_iff.mp hb).1
    · exact ih j hj

theorem enterBlock_ok {s arg force s'} (h : enterBlock s arg force = .ok s') :
    ∃ r objs, blockRepr s arg = .ok (r, objs) ∧ s' = ⟨objs, r, s.blocks ++ [⟨r, s.active, force, true⟩], s.warnings⟩ := by
  unfold enterBlock at h
  cases hb : blockRepr s arg with
  | error e => rw [hb] at h; exact absurd h (by simp)
  | ok p => rw [hb] at h; exact ⟨p.1, p.2, rfl, by simpa using h.symm⟩

theorem exitBlock_ok {s k s'} (h : exitBlock s k = .ok s') :
    ∃ b, s.blocks[k]? = some b ∧ b.isOpen = true ∧
      s' = { closeBlock s b with blocks := s.blocks.set k { b with isOpen := false } } := by
  unfold exitBlock at h
  cases hb : s.blocks[k]? with
  | none => rw [hb] at h; exact absurd h (by simp)
  | some b =>
    rw [hb] at h
    cases ho : b.isOpen with
    | false => simp [ho] at h
    | true =>
      simp only [ho, Bool.true_eq_false, if_false, Except.ok.injEq] at h
      refine ⟨b, rfl, ho, ?_⟩
      rw [← h]
      unfold closeBlock
      split <;> simp_all

/-- While blocks are nested, the open ones form a chain. -/
theorem chain_run {es : List ReprEvent} : ∀ {s s' : ReprState} {a0 : Nat} {st st' : List Nat},
    Chain s.blocks a0 st s.active → reprRun s es = .ok s' → nesting st s.blocks.length es = some st' →
    Chain s'.blocks a0 st' s'.active ∧ s'.warnings = s.warnings := by
  induction es with
  | nil =>
    intro s s' a0 st st' hc hr hn
    simp only [reprRun, Except.ok.injEq] at hr
    simp only [nesting, Option.some.injEq] at hn
    subst hr hn
    exact ⟨hc, rfl⟩
  | cons e t ih =>
    intro s s' a0 st st' hc hr hn
    unfold reprRun at hr
    cases hs : reprStep s e with
    | error x => rw [hs] at hr; exact absurd hr (by simp)
    | ok s1 =>
      rw [hs] at hr
      simp only at hr
      cases e with
      | enter arg force =>
        obtain ⟨r, objs, _, rfl⟩ := enterBlock_ok hs
        simp only [nesting] at hn
        refine ih (s := ⟨objs, r, s.blocks ++ [⟨r, s.active, force, true⟩], s.warnings⟩) (a0 := a0)
          (st := s.blocks.length :: st) ?_ hr (by simpa using hn)
        refine .cons (b := ⟨r, s.active, force, true⟩) ?_ (hc.append _)
        simp
      | exit k =>
        obtain ⟨b, hb, _, rfl⟩ := exitBlock_ok hs
        generalize hpa : s.active = a at hc
        cases hc with
        | nil => simp [nesting] at hn
        | @cons j c rest hj hrest =>
          simp only [nesting] at hn
          by_cases hjk : j = k
          · subst hjk
            rw [if_pos rfl] at hn
            rw [hj] at hb; cases hb
            have hcl : closeBlock s b = { s with active := b.initial } := by
              unfold closeBlock; exact if_pos (.inl hpa)
            rw [hcl] at hr
            have := ih (s := { s with active := b.initial, blocks := s.blocks.set j { b with isOpen := false } })
              (a0 := a0) (st := rest) (hrest.close hj) hr (by simpa using hn)
            exact this
          · rw [if_neg hjk] at hn; exact absurd hn (by simp)

/-! ## Blocks with own JSRepr objects -/

/-- What holds while blocks with own JSRepr objects come and go: `path` leads from the active object to the initial
one. -/
structure OwnInv (s0 s : ReprState) (path : List Nat) : Prop where
  chain : Chain s.blocks s0.active path s.active
  blocksLe : s0.blocks.length ≤ s.blocks.length
  objsLe : s0.objs.length ≤ s.objs.length
  start : s0.active < s0.objs.length
  own : ∀ k b, s0.blocks.length ≤ k → s.blocks[k]? = some b →
    b.force = false ∧ s0.objs.length ≤ b.jsRepr ∧ b.jsRepr < s.objs.length
  apart : ∀ j k b c, s0.blocks.length ≤ j → j < k → s.blocks[j]? = some b → s.blocks[k]? = some c →
    b.jsRepr < c.jsRepr
  opened : ∀ k b, s0.blocks.length ≤ k → s.blocks[k]? = some b → b.isOpen = true → k ∈ path
  pathGe : ∀ k ∈ path, s0.blocks.length ≤ k

theorem OwnInv.refl {s : ReprState} (h : s.active < s.objs.length) : OwnInv s s [] := by
  refine ⟨.nil, Nat.le_refl _, Nat.le_refl _, h, ?_, ?_, ?_, ?_⟩
  · intro k b hk hb
    have := (List.getElem?_eq_some_iff.mp hb).1
    omega
  · intro j k b c hj _ hb _
    have := (List.getElem?_eq_some_iff.mp hb).1
    omega
  · intro k b hk hb
    have := (List.getElem?_eq_some_iff.mp hb).1
    omega
  · intro k hk; cases hk

theorem blockRepr_kwargs {s kw r objs} (h : blockRepr s (.kwargs kw) = .ok (r, objs)) :
    r = s.objs.length ∧ ∃ new, objs = s.objs ++ [new] := by
  simp only [blockRepr] at h
  cases h1 : s.objs[s.active]? with
  | none => rw [h1] at h; exact absurd h (by simp)
  | some fs =>
    rw [h1] at h; simp only at h
    cases h2 : overrideFields (inheritedFields fs knownFields) kw with
    | error e => rw [h2] at h; exact absurd h (by simp)
    | ok st =>
      rw [h2] at h; simp only at h
      cases h3 : mkJSRepr st with
      | error e => rw [h3] at h; exact absurd h (by simp)
      | ok new =>
        rw [h3] at h
        simp only [Except.ok.injEq, Prod.mk.injEq] at h
        exact ⟨h.1.symm, new, h.2.symm⟩

theorem OwnInv.enter {s0 s s' : ReprState} {path kw} (hi : OwnInv s0 s path)
    (h : enterBlock s (.kwargs kw) false = .ok s') :
    OwnInv s0 s' (s.blocks.length :: path) ∧ s'.blocks.length = s.blocks.length + 1 ∧ s'.warnings = s.warnings := by
  obtain ⟨r, objs, hr, rfl⟩ := enterBlock_ok h
  obtain ⟨rfl, new, rfl⟩ := blockRepr_kwargs hr
  have hget : ∀ k b, (s.blocks ++ [⟨s.objs.length, s.active, false, true⟩])[k]? = some b →
      s.blocks[k]? = some b ∨ (k = s.blocks.length ∧ b = ⟨s.objs.length, s.active, false, true⟩) := by
    intro k b hb
    rcases Nat.lt_trichotomy k s.blocks.length with hk | hk | hk
    · left; rwa [List.getElem?_append_left hk] at hb
    · right; subst hk; simp at hb; exact ⟨rfl, hb.symm⟩
    · rw [List.getElem?_eq_none (by simp; omega)] at hb; cases hb
  have hle := hi.blocksLe
  have hol := hi.objsLe
  refine ⟨⟨?_, by simp; omega, by simp; omega, hi.start, ?_, ?_, ?_, ?_⟩, by simp, rfl⟩
  · refine .cons (b := ⟨s.objs.length, s.active, false, true⟩) (by simp) (hi.chain.append _)
  · intro k b hk hb
    rcases hget k b hb with hb | ⟨rfl, rfl⟩
    · have := hi.own k b hk hb
      refine ⟨this.1, this.2.1, ?_⟩
      simp; omega
    · simp; omega
  · intro j k b c hj hjk hb hc
    rcases hget k c hc with hc | ⟨rfl, rfl⟩
    · have hkl := (List.getElem?_eq_some_iff.mp hc).1
      rcases hget j b hb with hb | ⟨rfl, rfl⟩
      · exact hi.apart j k b c hj hjk hb hc
      · omega
    · rcases hget j b hb with hb | ⟨rfl, rfl⟩
      · exact (hi.own j b hj hb).2.2
      · omega
  · intro k b hk hb ho
    rcases hget k b hb with hb | ⟨rfl, rfl⟩
    · exact List.mem_cons_of_mem _ (hi.opened k b hk hb ho)
    · exact List.mem_cons_self
  · intro k hk
    rcases List.mem_cons.mp hk with rfl | hk
    · exact hle
    · exact hi.pathGe k hk

/-- Leaving a block: it leaves the path if it is the first of it, else it stays there and Python warns. -/
theorem OwnInv.exit {s0 s s' : ReprState} {path k} (hi : OwnInv s0 s path) (hk : s0.blocks.length ≤ k)
    (h : exitBlock s k = .ok s') :
    s'.blocks.length = s.blocks.length ∧
    ((∃ rest, path = k :: rest ∧ OwnInv s0 s' rest ∧ s'.warnings = s.warnings) ∨
      (path.head? ≠ some k ∧ k ∈ path ∧ OwnInv s0 s' path ∧ s'.warnings = s.warnings + 1)) := by
  obtain ⟨b, hb, ho, rfl⟩ := exitBlock_ok h
  have hlt := (List.getElem?_eq_some_iff.mp hb).1
  have hget : ∀ j c, (s.blocks.set k { b with isOpen := false })[j]? = some c →
      ∃ d, s.blocks[j]? = some d ∧ c.jsRepr = d.jsRepr ∧ c.force = d.force ∧
        (c.isOpen = true → d.isOpen = true ∧ j ≠ k) := by
    intro j c hc
    by_cases hj : k = j
    · subst hj
      rw [List.getElem?_set_self hlt] at hc
      cases hc
      exact ⟨b, hb, rfl, rfl, by simp⟩
    · rw [List.getElem?_set_ne hj] at hc
      exact ⟨c, hc, rfl, rfl, fun h => ⟨h, fun e => hj e.symm⟩⟩
  have hforce := (hi.own k b hk hb).1
  have build : ∀ (p : List Nat) (a w : Nat), Chain s.blocks s0.active p a → (∀ j ∈ path, j ≠ k → j ∈ p) →
      (∀ j ∈ p, j ∈ path) →
      OwnInv s0 ⟨s.objs, a, s.blocks.set k { b with isOpen := false }, w⟩ p := by
    intro p a w hch hsub hsup
    refine ⟨hch.close hb, by simpa using hi.blocksLe, hi.objsLe, hi.start, ?_, ?_, ?_, ?_⟩
    · intro j c hj hc
      obtain ⟨d, hd, h1, h2, _⟩ := hget j c hc
      rw [h1, h2]; exact hi.own j d hj hd
    · intro i j c d hi' hij hc hd
      obtain ⟨c', hc', h1, _⟩ := hget i c hc
      obtain ⟨d', hd', h2, _⟩ := hget j d hd
      rw [h1, h2]; exact hi.apart i j c' d' hi' hij hc' hd'
    · intro j c hj hc ho
      obtain ⟨d, hd, _, _, h3⟩ := hget j c hc
      exact hsub j (hi.opened j d hj hd (h3 ho).1) (h3 ho).2
    · intro j hj; exact hi.pathGe j (hsup j hj)
  have hmem := hi.opened k b hk hb ho
  refine ⟨by simp, ?_⟩
  by_cases hact : s.active = b.jsRepr
  · left
    have hcl : closeBlock s b = { s with active := b.initial } := by
      unfold closeBlock; exact if_pos (.inl hact)
    rw [hcl]
    have hchain := hi.chain
    generalize hpa : s.active = a at hchain hact
    cases hchain with
    | nil => cases hmem
    | @cons j c rest hj hrest =>
      have hjge := hi.pathGe j List.mem_cons_self
      have hjk : j = k := by
        rcases Nat.lt_trichotomy j k with h' | h' | h'
        · have := hi.apart j k c b hjge h' hj hb; omega
        · exact h'
        · have := hi.apart k j b c hk h' hb hj; omega
      subst hjk
      rw [hj] at hb; cases hb
      refine ⟨rest, rfl, ?_, rfl⟩
      refine build rest b.initial s.warnings hrest ?_ (fun i h => List.mem_cons_of_mem _ h)
      intro i him hne
      rcases List.mem_cons.mp him with rfl | h
      · exact absurd rfl hne
      · exact h
  · right
    have hcl : closeBlock s b = { s with warnings := s.warnings + 1 } := by
      unfold closeBlock
      refine if_neg ?_
      rintro (h' | h')
      · exact hact h'
      · rw [hforce] at h'; cases h'
    rw [hcl]
    refine ⟨?_, hmem, build path s.active _ hi.chain (fun j hj _ => hj) (fun j hj => hj), rfl⟩
    intro hh
    cases hp : path with
    | nil => rw [hp] at hh; cases hh
    | cons j rest =>
      rw [hp] at hh
      simp only [List.head?_cons, Option.some.injEq] at hh
      subst hh
      have hch := hi.chain
      rw [hp] at hch
      generalize hpa : s.active = a at hch hact
      cases hch with
      | cons hj _ => rw [hj] at hb; cases hb; exact hact rfl

/-- A block that was left while it was not the innermost one. -/
def Zombie (s : ReprState) (path : List Nat) : Prop := ∃ k b, k ∈ path ∧ s.blocks[k]? = some b ∧ b.isOpen = false

theorem OwnInv.away {s0 s path} (hi : OwnInv s0 s path) (hne : path ≠ []) : s.active ≠ s0.active := by
  have hch := hi.chain
  generalize hpa : s.active = a at hch
  cases hch with
  | nil => exact absurd rfl hne
  | @cons k b rest hb _ =>
    have := hi.own k b (hi.pathGe k List.mem_cons_self) hb
    have := hi.start
    omega

theorem own_run {s0 : ReprState} {es : List ReprEvent} : ∀ {s s' : ReprState} {path : List Nat},
    OwnInv s0 s path → Plain es → LeavesOwn s0.blocks.length es → reprRun s es = .ok s' →
    ∃ path', OwnInv s0 s' path' ∧ s.warnings ≤ s'.warnings ∧ s'.blocks.length = s.blocks.length + entered es ∧
      (Zombie s path → Zombie s' path') ∧ (s.warnings < s'.warnings → Zombie s' path') ∧
      (s'.warnings = s.warnings → nesting path s.blocks.length es = some path') ∧
      (∀ k b, s'.blocks[k]? = some b → b.isOpen = true → ReprEvent.exit k ∉ es) := by
  induction es with
  | nil =>
    intro s s' path hi _ _ hr
    simp only [reprRun, Except.ok.injEq] at hr
    subst hr
    exact ⟨path, hi, Nat.le_refl _, rfl, id, fun h => absurd h (by omega), fun _ => rfl, fun _ _ _ _ => by simp⟩
  | cons e t ih =>
    intro s s' path hi hp hl hr
    unfold reprRun at hr
    have hp' : Plain t := fun e' he' => hp e' (List.mem_cons_of_mem _ he')
    have hl' : LeavesOwn s0.blocks.length t := fun k hk => hl k (List.mem_cons_of_mem _ hk)
    cases hs : reprStep s e with
    | error x => rw [hs] at hr; exact absurd hr (by simp)
    | ok s1 =>
      rw [hs] at hr
      simp only at hr
      cases e with
      | enter arg force =>
        have hpl := hp _ List.mem_cons_self
        cases arg with
        | obj r => cases force <;> exact hpl.elim
        | kwargs kw =>
          cases force with
          | true => exact hpl.elim
          | false =>
            obtain ⟨hi1, hlen, hw⟩ := hi.enter hs
            obtain ⟨path', h1, h2, h3, h4, h5, h6, h7⟩ := ih hi1 hp' hl' hr
            refine ⟨path', h1, by omega, by simp only [entered]; omega, ?_, fun h => h5 (by omega), ?_, ?_⟩
            · rintro ⟨k, b, hk, hb, ho⟩
              refine h4 ⟨k, b, List.mem_cons_of_mem _ hk, ?_, ho⟩
              obtain ⟨r, objs, _, rfl⟩ := enterBlock_ok hs
              simp only
              rw [List.getElem?_append_left (List.getElem?_eq_some_iff.mp hb).1]
              exact hb
            · intro h
              simp only [nesting]
              rw [← h6 (by omega), hlen]
            · intro k b hb ho
              simpa using h7 k b hb ho
      | exit k =>
        have hk := hl k List.mem_cons_self
        obtain ⟨hlen, hcase⟩ := hi.exit hk hs
        -- the block is closed from now on
        have hclosed : ∃ b, s1.blocks[k]? = some b ∧ b.isOpen = false := by
          obtain ⟨b, hb, _, rfl⟩ := exitBlock_ok hs
          exact ⟨_, List.getElem?_set_self (List.getElem?_eq_some_iff.mp hb).1, rfl⟩
        have hother : ∀ (j : Nat) (b : ReprBlock), s.blocks[j]? = some b → b.isOpen = false → ∃ c : ReprBlock, s1.blocks[j]? = some c ∧ c.isOpen = false := by
          intro j b hb ho
          by_cases hjk : k = j
          · subst hjk; exact hclosed
          · obtain ⟨c, hc, _, rfl⟩ := exitBlock_ok hs
            exact ⟨b, by simp only; rw [List.getElem?_set_ne hjk]; exact hb, ho⟩
        have hstay : ∀ {s1 s2 : ReprState} {t : List ReprEvent}, reprRun s1 t = .ok s2 →
            ∀ (j : Nat) (b : ReprBlock), s1.blocks[j]? = some b → b.isOpen = false → ∃ c : ReprBlock, s2.blocks[j]? = some c ∧ c.isOpen = false := by
          intro s1 s2 t
          induction t generalizing s1 with
          | nil =>
            intro hr j b hb ho
            simp only [reprRun, Except.ok.injEq] at hr
            subst hr; exact ⟨b, hb, ho⟩
          | cons e t ih =>
            intro hr j b hb ho
            unfold reprRun at hr
            cases hs : reprStep s1 e with
            | error x => rw [hs] at hr; exact absurd hr (by simp)
            | ok s3 =>
              rw [hs] at hr; simp only at hr
              have : ∃ c, s3.blocks[j]? = some c ∧ c.isOpen = false := by
                cases e with
                | enter arg force =>
                  obtain ⟨r, objs, _, rfl⟩ := enterBlock_ok hs
                  exact ⟨b, by simp only; rw [List.getElem?_append_left (List.getElem?_eq_some_iff.mp hb).1]; exact hb, ho⟩
                | exit i =>
                  obtain ⟨c, hc, hco, rfl⟩ := exitBlock_ok hs
                  by_cases hij : i = j
                  · subst hij; rw [hb] at hc; cases hc; rw [ho] at hco; cases hco
                  · exact ⟨b, by simp only; rw [List.getElem?_set_ne hij]; exact hb, ho⟩
              obtain ⟨c, hc, hco⟩ := this
              exact ih hr j c hc hco
        have hdone : ∀ j b, s'.blocks[j]? = some b → b.isOpen = true → ReprEvent.exit j ∉ t →
            ReprEvent.exit j ∉ (ReprEvent.exit k :: t) := by
          intro j b hb ho hn hmem
          rcases List.mem_cons.mp hmem with he | he
          · cases he
            obtain ⟨c, hc, hco⟩ := hclosed
            obtain ⟨d, hd, hdo⟩ := hstay hr _ c hc hco
            rw [hd] at hb; cases hb; rw [hdo] at ho; cases ho
          · exact hn he
        rcases hcase with ⟨rest, rfl, hi1, hw⟩ | ⟨hhead, hmem, hi1, hw⟩
        · obtain ⟨path', h1, h2, h3, h4, h5, h6, h7⟩ := ih hi1 hp' hl' hr
          refine ⟨path', h1, by omega, by simp only [entered]; omega, ?_, fun h => h5 (by omega), ?_,
            fun j b hb ho => hdone j b hb ho (h7 j b hb ho)⟩
          · rintro ⟨j, b, hj, hb, ho⟩
            obtain ⟨c, hc, hco⟩ := hother j b hb ho
            refine h4 ⟨j, c, ?_, hc, hco⟩
            rcases List.mem_cons.mp hj with rfl | hj
            · obtain ⟨d, hd, hdo, _⟩ := exitBlock_ok hs
              rw [hb] at hd; cases hd; rw [ho] at hdo; cases hdo
            · exact hj
          · intro h
            simp only [nesting, if_true]
            rw [← h6 (by omega), hlen]
        · obtain ⟨path', h1, h2, h3, h4, h5, h6, h7⟩ := ih hi1 hp' hl' hr
          obtain ⟨c, hc, hco⟩ := hclosed
          have hz : Zombie s' path' := h4 ⟨k, c, hmem, hc, hco⟩
          exact ⟨path', h1, by omega, by simp only [entered]; omega, fun _ => hz, fun _ => hz,
            fun h => absurd h (by omega), fun j b hb ho => hdone j b hb ho (h7 j b hb ho)⟩

/-! ## Settings of one block -/

theorem storedAsIs_indent : storedAsIs "indent" = true := by decide

theorem get_reprDefaults {k : String} (h : k ∈ knownFields) :
    ∃ v, Dict.get reprDefaults k = some v ∧ (storedAsIs k = false → v ≠ .none) := by
  have hall : ∀ k ∈ knownFields, Dict.get reprDefaults k ≠ none ∧
      (storedAsIs k = false → Dict.get reprDefaults k ≠ some .none) := by decide
  obtain ⟨h1, h2⟩ := hall k h
  cases hg : Dict.get reprDefaults k with
  | none => exact absurd hg h1
  | some v => exact ⟨v, rfl, fun hs hv => h2 hs (by rw [hg, hv])⟩

theorem mkJSRepr_get {kw : ReprKwargs} : ∀ {fs : ReprFields}, mkJSRepr kw = .ok fs → ∀ {k : String}, k ∈ knownFields →
    ∃ v, Dict.get fs k = some v ∧ (storedAsIs k = false → v ≠ .none) ∧
      (∀ w, kw.find? (fun p => p.1 = k) = some (k, w) → (storedAsIs k = true ∨ w ≠ .none) → v = w) := by
  induction kw with
  | nil =>
    intro fs h k hk
    simp only [mkJSRepr, Except.ok.injEq] at h
    subst h
    obtain ⟨v, h1, h2⟩ := get_reprDefaults hk
    exact ⟨v, h1, h2, fun w hw => by simp at hw⟩
  | cons e t ih =>
    obtain ⟨k', v'⟩ := e
    intro fs h k hk
    unfold mkJSRepr at h
    by_cases hk' : k' ∉ knownFields
    · rw [if_pos hk'] at h; cases h
    · rw [if_neg hk'] at h
      cases hm : mkJSRepr t with
      | error e => rw [hm] at h; cases h
      | ok gs =>
        rw [hm] at h
        simp only [Except.ok.injEq] at h
        obtain ⟨v, h1, h2, h3⟩ := ih hm hk
        by_cases hkk : k' = k
        · subst hkk
          subst h
          unfold applyReprArg
          by_cases hst : storedAsIs k' = true
          · rw [if_pos hst]
            refine ⟨v', by rw [Dict.get_set, if_pos rfl], fun h => ?_, fun w hw _ => ?_⟩
            · rw [hst] at h; cases h
            · simpa using hw
          · rw [if_neg hst]
            by_cases hn : v' = .none
            · rw [if_pos hn]
              refine ⟨v, h1, h2, fun w hw h => ?_⟩
              simp only [List.find?_cons, decide_true, Option.some.injEq, Prod.mk.injEq, true_and] at hw
              rcases h with h | h
              · exact absurd h hst
              · exact absurd (hw ▸ hn) h
            · rw [if_neg hn]
              refine ⟨v', by rw [Dict.get_set, if_pos rfl], fun _ => hn, fun w hw _ => ?_⟩
              simpa using hw
        · have hget : Dict.get fs k = Dict.get gs k := by
            subst h
            unfold applyReprArg
            have hset : Dict.get (Dict.set gs k' v') k = Dict.get gs k := by
              rw [Dict.get_set, if_neg hkk]
            split
            · exact hset
            · split
              · rfl
              · exact hset
          refine ⟨v, by rw [hget]; exact h1, h2, fun w hw h => h3 w ?_ h⟩
          rw [List.find?_cons_of_neg (by simpa using hkk)] at hw
          exact hw

theorem mkJSRepr_error {kw : ReprKwargs} : (∀ p ∈ kw, p.1 ∈ knownFields) → ∃ fs, mkJSRepr kw = .ok fs := by
  induction kw with
  | nil => intro _; exact ⟨_, rfl⟩
  | cons e t ih =>
    obtain ⟨k, v⟩ := e
    intro h
    obtain ⟨fs, hfs⟩ := ih (fun p hp => h p (List.mem_cons_of_mem _ hp))
    refine ⟨applyReprArg fs k v, ?_⟩
    unfold mkJSRepr
    rw [if_neg (not_not_intro (h (k, v) List.mem_cons_self)), hfs]

theorem inheritedFields_get {fs : ReprFields} {names : List String} : names.Nodup →
    (∀ k ∈ names, ∃ v, Dict.get fs k = some v) →
    Dict.keys (inheritedFields fs names) = names ∧
      ∀ k ∈ names, Dict.get (inheritedFields fs names) k = Dict.get fs k := by
  induction names with
  | nil => intro _ _; exact ⟨rfl, fun k hk => by cases hk⟩
  | cons n t ih =>
    intro hnd h
    obtain ⟨v, hv⟩ := h n List.mem_cons_self
    obtain ⟨h1, h2⟩ := ih (List.nodup_cons.mp hnd).2 (fun k hk => h k (List.mem_cons_of_mem _ hk))
    simp only [inheritedFields, hv]
    refine ⟨by rw [Dict.keys_cons, h1], fun k hk => ?_⟩
    by_cases hkn : n = k
    · subst hkn; simp [Dict.get, hv]
    · rcases List.mem_cons.mp hk with rfl | hk
      · exact absurd rfl hkn
      · simp only [Dict.get, if_neg hkn]; exact h2 k hk

theorem overrideFields_spec {kw : ReprKwargs} : ∀ {st st' : ReprFields}, (kw.map Prod.fst).Nodup →
    overrideFields st kw = .ok st' → Dict.keys st' = Dict.keys st ∧ (∀ p ∈ kw, p.1 ∈ Dict.keys st) ∧
      ∀ k v, Dict.get st k = some v → Dict.get st' k = some (blockSetting v k kw) := by
  induction kw with
  | nil =>
    intro st st' _ h
    simp only [overrideFields, Except.ok.injEq] at h
    subst h
    exact ⟨rfl, fun p hp => (by cases hp), fun k v hv => by simpa [blockSetting] using hv⟩
  | cons e t ih =>
    obtain ⟨k0, v0⟩ := e
    intro st st' hnd h
    have hnd' := List.nodup_cons.mp (by simpa using hnd : (k0 :: t.map Prod.fst).Nodup)
    unfold overrideFields at h
    by_cases hk : Dict.get st k0 = none
    · rw [if_pos hk] at h; cases h
    · rw [if_neg hk] at h
      have hmem : k0 ∈ Dict.keys st := by
        by_contra hc
        exact hk ((Dict.get_eq_none_iff st k0).mpr hc)
      have hskip : ∀ v, blockSetting v k0 t = v := by
        intro v
        have : t.find? (fun p => p.1 = k0) = none := by
          rw [List.find?_eq_none]
          intro p hp
          simp only [decide_eq_true_eq]
          intro he
          exact hnd'.1 (he ▸ List.mem_map_of_mem hp)
        unfold blockSetting
        rw [this]
      have hothers : ∀ k v, k0 ≠ k → blockSetting v k ((k0, v0) :: t) = blockSetting v k t := by
        intro k v hne
        unfold blockSetting
        rw [List.find?_cons_of_neg (by simpa using hne)]
      by_cases hv : v0 ≠ .none ∨ k0 = "indent"
      · rw [if_pos hv] at h
        obtain ⟨h1, h2, h3⟩ := ih hnd'.2 h
        rw [Dict.keys_set_of_mem _ _ _ hmem] at h1 h2
        refine ⟨h1, ?_, ?_⟩
        · intro p hp
          rcases List.mem_cons.mp hp with rfl | hp
          · exact hmem
          · exact h2 p hp
        · intro k v hkv
          by_cases hkk : k0 = k
          · subst hkk
            have := h3 k0 v0 (by rw [Dict.get_set, if_pos rfl])
            rw [this, hskip]
            simp only [blockSetting, List.find?_cons, decide_true]
            cases v0 with
            | none =>
              rcases hv with hv | hv
              · exact absurd rfl hv
              · simp [hv]
            | int n => rfl
            | str s => rfl
          · rw [hothers k v hkk]
            refine h3 k v ?_
            rw [Dict.get_set, if_neg hkk]
            exact hkv
      · rw [if_neg hv] at h
        obtain ⟨h1, h2, h3⟩ := ih hnd'.2 h
        refine ⟨h1, ?_, ?_⟩
        · intro p hp
          rcases List.mem_cons.mp hp with rfl | hp
          · exact hmem
          · exact h2 p hp
        · intro k v hkv
          by_cases hkk : k0 = k
          · subst hkk
            rw [h3 k0 v hkv, hskip]
            have hv' : v0 = .none ∧ k0 ≠ "indent" := by
              constructor
              · by_contra hc; exact hv (.inl hc)
              · intro hc; exact hv (.inr hc)
            simp only [blockSetting, List.find?_cons, decide_true, hv'.1, if_neg hv'.2]
          · rw [hothers k v hkk]; exact h3 k v hkv

theorem overrideFields_ok {kw : ReprKwargs} : ∀ {st : ReprFields}, (∀ p ∈ kw, p.1 ∈ Dict.keys st) →
    ∃ st', overrideFields st kw = .ok st' := by
  induction kw with
  | nil => intro st _; exact ⟨st, rfl⟩
  | cons e t ih =>
    obtain ⟨k0, v0⟩ := e
    intro st h
    have hmem := h (k0, v0) List.mem_cons_self
    have hne : Dict.get st k0 ≠ none := fun hc => (Dict.get_eq_none_iff st k0).mp hc hmem
    unfold overrideFields
    rw [if_neg hne]
    split
    · refine ih fun p hp => ?_
      rw [Dict.keys_set_of_mem _ _ _ hmem]
      exact h p (List.mem_cons_of_mem _ hp)
    · exact ih fun p hp => h p (List.mem_cons_of_mem _ hp)

theorem overrideFields_exc {kw : ReprKwargs} : ∀ {st : ReprFields} {e}, overrideFields st kw = .error e →
    e = .typeError := by
  induction kw with
  | nil => intro st e h; cases h
  | cons x t ih =>
    intro st e h
    unfold overrideFields at h
    split at h
    · cases h; rfl
    · split at h <;> exact ih h

theorem find_of_get {st : ReprFields} {k : String} {v : FieldVal} (h : Dict.get st k = some v) :
    st.find? (fun p => p.1 = k) = some (k, v) := by
  induction st with
  | nil => cases h
  | cons e t ih =>
    obtain ⟨k', v'⟩ := e
    by_cases hk : k' = k
    · subst hk; simp only [Dict.get, if_true, Option.some.injEq] at h; subst h; simp
    · simp only [Dict.get, if_neg hk] at h
      rw [List.find?_cons_of_neg (by simpa using hk)]
      exact ih h

theorem blockSetting_stored {v : FieldVal} {k : String} {kw : ReprKwargs} (hv : storedAsIs k = false → v ≠ .none) :
    storedAsIs k = true ∨ blockSetting v k kw ≠ .none := by
  cases hs : storedAsIs k with
  | true => exact .inl rfl
  | false =>
    right
    have hk : k ≠ "indent" := by rintro rfl; rw [storedAsIs_indent] at hs; cases hs
    unfold blockSetting
    cases kw.find? (fun p => p.1 = k) with
    | none => exact hv hs
    | some p =>
      obtain ⟨k', w⟩ := p
      cases w with
      | none => simp only [if_neg hk]; exact hv hs
      | int n => simp
      | str s => simp

theorem blockRepr_made {s : ReprState} {around kw r objs} (ha : s.objs[s.active]? = some around)
    (h : blockRepr s (.kwargs kw) = .ok (r, objs)) :
    ∃ st, overrideFields (inheritedFields around knownFields) kw = .ok st ∧ ∃ new, mkJSRepr st = .ok new ∧
      r = s.objs.length ∧ objs = s.objs ++ [new] := by
  simp only [blockRepr, ha] at h
  cases h2 : overrideFields (inheritedFields around knownFields) kw with
  | error e => rw [h2] at h; exact absurd h (by simp)
  | ok st =>
    rw [h2] at h; simp only at h
    cases h3 : mkJSRepr st with
    | error e => rw [h3] at h; exact absurd h (by simp)
    | ok new =>
      rw [h3] at h
      simp only [Except.ok.injEq, Prod.mk.injEq] at h
      exact ⟨st, rfl, new, h3, h.1.symm, h.2.symm⟩

/-- The blocks on the stack of `nesting` are open. -/
theorem nesting_open {es : List ReprEvent} : ∀ {s s' : ReprState} {a0 : Nat} {st st' : List Nat},
    Chain s.blocks a0 st s.active → st.Nodup → (∀ k b, k ∈ st → s.blocks[k]? = some b → b.isOpen = true) →
    reprRun s es = .ok s' → nesting st s.blocks.length es = some st' →
    ∀ k b, k ∈ st' → s'.blocks[k]? = some b → b.isOpen = true := by
  induction es with
  | nil =>
    intro s s' a0 st st' _ _ ho hr hn
    simp only [reprRun, Except.ok.injEq] at hr
    simp only [nesting, Option.some.injEq] at hn
    subst hr hn
    exact ho
  | cons e t ih =>
    intro s s' a0 st st' hc hnd ho hr hn
    unfold reprRun at hr
    cases hs : reprStep s e with
    | error x => rw [hs] at hr; exact absurd hr (by simp)
    | ok s1 =>
      rw [hs] at hr
      simp only at hr
      cases e with
      | enter arg force =>
        obtain ⟨r, objs, _, rfl⟩ := enterBlock_ok hs
        simp only [nesting] at hn
        refine ih (s := ⟨objs, r, s.blocks ++ [⟨r, s.active, force, true⟩], s.warnings⟩) (a0 := a0)
          (st := s.blocks.length :: st) ?_ ?_ ?_ hr (by simpa using hn)
        · exact .cons (b := ⟨r, s.active, force, true⟩) (by simp) (hc.append _)
        · refine List.nodup_cons.mpr ⟨fun hm => ?_, hnd⟩
          have := hc.lt _ hm
          omega
        · intro k b hk hb
          rcases List.mem_cons.mp hk with rfl | hk
          · simp only [List.getElem?_concat_length, Option.some.injEq] at hb
            rw [← hb]
          · simp only at hb
            rw [List.getElem?_append_left (hc.lt k hk)] at hb
            exact ho k b hk hb
      | exit k =>
        obtain ⟨b, hb, _, rfl⟩ := exitBlock_ok hs
        generalize hpa : s.active = a at hc
        cases hc with
        | nil => simp [nesting] at hn
        | @cons j c rest hj hrest =>
          simp only [nesting] at hn
          by_cases hjk : j = k
          · subst hjk
            rw [if_pos rfl] at hn
            rw [hj] at hb; cases hb
            have hcl : closeBlock s b = { s with active := b.initial } := by
              unfold closeBlock; exact if_pos (.inl hpa)
            rw [hcl] at hr
            refine ih (s := { s with active := b.initial, blocks := s.blocks.set j { b with isOpen := false } })
              (a0 := a0) (st := rest) (hrest.close hj) (List.nodup_cons.mp hnd).2 ?_ hr (by simpa using hn)
            intro i d hi hd
            have hne : j ≠ i := fun e => (List.nodup_cons.mp hnd).1 (e ▸ hi)
            simp only at hd
            rw [List.getElem?_set_ne hne] at hd
            exact ho i d (List.mem_cons_of_mem _ hi) hd
          · rw [if_neg hjk] at hn; exact absurd hn (by simp)

end V8
