import Verif.Spec.Regions
import Verif.Proofs.ObjBuild

/-!
# Runs of elements and of holes: proofs
-/

namespace V8.Regions

open V8 V8.Spec.Regions

variable {α : Type}

/-- The elements of a list that begins at index `k`. -/
def itemsFrom : Nat → List (Option α) → List (Nat × α)
  | _, [] => []
  | k, none :: t => itemsFrom (k + 1) t
  | k, some v :: t => (k, v) :: itemsFrom (k + 1) t

theorem itemsFrom_eq : ∀ (l : List (Option α)) (k : Nat),
    (List.range l.length).filterMap (fun j => ((l[j]?).join).map (fun v => (k + j, v))) = itemsFrom k l
  | [], _ => rfl
  | x :: t, k => by
    have ih := itemsFrom_eq t (k + 1)
    have h : (List.range t.length).filterMap (fun j => (((x :: t)[j + 1]?).join).map (fun v => (k + (j + 1), v))) =
        itemsFrom (k + 1) t := by
      rw [← ih]
      congr 1
      funext j
      rw [List.getElem?_cons_succ, show k + (j + 1) = k + 1 + j by omega]
    rw [List.length_cons, List.range_succ_eq_map]
    cases x with
    | none =>
      rw [List.filterMap_cons_none (by rfl), List.filterMap_map]
      exact h
    | some v =>
      rw [List.filterMap_cons_some (b := (k, v)) (by rfl), List.filterMap_map]
      exact congrArg ((k, v) :: ·) h

theorem itemsOf_from (l : List (Option α)) : itemsOf l = itemsFrom 0 l := by
  rw [← itemsFrom_eq l 0]
  unfold itemsOf
  congr 1
  funext j
  rw [Nat.zero_add]

/-- Runs that begin after `pos` with gaps between them. -/
def Apart : Nat → List (Nat × List α) → Prop
  | _, [] => True
  | pos, (s, vs) :: rest => pos < s ∧ Apart (s + vs.length) rest

theorem runs_apart : ∀ (l : List (Option α)) (k : Nat),
    match adjacentRuns (itemsFrom k l) with
    | [] => True
    | (s, vs) :: rest => k ≤ s ∧ Apart (s + vs.length) rest
  | [], _ => trivial
  | none :: t, k => by
    have ih := runs_apart t (k + 1)
    rw [itemsFrom]
    revert ih
    cases adjacentRuns (itemsFrom (k + 1) t) with
    | nil => exact fun h => h
    | cons r rest => exact fun h => ⟨by have := h.1; omega, h.2⟩
  | some v :: t, k => by
    have ih := runs_apart t (k + 1)
    rw [itemsFrom, adjacentRuns]
    revert ih
    cases adjacentRuns (itemsFrom (k + 1) t) with
    | nil => exact fun _ => ⟨Nat.le_refl _, trivial⟩
    | cons r rest =>
      obtain ⟨s, vs⟩ := r
      intro ih
      have h1 : k + 1 ≤ s := ih.1
      have h2 : Apart (s + vs.length) rest := ih.2
      dsimp only
      by_cases hs : s = k + 1
      · rw [if_pos hs]
        refine ⟨Nat.le_refl _, ?_⟩
        rw [List.length_cons, show k + (vs.length + 1) = s + vs.length by omega]
        exact h2
      · rw [if_neg hs]
        refine ⟨Nat.le_refl _, ?_, h2⟩
        rw [List.length_singleton]
        omega

/-- The keys put the same items together as `adjacentRuns` does. -/
theorem groups_from : ∀ (l : List (Option α)) (k : Nat) (prev : Int) (start : Nat), prev < k → (start : Int) ≤ prev + 1 →
    groupAdjacent (groupKeys prev start (itemsFrom k l)) =
      match adjacentRuns (itemsFrom k l) with
      | [] => []
      | (s, vs) :: rest => (if (s : Int) - 1 ≠ prev then s else start, vs) :: rest
  | [], _, _, _, _, _ => rfl
  | none :: t, k, prev, start, h1, h2 => groups_from t (k + 1) prev start (by omega) h2
  | some v :: t, k, prev, start, h1, h2 => by
    obtain ⟨st, hst⟩ : ∃ st, st = if (k : Int) - 1 ≠ prev then k else start := ⟨_, rfl⟩
    have hle : st ≤ k := by
      rw [hst]
      split <;> omega
    have ha := runs_apart t (k + 1)
    have ih := groups_from t (k + 1) k st (by omega) (by omega)
    rw [itemsFrom, groupKeys, adjacentRuns]
    rw [← hst, groupAdjacent, ih]
    revert ha
    cases adjacentRuns (itemsFrom (k + 1) t) with
    | nil =>
      intro _
      dsimp only
      rw [← hst]
    | cons r rest =>
      obtain ⟨s, vs⟩ := r
      intro ha
      have h3 : k + 1 ≤ s := ha.1
      dsimp only
      by_cases hs : s = k + 1
      · rw [if_pos hs, if_neg (c := (s : Int) - 1 ≠ k) (by omega), if_pos rfl]
        dsimp only
        rw [← hst]
      · rw [if_neg hs, if_pos (c := (s : Int) - 1 ≠ k) (by omega), if_neg (by omega)]
        dsimp only
        rw [← hst]

theorem groups_eq (l : List (Option α)) : groupAdjacent (groupKeys (-1) 0 (itemsFrom 0 l)) = adjacentRuns (itemsFrom 0 l) := by
  rw [groups_from l 0 (-1) 0 (by omega) (by omega)]
  cases adjacentRuns (itemsFrom 0 l) with
  | nil => rfl
  | cons r rest =>
    obtain ⟨s, vs⟩ := r
    dsimp only
    by_cases hs : (s : Int) - 1 ≠ -1
    · rw [if_pos hs]
    · rw [if_neg hs, show s = 0 by omega]

/-- The regions from index `pos` on, with a region of holes only where there are some. -/
def regionsFrom (length : Nat) : Nat → List (Nat × List α) → List (Region α)
  | pos, [] => if pos < length then [.empty pos ((length : Int) - pos)] else []
  | pos, (s, vs) :: rest =>
    (if pos < s then [.empty pos ((s : Int) - pos)] else []) ++ .occupied s vs :: regionsFrom length (s + vs.length) rest

theorem moreRegions_eq (length : Nat) : ∀ (runs : List (Nat × List α)) (pos : Nat), Apart pos runs →
    moreRegions (length : Int) (pos : Int) runs = regionsFrom length pos runs
  | [], pos, _ => by
    rw [moreRegions, regionsFrom]
    by_cases h : pos < length
    · rw [if_pos h, if_pos (by omega)]
    · rw [if_neg h, if_neg (by omega)]
  | (s, vs) :: rest, pos, h => by
    rw [moreRegions, regionsFrom, if_pos h.1, ← moreRegions_eq length rest _ h.2, Int.natCast_add]
    rfl

theorem divide_holes {pos length : Nat} (h : pos < length) {rs : List (Region α)} {l : List (Option α)}
    (hrs : ∀ r ∈ rs.head?, isEmpty r ≠ true) (hd : Divide length rs l) :
    Divide pos (.empty pos ((length : Int) - pos) :: rs) (List.replicate (length - pos) none ++ l) := by
  have hc : ((length : Int) - pos).toNat = length - pos := by omega
  refine ⟨rfl, ?_, hrs, l, ?_, ?_⟩
  · show List.replicate _ none ≠ []
    rw [hc]
    intro hn
    have := congrArg List.length hn
    rw [List.length_replicate, List.length_nil] at this
    omega
  · show _ = List.replicate _ none ++ l
    rw [hc]
  · show Divide (pos + (List.replicate _ none).length) rs l
    rw [hc, List.length_replicate, show pos + (length - pos) = length by omega]
    exact hd

/-- A run of elements at the front takes one more. -/
theorem divide_more {k : Nat} {v : α} {vs : List α} {rs : List (Region α)} {l : List (Option α)}
    (h : Divide (k + 1) (.occupied ((k + 1 : Nat) : Int) vs :: rs) l) : Divide k (.occupied (k : Int) (v :: vs) :: rs) (some v :: l) := by
  obtain ⟨_, _, h3, l', h4, h5⟩ := h
  have h4 : l = vs.map some ++ l' := h4
  refine ⟨rfl, by simp [content], h3, l', ?_, ?_⟩
  · rw [h4]
    rfl
  · have hl : k + (content (Region.occupied (k : Int) (v :: vs))).length = k + 1 + (content (Region.occupied ((k + 1 : Nat) : Int) vs)).length := by
      simp only [content, List.length_map, List.length_cons]
      omega
    rw [hl]
    exact h5

/-- A run of one element. -/
theorem divide_one {k : Nat} {v : α} {rs : List (Region α)} {l : List (Option α)} (hrs : ∀ r ∈ rs.head?, isEmpty r ≠ false)
    (h : Divide (k + 1) rs l) : Divide k (.occupied (k : Int) [v] :: rs) (some v :: l) :=
  ⟨rfl, by simp [content], hrs, l, rfl, h⟩

theorem regionsFrom_nil_head {length pos : Nat} : ∀ r ∈ (regionsFrom (α := α) length pos []).head?, isEmpty r ≠ false := by
  intro r hr
  rw [regionsFrom] at hr
  split at hr
  · rw [List.head?_cons, Option.mem_some_iff] at hr
    rw [← hr]
    simp [isEmpty]
  · cases hr

/-- The regions divide the list. -/
theorem regionsFrom_divide : ∀ (l : List (Option α)) (k : Nat),
    Divide k (regionsFrom (k + l.length) k (adjacentRuns (itemsFrom k l))) l
  | [], k => by
    show Divide k (regionsFrom (k + 0) k []) []
    rw [regionsFrom, if_neg (by omega)]
    rfl
  | none :: t, k => by
    have ih := regionsFrom_divide t (k + 1)
    have ha := runs_apart t (k + 1)
    rw [itemsFrom, show k + (none :: t : List (Option α)).length = k + 1 + t.length by rw [List.length_cons]; omega]
    revert ih ha
    cases adjacentRuns (itemsFrom (k + 1) t) with
    | nil =>
      intro ih _
      rw [regionsFrom] at ih
      rw [regionsFrom, if_pos (by omega)]
      have ht : t = List.replicate t.length none := by
        by_cases h0 : k + 1 < k + 1 + t.length
        · rw [if_pos h0] at ih
          obtain ⟨_, _, _, l', h4, h5⟩ := ih
          have h5 : l' = [] := h5
          subst h5
          have hc : ((((k + 1 + t.length : Nat)) : Int) - ((k + 1 : Nat) : Int)).toNat = t.length := by omega
          have h4 : t = List.replicate ((((k + 1 + t.length : Nat)) : Int) - ((k + 1 : Nat) : Int)).toNat none ++ [] := h4
          rw [hc, List.append_nil] at h4
          exact h4
        · have : t.length = 0 := by omega
          rw [List.length_eq_zero_iff.1 this]
          rfl
      have hd := divide_holes (α := α) (pos := k) (length := k + 1 + t.length) (by omega) (rs := []) (l := [])
        (fun r hr => by cases hr) rfl
      rw [List.append_nil, show k + 1 + t.length - k = t.length + 1 by omega, List.replicate_succ, ← ht] at hd
      exact hd
    | cons r rest =>
      obtain ⟨s, vs⟩ := r
      intro ih ha
      have h1 : k + 1 ≤ s := ha.1
      rw [regionsFrom] at ih
      rw [regionsFrom, if_pos (by omega)]
      have key : ∃ l', t = List.replicate (s - (k + 1)) none ++ l' ∧
          Divide s (.occupied (s : Int) vs :: regionsFrom (k + 1 + t.length) (s + vs.length) rest) l' := by
        by_cases h0 : k + 1 < s
        · rw [if_pos h0] at ih
          obtain ⟨_, _, _, l', h4, h5⟩ := ih
          have hc : ((s : Int) - ((k + 1 : Nat) : Int)).toNat = s - (k + 1) := by omega
          have h4 : t = List.replicate ((s : Int) - ((k + 1 : Nat) : Int)).toNat none ++ l' := h4
          have h5 : Divide (k + 1 + (List.replicate ((s : Int) - ((k + 1 : Nat) : Int)).toNat (none : Option α)).length)
            (.occupied (s : Int) vs :: regionsFrom (k + 1 + t.length) (s + vs.length) rest) l' := h5
          rw [hc] at h4
          rw [hc, List.length_replicate, show k + 1 + (s - (k + 1)) = s by omega] at h5
          exact ⟨l', h4, h5⟩
        · rw [if_neg h0] at ih
          have hs : s = k + 1 := by omega
          subst hs
          refine ⟨t, ?_, ih⟩
          rw [Nat.sub_self]
          rfl
      obtain ⟨l', ht, hd⟩ := key
      have h2 := divide_holes (pos := k) (length := s) (by omega)
        (fun r hr => by
          rw [List.head?_cons, Option.mem_some_iff] at hr
          rw [← hr]
          simp [isEmpty]) hd
      rw [show s - k = s - (k + 1) + 1 by omega, List.replicate_succ, List.cons_append, ← ht] at h2
      exact h2
  | some v :: t, k => by
    have ih := regionsFrom_divide t (k + 1)
    have ha := runs_apart t (k + 1)
    rw [itemsFrom, adjacentRuns, show k + (some v :: t : List (Option α)).length = k + 1 + t.length by rw [List.length_cons]; omega]
    revert ih ha
    cases adjacentRuns (itemsFrom (k + 1) t) with
    | nil =>
      intro ih _
      dsimp only
      rw [regionsFrom, if_neg (by omega), List.nil_append, List.length_singleton]
      exact divide_one regionsFrom_nil_head ih
    | cons r rest =>
      obtain ⟨s, vs⟩ := r
      intro ih ha
      have h1 : k + 1 ≤ s := ha.1
      dsimp only
      by_cases hs : s = k + 1
      · subst hs
        rw [if_pos rfl, regionsFrom, if_neg (by omega), List.nil_append, List.length_cons,
          show k + (vs.length + 1) = k + 1 + vs.length by omega]
        rw [regionsFrom, if_neg (by omega), List.nil_append] at ih
        exact divide_more ih
      · rw [if_neg hs, regionsFrom, if_neg (by omega), List.nil_append, List.length_singleton]
        refine divide_one ?_ ih
        intro r hr
        rw [regionsFrom, if_pos (by omega), List.singleton_append, List.head?_cons, Option.mem_some_iff] at hr
        rw [← hr]
        simp [isEmpty]

theorem alternating_eq {a : Arr α} (h : a.Inv) :
    alternatingRegions a = regionsFrom a.abs.length 0 (adjacentRuns (itemsFrom 0 a.abs)) := by
  have hr := runs_apart a.abs 0
  unfold alternatingRegions
  rw [elementItems_eq h, itemsOf_from, groups_eq, Arr.len_eq h]
  revert hr
  cases adjacentRuns (itemsFrom 0 a.abs) with
  | nil =>
    intro _
    dsimp only
    rw [regionsFrom]
    by_cases h0 : a.abs.length = 0
    · rw [if_pos (by omega), if_neg (by omega)]
    · rw [if_neg (by omega), if_pos (by omega)]
      simp
  | cons r rest =>
    obtain ⟨s, vs⟩ := r
    intro hr
    dsimp only
    rw [regionsFrom, ← moreRegions_eq _ rest _ hr.2, Int.natCast_add]
    by_cases h0 : 0 < s
    · rw [if_pos h0, if_pos h0]
      simp
    · rw [if_neg h0, if_neg h0]

theorem content_kind (r : Region α) : ∀ x ∈ content r, x.isSome = !isEmpty r := by
  intro x hx
  cases r with
  | empty s n =>
    rw [(List.mem_replicate.1 hx).2]
    rfl
  | occupied s vs =>
    obtain ⟨v, _, rfl⟩ := List.mem_map.1 hx
    rfl

theorem divide_head {k : Nat} {rs : List (Region α)} {l : List (Option α)} (h : Divide k rs l) :
    (rs = [] ∧ l = []) ∨ ∃ r x t, rs.head? = some r ∧ l = x :: t ∧ x.isSome = !isEmpty r := by
  cases rs with
  | nil => exact .inl ⟨rfl, h⟩
  | cons r rest =>
    obtain ⟨_, h2, _, l', h4, _⟩ := h
    cases hc : content r with
    | nil => exact absurd hc h2
    | cons x t =>
      refine .inr ⟨r, x, t ++ l', rfl, by rw [h4, hc]; rfl, content_kind r x (by rw [hc]; simp)⟩

/-- Two lists that begin with runs of one kind, which end where the kind changes: the runs are the same. -/
theorem runs_same {β : Type} (p : β → Prop) : ∀ (a b c d : List β), a ++ c = b ++ d → (∀ x ∈ a, p x) → (∀ x ∈ b, p x) →
    (∀ x ∈ c.head?, ¬ p x) → (∀ x ∈ d.head?, ¬ p x) → a = b ∧ c = d
  | [], [], _, _, h, _, _, _, _ => ⟨rfl, h⟩
  | [], y :: b, c, d, h, _, hb, hc, _ => by
    rw [List.nil_append, List.cons_append] at h
    exact absurd (hb y (by simp)) (hc y (by rw [h]; rfl))
  | x :: a, [], c, d, h, ha, _, _, hd => by
    rw [List.nil_append, List.cons_append] at h
    exact absurd (ha x (by simp)) (hd x (by rw [← h]; rfl))
  | x :: a, y :: b, c, d, h, ha, hb, hc, hd => by
    rw [List.cons_append, List.cons_append, List.cons.injEq] at h
    obtain ⟨h1, h2⟩ := runs_same p a b c d h.2 (fun z hz => ha z (by simp [hz])) (fun z hz => hb z (by simp [hz])) hc hd
    exact ⟨by rw [h.1, h1], h2⟩

theorem region_of_content {r r' : Region α} (hk : isEmpty r = isEmpty r') (hs : startOf r = startOf r') (h0 : content r ≠ [])
    (hc : content r = content r') : r = r' := by
  cases r with
  | empty s n =>
    cases r' with
    | occupied s' vs => cases hk
    | empty s' n' =>
      have hs : s = s' := hs
      have hl := congrArg List.length hc
      simp only [content, List.length_replicate] at hl
      have hn : n.toNat ≠ 0 := by
        intro hz
        apply h0
        simp only [content]
        rw [hz]
        rfl
      rw [hs, show n = n' by omega]
  | occupied s vs =>
    cases r' with
    | empty s' n => cases hk
    | occupied s' vs' =>
      have hs : s = s' := hs
      have hc : vs.map some = vs'.map some := hc
      rw [hs, List.map_injective_iff.2 (Option.some_injective α) hc]

/-- The parts that regions stand for, one after the other. -/
theorem iter_divide : ∀ {k : Nat} {rs : List (Region α)} {l : List (Option α)}, Divide k rs l → iterRegions rs = l
  | _, [], _, h => Eq.symm h
  | _, .empty _ _ :: _, _, ⟨_, _, _, _, h4, h5⟩ => by
    rw [iterRegions, iter_divide h5, h4]
    rfl
  | _, .occupied _ _ :: _, _, ⟨_, _, _, _, h4, h5⟩ => by
    rw [iterRegions, iter_divide h5, h4]
    rfl

/-- There is one way to divide a list. -/
theorem divide_unique : ∀ {k : Nat} {rs rs' : List (Region α)} {l : List (Option α)}, Divide k rs l → Divide k rs' l → rs = rs'
  | _, [], [], _, _, _ => rfl
  | _, [], r :: rs', l, h, h' => by
    have h : l = [] := h
    obtain ⟨_, h2, _, l', h4, _⟩ := h'
    rw [h] at h4
    exact absurd (List.append_eq_nil_iff.1 h4.symm).1 h2
  | _, r :: rs, [], l, h, h' => by
    have h' : l = [] := h'
    obtain ⟨_, h2, _, l', h4, _⟩ := h
    rw [h'] at h4
    exact absurd (List.append_eq_nil_iff.1 h4.symm).1 h2
  | k, r :: rs, r' :: rs', l, h, h' => by
    obtain ⟨h1, h2, h3, t, h4, h5⟩ := h
    obtain ⟨g1, g2, g3, t', g4, g5⟩ := h'
    have hkind : isEmpty r = isEmpty r' := by
      cases hc : content r with
      | nil => exact absurd hc h2
      | cons x u =>
        cases hc' : content r' with
        | nil => exact absurd hc' g2
        | cons y u' =>
          have e1 := content_kind r x (by rw [hc]; simp)
          have e2 := content_kind r' y (by rw [hc']; simp)
          rw [h4, hc, hc', List.cons_append, List.cons_append, List.cons.injEq] at g4
          rw [g4.1, e2] at e1
          revert e1
          cases isEmpty r <;> cases isEmpty r' <;> simp
    have stop : ∀ {k' : Nat} {q : Region α} {qs : List (Region α)} {u : List (Option α)}, (∀ r' ∈ qs.head?, isEmpty r' ≠ isEmpty q) →
        Divide k' qs u → isEmpty q = isEmpty r → ∀ x ∈ u.head?, ¬ x.isSome = !isEmpty r := by
      intro k' q qs u hq hd hqr x hx
      rcases divide_head hd with ⟨_, hu⟩ | ⟨q', y, w, e1, e2, e3⟩
      · rw [hu] at hx
        cases hx
      · rw [e2, List.head?_cons, Option.mem_some_iff] at hx
        rw [← hx, e3]
        have := hq q' e1
        rw [hqr] at this
        revert this
        cases isEmpty q' <;> cases isEmpty r <;> simp
    have hsame := runs_same (fun x => x.isSome = !isEmpty r) (content r) (content r') t t' (h4.symm.trans g4)
      (content_kind r) (by rw [hkind]; exact content_kind r') (stop h3 h5 rfl) (stop g3 g5 hkind.symm)
    have hr := region_of_content hkind (h1.trans g1.symm) h2 hsame.1
    subst hr
    rw [← hsame.2] at g5
    rw [divide_unique h5 g5]

end V8.Regions
