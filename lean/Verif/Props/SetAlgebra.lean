import Verif.Proofs.SetAlgebra

/-!
# C56, C57: the set algebra of JSSet, the inherited methods of JSMap

Members are compared with SameValueZero (`Spec/JSCollections.lean`): `hasMember v l` says that the list `l`
has a value that is the same as `v`.
-/

namespace V8.Props
open V8 V8.Spec

/-! ## C56 -/

/-- A JSSet as the API makes them: by some history of operations on a new one. -/
def Built (s : JSSet) : Prop := ∃ ops, s = (runHist jsSetStep [] ops).1

theorem Built.inv {s : JSSet} (h : Built s) : s.Inv := by
  obtain ⟨ops, rfl⟩ := h
  exact (jsSet_hist ops [] JSSet.inv_empty).1

theorem built_of_inv {s : JSSet} (h : s.Inv) : Built s := by
  refine ⟨s.members.map SetOp.add, ?_⟩
  have key : ∀ (l : JSSet) (acc : JSSet), JSSet.Inv (acc ++ l) →
      (runHist jsSetStep acc (l.map (fun e => SetOp.add e.2))).1 = acc ++ l := by
    intro l
    induction l with
    | nil => intro acc _; simp [runHist]
    | cons e t ih =>
      intro acc hi
      have hk : sameValueZero e.2 = .ok e.1 := hi.2 e (by simp)
      have hn : Dict.get acc e.1 = none := by
        cases hg : Dict.get acc e.1 with
        | none => rfl
        | some a =>
          exfalso
          have hm : e.1 ∈ acc.map (·.1) := by
            clear ih hi
            induction acc with
            | nil => simp [Dict.get] at hg
            | cons p q ihq =>
              unfold Dict.get at hg
              by_cases hp : p.1 = e.1
              · simp [hp]
              · rw [if_neg hp] at hg
                simpa using Or.inr (by simpa using ihq hg)
          have hnd := hi.1
          unfold Dict.keys at hnd
          rw [List.map_append, List.map_cons] at hnd
          exact (List.nodup_append.1 hnd).2.2 _ hm _ List.mem_cons_self rfl
      have hset : ∀ (d : JSSet), Dict.get d e.1 = none → Dict.set d e.1 e.2 = d ++ [e] := by
        intro d
        induction d with
        | nil => intro _; rfl
        | cons p q ihq =>
          intro hg
          unfold Dict.get at hg
          unfold Dict.set
          by_cases hp : p.1 = e.1
          · rw [if_pos hp] at hg; cases hg
          · rw [if_neg hp] at hg ⊢
            rw [ihq hg]
            rfl
      simp only [List.map_cons, runHist]
      have hs : (jsSetStep acc (.add e.2)).1 = acc ++ [e] := by
        simp only [jsSetStep, jsSetStep.ret, JSSet.add, hk]
        exact hset acc hn
      rw [hs, ih _ (by simpa using hi)]
      simp
  have := key s [] (by simpa using h)
  simp only [List.nil_append] at this
  unfold JSSet.members
  rw [List.map_map]
  exact this.symm

/-- The operands for which the claims are made: a JSSet; a Python set whose own idea of membership agrees
with SameValueZero; any iterable.  None with an integer that a JSSet cannot hold. -/
def Fits : Operand → Prop
  | .jsset t => Built t
  | .pyset els has => (∀ v ∈ els, ¬ TooBig v) ∧ els.Pairwise (fun a b => ¬ SameValueZero a b) ∧
      ∀ v, ¬ TooBig v → has v = .ok (hasMember v els)
  | .iter els => ∀ v ∈ els, ¬ TooBig v

theorem Fits.els {o : Operand} (h : Fits o) : ∀ v ∈ o.els, ¬ TooBig v := by
  cases o with
  | jsset t => exact fun v hv => JSSet.mem_fits (Built.inv h) hv
  | pyset els has => exact h.1
  | iter els => exact h

theorem Fits.asSet {o : Operand} (h : Fits o) : ∃ els has, JSSet.asSet o = .ok (els, has) ∧ els = collected o.els ∧
    ∀ v, ¬ TooBig v → has v = .ok (hasMember v o.els) := by
  cases o with
  | jsset t =>
    have hi := Built.inv h
    exact ⟨_, _, rfl, (collected_once hi.once).symm, fun v hv => JSSet.contains_eq hi hv⟩
  | pyset els has => exact ⟨_, _, rfl, (collected_once h.2.1).symm, h.2.2⟩
  | iter els =>
    obtain ⟨s, h1, h2, h3⟩ := JSSet.fromIterable_ok (l := els) h
    refine ⟨s.members, s.contains, ?_, h3, fun v hv => ?_⟩
    · simp only [JSSet.asSet, h1]
    · rw [JSSet.contains_eq h2 hv, h3, hasMember_collected]
      rfl

/-- The operands for which the claims of the operators are made that do not ask the other side for membership: any at
all, if it has no integer that a JSSet cannot hold. -/
def Holdable (o : Operand) : Prop := ∀ v ∈ o.els, ¬ TooBig v

/-- C56, `|`: exactly the values of either side.  The members of the left side come first, in their order;
then the new ones of the right side in the order of their first occurrence. -/
theorem C56_union (s : JSSet) (hs : Built s) (o : Operand) (ho : Holdable o) :
    ∃ r, s.union o = .ok r ∧ Built r ∧
      (∀ v, hasMember v r.members = (hasMember v s.members || hasMember v o.els)) ∧
      List.Forall₂ SameValueZero s.members (r.members.take s.len) ∧
      r.members.drop s.len = collected (o.els.filter (fun v => !hasMember v s.members)) := by
  have hi := Built.inv hs
  obtain ⟨r, h1, h2, h3⟩ := JSSet.fromIterable_ok (l := s.members ++ o.els) (fun v hv => by
    rcases List.mem_append.1 hv with hv | hv
    · exact JSSet.mem_fits hi hv
    · exact ho v hv)
  refine ⟨r, h1, built_of_inv h2, fun v => by rw [h3, hasMember_collected, hasMember_append], ?_⟩
  have hf : collected (s.members ++ o.els) = o.els.foldl (fun acc v => setStore v acc) (s.members ++ []) := by
    unfold collected
    rw [List.foldl_append]
    have := collected_once hi.once
    unfold collected at this
    rw [this, List.append_nil]
  obtain ⟨p', hp, he⟩ := foldl_store_append o.els s.members s.members []
    (List.forall₂_same.2 fun x _ => svz_refl x)
  have hl : s.len = p'.length := by
    rw [← hp.length_eq]
    simp [JSSet.len, JSSet.members]
  rw [h3, hf, he, hl]
  exact ⟨by rw [List.take_left]; exact hp, by rw [List.drop_left]; rfl⟩

/-- C56, `&`: exactly the values of both sides, taken from the right side and in its order. -/
theorem C56_intersection (s : JSSet) (hs : Built s) (o : Operand) (ho : Holdable o) :
    ∃ r, s.inter o = .ok r ∧ Built r ∧
      (∀ v, hasMember v r.members = (hasMember v s.members && hasMember v o.els)) ∧
      r.members = collected (o.els.filter (fun v => hasMember v s.members)) := by
  have hi := Built.inv hs
  have hf : JSSet.filterE s.contains o.els = .ok (o.els.filter (fun v => hasMember v s.members)) :=
    JSSet.filterE_ok fun v hv => JSSet.contains_eq hi (ho v hv)
  obtain ⟨r, h1, h2, h3⟩ := JSSet.fromIterable_ok (l := o.els.filter (fun v => hasMember v s.members))
    (fun v hv => ho v (List.mem_filter.1 hv).1)
  refine ⟨r, ?_, built_of_inv h2, fun v => ?_, h3⟩
  · unfold JSSet.inter
    rw [hf]
    exact h1
  · rw [h3, hasMember_collected, Bool.eq_iff_iff, hasMember_iff, Bool.and_eq_true, hasMember_iff (l := o.els)]
    constructor
    · rintro ⟨w, hw, hwv⟩
      obtain ⟨hw1, hw2⟩ := List.mem_filter.1 hw
      exact ⟨by rw [← hasMember_congr hwv]; exact hw2, w, hw1, hwv⟩
    · rintro ⟨h, w, hw, hwv⟩
      exact ⟨w, List.mem_filter.2 ⟨hw, by rw [hasMember_congr hwv]; exact h⟩, hwv⟩

theorem hasMember_filter_not (v : Val) (l k : List Val) :
    hasMember v (l.filter (fun w => !hasMember w k)) = (hasMember v l && !hasMember v k) := by
  rw [Bool.eq_iff_iff, hasMember_iff, Bool.and_eq_true, hasMember_iff (l := l)]
  constructor
  · rintro ⟨w, hw, hwv⟩
    obtain ⟨hw1, hw2⟩ := List.mem_filter.1 hw
    exact ⟨⟨w, hw1, hwv⟩, by rw [← hasMember_congr hwv]; exact hw2⟩
  · rintro ⟨⟨w, hw, hwv⟩, h⟩
    exact ⟨w, List.mem_filter.2 ⟨hw, by rw [hasMember_congr hwv]; exact h⟩, hwv⟩

theorem diff_ok {s : JSSet} (hi : s.Inv) {o : Operand} (ho : Fits o) :
    ∃ r, s.diff o = .ok r ∧ r.Inv ∧ r.members = s.members.filter (fun v => !hasMember v o.els) := by
  obtain ⟨els, has, ha, _, hh⟩ := Fits.asSet ho
  have hf : JSSet.filterE (JSSet.notIn has) s.members = .ok (s.members.filter (fun v => !hasMember v o.els)) :=
    JSSet.filterE_ok fun v hv => by
      unfold JSSet.notIn
      rw [hh v (JSSet.mem_fits hi hv)]
      rfl
  obtain ⟨r, h1, h2, h3⟩ := JSSet.fromIterable_ok (l := s.members.filter (fun v => !hasMember v o.els))
    (fun v hv => JSSet.mem_fits hi (List.mem_filter.1 hv).1)
  refine ⟨r, ?_, h2, ?_⟩
  · unfold JSSet.diff
    rw [ha]
    simp only
    rw [hf]
    exact h1
  · rw [h3, collected_once (hi.once.filter _)]

/-- C56, `-`: exactly the values of the left side that the right side does not have, in their order.

A Python set on the right side says itself what it has, and not by SameValueZero: the claim fails for some of them, see
`C56_python_membership` (`Props/Views.lean`). -/
theorem C56_difference_partial (s : JSSet) (hs : Built s) (o : Operand) (ho : Fits o) :
    ∃ r, s.diff o = .ok r ∧ Built r ∧
      (∀ v, hasMember v r.members = (hasMember v s.members && !hasMember v o.els)) ∧
      r.members = s.members.filter (fun v => !hasMember v o.els) := by
  obtain ⟨r, h1, h2, h3⟩ := diff_ok (Built.inv hs) ho
  exact ⟨r, h1, built_of_inv h2, fun v => by rw [h3, hasMember_filter_not], h3⟩

theorem setStore_filter {p : Val → Bool} (hp : ∀ a b, SameValueZero a b → p a = p b) (v : Val) (l : List Val) :
    (setStore v l).filter p = if p v then setStore v (l.filter p) else l.filter p := by
  induction l with
  | nil => cases h : p v <;> simp [setStore, h]
  | cons w t ih =>
    rw [show setStore v (w :: t) = if SameValueZero w v then v :: t else w :: setStore v t from rfl]
    by_cases hs : SameValueZero w v
    · have := hp w v hs
      rw [if_pos hs]
      cases h : p v
      · simp [List.filter_cons, this, h]
      · simp [List.filter_cons, this, h, setStore, hs]
    · rw [if_neg hs]
      cases hw : p w
      · simp only [List.filter_cons, hw, Bool.false_eq_true, if_false]
        exact ih
      · simp only [List.filter_cons, hw, if_true]
        rw [ih]
        cases h : p v
        · rfl
        · simp [setStore, hs]

theorem collected_filter {p : Val → Bool} (hp : ∀ a b, SameValueZero a b → p a = p b) (l : List Val) :
    (collected l).filter p = collected (l.filter p) := by
  have key : ∀ l acc : List Val, (l.foldl (fun acc v => setStore v acc) acc).filter p =
      (l.filter p).foldl (fun acc v => setStore v acc) (acc.filter p) := by
    intro l
    induction l with
    | nil => intro acc; rfl
    | cons v t ih =>
      intro acc
      rw [List.foldl_cons, ih, setStore_filter hp]
      cases h : p v <;> simp [List.filter_cons, h]
  exact key l []

/-- C56, `other - self`. -/
theorem C56_reflected_difference (s : JSSet) (hs : Built s) (o : Operand) (ho : Holdable o) :
    ∃ r, s.rdiff o = .ok r ∧ Built r ∧
      (∀ v, hasMember v r.members = (hasMember v o.els && !hasMember v s.members)) ∧
      r.members = (collected o.els).filter (fun v => !hasMember v s.members) := by
  have hi := Built.inv hs
  have hp : ∀ a b, SameValueZero a b → (!hasMember a s.members) = !hasMember b s.members :=
    fun a b h => by rw [hasMember_congr h]
  obtain ⟨els, has, ha, hc, hb⟩ : ∃ els has, JSSet.asSet o = .ok (els, has) ∧ collected els = collected o.els ∧
      ∀ v ∈ els, ¬ TooBig v := by
    cases o with
    | jsset t => exact ⟨_, _, rfl, rfl, ho⟩
    | pyset els has => exact ⟨_, _, rfl, rfl, ho⟩
    | iter els =>
      obtain ⟨t, h1, h2, h3⟩ := JSSet.fromIterable_ok (l := els) ho
      refine ⟨t.members, t.contains, by simp only [JSSet.asSet, h1], ?_, fun v hv => JSSet.mem_fits h2 hv⟩
      rw [h3]
      exact collected_once (once_collected _)
  have hf : JSSet.filterE (JSSet.notIn s.contains) els = .ok (els.filter (fun v => !hasMember v s.members)) :=
    JSSet.filterE_ok fun v hv => by
      unfold JSSet.notIn
      rw [JSSet.contains_eq hi (hb v hv)]
      rfl
  obtain ⟨r, h1, h2, h3⟩ := JSSet.fromIterable_ok (l := els.filter (fun v => !hasMember v s.members))
    (fun v hv => hb v (List.mem_filter.1 hv).1)
  have hm : r.members = (collected o.els).filter (fun v => !hasMember v s.members) := by
    rw [h3, ← collected_filter hp, hc]
  refine ⟨r, ?_, built_of_inv h2, fun v => ?_, hm⟩
  · unfold JSSet.rdiff
    rw [ha]
    simp only
    rw [hf]
    exact h1
  · rw [hm, hasMember_filter_not, hasMember_collected]

/-- C56, `^`: exactly the values of one side only, those of the left side first.  For Python sets see `-`. -/
theorem C56_symmetric_difference_partial (s : JSSet) (hs : Built s) (o : Operand) (ho : Fits o) :
    ∃ r, s.symDiff o = .ok r ∧ Built r ∧
      (∀ v, hasMember v r.members = (hasMember v s.members ^^ hasMember v o.els)) ∧
      r.members = s.members.filter (fun v => !hasMember v o.els) ++
        (collected o.els).filter (fun v => !hasMember v s.members) := by
  have hi := Built.inv hs
  obtain ⟨els, has, ha, hc, hh⟩ := Fits.asSet ho
  have ho' : Fits (.pyset els has) := by
    refine ⟨fun v hv => Fits.els ho v (mem_collected (hc ▸ hv)), hc ▸ once_collected _, fun v hv => ?_⟩
    rw [hh v hv, hc, hasMember_collected]
  have he : ∀ v, hasMember v els = hasMember v o.els := fun v => by rw [hc, hasMember_collected]
  obtain ⟨a, a1, a2, a3⟩ := diff_ok hi ho'
  obtain ⟨b, b1, b2, _, b3⟩ := C56_reflected_difference s hs _ (Fits.els ho')
  obtain ⟨r, r1, r2, r3, r4, r5⟩ := C56_union a (built_of_inv a2) (.jsset b)
    (fun v hv => JSSet.mem_fits (Built.inv b2) hv)
  replace a3 : a.members = s.members.filter (fun v => !hasMember v o.els) := by
    rw [a3]
    exact List.filter_congr fun v _ => by rw [show (Operand.pyset els has).els = els from rfl, he]
  rw [show (Operand.pyset els has).els = els from rfl, hc, collected_once (once_collected _)] at b3
  have hbn : b.members.filter (fun v => !hasMember v a.members) = b.members := by
    rw [List.filter_eq_self]
    intro v hv
    rw [b3] at hv
    obtain ⟨_, hv⟩ := List.mem_filter.1 hv
    rw [a3, hasMember_filter_not]
    simp only [Bool.not_eq_true'] at hv
    simp [hv]
  have hm : r.members = a.members ++ b.members := by
    have hfit : ∀ v ∈ a.members ++ b.members, ¬ TooBig v := fun v hv => by
      rcases List.mem_append.1 hv with hv | hv
      · exact JSSet.mem_fits a2 hv
      · exact JSSet.mem_fits (Built.inv b2) hv
    obtain ⟨r', q1, _, q3⟩ := JSSet.fromIterable_ok hfit
    have : r = r' := by
      unfold JSSet.union at r1
      rw [show (Operand.jsset b).els = b.members from rfl] at r1
      rw [r1] at q1
      exact Except.ok.inj q1
    rw [this, q3]
    refine collected_once (List.pairwise_append.2 ⟨a2.once, (Built.inv b2).once, fun x hx y hy hxy => ?_⟩)
    have : hasMember y a.members = true := hasMember_iff.2 ⟨x, hx, hxy⟩
    have hy' := hy
    rw [← hbn] at hy'
    have := (List.mem_filter.1 hy').2
    simp_all
  refine ⟨r, ?_, r2, fun v => ?_, by rw [hm, a3, b3]⟩
  · unfold JSSet.symDiff
    rw [ha]
    simp only
    rw [a1, b1]
    exact r1
  · rw [hm, hasMember_append, a3, b3, hasMember_filter_not, hasMember_filter_not, hasMember_collected]
    cases hasMember v s.members <;> cases hasMember v o.els <;> rfl

/-- C56: `isdisjoint` says whether no value is on both sides. -/
theorem C56_isdisjoint (s : JSSet) (hs : Built s) (o : Operand) (ho : Holdable o) :
    ∃ b, s.isdisjoint o = .ok b ∧ (b = true ↔ ∀ v, ¬ (hasMember v s.members = true ∧ hasMember v o.els = true)) := by
  have hi := Built.inv hs
  have key : ∀ l : List Val, (∀ v ∈ l, ¬ TooBig v) →
      JSSet.noneIn s l = .ok (l.all (fun v => !hasMember v s.members)) := by
    intro l
    induction l with
    | nil => intro _; rfl
    | cons v t ih =>
      intro hl
      unfold JSSet.noneIn
      rw [JSSet.contains_eq hi (hl v List.mem_cons_self)]
      cases hm : hasMember v s.members
      · simp only [List.all_cons, hm, Bool.not_false, Bool.true_and]
        exact ih (fun w hw => hl w (List.mem_cons_of_mem _ hw))
      · simp [hm]
  refine ⟨_, key o.els (ho), ?_⟩
  rw [List.all_eq_true]
  constructor
  · rintro h v ⟨hv, ho'⟩
    obtain ⟨w, hw, hwv⟩ := hasMember_iff.1 ho'
    have := h w hw
    rw [hasMember_congr hwv, hv] at this
    cases this
  · intro h v hv
    have := h v
    cases hm : hasMember v s.members
    · rfl
    · exact absurd ⟨hm, hasMember_of_mem hv⟩ this

theorem allE_ok {s : JSSet} (hi : s.Inv) {l : List Val} (hl : ∀ v ∈ l, ¬ TooBig v) :
    JSSet.allE s.contains l = .ok (l.all (fun v => hasMember v s.members)) := by
  induction l with
  | nil => rfl
  | cons v t ih =>
    unfold JSSet.allE
    rw [JSSet.contains_eq hi (hl v List.mem_cons_self)]
    cases hm : hasMember v s.members
    · simp [hm]
    · simp only [List.all_cons, hm, Bool.true_and]
      exact ih (fun w hw => hl w (List.mem_cons_of_mem _ hw))

theorem within_iff {l k : List Val} : (l.all (fun v => hasMember v k)) = true ↔ Within l k := by
  rw [List.all_eq_true]
  constructor
  · intro h v hv
    obtain ⟨w, hw, hwv⟩ := hasMember_iff.1 hv
    rw [← hasMember_congr hwv]
    exact h w hw
  · exact fun h v hv => h v (hasMember_of_mem hv)

theorem le_ok {s t : JSSet} (hs : s.Inv) (ht : t.Inv) : ∃ b, s.le t = .ok b ∧ (b = true ↔ Within s.members t.members) := by
  unfold JSSet.le
  have hls : s.len = s.members.length := by simp [JSSet.len, JSSet.members]
  have hlt : t.len = t.members.length := by simp [JSSet.len, JSSet.members]
  by_cases hl : s.len > t.len
  · refine ⟨false, by rw [if_pos hl], ?_⟩
    constructor
    · intro h; cases h
    · intro h
      have := Once.length_le hs.once (fun v hv => h v (hasMember_of_mem hv))
      omega
  · rw [if_neg hl, allE_ok ht (fun v hv => JSSet.mem_fits hs hv)]
    exact ⟨_, rfl, within_iff⟩

theorem ge_ok {s t : JSSet} (hs : s.Inv) (ht : t.Inv) : ∃ b, s.ge t = .ok b ∧ (b = true ↔ Within t.members s.members) := by
  unfold JSSet.ge
  have hls : s.len = s.members.length := by simp [JSSet.len, JSSet.members]
  have hlt : t.len = t.members.length := by simp [JSSet.len, JSSet.members]
  by_cases hl : s.len < t.len
  · refine ⟨false, by rw [if_pos hl], ?_⟩
    constructor
    · intro h; cases h
    · intro h
      have := Once.length_le ht.once (fun v hv => h v (hasMember_of_mem hv))
      omega
  · rw [if_neg hl, allE_ok hs (fun v hv => JSSet.mem_fits ht hv)]
    exact ⟨_, rfl, within_iff⟩

/-- C56: `<=`, `>=`, `<` and `>` between JSSets are inclusion and proper inclusion.  For Python sets see
`C80_jsset_set_partial` and `C80_equal_not_superset` (`Props/Views.lean`). -/
theorem C56_comparisons_partial (s t : JSSet) (hs : Built s) (ht : Built t) :
    (∃ b, s.le t = .ok b ∧ (b = true ↔ Within s.members t.members)) ∧
    (∃ b, s.ge t = .ok b ∧ (b = true ↔ Within t.members s.members)) ∧
    (∃ b, s.lt t = .ok b ∧ (b = true ↔ Within s.members t.members ∧ ¬ Within t.members s.members)) ∧
    (∃ b, s.gt t = .ok b ∧ (b = true ↔ Within t.members s.members ∧ ¬ Within s.members t.members)) := by
  have is := Built.inv hs
  have it := Built.inv ht
  have hls : s.len = s.members.length := by simp [JSSet.len, JSSet.members]
  have hlt : t.len = t.members.length := by simp [JSSet.len, JSSet.members]
  have len : ∀ {a b : JSSet}, a.Inv → Within a.members b.members → a.members.length ≤ b.members.length :=
    fun ha h => Once.length_le ha.once (fun v hv => h v (hasMember_of_mem hv))
  -- inclusion between sets of the same size goes both ways
  have back : ∀ {a b : JSSet}, a.Inv → b.Inv → Within a.members b.members →
      b.members.length ≤ a.members.length → Within b.members a.members := by
    intro a b ha hb h hlen v hv
    by_contra hn
    rw [Bool.not_eq_true] at hn
    obtain ⟨w, hw, hwv⟩ := hasMember_iff.1 hv
    have ho : Once (w :: a.members) := List.pairwise_cons.2 ⟨fun x hx hs => by
      have : hasMember v a.members = true := hasMember_iff.2 ⟨x, hx, svz_trans (svz_symm hs) hwv⟩
      exact Bool.false_ne_true (hn.symm.trans this), ha.once⟩
    have := Once.length_le ho (l' := b.members) (fun x hx => by
      rcases List.mem_cons.1 hx with rfl | hx
      · exact hasMember_of_mem hw
      · exact h x (hasMember_of_mem hx))
    simp only [List.length_cons] at this
    omega
  refine ⟨le_ok is it, ge_ok is it, ?_, ?_⟩
  · unfold JSSet.lt
    by_cases hl : s.len < t.len
    · rw [if_pos hl]
      obtain ⟨b, h1, h2⟩ := le_ok is it
      refine ⟨b, h1, h2.trans ⟨fun h => ⟨h, fun h' => ?_⟩, And.left⟩⟩
      have := len it h'
      omega
    · rw [if_neg hl]
      refine ⟨false, rfl, ?_⟩
      constructor
      · intro h; cases h
      · exact fun ⟨h, hn⟩ => absurd (back is it h (by omega)) hn
  · unfold JSSet.gt
    by_cases hl : s.len > t.len
    · rw [if_pos hl]
      obtain ⟨b, h1, h2⟩ := ge_ok is it
      refine ⟨b, h1, h2.trans ⟨fun h => ⟨h, fun h' => ?_⟩, And.left⟩⟩
      have := len is h'
      omega
    · rw [if_neg hl]
      refine ⟨false, rfl, ?_⟩
      constructor
      · intro h; cases h
      · exact fun ⟨h, hn⟩ => absurd (back it is h (by omega)) hn

theorem discardAll_ok (l : List Val) : ∀ {s : JSSet}, s.Inv → (∀ v ∈ l, ¬ TooBig v) →
    ∃ s', s.discardAll l = (s', none) ∧ s'.Inv ∧ s'.members = s.members.filter (fun v => !hasMember v l) := by
  induction l with
  | nil =>
    intro s h _
    refine ⟨s, rfl, h, ?_⟩
    rw [List.filter_eq_self.2 (fun v _ => by simp [hasMember])]
  | cons w t ih =>
    intro s h hl
    obtain ⟨s', h1, h2, h3⟩ := JSSet.discard_ok h (hl w List.mem_cons_self)
    obtain ⟨s'', k1, k2, k3⟩ := ih h2 (fun v hv => hl v (List.mem_cons_of_mem _ hv))
    refine ⟨s'', ?_, k2, ?_⟩
    · unfold JSSet.discardAll
      rw [h1]
      exact k1
    · rw [k3, h3, List.filter_filter]
      refine List.filter_congr fun v _ => ?_
      have : decide (SameValueZero v w) = decide (SameValueZero w v) :=
        decide_eq_decide.2 ⟨svz_symm, svz_symm⟩
      simp only [hasMember, List.any_cons, decide_not, this, Bool.not_or, Bool.and_comm]

/-- C56, `&=`: what is kept stays where it was (unlike `&`, which takes the values of the other side).
`none` is the set itself, here and below.  For Python sets see `-`. -/
theorem C56_intersection_update_partial (s : JSSet) (hs : Built s) (o : Operand) (ho : Fits o) :
    ∃ r, s.iand o = (r, none) ∧ Built r ∧ r.members = s.members.filter (fun v => hasMember v o.els) := by
  have hi := Built.inv hs
  obtain ⟨d, h1, h2, h3⟩ := diff_ok hi ho
  obtain ⟨r, k1, k2, k3⟩ := discardAll_ok d.members hi (fun v hv => JSSet.mem_fits h2 hv)
  refine ⟨r, ?_, built_of_inv k2, ?_⟩
  · unfold JSSet.iand
    rw [h1]
    exact k1
  · rw [k3]
    refine List.filter_congr fun v hv => ?_
    rw [h3, hasMember_filter_not, hasMember_of_mem hv]
    simp

/-- C56, `-=`. -/
theorem C56_difference_update (s : JSSet) (hs : Built s) :
    s.isub none = ([], none) ∧
    ∀ o, Holdable o → ∃ r, s.isub (some o) = (r, none) ∧ Built r ∧
      r.members = s.members.filter (fun v => !hasMember v o.els) := by
  refine ⟨rfl, fun o ho => ?_⟩
  obtain ⟨r, k1, k2, k3⟩ := discardAll_ok o.els (Built.inv hs) ho
  exact ⟨r, k1, built_of_inv k2, k3⟩

theorem toggleAll_ok (l : List Val) : ∀ {s : JSSet}, s.Inv → (∀ v ∈ l, ¬ TooBig v) → Once l →
    ∃ s', s.toggleAll l = (s', none) ∧ s'.Inv ∧
      s'.members = s.members.filter (fun v => !hasMember v l) ++ l.filter (fun v => !hasMember v s.members) := by
  induction l with
  | nil =>
    intro s h _ _
    refine ⟨s, rfl, h, ?_⟩
    rw [List.filter_eq_self.2 (fun v _ => by simp [hasMember])]
    simp
  | cons w t ih =>
    intro s h hl ho
    have hw := hl w List.mem_cons_self
    obtain ⟨hw1, ht⟩ := List.pairwise_cons.1 ho
    have step : ∃ s1, (if hasMember w s.members then s.discard w else s.add w) = (s1, none) ∧ s1.Inv ∧
        s1.members = if hasMember w s.members then s.members.filter (fun v => decide (¬ SameValueZero v w))
          else s.members ++ [w] := by
      cases hm : hasMember w s.members
      · obtain ⟨s1, a1, a2, a3⟩ := JSSet.add_ok h hw
        exact ⟨s1, by simpa using a1, a2, by simpa [setStore_absent hm] using a3⟩
      · obtain ⟨s1, a1, a2, a3⟩ := JSSet.discard_ok h hw
        exact ⟨s1, by simpa using a1, a2, by simpa using a3⟩
    obtain ⟨s1, a1, a2, a3⟩ := step
    obtain ⟨s2, b1, b2, b3⟩ := ih a2 (fun v hv => hl v (List.mem_cons_of_mem _ hv)) ht
    refine ⟨s2, ?_, b2, ?_⟩
    · unfold JSSet.toggleAll
      rw [JSSet.contains_eq h hw]
      simp only
      rw [a1]
      exact b1
    · have hwt : hasMember w t = false := by
        rw [← Bool.not_eq_true, hasMember_iff]
        exact fun ⟨x, hx, hs⟩ => hw1 x hx (svz_symm hs)
      have sw : ∀ v, decide (SameValueZero v w) = decide (SameValueZero w v) := fun v =>
        decide_eq_decide.2 ⟨svz_symm, svz_symm⟩
      have hout : ∀ v ∈ t, hasMember v s1.members = hasMember v s.members := by
        intro v hv
        have hne : ¬ SameValueZero w v := hw1 v hv
        rw [a3]
        cases hm : hasMember w s.members
        · simp only [Bool.false_eq_true, if_false]
          rw [hasMember_append]
          simp [hasMember, hne]
        · simp only [if_true]
          rw [Bool.eq_iff_iff, hasMember_iff, hasMember_iff]
          constructor
          · rintro ⟨x, hx, hs⟩
            exact ⟨x, (List.mem_filter.1 hx).1, hs⟩
          · rintro ⟨x, hx, hs⟩
            exact ⟨x, List.mem_filter.2 ⟨hx, decide_eq_true fun hxw => hne (svz_trans (svz_symm hxw) hs)⟩, hs⟩
      rw [b3, List.filter_congr (l := t) (fun v hv => by rw [hout v hv]), a3]
      cases hm : hasMember w s.members
      · simp only [Bool.false_eq_true, if_false, List.filter_append, List.filter_cons, hwt, Bool.not_false,
          if_true, List.filter_nil, hm, List.append_assoc, List.singleton_append]
        congr 1
        refine List.filter_congr fun v hv => ?_
        have hn : ¬ SameValueZero w v := fun hs => by
          have := hasMember_iff.2 ⟨v, hv, svz_symm hs⟩
          exact Bool.false_ne_true (hm.symm.trans this)
        simp [hasMember, hn]
      · simp only [if_true, List.filter_cons, hm, Bool.not_true, Bool.false_eq_true, if_false, List.filter_filter]
        congr 1
        refine List.filter_congr fun v _ => ?_
        simp only [hasMember, List.any_cons, decide_not, sw, Bool.not_or, Bool.and_comm]

/-- C56, `^=`.  A Python set can have two NaNs, which makes the claim fail: see `C56_nan_twice` (`Props/Views.lean`). -/
theorem C56_symmetric_difference_update_partial (s : JSSet) (hs : Built s) :
    s.ixor none = ([], none) ∧
    ∀ o, Fits o → ∃ r, s.ixor (some o) = (r, none) ∧ Built r ∧
      r.members = s.members.filter (fun v => !hasMember v o.els) ++
        (collected o.els).filter (fun v => !hasMember v s.members) := by
  refine ⟨rfl, fun o ho => ?_⟩
  obtain ⟨els, has, ha, hc, _⟩ := Fits.asSet ho
  obtain ⟨r, k1, k2, k3⟩ := toggleAll_ok els (Built.inv hs)
    (fun v hv => Fits.els ho v (mem_collected (hc ▸ hv))) (hc ▸ once_collected _)
  refine ⟨r, ?_, built_of_inv k2, ?_⟩
  · simp only [JSSet.ixor, ha]
    exact k1
  · rw [k3, hc]
    congr 1
    exact List.filter_congr fun v _ => by rw [hasMember_collected]

/-- C56: an iterable with an integer that no JSSet can hold makes every operation that looks at all its values
raise OverflowError. -/
theorem C56_too_big (s : JSSet) (hs : Built s) (l : List Val) (hl : ∃ v ∈ l, TooBig v) :
    s.union (.iter l) = .error .overflowError ∧
    s.inter (.iter l) = .error .overflowError ∧
    s.diff (.iter l) = .error .overflowError ∧
    s.rdiff (.iter l) = .error .overflowError ∧
    s.symDiff (.iter l) = .error .overflowError ∧
    s.iand (.iter l) = (s, some .overflowError) ∧
    s.ixor (some (.iter l)) = (s, some .overflowError) := by
  have hi := Built.inv hs
  have ha : JSSet.asSet (.iter l) = .error .overflowError := by
    simp only [JSSet.asSet, JSSet.fromIterable_big hl]
  have hd : s.diff (.iter l) = .error .overflowError := by simp only [JSSet.diff, ha]
  refine ⟨?_, ?_, hd, by simp only [JSSet.rdiff, ha], by simp only [JSSet.symDiff, ha],
    by simp only [JSSet.iand, hd], by simp only [JSSet.ixor, ha]⟩
  · obtain ⟨v, hv, hb⟩ := hl
    exact JSSet.fromIterable_big ⟨v, List.mem_append_right _ hv, hb⟩
  · unfold JSSet.inter
    rw [JSSet.filterE_error (e := .overflowError)]
    · intro v _
      by_cases hb : TooBig v
      · exact .inr (JSSet.contains_big s hb)
      · exact .inl ⟨_, JSSet.contains_eq hi hb⟩
    · obtain ⟨v, hv, hb⟩ := hl
      exact ⟨v, hv, JSSet.contains_big s hb⟩

/-- One operation on the modelled JSSet. -/
def jsSetStepX (s : JSSet) : SetOpX → JSSet × Except PyExc (Bool ⊕ Val)
  | .basic op => ((jsSetStep s op).1, (jsSetStep s op).2.map .inl)
  | .remove v => ((s.remove v).1, match (s.remove v).2 with | none => .ok (.inl true) | some e => .error e)
  | .pop => ((s.pop).1, (s.pop).2.map .inr)

/-- C56: any history of operations, `pop` and `remove` among them, does on a JSSet what it does on a list. -/
theorem C56_history (ops : List SetOpX) :
    JSSet.members (runHist jsSetStepX [] ops).1 = (runHist setSpecStepX [] ops).1 ∧
    (runHist jsSetStepX [] ops).2 = (runHist setSpecStepX [] ops).2 := by
  have step : ∀ (s : JSSet), s.Inv → ∀ op, (jsSetStepX s op).1.Inv ∧
      JSSet.members (jsSetStepX s op).1 = (setSpecStepX s.members op).1 ∧
      (jsSetStepX s op).2 = (setSpecStepX s.members op).2 := by
    intro s h op
    cases op with
    | basic op =>
      obtain ⟨h1, h2, h3⟩ := jsSet_step s h op
      exact ⟨h1, h2, by simp only [jsSetStepX, setSpecStepX, h3]⟩
    | remove v =>
      by_cases hb : TooBig v
      · have : s.remove v = (s, some .overflowError) := by simp only [JSSet.remove, JSSet.contains_big s hb]
        simp only [jsSetStepX, setSpecStepX, this, if_pos hb]
        exact ⟨h, trivial, trivial⟩
      · have hc := JSSet.contains_eq h hb
        cases hm : hasMember v s.members
        · have : s.remove v = (s, some .keyError) := by simp only [JSSet.remove, hc, hm]
          simp only [jsSetStepX, setSpecStepX, this, if_neg hb, hm, Bool.false_eq_true, if_false]
          exact ⟨h, trivial, trivial⟩
        · obtain ⟨s', h1, h2, h3⟩ := JSSet.discard_ok h hb
          have : s.remove v = (s', none) := by simp only [JSSet.remove, hc, hm, h1]
          simp only [jsSetStepX, setSpecStepX, this, if_neg hb, hm, if_true]
          exact ⟨h2, h3, trivial⟩
    | pop =>
      cases hm : s.members with
      | nil =>
        have : s.pop = (s, .error .keyError) := by simp only [JSSet.pop, hm]
        simp only [jsSetStepX, setSpecStepX, this]
        exact ⟨h, hm, rfl⟩
      | cons v t =>
        have hv : v ∈ s.members := hm ▸ List.mem_cons_self
        obtain ⟨s', h1, h2, h3⟩ := JSSet.discard_ok h (JSSet.mem_fits h hv)
        have : s.pop = (s', .ok v) := by simp only [JSSet.pop, hm, h1]
        simp only [jsSetStepX, setSpecStepX, this]
        refine ⟨h2, ?_, rfl⟩
        have ho := h.once
        rw [hm] at h3 ho
        obtain ⟨o1, _⟩ := List.pairwise_cons.1 ho
        rw [h3, List.filter_cons, if_neg (by simp [svz_refl])]
        exact List.filter_eq_self.2 fun w hw => decide_eq_true fun hs => o1 w hw (svz_symm hs)
  have key : ∀ (ops : List SetOpX) (s : JSSet), s.Inv →
      JSSet.members (runHist jsSetStepX s ops).1 = (runHist setSpecStepX s.members ops).1 ∧
      (runHist jsSetStepX s ops).2 = (runHist setSpecStepX s.members ops).2 := by
    intro ops
    induction ops with
    | nil => exact fun s _ => ⟨rfl, rfl⟩
    | cons op ops ih =>
      intro s h
      obtain ⟨h1, h2, h3⟩ := step s h op
      obtain ⟨k1, k2⟩ := ih _ h1
      simp only [runHist]
      rw [← h2, ← h3, k1, k2]
      exact ⟨rfl, rfl⟩
  exact key ops [] JSSet.inv_empty

/-- Two sets for the examples: made by adding 1, 2, 3 and by adding 4, 3.0, 2. -/
def left123 : JSSet := (runHist jsSetStep [] [.add (.int 1), .add (.int 2), .add (.int 3)]).1
def right432 : JSSet := (runHist jsSetStep [] [.add (.int 4), .add (.float 0x4008000000000000), .add (.int 2)]).1

example : Built left123 ∧ Built right432 ∧ Fits (.jsset right432) := ⟨⟨_, rfl⟩, ⟨_, rfl⟩, ⟨_, rfl⟩⟩

/-- An iterable with repetitions. -/
example : Fits (.iter [.int 2, .int 7, .float 0x4000000000000000, .int 7]) := by
  show ∀ v ∈ [Val.int 2, .int 7, .float 0x4000000000000000, .int 7], ¬ TooBig v
  decide +kernel

/-- C56: `&` follows the right side, `&=` the left one: `{1, 2, 3} & {4, 3.0, 2}` is `{3.0, 2}`, while the in
place form leaves `{2, 3}`. -/
theorem C56_and_differs_from_iand :
    (left123.inter (.jsset right432)).map JSSet.members = .ok [.float 0x4008000000000000, .int 2] ∧
    (left123.iand (.jsset right432)).1.members = [.int 2, .int 3] := by
  decide +kernel

/-- `|`, `-`, `^` of the same sets. -/
example : (left123.union (.jsset right432)).map JSSet.members =
      .ok [.int 1, .int 2, .float 0x4008000000000000, .int 4] ∧
    (left123.diff (.jsset right432)).map JSSet.members = .ok [.int 1] ∧
    (left123.symDiff (.jsset right432)).map JSSet.members = .ok [.int 1, .int 4] ∧
    (left123.ixor (some (.jsset right432))).1.members = [.int 1, .int 4] := by
  decide +kernel

/-- `{1, 2, 3}` and `{3, 2, 1}`: each is within the other. -/
example : left123.le (runHist jsSetStep [] [.add (.int 3), .add (.int 2), .add (.int 1)]).1 = .ok true ∧
    left123.ge (runHist jsSetStep [] [.add (.int 3), .add (.int 2), .add (.int 1)]).1 = .ok true ∧
    left123.lt (runHist jsSetStep [] [.add (.int 3), .add (.int 2), .add (.int 1)]).1 = .ok false := by
  decide +kernel

/-- An iterable with an integer that is too big. -/
example : ∃ v ∈ [Val.int 5, .int (2 ^ 1024)], TooBig v := by decide +kernel

example : (runHist jsSetStepX [] [.basic (.add (.int 5)), .basic (.add (.str [65])), .pop, .remove (.int 5),
      .remove (.str [65]), .pop]).2 =
    [.ok (.inl true), .ok (.inl true), .ok (.inr (.int 5)), .error .keyError, .ok (.inl true),
      .error .keyError] := by
  decide +kernel

/-! ## C57 -/

variable {β : Type}

/-- One operation on the modelled JSMap. -/
def jsMapStepX (m : JSMap β) : MapOpX β → JSMap β × Except PyExc (MapAns β)
  | .basic op =>
    ((jsMapStep m op).1, (jsMapStep m op).2.map fun a => match a with | none => .nothing | some v => .val v)
  | .contains k => (m, (m.contains k).map .bool)
  | .pop k default => ((m.pop k default).1, (m.pop k default).2.map .val)
  | .popitem => (m.popitem.1, m.popitem.2.map fun p => .item p.1 p.2)
  | .setdefault k v => ((m.setdefault k v).1, (m.setdefault k v).2.map .val)

theorem getitem_eq {m : JSMap β} (h : m.Inv) (k : Val) :
    m.getitem k = if TooBig k then .error .overflowError
      else match mapLookup k m.items with
        | some v => .ok v
        | none => .error .keyError := by
  have := (jsMap_step m h (.get k)).2.2
  simp only [jsMapStep, mapSpecStep] at this
  by_cases hb : TooBig k
  · rw [if_pos hb] at this ⊢
    cases hg : m.getitem k <;> rw [hg] at this <;> simp_all [Except.map]
  · rw [if_neg hb] at this ⊢
    cases hl : mapLookup k m.items <;> rw [hl] at this <;> cases hg : m.getitem k <;> rw [hg] at this <;>
      simp_all [Except.map]

theorem delitem_ok {m : JSMap β} (h : m.Inv) {k : Val} (hb : ¬ TooBig k) (hl : (mapLookup k m.items).isSome = true) :
    ∃ m', m.delitem k = (m', none) ∧ m'.Inv ∧ m'.items = mapRemove k m.items := by
  obtain ⟨h1, h2, h3⟩ := jsMap_step m h (.del k)
  simp only [jsMapStep, jsMapStep.ret, mapSpecStep, if_neg hb, hl, if_true] at h1 h2 h3
  rcases hd : m.delitem k with ⟨m', _ | e⟩
  · rw [hd] at h1 h2
    exact ⟨m', rfl, h1, h2⟩
  · rw [hd] at h3
    cases h3

theorem setitem_ok {m : JSMap β} (h : m.Inv) {k : Val} (hb : ¬ TooBig k) (v : β) :
    ∃ m', m.setitem k v = (m', none) ∧ m'.Inv ∧ m'.items = mapStore k v m.items := by
  obtain ⟨h1, h2, h3⟩ := jsMap_step m h (.set k v)
  simp only [jsMapStep, jsMapStep.ret, mapSpecStep, if_neg hb] at h1 h2 h3
  rcases hd : m.setitem k v with ⟨m', _ | e⟩
  · rw [hd] at h1 h2
    exact ⟨m', rfl, h1, h2⟩
  · rw [hd] at h3
    cases h3

theorem mapStore_new {k : Val} {v : β} {l : List (Val × β)} (h : mapLookup k l = none) :
    mapStore k v l = l ++ [(k, v)] := by
  induction l with
  | nil => rfl
  | cons p t ih =>
    unfold mapLookup at h
    by_cases hs : SameValueZero p.1 k
    · rw [if_pos hs] at h; cases h
    · rw [if_neg hs] at h
      unfold mapStore
      rw [if_neg hs, ih h]
      rfl

/-- C57: any history of operations, the inherited ones among them, does on a JSMap what it does on a list of
entries. -/
theorem C57_history (ops : List (MapOpX β)) :
    JSMap.items (runHist jsMapStepX [] ops).1 = (runHist mapSpecStepX [] ops).1 ∧
    (runHist jsMapStepX [] ops).2 = (runHist mapSpecStepX [] ops).2 := by
  have step : ∀ (m : JSMap β), m.Inv → ∀ op, (jsMapStepX m op).1.Inv ∧
      JSMap.items (jsMapStepX m op).1 = (mapSpecStepX m.items op).1 ∧
      (jsMapStepX m op).2 = (mapSpecStepX m.items op).2 := by
    intro m h op
    cases op with
    | basic op =>
      obtain ⟨h1, h2, h3⟩ := jsMap_step m h op
      refine ⟨h1, h2, ?_⟩
      simp only [jsMapStepX, mapSpecStepX, h3]
      cases (mapSpecStep m.items op).2 with
      | error e => rfl
      | ok a => cases a <;> rfl
    | contains k =>
      refine ⟨h, rfl, ?_⟩
      simp only [jsMapStepX, mapSpecStepX, JSMap.contains, getitem_eq h k]
      by_cases hb : TooBig k
      · simp only [if_pos hb]; rfl
      · simp only [if_neg hb]
        cases mapLookup k m.items <;> rfl
    | pop k default =>
      simp only [jsMapStepX, mapSpecStepX, JSMap.pop, getitem_eq h k]
      by_cases hb : TooBig k
      · simp only [if_pos hb]
        exact ⟨h, trivial, rfl⟩
      · simp only [if_neg hb]
        cases hl : mapLookup k m.items with
        | none => cases default <;> exact ⟨h, rfl, rfl⟩
        | some v =>
          obtain ⟨m', h1, h2, h3⟩ := delitem_ok h hb (by rw [hl]; rfl)
          simp only [h1]
          exact ⟨h2, h3, rfl⟩
    | popitem =>
      cases hm : m.items with
      | nil =>
        have : m.popitem = (m, .error .keyError) := by simp only [JSMap.popitem, hm]
        simp only [jsMapStepX, mapSpecStepX, this]
        exact ⟨h, hm, rfl⟩
      | cons p t =>
        obtain ⟨k, v⟩ := p
        have hmem : (k, v) ∈ m.items := hm ▸ List.mem_cons_self
        have hb : ¬ TooBig k := by
          unfold JSMap.items at hmem
          obtain ⟨e, he, hev⟩ := List.mem_map.1 hmem
          intro hb
          have h1 := h.2 e he
          rw [hev, (svz_error_iff k .overflowError).2 ⟨hb, rfl⟩] at h1
          cases h1
        have hl : mapLookup k m.items = some v := by
          rw [hm]
          exact if_pos (svz_refl k)
        obtain ⟨m', h1, h2, h3⟩ := delitem_ok h hb (by rw [hl]; rfl)
        have : m.popitem = (m', .ok (k, v)) := by
          unfold JSMap.popitem
          rw [hm]
          simp only [getitem_eq h k, if_neg hb, hl, h1]
        simp only [jsMapStepX, mapSpecStepX, this]
        refine ⟨h2, ?_, rfl⟩
        have ho := KeyedInv.pairwise h
        rw [show m.map (·.2) = (k, v) :: t from hm] at ho
        obtain ⟨o1, _⟩ := List.pairwise_cons.1 ho
        rw [h3, hm]
        unfold mapRemove
        rw [List.filter_cons, if_neg (by simp [svz_refl])]
        exact List.filter_eq_self.2 fun w hw => decide_eq_true fun hs => o1 w hw (svz_symm hs)
    | setdefault k v =>
      simp only [jsMapStepX, mapSpecStepX, JSMap.setdefault, getitem_eq h k]
      by_cases hb : TooBig k
      · simp only [if_pos hb]
        exact ⟨h, trivial, rfl⟩
      · simp only [if_neg hb]
        cases hl : mapLookup k m.items with
        | some w => exact ⟨h, rfl, rfl⟩
        | none =>
          obtain ⟨m', h1, h2, h3⟩ := setitem_ok h hb v
          simp only [h1]
          exact ⟨h2, by rw [h3, mapStore_new hl], rfl⟩
  have key : ∀ (ops : List (MapOpX β)) (m : JSMap β), m.Inv →
      JSMap.items (runHist jsMapStepX m ops).1 = (runHist mapSpecStepX m.items ops).1 ∧
      (runHist jsMapStepX m ops).2 = (runHist mapSpecStepX m.items ops).2 := by
    intro ops
    induction ops with
    | nil => exact fun m _ => ⟨rfl, rfl⟩
    | cons op ops ih =>
      intro m h
      obtain ⟨h1, h2, h3⟩ := step m h op
      obtain ⟨k1, k2⟩ := ih _ h1
      simp only [runHist]
      rw [← h2, ← h3, k1, k2]
      exact ⟨rfl, rfl⟩
  exact key ops [] JSMap.inv_empty

example : JSMap.items (runHist jsMapStepX ([] : JSMap Nat) [.basic (.set (.int 1) 10), .setdefault (.str [65]) 20,
      .setdefault (.float 0x3FF0000000000000) 30, .basic (.set .null 40), .popitem, .pop (.int 1) (some 5)]).1 =
    [(.str [65], 20), (.null, 40)] := by
  decide +kernel

end V8.Props
