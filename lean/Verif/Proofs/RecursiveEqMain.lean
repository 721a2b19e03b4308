import Verif.Proofs.RecursiveEqCmps
import Mathlib.Logic.Relation

/-! What `==` answers, on graphs with and without cycles. -/

namespace V8
open Spec

/-! ## Sequences of comparisons -/

variable {eq : Val → Val → EqM Bool}

theorem runCmps_true (heq : ∀ v w run, (eq v w run).2 = run) {run : List Id} : ∀ {cmps : List Cmp},
    (runCmps eq cmps run).1 = .ok true → ∀ c ∈ cmps, c.Holds (fun v w => (eq v w run).1 = .ok true) := by
  intro cmps
  induction cmps with
  | nil => intro _ c hc; cases hc
  | cons d t ih =>
    intro h c hc
    cases d with
    | differ => cases h
    | raise e => cases h
    | pair s v w =>
      simp only [runCmps] at h
      by_cases hs : (s && isSame v w) = true
      · rw [if_pos hs] at h
        rcases List.mem_cons.1 hc with rfl | hc
        · exact Or.inl (by simpa using hs)
        · exact ih h c hc
      · rw [if_neg hs] at h
        have h2 := heq v w run
        rcases hr : eq v w run with ⟨r, run'⟩
        rw [hr] at h h2
        simp only at h2
        subst h2
        cases r with
        | error e => cases h
        | ok b =>
          cases b with
          | false => cases h
          | true =>
            rcases List.mem_cons.1 hc with rfl | hc
            · exact Or.inr (congrArg Prod.fst hr)
            · exact ih h c hc

theorem runCmps_false (heq : ∀ v w run, (eq v w run).2 = run) {run : List Id} : ∀ {cmps : List Cmp},
    (runCmps eq cmps run).1 = .ok false → .differ ∈ cmps ∨
      ∃ s v w, .pair s v w ∈ cmps ∧ ¬ (s = true ∧ isSame v w = true) ∧ (eq v w run).1 = .ok false := by
  intro cmps
  induction cmps with
  | nil => intro h; cases h
  | cons d t ih =>
    intro h
    cases d with
    | differ => exact Or.inl (by simp)
    | raise e => cases h
    | pair s v w =>
      simp only [runCmps] at h
      by_cases hs : (s && isSame v w) = true
      · rw [if_pos hs] at h
        rcases ih h with h | ⟨s, v, w, h1, h2⟩
        · exact Or.inl (by simp [h])
        · exact Or.inr ⟨s, v, w, by simp [h1], h2⟩
      · rw [if_neg hs] at h
        have h2 := heq v w run
        rcases hr : eq v w run with ⟨r, run'⟩
        rw [hr] at h h2
        simp only at h2
        subst h2
        cases r with
        | error e => cases h
        | ok b =>
          cases b with
          | false => exact Or.inr ⟨s, v, w, by simp, by simpa using hs, by rw [hr]⟩
          | true =>
            rcases ih h with h | ⟨s, v, w, h1, h2⟩
            · exact Or.inl (by simp [h])
            · exact Or.inr ⟨s, v, w, by simp [h1], h2⟩

theorem runCmps_error (heq : ∀ v w run, (eq v w run).2 = run) {run : List Id} {err : EqErr} : ∀ {cmps : List Cmp},
    (runCmps eq cmps run).1 = .error err → (∃ e, .raise e ∈ cmps ∧ err = .exc e) ∨
      ∃ s v w, .pair s v w ∈ cmps ∧ ¬ (s = true ∧ isSame v w = true) ∧ (eq v w run).1 = .error err := by
  intro cmps
  induction cmps with
  | nil => intro h; cases h
  | cons d t ih =>
    intro h
    cases d with
    | differ => cases h
    | raise e => cases h; exact Or.inl ⟨e, by simp, rfl⟩
    | pair s v w =>
      simp only [runCmps] at h
      by_cases hs : (s && isSame v w) = true
      · rw [if_pos hs] at h
        rcases ih h with ⟨e, h, h'⟩ | ⟨s, v, w, h1, h2⟩
        · exact Or.inl ⟨e, by simp [h], h'⟩
        · exact Or.inr ⟨s, v, w, by simp [h1], h2⟩
      · rw [if_neg hs] at h
        have h2 := heq v w run
        rcases hr : eq v w run with ⟨r, run'⟩
        rw [hr] at h h2
        simp only at h2
        subst h2
        cases r with
        | error e => cases h; exact Or.inr ⟨s, v, w, by simp, by simpa using hs, by rw [hr]⟩
        | ok b =>
          cases b with
          | false => cases h
          | true =>
            rcases ih h with ⟨e, h, h'⟩ | ⟨s, v, w, h1, h2⟩
            · exact Or.inl ⟨e, by simp [h], h'⟩
            · exact Or.inr ⟨s, v, w, by simp [h1], h2⟩

/-! ## Cases of `==` -/

/-- What the two sides of a comparison can be. -/
theorem sides (env : EqEnv) (v w : Val) :
    (∃ i j n m, v = .obj i ∧ w = .obj j ∧ env.heap[i]? = some n ∧ IsJS n ∧ env.heap[j]? = some m ∧ IsJS m) ∨
    (¬ (IsJSVal env.heap v ↔ IsJSVal env.heap w)) ∨
    (IsScalar v ∧ IsScalar w) ∨
    (¬ IsJSVal env.heap v ∧ ¬ IsJSVal env.heap w ∧ ¬ (IsScalar v ∧ IsScalar w)) := by
  by_cases hv : IsJSVal env.heap v
  · by_cases hw : IsJSVal env.heap w
    · obtain ⟨i, n, h1, h2, h3⟩ := hv
      obtain ⟨j, m, h4, h5, h6⟩ := hw
      exact Or.inl ⟨i, j, n, m, h1, h4, h2, h3, h5, h6⟩
    · exact Or.inr (Or.inl (fun h => hw (h.1 hv)))
  · by_cases hw : IsJSVal env.heap w
    · exact Or.inr (Or.inl (fun h => hv (h.2 hw)))
    · by_cases hs : IsScalar v ∧ IsScalar w
      · exact Or.inr (Or.inr (Or.inl hs))
      · exact Or.inr (Or.inr (Or.inr ⟨hv, hw, hs⟩))

theorem scalar_not_js {h : Heap} {v : Val} (hv : IsScalar v) : ¬ IsJSVal h v := by
  rintro ⟨i, n, rfl, _⟩
  exact hv

/-! ## Fuel -/

theorem length_le_of_bound {run : List Id} {H : Nat} (hn : run.Nodup) (hb : ∀ r ∈ run, r < H) : run.length ≤ H := by
  have h1 : run.Subperm (List.range H) := hn.subperm (fun r hr => List.mem_range.2 (hb r hr))
  simpa using h1.length_le

theorem pyEq_fuel (env : EqEnv) : ∀ (f : Nat) (v w : Val) (run : List Id), run.Nodup →
    (∀ r ∈ run, r < env.heap.length) → env.heap.length < f + run.length →
    (pyEq env f v w run).1 ≠ .error .fuel := by
  intro f
  induction f with
  | zero =>
    intro v w run hn hb hf
    have := length_le_of_bound hn hb
    omega
  | succ f ih =>
    intro v w run hn hb hf
    rcases sides env v w with ⟨i, j, n, m, rfl, rfl, hi, hin, hj, hjm⟩ | h | ⟨h1, h2⟩ | ⟨h1, h2, h3⟩
    · rw [pyEq_tracked env f hi hin hj hjm run]
      by_cases hij : i = j
      · rw [if_pos hij]; simp
      rw [if_neg hij]
      by_cases hr : i ∈ run ∨ j ∈ run
      · rw [if_pos hr]; simp
      rw [if_neg hr]
      push Not at hr
      cases hc : nodeCmps n m with
      | none => simp
      | some cmps =>
        simp only
        intro he
        rcases runCmps_error (pyEq_run env f) he with ⟨e, _, h⟩ | ⟨s, v, w, _, _, h⟩
        · cases h
        · refine ih v w (j :: i :: run) ?_ ?_ ?_ h
          · simp only [List.nodup_cons, List.mem_cons, not_or]
            exact ⟨⟨Ne.symm hij, hr.2⟩, hr.1, hn⟩
          · intro r hr'
            simp only [List.mem_cons] at hr'
            rcases hr' with rfl | rfl | hr'
            · exact (List.getElem?_eq_some_iff.1 hj).1
            · exact (List.getElem?_eq_some_iff.1 hi).1
            · exact hb r hr'
          · simp only [List.length_cons]; omega
    · rw [pyEq_mixed env f h]; simp
    · rw [pyEq_scalars env f h1 h2]; simp
    · rw [pyEq_others env f h1 h2 h3]
      cases env.leaf v w <;> simp

theorem runCmps_congr {eq' : Val → Val → EqM Bool} (heq : ∀ v w run, (eq v w run).2 = run)
    (heq' : ∀ v w run, (eq' v w run).2 = run) {run : List Id}
    (h : ∀ v w, (eq v w run).1 ≠ .error .fuel → (eq' v w run).1 = (eq v w run).1) :
    ∀ {cmps : List Cmp}, (runCmps eq cmps run).1 ≠ .error .fuel →
      (runCmps eq' cmps run).1 = (runCmps eq cmps run).1 := by
  intro cmps
  induction cmps with
  | nil => intro _; rfl
  | cons d t ih =>
    intro hf
    cases d with
    | differ => rfl
    | raise e => rfl
    | pair s v w =>
      simp only [runCmps] at hf ⊢
      by_cases hs : (s && isSame v w) = true
      · rw [if_pos hs] at hf ⊢
        rw [if_pos hs]
        exact ih hf
      · rw [if_neg hs] at hf ⊢
        rw [if_neg hs]
        have h2 := heq v w run
        have h3 := heq' v w run
        have h4 := h v w
        rcases hr : eq v w run with ⟨r, run'⟩
        rcases hr' : eq' v w run with ⟨r', run''⟩
        rw [hr] at hf h2 h4
        rw [hr'] at h3 h4
        simp only at h2 h3 h4
        subst h3
        subst h2
        have hne : r ≠ .error .fuel := by
          rintro rfl
          exact hf rfl
        have := h4 hne
        subst this
        cases r' with
        | error e => rfl
        | ok b =>
          cases b with
          | false => rfl
          | true => exact ih hf

theorem pyEq_more (env : EqEnv) : ∀ (f : Nat) (v w : Val) (run : List Id), (pyEq env f v w run).1 ≠ .error .fuel →
    (pyEq env (f + 1) v w run).1 = (pyEq env f v w run).1 := by
  intro f
  induction f with
  | zero => intro v w run h; exact absurd rfl h
  | succ f ih =>
    intro v w run h
    rcases sides env v w with ⟨i, j, n, m, rfl, rfl, hi, hin, hj, hjm⟩ | h' | ⟨h1, h2⟩ | ⟨h1, h2, h3⟩
    · rw [pyEq_tracked env f hi hin hj hjm run] at h ⊢
      rw [pyEq_tracked env (f + 1) hi hin hj hjm run]
      by_cases hij : i = j
      · rw [if_pos hij, if_pos hij]
      rw [if_neg hij] at h ⊢
      rw [if_neg hij]
      by_cases hr : i ∈ run ∨ j ∈ run
      · rw [if_pos hr, if_pos hr]
      rw [if_neg hr] at h ⊢
      rw [if_neg hr]
      cases hc : nodeCmps n m with
      | none => rfl
      | some cmps =>
        rw [hc] at h
        exact runCmps_congr (pyEq_run env f) (pyEq_run env (f + 1)) (fun v w => ih v w _) h
    · rw [pyEq_mixed env f h', pyEq_mixed env (f + 1) h']
    · rw [pyEq_scalars env f h1 h2, pyEq_scalars env (f + 1) h1 h2]
    · rw [pyEq_others env f h1 h2 h3, pyEq_others env (f + 1) h1 h2 h3]

/-! ## Structural equality -/

theorem SameOr.imp {R S : Val → Val → Prop} (h : ∀ a b, R a b → S a b) {v w : Val} :
    SameOr R v w → SameOr S v w
  | .inl e => .inl e
  | .inr e => .inr (h _ _ e)

theorem BothOr.imp {R S : Val → Val → Prop} (h : ∀ a b, R a b → S a b) {v w : Option Val} (hv : BothOr R v w) :
    BothOr S v w := by
  cases v <;> cases w <;> first | trivial | exact absurd hv id | exact h _ _ hv

theorem SameProps.imp {R S : Val → Val → Prop} (h : ∀ a b, R a b → S a b) {o p : JSObj Val} (hv : SameProps R o p) :
    SameProps S o p :=
  ⟨hv.1, fun k => BothOr.imp h (hv.2.1 k), fun s => BothOr.imp (fun _ _ => SameOr.imp h) (hv.2.2 s)⟩

theorem AlikeNode.imp {R S : Val → Val → Prop} (h : ∀ a b, R a b → S a b) {n m : Node} (hv : AlikeNode R n m) :
    AlikeNode S n m := by
  cases hv with
  | object e => exact .object (SameProps.imp h e)
  | array e => exact .array (SameProps.imp h e)
  | map e => exact .map (e.imp (fun _ _ x => ⟨SameOr.imp h x.1, SameOr.imp h x.2⟩))
  | set e => exact .set (e.imp (fun _ _ x => h _ _ x))
  | error e => exact .error (SameOr.imp h e)

theorem Alike.imp {env : EqEnv} {R S : Val → Val → Prop} (h : ∀ a b, R a b → S a b) {v w : Val} (hv : Alike env R v w) :
    Alike env S v w := by
  cases hv with
  | same h1 h2 => exact .same h1 h2
  | scalars h1 h2 h3 => exact .scalars h1 h2 h3
  | others h1 h2 h3 h4 => exact .others h1 h2 h3 h4
  | objects h1 h2 h3 => exact .objects h1 h2 (AlikeNode.imp h h3)

theorem structEq_unfold {env : EqEnv} {v w : Val} (h : StructEq env v w) : Alike env (StructEq env) v w := by
  obtain ⟨R, hR, hvw⟩ := h
  exact Alike.imp (fun a b hab => ⟨R, hR, hab⟩) (hR v w hvw)

theorem structEq_fold {env : EqEnv} {v w : Val} (h : Alike env (StructEq env) v w) : StructEq env v w := by
  refine ⟨fun a b => StructEq env a b ∨ Alike env (StructEq env) a b, ?_, Or.inr h⟩
  intro a b hab
  refine Alike.imp (R := StructEq env) (fun a b h => Or.inl h) ?_
  rcases hab with hab | hab
  · exact structEq_unfold hab
  · exact hab

theorem structEq_same {env : EqEnv} {i : Id} (h : IsJSVal env.heap (.obj i)) : StructEq env (.obj i) (.obj i) := by
  obtain ⟨j, n, e, h1, h2⟩ := h
  cases e
  exact structEq_fold (.same h1 h2)

theorem structEq_scalars {env : EqEnv} {v w : Val} (hv : IsScalar v) (hw : IsScalar w) :
    StructEq env v w ↔ EqualScalars v w := by
  constructor
  · intro h
    cases structEq_unfold h with
    | same => exact absurd hv id
    | scalars _ _ h => exact h
    | others _ _ h => exact absurd ⟨hv, hw⟩ h
    | objects => exact absurd hv id
  · intro h
    exact structEq_fold (.scalars hv hw h)

theorem alikeNode_js {R : Val → Val → Prop} {n m : Node} (h : AlikeNode R n m) : IsJS n ∧ IsJS m := by
  cases h <;> exact ⟨trivial, trivial⟩

theorem structEq_js {env : EqEnv} {v w : Val} (h : StructEq env v w) : IsJSVal env.heap v ↔ IsJSVal env.heap w := by
  cases structEq_unfold h with
  | same h1 h2 => exact Iff.rfl
  | scalars h1 h2 => exact iff_of_false (scalar_not_js h1) (scalar_not_js h2)
  | others h1 h2 => exact iff_of_false h1 h2
  | objects h1 h2 h3 =>
    exact iff_of_true ⟨_, _, rfl, h1, (alikeNode_js h3).1⟩ ⟨_, _, rfl, h2, (alikeNode_js h3).2⟩

theorem structEq_hole {env : EqEnv} (hu : HoleUnique env) : ∀ v, v ≠ .hole → ¬ StructEq env v .hole := by
  intro v hv h
  generalize hw : Val.hole = w at h
  cases structEq_unfold h with
  | same => cases hw
  | objects => cases hw
  | others _ _ _ h => subst hw; exact hu v hv h
  | scalars h1 h2 h3 =>
    subst hw
    rcases h3 with ⟨a, _, h, _⟩ | ⟨_, h⟩
    · cases h
    · exact hv h

/-! ## Containment -/

/-- `c` is inside `a` at some depth below it. -/
abbrev Below (h : Heap) : Id → Id → Prop := Relation.TransGen (fun i j => Inside h i (.obj j))

theorem inside_js {h : Heap} {i : Id} {v : Val} (hi : Inside h i v) : IsJSVal h (.obj i) := by
  cases hi with
  | prop h1 => rcases h1 with h1 | h1 <;> exact ⟨_, _, rfl, h1, trivial⟩
  | entryKey h1 => exact ⟨_, _, rfl, h1, trivial⟩
  | entryValue h1 => exact ⟨_, _, rfl, h1, trivial⟩
  | member h1 => exact ⟨_, _, rfl, h1, trivial⟩
  | cause h1 => exact ⟨_, _, rfl, h1, trivial⟩

theorem below_rank {h : Heap} {rank : Id → Nat} (hr : ∀ i j, Inside h i (.obj j) → rank j < rank i) {a c : Id}
    (hb : Below h a c) : rank c < rank a := by
  induction hb with
  | single h1 => exact hr _ _ h1
  | tail _ h1 ih => exact Nat.lt_trans (hr _ _ h1) ih

theorem forall₂_left {α β : Type} {P : α → β → Prop} {l : List α} {l' : List β} (h : List.Forall₂ P l l') {a : α}
    (ha : a ∈ l) : ∃ b ∈ l', P a b := by
  induction h with
  | nil => cases ha
  | cons h1 _ ih =>
    rcases List.mem_cons.1 ha with rfl | ha
    · exact ⟨_, by simp, h1⟩
    · obtain ⟨b, hb, hp⟩ := ih ha
      exact ⟨b, by simp [hb], hp⟩

theorem forall₂_right {α β : Type} {P : α → β → Prop} {l : List α} {l' : List β} (h : List.Forall₂ P l l') {b : β}
    (hb : b ∈ l') : ∃ a ∈ l, P a b := by
  induction h with
  | nil => cases hb
  | cons h1 _ ih =>
    rcases List.mem_cons.1 hb with rfl | hb
    · exact ⟨_, by simp, h1⟩
    · obtain ⟨a, ha, hp⟩ := ih hb
      exact ⟨a, by simp [ha], hp⟩

theorem bothOr_left {R : Val → Val → Prop} {x y : Option Val} (h : BothOr R x y) {v : Val} (hx : x = some v) :
    ∃ w, y = some w ∧ R v w := by
  subst hx
  cases y with
  | none => exact absurd h id
  | some w => exact ⟨w, rfl, h⟩

theorem bothOr_right {R : Val → Val → Prop} {x y : Option Val} (h : BothOr R x y) {w : Val} (hy : y = some w) :
    ∃ v, x = some v ∧ R v w := by
  subst hy
  cases x with
  | none => exact absurd h id
  | some v => exact ⟨v, rfl, h⟩

theorem sameProps_left {R : Val → Val → Prop} {o p : JSObj Val} (h : SameProps R o p) {k : PKey} {c : Val}
    (hc : o.lookup k = some c) : ∃ d, p.lookup k = some d ∧ SameOr R c d := by
  cases k with
  | idx k =>
    obtain ⟨d, h1, h2⟩ := bothOr_left (h.2.1 k) hc
    exact ⟨d, h1, Or.inr h2⟩
  | name s => exact bothOr_left (h.2.2 s) hc

theorem sameProps_right {R : Val → Val → Prop} {o p : JSObj Val} (h : SameProps R o p) {k : PKey} {d : Val}
    (hc : p.lookup k = some d) : ∃ c, o.lookup k = some c ∧ SameOr R c d := by
  cases k with
  | idx k =>
    obtain ⟨d, h1, h2⟩ := bothOr_right (h.2.1 k) hc
    exact ⟨d, h1, Or.inr h2⟩
  | name s => exact bothOr_right (h.2.2 s) hc

theorem alike_left {R : Val → Val → Prop} {h : Heap} {i j : Id} {n m : Node} (hi : h[i]? = some n) (hj : h[j]? = some m)
    (ha : AlikeNode R n m) {c : Val} (hc : Inside h i c) : ∃ d, Inside h j d ∧ SameOr R c d := by
  cases ha with
  | object e =>
    cases hc with
    | prop h1 h2 =>
      rw [hi] at h1
      rcases h1 with h1 | h1
      · cases h1
        obtain ⟨d, h3, h4⟩ := sameProps_left e h2
        exact ⟨d, .prop (Or.inl hj) h3, h4⟩
      · cases h1
    | entryKey h1 => rw [hi] at h1; cases h1
    | entryValue h1 => rw [hi] at h1; cases h1
    | member h1 => rw [hi] at h1; cases h1
    | cause h1 => rw [hi] at h1; cases h1
  | array e =>
    cases hc with
    | prop h1 h2 =>
      rw [hi] at h1
      rcases h1 with h1 | h1
      · cases h1
      · cases h1
        obtain ⟨d, h3, h4⟩ := sameProps_left e h2
        exact ⟨d, .prop (Or.inr hj) h3, h4⟩
    | entryKey h1 => rw [hi] at h1; cases h1
    | entryValue h1 => rw [hi] at h1; cases h1
    | member h1 => rw [hi] at h1; cases h1
    | cause h1 => rw [hi] at h1; cases h1
  | map e =>
    cases hc with
    | prop h1 h2 => rw [hi] at h1; rcases h1 with h1 | h1 <;> cases h1
    | entryKey h1 h2 =>
      rw [hi] at h1; cases h1
      obtain ⟨f, h3, h4⟩ := forall₂_left e h2
      exact ⟨f.1, .entryKey hj h3, h4.1⟩
    | entryValue h1 h2 =>
      rw [hi] at h1; cases h1
      obtain ⟨f, h3, h4⟩ := forall₂_left e h2
      exact ⟨f.2, .entryValue hj h3, h4.2⟩
    | member h1 => rw [hi] at h1; cases h1
    | cause h1 => rw [hi] at h1; cases h1
  | set e =>
    cases hc with
    | prop h1 h2 => rw [hi] at h1; rcases h1 with h1 | h1 <;> cases h1
    | entryKey h1 => rw [hi] at h1; cases h1
    | entryValue h1 => rw [hi] at h1; cases h1
    | member h1 h2 =>
      rw [hi] at h1; cases h1
      obtain ⟨f, h3, h4⟩ := forall₂_left e h2
      exact ⟨f, .member hj h3, Or.inr h4⟩
    | cause h1 => rw [hi] at h1; cases h1
  | error e =>
    cases hc with
    | prop h1 h2 => rw [hi] at h1; rcases h1 with h1 | h1 <;> cases h1
    | entryKey h1 => rw [hi] at h1; cases h1
    | entryValue h1 => rw [hi] at h1; cases h1
    | member h1 => rw [hi] at h1; cases h1
    | cause h1 => rw [hi] at h1; cases h1; exact ⟨_, .cause hj, e⟩

theorem alike_right {R : Val → Val → Prop} {h : Heap} {i j : Id} {n m : Node} (hi : h[i]? = some n) (hj : h[j]? = some m)
    (ha : AlikeNode R n m) {d : Val} (hd : Inside h j d) : ∃ c, Inside h i c ∧ SameOr R c d := by
  cases ha with
  | object e =>
    cases hd with
    | prop h1 h2 =>
      rw [hj] at h1
      rcases h1 with h1 | h1
      · cases h1
        obtain ⟨d, h3, h4⟩ := sameProps_right e h2
        exact ⟨d, .prop (Or.inl hi) h3, h4⟩
      · cases h1
    | entryKey h1 => rw [hj] at h1; cases h1
    | entryValue h1 => rw [hj] at h1; cases h1
    | member h1 => rw [hj] at h1; cases h1
    | cause h1 => rw [hj] at h1; cases h1
  | array e =>
    cases hd with
    | prop h1 h2 =>
      rw [hj] at h1
      rcases h1 with h1 | h1
      · cases h1
      · cases h1
        obtain ⟨d, h3, h4⟩ := sameProps_right e h2
        exact ⟨d, .prop (Or.inr hi) h3, h4⟩
    | entryKey h1 => rw [hj] at h1; cases h1
    | entryValue h1 => rw [hj] at h1; cases h1
    | member h1 => rw [hj] at h1; cases h1
    | cause h1 => rw [hj] at h1; cases h1
  | map e =>
    cases hd with
    | prop h1 h2 => rw [hj] at h1; rcases h1 with h1 | h1 <;> cases h1
    | entryKey h1 h2 =>
      rw [hj] at h1; cases h1
      obtain ⟨f, h3, h4⟩ := forall₂_right e h2
      exact ⟨f.1, .entryKey hi h3, h4.1⟩
    | entryValue h1 h2 =>
      rw [hj] at h1; cases h1
      obtain ⟨f, h3, h4⟩ := forall₂_right e h2
      exact ⟨f.2, .entryValue hi h3, h4.2⟩
    | member h1 => rw [hj] at h1; cases h1
    | cause h1 => rw [hj] at h1; cases h1
  | set e =>
    cases hd with
    | prop h1 h2 => rw [hj] at h1; rcases h1 with h1 | h1 <;> cases h1
    | entryKey h1 => rw [hj] at h1; cases h1
    | entryValue h1 => rw [hj] at h1; cases h1
    | member h1 h2 =>
      rw [hj] at h1; cases h1
      obtain ⟨f, h3, h4⟩ := forall₂_right e h2
      exact ⟨f, .member hi h3, Or.inr h4⟩
    | cause h1 => rw [hj] at h1; cases h1
  | error e =>
    cases hd with
    | prop h1 h2 => rw [hj] at h1; rcases h1 with h1 | h1 <;> cases h1
    | entryKey h1 => rw [hj] at h1; cases h1
    | entryValue h1 => rw [hj] at h1; cases h1
    | member h1 => rw [hj] at h1; cases h1
    | cause h1 => rw [hj] at h1; cases h1; exact ⟨_, .cause hi, e⟩

theorem js_obj {h : Heap} {w : Val} (hw : IsJSVal h w) : ∃ i, w = .obj i := by
  obtain ⟨i, _, h1, _⟩ := hw
  exact ⟨i, h1⟩

theorem child_left {env : EqEnv} {i j c : Id} (h : StructEq env (.obj i) (.obj j)) (hc : Inside env.heap i (.obj c))
    (hjs : IsJSVal env.heap (.obj c)) :
    ∃ d, Inside env.heap j (.obj d) ∧ StructEq env (.obj c) (.obj d) := by
  cases structEq_unfold h with
  | same => exact ⟨c, hc, structEq_same hjs⟩
  | scalars h1 => exact absurd h1 id
  | others h1 => exact absurd (inside_js hc) h1
  | objects h1 h2 h3 =>
    obtain ⟨d, hd, hcd⟩ := alike_left h1 h2 h3 hc
    rcases hcd with ⟨k, hk, rfl⟩ | hcd
    · cases hk
      exact ⟨_, hd, structEq_same hjs⟩
    · obtain ⟨d', rfl⟩ := js_obj ((structEq_js hcd).1 hjs)
      exact ⟨d', hd, hcd⟩

theorem child_right {env : EqEnv} {i j d : Id} (h : StructEq env (.obj i) (.obj j)) (hd : Inside env.heap j (.obj d))
    (hjs : IsJSVal env.heap (.obj d)) :
    ∃ c, Inside env.heap i (.obj c) ∧ StructEq env (.obj c) (.obj d) := by
  cases structEq_unfold h with
  | same => exact ⟨d, hd, structEq_same hjs⟩
  | scalars h1 => exact absurd h1 id
  | others _ h1 => exact absurd (inside_js hd) h1
  | objects h1 h2 h3 =>
    obtain ⟨c, hc, hcd⟩ := alike_right h1 h2 h3 hd
    rcases hcd with ⟨k, rfl, hk⟩ | hcd
    · cases hk
      exact ⟨_, hc, structEq_same hjs⟩
    · obtain ⟨c', rfl⟩ := js_obj ((structEq_js hcd).2 hjs)
      exact ⟨c', hc, hcd⟩

theorem path_left {env : EqEnv} {a b : Id} (hp : Below env.heap a b) : ∀ {a' : Id}, IsJSVal env.heap (.obj b) →
    StructEq env (.obj a) (.obj a') → ∃ b', Below env.heap a' b' ∧ StructEq env (.obj b) (.obj b') := by
  induction hp with
  | single h1 =>
    intro a' hb h
    obtain ⟨d, h2, h3⟩ := child_left h h1 hb
    exact ⟨d, .single h2, h3⟩
  | tail _ h1 ih =>
    intro a' hb h
    obtain ⟨x, h2, h3⟩ := ih (inside_js h1) h
    obtain ⟨d, h4, h5⟩ := child_left h3 h1 hb
    exact ⟨d, .tail h2 h4, h5⟩

theorem path_right {env : EqEnv} {a' b' : Id} (hp : Below env.heap a' b') : ∀ {a : Id}, IsJSVal env.heap (.obj b') →
    StructEq env (.obj a) (.obj a') → ∃ b, Below env.heap a b ∧ StructEq env (.obj b) (.obj b') := by
  induction hp with
  | single h1 =>
    intro a hb h
    obtain ⟨d, h2, h3⟩ := child_right h h1 hb
    exact ⟨d, .single h2, h3⟩
  | tail _ h1 ih =>
    intro a hb h
    obtain ⟨x, h2, h3⟩ := ih (inside_js h1) h
    obtain ⟨d, h4, h5⟩ := child_right h3 h1 hb
    exact ⟨d, .tail h2 h4, h5⟩

/-- Without cycles no object is structurally equal to one inside it. -/
theorem not_below_left {env : EqEnv} {rank : Id → Nat} (hr : ∀ i j, Inside env.heap i (.obj j) → rank j < rank i) :
    ∀ (N : Nat) (p q : Id), rank p ≤ N → IsJSVal env.heap (.obj q) → Below env.heap p q →
      ¬ StructEq env (.obj p) (.obj q) := by
  intro N
  induction N with
  | zero =>
    intro p q hN _ hb _
    have := below_rank hr hb
    omega
  | succ N ih =>
    intro p q hN hq hb h
    obtain ⟨q2, h1, h2⟩ := path_left hb hq h
    have := below_rank hr hb
    exact ih q q2 (by omega) ((structEq_js h2).1 hq) h1 h2

theorem not_below_right {env : EqEnv} {rank : Id → Nat} (hr : ∀ i j, Inside env.heap i (.obj j) → rank j < rank i) :
    ∀ (N : Nat) (p q : Id), rank q ≤ N → IsJSVal env.heap (.obj p) → Below env.heap q p →
      ¬ StructEq env (.obj p) (.obj q) := by
  intro N
  induction N with
  | zero =>
    intro p q hN _ hb _
    have := below_rank hr hb
    omega
  | succ N ih =>
    intro p q hN hp hb h
    obtain ⟨p2, h1, h2⟩ := path_right hb hp h
    have := below_rank hr hb
    exact ih p2 p (by omega) ((structEq_js h2).2 hp) h1 h2

/-! ## The values compared are inside the objects -/

theorem mem_objCmps {o p : JSObj Val} (ho : o.Inv) (hp : p.Inv) {s : Bool} {v w : Val}
    (h : .pair s v w ∈ objCmps o p) : (∃ k, o.lookup k = some v) ∧ (w = .hole ∨ ∃ k, p.lookup k = some w) := by
  unfold objCmps at h
  by_cases hl : o.len ≠ p.len
  · rw [if_pos hl] at h; simp at h
  rw [if_neg hl] at h
  rcases List.mem_append.1 h with h | h
  · by_cases hl : o.array.len = p.array.len
    · by_cases hu : o.array.used = p.array.used
      · obtain ⟨i, x, hx, e⟩ := (mem_arrayCmps ho.arr hp.arr hl hu _).1 h
        cases e
        refine ⟨⟨.idx i, by simp only [JSObj.lookup, hx]; rfl⟩, ?_⟩
        cases hy : (p.array.abs[i]?).join with
        | none => exact Or.inl rfl
        | some y => exact Or.inr ⟨.idx i, hy⟩
      · unfold arrayCmps at h
        rw [if_neg (by simp [hl]), if_pos hu] at h
        simp at h
    · unfold arrayCmps at h
      rw [if_pos hl] at h
      simp at h
  · unfold dictCmps at h
    by_cases hl : o.props.length ≠ p.props.length
    · rw [if_pos hl] at h; simp at h
    rw [if_neg hl] at h
    obtain ⟨e, he, h⟩ := List.mem_map.1 h
    cases hg : p.props.get e.1 with
    | none => rw [hg] at h; cases h
    | some y =>
      rw [hg] at h
      cases h
      exact ⟨⟨.name e.1, Dict.get_of_mem _ _ _ ho.names he⟩, Or.inr ⟨.name e.1, hg⟩⟩

theorem mem_nodeCmps {h : Heap} {i j : Id} {n m : Node} (hi : h[i]? = some n) (hj : h[j]? = some m) (hn : NodeSane n)
    (hm : NodeSane m) {cmps : List Cmp} (hc : nodeCmps n m = some cmps) {s : Bool} {v w : Val} (hp : .pair s v w ∈ cmps) :
    (∀ k, v = .obj k → Inside h i (.obj k)) ∧ (∀ k, w = .obj k → Inside h j (.obj k)) := by
  cases n <;> cases m <;> simp only [nodeCmps, Option.some.injEq, reduceCtorEq] at hc
  case jsobj.jsobj o p =>
    subst hc
    obtain ⟨⟨k, h1⟩, h2⟩ := mem_objCmps hn.1 hm.1 hp
    refine ⟨fun x hx => .prop (Or.inl hi) (hx ▸ h1), fun x hx => ?_⟩
    rcases h2 with rfl | ⟨k, h2⟩
    · cases hx
    · exact .prop (Or.inl hj) (hx ▸ h2)
  case jsarr.jsarr o p =>
    subst hc
    obtain ⟨⟨k, h1⟩, h2⟩ := mem_objCmps hn.1 hm.1 hp
    refine ⟨fun x hx => .prop (Or.inr hi) (hx ▸ h1), fun x hx => ?_⟩
    rcases h2 with rfl | ⟨k, h2⟩
    · cases hx
    · exact .prop (Or.inr hj) (hx ▸ h2)
  case jsmap.jsobj => subst hc; simp at hp
  case jsmap.jsarr => subst hc; simp at hp
  case jsmap.jsmap es fs =>
    by_cases hl : es.length = fs.length
    · rw [if_neg (by simp [hl])] at hc
      cases hc
      obtain ⟨x, hx, hp⟩ := List.mem_flatMap.1 hp
      have h1 : x.1 ∈ es := (List.of_mem_zip (a := x.1) (b := x.2) hx).1
      have h2 : x.2 ∈ fs := (List.of_mem_zip (a := x.1) (b := x.2) hx).2
      simp only [List.mem_cons, Cmp.pair.injEq, List.not_mem_nil, or_false] at hp
      rcases hp with ⟨_, rfl, rfl⟩ | ⟨_, rfl, rfl⟩
      · exact ⟨fun k hk => hk ▸ .entryKey hi h1, fun k hk => hk ▸ .entryKey hj h2⟩
      · exact ⟨fun k hk => hk ▸ .entryValue hi h1, fun k hk => hk ▸ .entryValue hj h2⟩
    · rw [if_pos hl] at hc
      cases hc
      simp at hp
  case jsset.jsset ms ns =>
    by_cases hl : ms.length = ns.length
    · rw [if_neg (by simp [hl])] at hc
      cases hc
      obtain ⟨x, hx, hp⟩ := List.mem_map.1 hp
      have h1 : x.1 ∈ ms := (List.of_mem_zip (a := x.1) (b := x.2) hx).1
      have h2 : x.2 ∈ ns := (List.of_mem_zip (a := x.1) (b := x.2) hx).2
      cases hp
      exact ⟨fun k hk => hk ▸ .member hi h1, fun k hk => hk ▸ .member hj h2⟩
    · rw [if_pos hl] at hc
      cases hc
      simp at hp
  case error.error name msg stack c name' msg' stack' d =>
    subst hc
    simp only [List.mem_cons, Cmp.pair.injEq, List.not_mem_nil, or_false] at hp
    rcases hp with ⟨_, rfl, rfl⟩ | ⟨_, rfl, rfl⟩ | ⟨_, rfl, rfl⟩ | ⟨_, rfl, rfl⟩
    · exact ⟨fun k hk => (by cases hk), fun k hk => (by cases hk)⟩
    · exact ⟨fun k hk => (by cases msg <;> cases hk), fun k hk => (by cases msg' <;> cases hk)⟩
    · exact ⟨fun k hk => (by cases stack <;> cases hk), fun k hk => (by cases stack' <;> cases hk)⟩
    · exact ⟨fun k hk => hk ▸ .cause hi, fun k hk => hk ▸ .cause hj⟩

theorem heapOK_sane {h : Heap} (hh : HeapOK h) {i : Id} {n : Node} (hi : h[i]? = some n) : NodeSane n := by
  cases n <;> first | trivial | exact hh i _ (Or.inl hi) | exact hh i _ (Or.inr hi)

/-! ## Without cycles -/

theorem pyEq_acyclic {env : EqEnv} (hh : HeapOK env.heap) (hu : HoleUnique env) {rank : Id → Nat}
    (hr : ∀ i j, Inside env.heap i (.obj j) → rank j < rank i) : ∀ (f : Nat) (v w : Val) (run : List Id) (b : Bool),
    (∀ r ∈ run, (∀ k, v = .obj k → Below env.heap r k) ∨ (∀ k, w = .obj k → Below env.heap r k)) →
    (pyEq env f v w run).1 = .ok b → (b = true ↔ StructEq env v w) := by
  intro f
  induction f with
  | zero => intro v w run b _ h; cases h
  | succ f ih =>
    intro v w run b hrun h
    rcases sides env v w with ⟨i, j, n, m, rfl, rfl, hi, hin, hj, hjm⟩ | h' | ⟨h1, h2⟩ | ⟨h1, h2, h3⟩
    · rw [pyEq_tracked env f hi hin hj hjm run] at h
      have hijs : IsJSVal env.heap (.obj i) := ⟨i, n, rfl, hi, hin⟩
      have hjjs : IsJSVal env.heap (.obj j) := ⟨j, m, rfl, hj, hjm⟩
      by_cases hij : i = j
      · rw [if_pos hij] at h
        subst hij
        cases h
        exact iff_of_true rfl (structEq_same hijs)
      rw [if_neg hij] at h
      have hirr : ∀ x, ¬ Below env.heap x x := fun x hx => Nat.lt_irrefl _ (below_rank hr hx)
      have hri : i ∈ run → Below env.heap i j := by
        intro hx
        rcases hrun i hx with h | h
        · exact absurd (h i rfl) (hirr i)
        · exact h j rfl
      have hrj : j ∈ run → Below env.heap j i := by
        intro hx
        rcases hrun j hx with h | h
        · exact h i rfl
        · exact absurd (h j rfl) (hirr j)
      by_cases hrr : i ∈ run ∨ j ∈ run
      · rw [if_pos hrr] at h
        have hnb : ¬ (i ∈ run ∧ j ∈ run) := fun hx => hirr i ((hri hx.1).trans (hrj hx.2))
        have hb : b = false := by
          cases h
          by_cases hx : i ∈ run
          · have : j ∉ run := fun hy => hnb ⟨hx, hy⟩
            simp [this]
          · simp [hx]
        rw [hb]
        refine iff_of_false (by simp) ?_
        rcases hrr with hx | hx
        · exact not_below_left hr _ i j (Nat.le_refl _) hjjs (hri hx)
        · exact not_below_right hr _ i j (Nat.le_refl _) hijs (hrj hx)
      rw [if_neg hrr] at h
      have hsn := heapOK_sane hh hi
      have hsm := heapOK_sane hh hj
      have hparts : StructEq env (.obj i) (.obj j) → ∃ cmps, nodeCmps n m = some cmps ∧ ∀ c ∈ cmps, c.Holds (StructEq env) := by
        intro hs
        refine nodeCmps_complete (fun v w hv hw hvw => (structEq_scalars hv hw).2 hvw) hsn hsm ?_
        generalize ha : Val.obj i = a at hs
        generalize hb : Val.obj j = b at hs
        cases structEq_unfold hs with
        | same => cases ha; cases hb; exact absurd rfl hij
        | scalars h1 => cases ha; exact absurd h1 id
        | others h1 => subst ha; exact absurd hijs h1
        | objects h1 h2 h3 =>
          cases ha
          cases hb
          rw [hi] at h1
          rw [hj] at h2
          cases h1
          cases h2
          exact h3
      cases hc : nodeCmps n m with
      | none =>
        rw [hc] at h
        cases h
        refine iff_of_false (by simp) (fun hs => ?_)
        obtain ⟨cmps, h1, _⟩ := hparts hs
        rw [hc] at h1
        cases h1
      | some cmps =>
        rw [hc] at h
        simp only at h
        have hpair : ∀ s v w, .pair s v w ∈ cmps → ∀ r ∈ j :: i :: run,
            (∀ k, v = .obj k → Below env.heap r k) ∨ (∀ k, w = .obj k → Below env.heap r k) := by
          intro s v w hp r hx
          obtain ⟨h1, h2⟩ := mem_nodeCmps hi hj hsn hsm hc hp
          simp only [List.mem_cons] at hx
          rcases hx with rfl | rfl | hx
          · exact Or.inr (fun k hk => .single (h2 k hk))
          · exact Or.inl (fun k hk => .single (h1 k hk))
          · rcases hrun r hx with h | h
            · exact Or.inl (fun k hk => .tail (h i rfl) (h1 k hk))
            · exact Or.inr (fun k hk => .tail (h j rfl) (h2 k hk))
        cases b with
        | true =>
          refine iff_of_true rfl (structEq_fold (.objects hi hj ?_))
          refine nodeCmps_sound (structEq_hole hu) (fun v w hv hw => (structEq_scalars hv hw).1) hsn hsm hc ?_
          intro c hcm
          have := runCmps_true (pyEq_run env f) h c hcm
          cases c with
          | differ => exact this
          | raise e => exact this
          | pair s v w =>
            rcases this with h1 | h1
            · exact Or.inl h1
            · exact Or.inr ((ih v w _ true (hpair s v w hcm) h1).1 rfl)
        | false =>
          refine iff_of_false (by simp) (fun hs => ?_)
          obtain ⟨cmps', h1, h2⟩ := hparts hs
          rw [hc] at h1
          cases h1
          rcases runCmps_false (pyEq_run env f) h with h3 | ⟨s, v, w, h3, h4, h5⟩
          · exact h2 _ h3
          · rcases h2 _ h3 with h6 | h6
            · exact h4 h6
            · exact absurd ((ih v w _ false (hpair s v w h3) h5).2 h6) (by simp)
    · rw [pyEq_mixed env f h'] at h
      cases h
      exact iff_of_false (by simp) (fun hs => h' (structEq_js hs))
    · rw [pyEq_scalars env f h1 h2] at h
      cases h
      rw [scalarEq_iff, structEq_scalars h1 h2]
    · rw [pyEq_others env f h1 h2 h3] at h
      cases hl : env.leaf v w with
      | error e => rw [hl] at h; cases h
      | ok x =>
        rw [hl] at h
        cases h
        constructor
        · rintro rfl
          exact structEq_fold (.others h1 h2 h3 hl)
        · intro hs
          cases structEq_unfold hs with
          | same h4 h5 => exact absurd ⟨_, _, rfl, h4, h5⟩ h1
          | scalars h4 h5 => exact absurd ⟨h4, h5⟩ h3
          | others _ _ _ h4 => rw [hl] at h4; cases h4; rfl
          | objects h4 h5 h6 => exact absurd ⟨_, _, rfl, h4, (alikeNode_js h6).1⟩ h1

/-! ## Exceptions -/

theorem nodeCmps_raise {n m : Node} (hn : NodeSane n) (hm : NodeSane m) {cmps : List Cmp}
    (hc : nodeCmps n m = some cmps) (e : PyExc) : .raise e ∉ cmps := by
  have hobj : ∀ o p : JSObj Val, o.Inv → p.Inv → .raise e ∉ objCmps o p := by
    intro o p ho hp h
    unfold objCmps at h
    by_cases hl : o.len ≠ p.len
    · rw [if_pos hl] at h; simp at h
    rw [if_neg hl] at h
    rcases List.mem_append.1 h with h | h
    · by_cases hl : o.array.len = p.array.len
      · by_cases hu : o.array.used = p.array.used
        · obtain ⟨_, _, _, h⟩ := (mem_arrayCmps ho.arr hp.arr hl hu _).1 h
          cases h
        · unfold arrayCmps at h
          rw [if_neg (by simp [hl]), if_pos hu] at h
          simp at h
      · unfold arrayCmps at h
        rw [if_pos hl] at h
        simp at h
    · unfold dictCmps at h
      by_cases hl : o.props.length ≠ p.props.length
      · rw [if_pos hl] at h; simp at h
      rw [if_neg hl] at h
      obtain ⟨x, _, h⟩ := List.mem_map.1 h
      cases hg : p.props.get x.1 with
      | none => rw [hg] at h; cases h
      | some y => rw [hg] at h; cases h
  intro h
  cases n <;> cases m <;> simp only [nodeCmps, Option.some.injEq, reduceCtorEq] at hc
  case jsobj.jsobj o p => subst hc; exact hobj o p hn.1 hm.1 h
  case jsarr.jsarr o p => subst hc; exact hobj o p hn.1 hm.1 h
  case jsmap.jsobj => subst hc; simp at h
  case jsmap.jsarr => subst hc; simp at h
  case jsmap.jsmap es fs => split at hc <;> (cases hc; simp at h)
  case jsset.jsset ms ns => split at hc <;> (cases hc; simp at h)
  case error.error => subst hc; simp at h

theorem pyEq_exc {env : EqEnv} (hh : HeapOK env.heap) {e : PyExc} : ∀ (f : Nat) (v w : Val) (run : List Id),
    (pyEq env f v w run).1 = .error (.exc e) → ∃ a b, env.leaf a b = .error e := by
  intro f
  induction f with
  | zero => intro v w run h; cases h
  | succ f ih =>
    intro v w run h
    rcases sides env v w with ⟨i, j, n, m, rfl, rfl, hi, hin, hj, hjm⟩ | h' | ⟨h1, h2⟩ | ⟨h1, h2, h3⟩
    · rw [pyEq_tracked env f hi hin hj hjm run] at h
      by_cases hij : i = j
      · rw [if_pos hij] at h; cases h
      rw [if_neg hij] at h
      by_cases hr : i ∈ run ∨ j ∈ run
      · rw [if_pos hr] at h; cases h
      rw [if_neg hr] at h
      cases hc : nodeCmps n m with
      | none => rw [hc] at h; cases h
      | some cmps =>
        rw [hc] at h
        rcases runCmps_error (pyEq_run env f) h with ⟨e', h1, _⟩ | ⟨s, v, w, _, _, h1⟩
        · exact absurd h1 (nodeCmps_raise (heapOK_sane hh hi) (heapOK_sane hh hj) hc e')
        · exact ih v w _ h1
    · rw [pyEq_mixed env f h'] at h; cases h
    · rw [pyEq_scalars env f h1 h2] at h; cases h
    · rw [pyEq_others env f h1 h2 h3] at h
      cases hl : env.leaf v w with
      | ok b => rw [hl] at h; cases h
      | error e' => rw [hl] at h; cases h; exact ⟨v, w, hl⟩

/-! ## Graphs with the same identity structure -/

theorem pyEq_identity {env : EqEnv} (hh : HeapOK env.heap) {P : Id → Id → Prop} (hP : SameIdentity env P) :
    ∀ (f : Nat) (v w : Val) (run : List Id),
    (∀ r ∈ run, ∃ s ∈ run, r ≠ s ∧ (P r s ∨ P s r)) → Corresponding env P v w →
    (pyEq env f v w run).1 = .ok true ∨ (pyEq env f v w run).1 = .error .fuel := by
  intro f
  induction f with
  | zero => intro v w run _ _; exact Or.inr rfl
  | succ f ih =>
    intro v w run hrun hvw
    rcases hvw with ⟨i, j, rfl, rfl, hij⟩ | ⟨h1, h2, h3⟩ | ⟨h1, h2, h3, h4⟩
    · obtain ⟨⟨i', n, e, hi, hin⟩, ⟨j', m, e', hj, hjm⟩⟩ := hP.isJS i j hij
      cases e
      cases e'
      rw [pyEq_tracked env f hi hin hj hjm run]
      by_cases hne : i = j
      · rw [if_pos hne]; exact Or.inl rfl
      rw [if_neg hne]
      have hin' : i ∈ run → j ∈ run := by
        intro h
        obtain ⟨s, hs, h1, h2 | h2⟩ := hrun i h
        · rw [hP.left i j s hij h2]; exact hs
        · exact absurd (hP.both i j s hij h2).symm h1
      have hjn' : j ∈ run → i ∈ run := by
        intro h
        obtain ⟨s, hs, h1, h2 | h2⟩ := hrun j h
        · exact absurd (hP.both j s i h2 hij) hne
        · rw [hP.right i s j hij h2]; exact hs
      by_cases hr : i ∈ run ∨ j ∈ run
      · rw [if_pos hr]
        have h1 : i ∈ run := hr.elim id hjn'
        have h2 : j ∈ run := hin' h1
        left
        simp [h1, h2]
      rw [if_neg hr]
      push Not at hr
      obtain ⟨cmps, hc, hall⟩ := nodeCmps_complete (R := Corresponding env P)
        (fun v w hv hw hvw => Or.inr (Or.inl ⟨hv, hw, hvw⟩)) (heapOK_sane hh hi) (heapOK_sane hh hj)
        (hP.alike i j n m hij hne hi hj)
      rw [hc]
      simp only
      have hrun' : ∀ r ∈ j :: i :: run, ∃ s ∈ j :: i :: run, r ≠ s ∧ (P r s ∨ P s r) := by
        intro r hx
        simp only [List.mem_cons] at hx
        rcases hx with rfl | rfl | hx
        · exact ⟨i, by simp, Ne.symm hne, Or.inr hij⟩
        · exact ⟨j, by simp, hne, Or.inl hij⟩
        · obtain ⟨s, hs, h1⟩ := hrun r hx
          exact ⟨s, by simp [hs], h1⟩
      have hpairs : ∀ s v w, .pair s v w ∈ cmps → ¬ (s = true ∧ isSame v w = true) → Corresponding env P v w := by
        intro s v w hp hs
        rcases hall _ hp with h | h
        · exact absurd h hs
        · exact h
      cases hres : (runCmps (pyEq env f) cmps (j :: i :: run)).1 with
      | error e =>
        rcases runCmps_error (pyEq_run env f) hres with ⟨e, h1, _⟩ | ⟨s, v, w, h1, h2, h3⟩
        · exact absurd (hall _ h1) id
        · rcases ih v w _ hrun' (hpairs s v w h1 h2) with h4 | h4
          · rw [h4] at h3; cases h3
          · rw [h4] at h3; cases h3; exact Or.inr rfl
      | ok b =>
        cases b with
        | true => exact Or.inl rfl
        | false =>
          rcases runCmps_false (pyEq_run env f) hres with h1 | ⟨s, v, w, h1, h2, h3⟩
          · exact absurd (hall _ h1) id
          · rcases ih v w _ hrun' (hpairs s v w h1 h2) with h4 | h4
            · rw [h4] at h3; cases h3
            · rw [h4] at h3; cases h3
    · rw [pyEq_scalars env f h1 h2, scalarEq_iff.2 h3]; exact Or.inl rfl
    · rw [pyEq_others env f h1 h2 h3, h4]; exact Or.inl rfl

/-! ## Cycles through the roots only -/

/-- Where a comparison that started at `a == b` can be. -/
structure AtPlace (a b : Id) (L R : Id → Prop) (rank : Id → Nat) (v w : Val) (run : List Id) : Prop where
  start : run = [] → v = .obj a ∧ w = .obj b
  roots : run ≠ [] → a ∈ run ∧ b ∈ run
  inL : ∀ k, v = .obj k → L k ∧ (k = a ∨ ∀ r ∈ run, L r → rank k < rank r)
  inR : ∀ k, w = .obj k → R k ∧ (k = b ∨ ∀ r ∈ run, R r → rank k < rank r)

theorem pyEq_rootCycles {env : EqEnv} (hh : HeapOK env.heap) (hu : HoleUnique env) {a b : Id} {L R : Id → Prop}
    {rank : Id → Nat} (ho : OnlyRootCycles env.heap a b L R rank) {f0 : Nat}
    (h0 : (pyEq env f0 (.obj a) (.obj b) []).1 = .ok true) : StructEq env (.obj a) (.obj b) := by
  have hstart : AtPlace a b L R rank (.obj a) (.obj b) [] :=
    ⟨fun _ => ⟨rfl, rfl⟩, fun h => absurd rfl h, fun k hk => (by cases hk; exact ⟨ho.rootL, Or.inl rfl⟩),
      fun k hk => (by cases hk; exact ⟨ho.rootR, Or.inl rfl⟩)⟩
  let S : Val → Val → Prop := fun v w => ∃ f run, AtPlace a b L R rank v w run ∧ (pyEq env f v w run).1 = .ok true
  have hroot : S (.obj a) (.obj b) := ⟨f0, [], hstart, h0⟩
  have hmixed : ∀ {f : Nat} {v w : Val} {run : List Id}, (pyEq env f v w run).1 = .ok true →
      (IsJSVal env.heap v ↔ IsJSVal env.heap w) := by
    intro f v w run h
    by_contra hx
    cases f with
    | zero => cases h
    | succ f => rw [pyEq_mixed env f hx] at h; cases h
  have hsc : ∀ v w, IsScalar v → IsScalar w → S v w → EqualScalars v w := by
    rintro v w hv hw ⟨f, run, _, h⟩
    cases f with
    | zero => cases h
    | succ f =>
      rw [pyEq_scalars env f hv hw] at h
      cases hx : scalarEq v w with
      | false => rw [hx] at h; cases h
      | true => exact scalarEq_iff.1 hx
  have hhole : ∀ v, v ≠ .hole → ¬ S v .hole := by
    rintro v hv hs
    by_cases hvs : IsScalar v
    · rcases hsc v .hole hvs trivial hs with ⟨x, _, h, _⟩ | ⟨_, h⟩
      · cases h
      · exact hv h
    · obtain ⟨f, run, _, h⟩ := hs
      have hj := hmixed h
      have h2 : ¬ IsJSVal env.heap .hole := scalar_not_js trivial
      cases f with
      | zero => cases h
      | succ f =>
        rw [pyEq_others env f (fun hx => h2 (hj.1 hx)) h2 (fun hx => hvs hx.1)] at h
        cases hl : env.leaf v .hole with
        | error e => rw [hl] at h; cases h
        | ok x => rw [hl] at h; cases h; exact hu v hv hl
  refine ⟨S, ?_, hroot⟩
  -- one step, once the objects are known not to be running
  have fresh : ∀ {f : Nat} {i j : Id} {n m : Node} {run : List Id}, env.heap[i]? = some n → IsJS n →
      env.heap[j]? = some m → IsJS m → AtPlace a b L R rank (.obj i) (.obj j) run → i ∉ run → j ∉ run → i ≠ j →
      (pyEq env (f + 1) (.obj i) (.obj j) run).1 = .ok true → Alike env S (.obj i) (.obj j) := by
    intro f i j n m run hi hin hj hjm hp hri hrj hij h
    rw [pyEq_tracked env f hi hin hj hjm run, if_neg hij, if_neg (by simp [hri, hrj])] at h
    cases hc : nodeCmps n m with
    | none => rw [hc] at h; cases h
    | some cmps =>
      rw [hc] at h
      simp only at h
      have hsn := heapOK_sane hh hi
      have hsm := heapOK_sane hh hj
      refine .objects hi hj (nodeCmps_sound hhole hsc hsn hsm hc ?_)
      intro c hcm
      have := runCmps_true (pyEq_run env f) h c hcm
      cases c with
      | differ => exact this
      | raise e => exact this
      | pair s v w =>
        rcases this with h1 | h1
        · exact Or.inl h1
        · refine Or.inr ⟨f, _, ?_, h1⟩
          obtain ⟨h2, h3⟩ := mem_nodeCmps hi hj hsn hsm hc hcm
          have hLi := (hp.inL i rfl).1
          have hRj := (hp.inR j rfl).1
          refine ⟨fun e => by simp at e, fun _ => ?_, fun k hk => ?_, fun k hk => ?_⟩
          · by_cases hrun : run = []
            · obtain ⟨e1, e2⟩ := hp.start hrun
              cases e1
              cases e2
              simp
            · obtain ⟨e1, e2⟩ := hp.roots hrun
              simp [e1, e2]
          · have hLk := ho.closedL i k hLi (h2 k hk)
            refine ⟨hLk, ?_⟩
            by_cases hka : k = a
            · exact Or.inl hka
            · have hlt := ho.ranked i k (Or.inl hLi) (h2 k hk) hka (fun e => ho.disjoint k hLk (e ▸ ho.rootR))
              refine Or.inr (fun r hr hLr => ?_)
              simp only [List.mem_cons] at hr
              rcases hr with rfl | rfl | hr
              · exact absurd hRj (ho.disjoint _ hLr)
              · exact hlt
              · rcases (hp.inL i rfl).2 with hia | hia
                · have hne : run ≠ [] := fun e => by rw [e] at hr; cases hr
                  exact absurd (hia ▸ (hp.roots hne).1) hri
                · exact Nat.lt_trans hlt (hia r hr hLr)
          · have hRk := ho.closedR j k hRj (h3 k hk)
            refine ⟨hRk, ?_⟩
            by_cases hkb : k = b
            · exact Or.inl hkb
            · have hlt := ho.ranked j k (Or.inr hRj) (h3 k hk) (fun e => ho.disjoint a ho.rootL (e ▸ hRk)) hkb
              refine Or.inr (fun r hr hRr => ?_)
              simp only [List.mem_cons] at hr
              rcases hr with rfl | rfl | hr
              · exact hlt
              · exact absurd hRr (ho.disjoint _ hLi)
              · rcases (hp.inR j rfl).2 with hjb | hjb
                · have hne : run ≠ [] := fun e => by rw [e] at hr; cases hr
                  exact absurd (hjb ▸ (hp.roots hne).2) hrj
                · exact Nat.lt_trans hlt (hjb r hr hRr)
  rintro v w ⟨f, run, hp, h⟩
  cases f with
  | zero => cases h
  | succ f =>
    rcases sides env v w with ⟨i, j, n, m, rfl, rfl, hi, hin, hj, hjm⟩ | h' | ⟨h1, h2⟩ | ⟨h1, h2, h3⟩
    · have hij : i ≠ j := by
        rintro rfl
        exact ho.disjoint i (hp.inL i rfl).1 (hp.inR i rfl).1
      by_cases hr : i ∈ run ∨ j ∈ run
      · have hboth : i ∈ run ∧ j ∈ run := by
          rw [pyEq_tracked env f hi hin hj hjm run, if_neg hij, if_pos hr] at h
          simpa using h
        have hia : i = a := by
          rcases (hp.inL i rfl).2 with e | e
          · exact e
          · exact absurd (e i hboth.1 (hp.inL i rfl).1) (Nat.lt_irrefl _)
        have hjb : j = b := by
          rcases (hp.inR j rfl).2 with e | e
          · exact e
          · exact absurd (e j hboth.2 (hp.inR j rfl).1) (Nat.lt_irrefl _)
        subst hia
        subst hjb
        cases f0 with
        | zero => cases h0
        | succ f0 => exact fresh hi hin hj hjm hstart (by simp) (by simp) hij h0
      · push Not at hr
        exact fresh hi hin hj hjm hp hr.1 hr.2 hij h
    · rw [pyEq_mixed env f h'] at h; cases h
    · exact .scalars h1 h2 (hsc v w h1 h2 ⟨f + 1, run, hp, h⟩)
    · rw [pyEq_others env f h1 h2 h3] at h
      cases hl : env.leaf v w with
      | error e => rw [hl] at h; cases h
      | ok x => rw [hl] at h; cases h; exact .others h1 h2 h3 hl

end V8
