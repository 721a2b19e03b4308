import Verif.Proofs.RecursiveEqMain

/-!
# C34: `==` on graphs of JavaScript objects

`pyEqTop env v w` is `v == w` called from outside any comparison: the answer or exception, and what is
left in `_RUNNING_EQ_KEYS`.  `Spec/StructEq.lean` says what structural equality is.
-/

namespace V8.Props
open Spec

/-- A heap for the examples: 0 and 1 are `{n: <object 2>, v: 1}` and `{v: 1.0, n: <object 3>}`, 2 and 3
are the Maps `{"k" => true}` and `{"k" => 1}`; 4 is `{n: <object 2>, v: 2}`. -/
def eqExample : EqEnv where
  heap := [.jsobj ⟨.dense ⟨[], 0⟩, [(str "n", .obj 2), (str "v", .int 1)]⟩,
    .jsobj ⟨.dense ⟨[], 0⟩, [(str "v", .float 0x3FF0000000000000), (str "n", .obj 3)]⟩,
    .jsmap [(.str (str "k"), .bool true)], .jsmap [(.str (str "k"), .int 1)],
    .jsobj ⟨.dense ⟨[], 0⟩, [(str "n", .obj 2), (str "v", .int 2)]⟩]
  leaf := fun _ _ => .ok false

/-- A heap with cycles.  0 is `{n: 1, v: 1}`, 1 is `{n: 0, v: 2}`; 2 and 3 are a copy of these; 4 is
`{n: 5, v: 1}` and 5 is `{n: 5, v: 2}`. -/
def eqCyclic : EqEnv where
  heap := [node 1 1, node 0 2, node 3 1, node 2 2, node 5 1, node 5 2]
  leaf := fun _ _ => .ok false
where
  node (next : Id) (v : Int) : Node := .jsobj ⟨.dense ⟨[], 0⟩, [(str "n", .obj next), (str "v", .int v)]⟩

/-- Comparing ends on every heap, cyclic or not: calls of `==` are nested at most as deep as there are
objects (plus one), whatever is compared; allowing more nesting changes nothing. -/
theorem C34_terminates (env : EqEnv) (v w : Val) :
    (pyEqTop env v w).1 ≠ .error .fuel ∧
    ∀ depth, env.heap.length + 1 ≤ depth → pyEq env depth v w [] = pyEqTop env v w := by
  have h0 : (pyEqTop env v w).1 ≠ .error .fuel := by
    refine pyEq_fuel env _ v w [] List.nodup_nil (by simp) ?_
    simp
  refine ⟨h0, fun depth hd => ?_⟩
  obtain ⟨k, rfl⟩ := Nat.exists_eq_add_of_le hd
  clear hd
  have : ∀ k, (pyEq env (env.heap.length + 1 + k) v w []).1 = (pyEqTop env v w).1 := by
    intro k
    induction k with
    | zero => rfl
    | succ k ih =>
      rw [← ih]
      exact pyEq_more env (env.heap.length + 1 + k) v w [] (by rw [ih]; exact h0)
  refine Prod.ext (this k) ?_
  rw [pyEq_run]
  exact (pyEq_run env _ v w []).symm

/-- Comparing leaves nothing behind: whatever was in the set before (other comparisons may be under
way), the same is in it afterwards, also when the comparison raises.  Hence a second comparison
answers the same as the first. -/
theorem C34_no_residue (env : EqEnv) (depth : Nat) (v w : Val) (running : List Id) :
    (pyEq env depth v w running).2 = running ∧
    pyEq env depth v w (pyEq env depth v w running).2 = pyEq env depth v w running := by
  rw [pyEq_run]
  exact ⟨rfl, rfl⟩

/-- There is an answer, unless `==` of some class outside the model raises; then that exception comes
out. -/
theorem C34_answers (env : EqEnv) (hh : HeapOK env.heap) (v w : Val) :
    (∃ b, (pyEqTop env v w).1 = .ok b) ∨
    ∃ e a b, (pyEqTop env v w).1 = .error (.exc e) ∧ env.leaf a b = .error e := by
  cases h : (pyEqTop env v w).1 with
  | ok b => exact Or.inl ⟨b, rfl⟩
  | error e =>
    cases e with
    | fuel => exact absurd h (C34_terminates env v w).1
    | exc e =>
      obtain ⟨a, b, hl⟩ := pyEq_exc hh _ v w [] h
      exact Or.inr ⟨e, a, b, rfl, hl⟩

/-- Without cycles the answer is structural equality.  Missing for the full claim: graphs with
cycles, where the answer True can be wrong (`C34_cyclic_wrong`). -/
theorem C34_structural_partial (env : EqEnv) (hh : HeapOK env.heap) (hu : HoleUnique env) (ha : Acyclic env.heap)
    (v w : Val) (b : Bool) (h : (pyEqTop env v w).1 = .ok b) : b = true ↔ StructEq env v w := by
  obtain ⟨rank, hr⟩ := ha
  exact pyEq_acyclic hh hu hr _ v w [] b (by simp) h

/-- When the cycles of the two graphs all go through the objects that are compared, the answer True is
right.  Missing for the full claim: other cyclic graphs. -/
theorem C34_root_cycles_partial (env : EqEnv) (hh : HeapOK env.heap) (hu : HoleUnique env) (a b : Id) (L R : Id → Prop)
    (rank : Id → Nat) (ho : OnlyRootCycles env.heap a b L R rank) (h : (pyEqTop env (.obj a) (.obj b)).1 = .ok true) :
    StructEq env (.obj a) (.obj b) :=
  pyEq_rootCycles hh hu ho h

/-- Graphs with the same object-identity structure are equal, with or without cycles: if the objects of
the two sides correspond one to one and corresponding objects have alike contents, the answer is True. -/
theorem C34_same_identity (env : EqEnv) (hh : HeapOK env.heap) (P : Id → Id → Prop) (hP : SameIdentity env P)
    (v w : Val) (h : Corresponding env P v w) : pyEqTop env v w = (.ok true, []) := by
  refine Prod.ext ?_ (pyEq_run env _ v w [])
  rcases pyEq_identity hh hP _ v w [] (by simp) h with h1 | h1
  · exact h1
  · exact absurd h1 (C34_terminates env v w).1

/-- Any object of these classes equals itself, however it is connected. -/
theorem C34_reflexive (env : EqEnv) (i : Id) (hi : IsJSVal env.heap (.obj i)) : pyEqTop env (.obj i) (.obj i) = (.ok true, []) := by
  obtain ⟨k, n, e, h1, h2⟩ := hi
  cases e
  refine Prod.ext ?_ (pyEq_run env _ _ _ [])
  show (pyEq env (env.heap.length + 1) (.obj i) (.obj i) []).1 = .ok true
  rw [pyEq_tracked env _ h1 h2 h1 h2, if_pos rfl]

/-- On cyclic graphs the answer True can be wrong: `a = {n: b, v: 1}`, `b = {n: a, v: 2}` compares equal to
`a' = {n: b', v: 1}`, `b' = {n: b', v: 2}`, although `a.n.n.v` is 1 and `a'.n.n.v` is 2.  (The set of
running comparisons does not record which object is compared with which.) -/
theorem C34_cyclic_wrong :
    pyEqTop eqCyclic (.obj 0) (.obj 4) = (.ok true, []) ∧ ¬ StructEq eqCyclic (.obj 0) (.obj 4) := by
  refine ⟨by decide +kernel, fun h => ?_⟩
  have step : ∀ {i j a b : Id} {x y : Int}, eqCyclic.heap[i]? = some (eqCyclic.node a x) →
      eqCyclic.heap[j]? = some (eqCyclic.node b y) → i ≠ j → StructEq eqCyclic (.obj i) (.obj j) →
      SameOr (StructEq eqCyclic) (.obj a) (.obj b) ∧ SameOr (StructEq eqCyclic) (.int x) (.int y) := by
    intro i j a b x y hi hj hij h
    generalize hv : Val.obj i = v at h
    generalize hw : Val.obj j = w at h
    cases structEq_unfold h with
    | same => cases hv; cases hw; exact absurd rfl hij
    | scalars h1 => cases hv; exact absurd h1 id
    | others h1 => cases hv; exact absurd ⟨_, _, rfl, hi, trivial⟩ h1
    | objects h1 h2 h3 =>
      cases hv
      cases hw
      rw [hi] at h1
      rw [hj] at h2
      cases h1
      cases h2
      cases h3 with
      | object e => exact ⟨e.2.2 (str "n"), e.2.2 (str "v")⟩
  obtain ⟨h1, _⟩ := step (i := 0) (j := 4) rfl rfl (by decide) h
  rcases h1 with ⟨_, e, e'⟩ | h1
  · cases e; cases e'
  obtain ⟨h2, _⟩ := step (i := 1) (j := 5) rfl rfl (by decide) h1
  rcases h2 with ⟨_, e, e'⟩ | h2
  · cases e; cases e'
  obtain ⟨_, h3⟩ := step (i := 0) (j := 5) rfl rfl (by decide) h2
  rcases h3 with ⟨_, e, _⟩ | h3
  · cases e
  · have := (structEq_scalars (v := .int 1) (w := .int 2) trivial trivial).1 h3
    rw [← scalarEq_iff] at this
    exact absurd this (by decide +kernel)

/-! ## The hypotheses can be met -/

/-- A heap of objects without elements is in order. -/
theorem heapOK_of {h : Heap} (hall : ∀ n ∈ h, ∀ o, n = .jsobj o ∨ n = .jsarr o →
    o.array = .dense ⟨[], 0⟩ ∧ o.props.keys.Nodup ∧ ∀ e ∈ o.props, e.2 ≠ .hole) : HeapOK h := by
  intro i o hi
  have hm : ∃ n ∈ h, n = .jsobj o ∨ n = .jsarr o := by
    rcases hi with hi | hi
    · exact ⟨_, List.mem_of_getElem? hi, Or.inl rfl⟩
    · exact ⟨_, List.mem_of_getElem? hi, Or.inr rfl⟩
  obtain ⟨n, hn, hno⟩ := hm
  obtain ⟨h1, h2, h3⟩ := hall n hn o hno
  refine ⟨⟨by rw [h1]; rfl, h2⟩, fun k => ?_⟩
  cases k with
  | idx k => simp [JSObj.lookup, h1, Arr.abs]
  | name s =>
    intro hk
    exact h3 _ (Dict.mem_of_get _ _ _ hk) rfl

theorem eqExample_ok : HeapOK eqExample.heap := by
  refine heapOK_of (fun n hn o ho => ?_)
  simp only [eqExample, List.mem_cons, List.not_mem_nil, or_false] at hn
  rcases hn with rfl | rfl | rfl | rfl | rfl <;> rcases ho with ho | ho <;> cases ho <;>
    exact ⟨rfl, by decide +kernel, by decide +kernel⟩

theorem eqCyclic_ok : HeapOK eqCyclic.heap := by
  refine heapOK_of (fun n hn o ho => ?_)
  simp only [eqCyclic, eqCyclic.node, List.mem_cons, List.not_mem_nil, or_false] at hn
  rcases hn with rfl | rfl | rfl | rfl | rfl | rfl <;> rcases ho with ho | ho <;> cases ho <;>
    exact ⟨rfl, by decide +kernel, by decide +kernel⟩

/-- Rank of the objects of `eqExample`: Objects above Maps. -/
def exampleRank (i : Id) : Nat := if i = 2 ∨ i = 3 then 0 else 1

theorem eqExample_acyclic : Acyclic eqExample.heap := by
  have key : ∀ i n, eqExample.heap[i]? = some n → ∀ j, Inside eqExample.heap i (.obj j) → exampleRank j < exampleRank i := by
    intro i n hi j hin
    have hlt : (i : Nat) < 5 := (List.getElem?_eq_some_iff.1 hi).1
    have props : ∀ (o : JSObj Val) (k : PKey), o.array = .dense ⟨[], 0⟩ → o.lookup k = some (.obj j) → ∃ e ∈ o.props, e.2 = .obj j := by
      intro o k ho hk
      cases k with
      | idx k => simp [JSObj.lookup, ho, Arr.abs] at hk
      | name s => exact ⟨_, Dict.mem_of_get _ _ _ hk, rfl⟩
    have hcase : ∀ x : Nat, x < 5 → x = 0 ∨ x = 1 ∨ x = 2 ∨ x = 3 ∨ x = 4 := by omega
    replace hcase := hcase i hlt
    generalize hv : Val.obj j = v at hin
    rcases hcase with rfl | rfl | rfl | rfl | rfl <;> cases hin with
    | prop h1 h2 =>
      rcases h1 with h1 | h1 <;> cases h1 <;>
      · subst hv
        obtain ⟨e, he, hj⟩ := props _ _ rfl h2
        simp only [List.mem_cons, List.not_mem_nil, or_false] at he
        rcases he with rfl | rfl <;> cases hj <;> decide
    | entryKey h1 h2 =>
      cases h1 <;>
      · simp only [List.mem_cons, List.not_mem_nil, or_false] at h2
        subst h2
        cases hv
    | entryValue h1 h2 =>
      cases h1 <;>
      · simp only [List.mem_cons, List.not_mem_nil, or_false] at h2
        subst h2
        cases hv
    | member h1 => cases h1
    | cause h1 => cases h1
  refine ⟨exampleRank, fun i j hin => ?_⟩
  obtain ⟨k, n, e, h1, _⟩ := inside_js hin
  cases e
  exact key i n h1 j hin

/-- The copy of the cycle: 0 corresponds to 2, 1 to 3. -/
def copyPairs (i j : Id) : Prop := (i = 0 ∧ j = 2) ∨ (i = 1 ∧ j = 3)

theorem eqCyclic_copy : SameIdentity eqCyclic copyPairs where
  isJS := by
    rintro i j (⟨rfl, rfl⟩ | ⟨rfl, rfl⟩) <;> exact ⟨⟨_, _, rfl, rfl, trivial⟩, ⟨_, _, rfl, rfl, trivial⟩⟩
  alike := by
    have key : ∀ (a b : Id) (x : Int), copyPairs a b →
        AlikeNode (Corresponding eqCyclic copyPairs) (eqCyclic.node a x) (eqCyclic.node b x) := by
      intro a b x hab
      refine .object ⟨rfl, fun k => trivial, fun s => ?_⟩
      by_cases h1 : s = str "n"
      · subst h1
        exact Or.inr (Or.inl ⟨a, b, rfl, rfl, hab⟩)
      by_cases h2 : s = str "v"
      · subst h2
        exact Or.inr (Or.inr (Or.inl ⟨trivial, trivial, Or.inl ⟨_, rfl, rfl, fun h => by cases h⟩⟩))
      have : ∀ a : Id, (JSObj.mk (.dense ⟨[], 0⟩) [(str "n", Val.obj a), (str "v", .int x)]).lookup (.name s) = none := by
        intro a
        simp [JSObj.lookup, Dict.get, Ne.symm h1, Ne.symm h2]
      rw [this, this]
      trivial
    rintro i j n m (⟨rfl, rfl⟩ | ⟨rfl, rfl⟩) _ hi hj
    · cases hi; cases hj
      exact key 1 3 1 (Or.inr ⟨rfl, rfl⟩)
    · cases hi; cases hj
      exact key 0 2 2 (Or.inl ⟨rfl, rfl⟩)
  left := by rintro i j j' (⟨rfl, rfl⟩ | ⟨rfl, rfl⟩) (⟨h, rfl⟩ | ⟨h, rfl⟩) <;> first | rfl | cases h
  right := by rintro i i' j (⟨rfl, rfl⟩ | ⟨rfl, rfl⟩) (⟨rfl, h⟩ | ⟨rfl, h⟩) <;> first | rfl | cases h
  both := by rintro i j k (⟨rfl, rfl⟩ | ⟨rfl, rfl⟩) (⟨rfl, h⟩ | ⟨rfl, h⟩) <;> cases h

example : pyEqTop eqCyclic (.obj 0) (.obj 2) = (.ok true, []) :=
  C34_same_identity eqCyclic eqCyclic_ok copyPairs eqCyclic_copy _ _ (Or.inl ⟨0, 2, rfl, rfl, Or.inl ⟨rfl, rfl⟩⟩)

theorem eqCyclic_inside {i : Id} {v : Val} (h : Inside eqCyclic.heap i v) : ∀ j, v = .obj j →
    (i = 0 ∧ j = 1) ∨ (i = 1 ∧ j = 0) ∨ (i = 2 ∧ j = 3) ∨ (i = 3 ∧ j = 2) ∨ (i = 4 ∧ j = 5) ∨ (i = 5 ∧ j = 5) := by
  intro j hv
  obtain ⟨k, n, e, hi, _⟩ := inside_js h
  cases e
  have hlt : (i : Nat) < 6 := (List.getElem?_eq_some_iff.1 hi).1
  have hcase : ∀ x : Nat, x < 6 → x = 0 ∨ x = 1 ∨ x = 2 ∨ x = 3 ∨ x = 4 ∨ x = 5 := by omega
  replace hcase := hcase i hlt
  have next : ∀ (a : Id) (x : Int) (o : JSObj Val) (k : PKey), eqCyclic.node a x = .jsobj o → o.lookup k = some v → j = a := by
    intro a x o k ho hk
    cases ho
    subst hv
    cases k with
    | idx k => simp [JSObj.lookup, Arr.abs] at hk
    | name s =>
      obtain hm := Dict.mem_of_get _ _ _ hk
      simp only [List.mem_cons, Prod.mk.injEq, Val.obj.injEq, reduceCtorEq, and_false, List.not_mem_nil, or_false] at hm
      exact hm.2
  cases h with
  | prop h1 h2 =>
    rcases hcase with rfl | rfl | rfl | rfl | rfl | rfl <;> rcases h1 with h1 | h1 <;> cases h1 <;>
      · have := next _ _ _ _ rfl h2
        subst this
        simp
  | entryKey h1 => rcases hcase with rfl | rfl | rfl | rfl | rfl | rfl <;> cases h1
  | entryValue h1 => rcases hcase with rfl | rfl | rfl | rfl | rfl | rfl <;> cases h1
  | member h1 => rcases hcase with rfl | rfl | rfl | rfl | rfl | rfl <;> cases h1
  | cause h1 => rcases hcase with rfl | rfl | rfl | rfl | rfl | rfl <;> cases h1

/-- The two copies of the cycle `0 → 1 → 0` meet the hypotheses of `C34_root_cycles_partial`. -/
theorem eqCyclic_root : OnlyRootCycles eqCyclic.heap 0 2 (fun i => i = 0 ∨ i = 1) (fun i => i = 2 ∨ i = 3)
    (fun i => if i = 0 ∨ i = 2 then 1 else 0) := by
  refine ⟨Or.inl rfl, Or.inl rfl, ?_, ?_, ?_, ?_⟩
  · rintro i (rfl | rfl) (h | h) <;> cases h
  · rintro i j hi h
    rcases eqCyclic_inside h j rfl with ⟨rfl, rfl⟩ | ⟨rfl, rfl⟩ | ⟨rfl, rfl⟩ | ⟨rfl, rfl⟩ | ⟨rfl, rfl⟩ | ⟨rfl, rfl⟩ <;>
      revert hi <;> decide
  · rintro i j hi h
    rcases eqCyclic_inside h j rfl with ⟨rfl, rfl⟩ | ⟨rfl, rfl⟩ | ⟨rfl, rfl⟩ | ⟨rfl, rfl⟩ | ⟨rfl, rfl⟩ | ⟨rfl, rfl⟩ <;>
      revert hi <;> decide
  · rintro i j hi h
    rcases eqCyclic_inside h j rfl with ⟨rfl, rfl⟩ | ⟨rfl, rfl⟩ | ⟨rfl, rfl⟩ | ⟨rfl, rfl⟩ | ⟨rfl, rfl⟩ | ⟨rfl, rfl⟩ <;>
      revert hi <;> decide

example : StructEq eqCyclic (.obj 0) (.obj 2) :=
  C34_root_cycles_partial eqCyclic eqCyclic_ok (fun _ _ h => by cases h) 0 2 _ _ _ eqCyclic_root (by decide +kernel)

example : StructEq eqExample (.obj 0) (.obj 1) :=
  (C34_structural_partial eqExample eqExample_ok (fun _ _ h => by cases h) eqExample_acyclic _ _ true (by decide +kernel)).1 rfl

example : pyEqTop eqExample (.obj 0) (.obj 1) = (.ok true, []) := by decide +kernel
example : pyEqTop eqExample (.obj 0) (.obj 4) = (.ok false, []) := by decide +kernel
example : HoleUnique eqExample := fun _ _ h => by cases h

example : pyEqTop eqCyclic (.obj 0) (.obj 2) = (.ok true, []) := by decide +kernel
example : pyEqTop eqCyclic (.obj 0) (.obj 1) = (.ok false, []) := by decide +kernel

end V8.Props
