import Verif.Spec.Repr
import Verif.Proofs.RoundTripObject
import Verif.Proofs.EncodeSize
import Verif.Proofs.SetAlgebra
import Verif.Props.ObjectMixins

/-!
# Evaluating what `repr` prints
-/

namespace V8
open Spec

/-! ## Heaps that grow -/

/-- The second heap is the first with more objects. -/
def Ext (h h' : Heap) : Prop := ∃ t, h' = h ++ t

theorem Ext.refl (h : Heap) : Ext h h := ⟨[], by simp⟩

theorem Ext.trans {a b c : Heap} (h1 : Ext a b) (h2 : Ext b c) : Ext a c := by
  obtain ⟨t, rfl⟩ := h1
  obtain ⟨u, rfl⟩ := h2
  exact ⟨t ++ u, by simp⟩

theorem Ext.push (h : Heap) (n : Node) : Ext h (h ++ [n]) := ⟨[n], rfl⟩

theorem Ext.length {a b : Heap} (h : Ext a b) : a.length ≤ b.length := by
  obtain ⟨t, rfl⟩ := h; simp

theorem Ext.get {a b : Heap} (h : Ext a b) {i : Id} {n : Node} (hi : a[i]? = some n) : b[i]? = some n := by
  obtain ⟨t, rfl⟩ := h
  rw [List.getElem?_append_left (List.getElem?_eq_some_iff.mp hi).1]
  exact hi

theorem CopyNode.mono {R S : Val → Val → Prop} (h : ∀ v w, R v w → S v w) {n m : Node} (hn : CopyNode R n m) :
    CopyNode S n m := by
  cases hn with
  | object h1 h2 => exact .object h1 (h2.imp fun _ _ e => ⟨e.1, h _ _ e.2⟩)
  | array h1 h2 => exact .array h1 (h2.imp fun _ _ e => ⟨e.1, h _ _ e.2⟩)
  | map h1 => exact .map (h1.imp fun _ _ e => ⟨h _ _ e.1, h _ _ e.2⟩)
  | set h1 => exact .set (h1.imp fun _ _ e => h _ _ e)
  | error h1 => exact .error (h _ _ h1)

theorem CopyAt.grow {H H' : Heap} (h : Ext H H') : ∀ (l : Nat) (v w : Val), CopyAt H l v w → CopyAt H' l v w
  | 0, _, _, h1 => h1.elim
  | l + 1, v, w, h1 => by
    rcases h1 with h1 | ⟨i, j, n, m, rfl, rfl, h2, h3, h4⟩
    · exact .inl h1
    · exact .inr ⟨i, j, n, m, rfl, rfl, h.get h2, h.get h3, CopyNode.mono (CopyAt.grow h l) h4⟩

/-! ## Lists of expressions -/

/-- The value made of `v`: the same scalar, or an object allocated between two sizes of the heap. -/
def Kind (lo hi : Nat) (v w : Val) : Prop :=
  (IsScalar v ∧ w = v) ∨ ∃ i j, v = .obj i ∧ w = .obj j ∧ lo ≤ j ∧ j < hi

theorem Kind.mono {lo hi lo' hi' : Nat} (h1 : lo' ≤ lo) (h2 : hi ≤ hi') {v w : Val} (h : Kind lo hi v w) : Kind lo' hi' v w := by
  rcases h with h | ⟨i, j, e1, e2, e3, e4⟩
  · exact .inl h
  · exact .inr ⟨i, j, e1, e2, Nat.le_trans h1 e3, Nat.lt_of_lt_of_le e4 h2⟩

/-- Refers at most to objects allocated between two sizes of the heap. -/
def InRange (lo hi : Nat) (v : Val) : Prop := ∀ j, v = .obj j → lo ≤ j ∧ j < hi

/-- Well-formed contents that refer to objects in a range. -/
def NodeNew (lo hi : Nat) : Node → Prop
  | .jsobj o | .jsarr o => o.Inv ∧ ∀ e ∈ o.items, e.2 ≠ .hole ∧ InRange lo hi e.2
  | .jsmap es => ∀ e ∈ es, InRange lo hi e.1 ∧ InRange lo hi e.2
  | .jsset ms => ∀ v ∈ ms, InRange lo hi v
  | .error _ _ _ c => InRange lo hi c
  | _ => False

/-- The objects from `lo` on are well-formed and refer to such objects allocated before them. -/
def FreshFrom (lo : Nat) (h : Heap) : Prop := ∀ (i : Nat) n, lo ≤ i → h[i]? = some n → NodeNew lo i n

theorem FreshFrom.push {lo : Nat} {h : Heap} {m : Node} (hf : FreshFrom lo h) (hm : NodeNew lo h.length m) :
    FreshFrom lo (h ++ [m]) := by
  intro i n hi hn
  rcases Nat.lt_or_ge i h.length with h1 | h1
  · rw [List.getElem?_append_left h1] at hn
    exact hf i n hi hn
  · obtain ⟨h2, h3⟩ := List.getElem?_eq_some_iff.mp hn
    have : i = h.length := by simp at h2; omega
    subst this
    simp at h3
    rw [← h3]; exact hm

theorem Kind.inRange {lo lo' hi : Nat} (h1 : lo' ≤ lo) {v w : Val} (h : Kind lo hi v w) : InRange lo' hi w := by
  intro j hj
  rcases h with ⟨h2, h3⟩ | ⟨i, k, h2, h3, h4, h5⟩
  · rw [← h3, hj] at h2; exact h2.elim
  · rw [h3, Val.obj.injEq] at hj
    subst hj
    exact ⟨Nat.le_trans h1 h4, h5⟩

/-- The expression printed for `v` evaluates to a copy. -/
def Evaluates (H0 : Heap) (l : Nat) (ev : PExpr → Heap → Except EvalError (Val × Heap)) (sub : Val → PExpr) (v : Val) : Prop :=
  ∀ h, Ext H0 h → ∃ w h', ev (sub v) h = .ok (w, h') ∧ Ext h h' ∧ CopyAt h' l v w ∧ Kind h.length h'.length v w ∧
    (FreshFrom H0.length h → FreshFrom H0.length h')

/-- The values made of a list of values. -/
structure MadeAll (lo : Nat) (l : Nat) (h h' : Heap) (vs ws : List Val) : Prop where
  grown : Ext h h'
  copies : List.Forall₂ (CopyAt h' l) vs ws
  kinds : List.Forall₂ (Kind h.length h'.length) vs ws
  apart : ws.Pairwise (fun a b => ∀ i j, a = .obj i → b = .obj j → i < j)
  fresh : FreshFrom lo h → FreshFrom lo h'

theorem MadeAll.nil (lo l : Nat) (h : Heap) : MadeAll lo l h h [] [] := ⟨Ext.refl h, .nil, .nil, .nil, id⟩

theorem MadeAll.bounds {lo l : Nat} {h h' : Heap} {vs ws : List Val} (hm : MadeAll lo l h h' vs ws) :
    ∀ w ∈ ws, ∀ i, w = .obj i → h.length ≤ i ∧ i < h'.length := by
  have := hm.kinds
  clear hm
  induction this with
  | nil => simp
  | cons h1 _ ih =>
    intro w hw i hi
    rcases List.mem_cons.mp hw with rfl | hw
    · rcases h1 with ⟨h2, h3⟩ | ⟨a, j, rfl, h3, h4, h5⟩
      · rw [← h3, hi] at h2; exact h2.elim
      · rw [h3, Val.obj.injEq] at hi; subst hi; exact ⟨h4, h5⟩
    · exact ih w hw i hi

theorem MadeAll.append {lo l : Nat} {h h1 h2 : Heap} {vs ws vs' ws' : List Val} (a : MadeAll lo l h h1 vs ws)
    (b : MadeAll lo l h1 h2 vs' ws') : MadeAll lo l h h2 (vs ++ vs') (ws ++ ws') := by
  refine ⟨a.grown.trans b.grown, ?_, ?_, ?_, fun hf => b.fresh (a.fresh hf)⟩
  · exact Forall₂.append (a.copies.imp fun _ _ => CopyAt.grow b.grown l _ _) b.copies
  · exact Forall₂.append (a.kinds.imp fun _ _ => Kind.mono (Nat.le_refl _) b.grown.length)
      (b.kinds.imp fun _ _ => Kind.mono a.grown.length (Nat.le_refl _))
  · rw [List.pairwise_append]
    refine ⟨a.apart, b.apart, ?_⟩
    intro x hx y hy i j hi hj
    exact Nat.lt_of_lt_of_le (a.bounds x hx i hi).2 (b.bounds y hy j hj).1

theorem evalList_made {H0 : Heap} {l : Nat} {ev : PExpr → Heap → Except EvalError (Val × Heap)} {sub : Val → PExpr}
    (vs : List Val) (hv : ∀ v ∈ vs, Evaluates H0 l ev sub v) :
    ∀ h, Ext H0 h → ∃ ws h', evalList ev (vs.map sub) h = .ok (ws, h') ∧ MadeAll H0.length l h h' vs ws := by
  induction vs with
  | nil => intro h _; exact ⟨[], h, rfl, MadeAll.nil _ l h⟩
  | cons v t ih =>
    intro h hh
    obtain ⟨w, h1, e1, e2, e3, e4, e5⟩ := hv v List.mem_cons_self h hh
    obtain ⟨ws, h2, f1, f2⟩ := ih (fun v hv' => hv v (List.mem_cons_of_mem _ hv')) h1 (hh.trans e2)
    refine ⟨w :: ws, h2, ?_, ?_⟩
    · simp only [List.map_cons, evalList, e1, f1]
    · exact MadeAll.append (vs := [v]) (ws := [w])
        ⟨e2, .cons e3 .nil, .cons e4 .nil, List.pairwise_singleton _ _, e5⟩ f2

theorem MadeAll.not_hole {lo l : Nat} {h h' : Heap} {vs ws : List Val} (hm : MadeAll lo l h h' vs ws)
    (hv : ∀ v ∈ vs, v ≠ .hole) : ∀ w ∈ ws, w ≠ .hole := by
  have := hm.kinds
  clear hm
  induction this with
  | nil => simp
  | cons h1 _ ih =>
    intro w hw
    rcases List.mem_cons.mp hw with rfl | hw
    · rcases h1 with ⟨_, h3⟩ | ⟨a, j, _, h3, _, _⟩
      · rw [h3]; exact hv _ List.mem_cons_self
      · rw [h3]; simp
    · exact ih (fun v hv' => hv v (List.mem_cons_of_mem _ hv')) w hw

theorem MadeAll.elems {lo l : Nat} {h h' : Heap} {els : List (Option Val)} {ws : List Val}
    (hm : MadeAll lo l h h' (els.map elemVal) ws) (hv : ∀ v, some v ∈ els → v ≠ .hole) :
    List.Forall₂ (fun a b => (a = none ∧ b = none) ∨ ∃ x y, a = some x ∧ b = some y ∧ CopyAt h' l x y)
      els (ws.map Val.toElem) := by
  have hk := hm.kinds
  have hc := hm.copies
  clear hm
  induction els generalizing ws with
  | nil => cases hk; exact .nil
  | cons a t ih =>
    cases hk with
    | cons k1 k2 =>
      cases hc with
      | cons c1 c2 =>
        refine .cons ?_ (ih (fun v hv' => hv v (List.mem_cons_of_mem _ hv')) k2 c2)
        cases a with
        | none =>
          left
          rcases k1 with ⟨_, h3⟩ | ⟨a, j, h2, _⟩
          · rw [h3]; exact ⟨rfl, rfl⟩
          · simp [elemVal] at h2
        | some x =>
          right
          rename_i w _
          refine ⟨x, w, rfl, ?_, c1⟩
          have hx := hv x List.mem_cons_self
          rcases k1 with ⟨_, h3⟩ | ⟨a, j, _, h3, _⟩
          · rw [h3]; exact toElem_ne hx
          · rw [h3]; rfl

/-! ## Objects -/

theorem update_split (o : JSObj Val) (p k : List (PKey × Option Val)) (o' : JSObj Val) (h : o.update (p ++ k) = (o', none)) :
    ∃ o1, o.update p = (o1, none) ∧ o1.update k = (o', none) := by
  induction p generalizing o with
  | nil => exact ⟨o, rfl, h⟩
  | cons e t ih =>
    obtain ⟨a, v⟩ := e
    simp only [List.cons_append, JSObj.update] at h ⊢
    cases hs : o.setitem a v with
    | mk o1 x =>
      rw [hs] at h
      cases x with
      | none => exact ih o1 h
      | some e => simp at h

theorem ofPairs_of_update {p k : List (PKey × Option Val)} {o' : JSObj Val}
    (h : JSObj.empty.update (p ++ k) = (o', none)) : JSObj.ofPairs p k = (o', none) := by
  obtain ⟨o1, h1, h2⟩ := update_split _ _ _ _ h
  unfold JSObj.ofPairs
  rw [h1]
  exact h2

/-- The length of the array after assignments to indexes. -/
def lengthAfter (n : Nat) (l : List (PKey × Val)) : Nat :=
  l.foldl (fun n e => match e.1 with | .idx k => max n (k + 1) | .name _ => n) n

theorem update_length (l : List (PKey × Val)) : ∀ (o o' : JSObj Val), o.Good → (∀ e ∈ l, e.1.Valid) →
    o.update (assigns l) = (o', none) → o'.array.abs.length = lengthAfter o.array.abs.length l := by
  induction l with
  | nil =>
    intro o o' _ _ h
    simp only [assigns, List.map_nil, JSObj.update, Prod.mk.injEq, and_true] at h
    rw [h]; rfl
  | cons e t ih =>
    obtain ⟨k, v⟩ := e
    intro o o' hg hv h
    have hk := hv (k, v) List.mem_cons_self
    obtain ⟨o1, h1, h2⟩ := hg.put k hk v
    simp only [assigns, List.map_cons, JSObj.update] at h
    rw [h1] at h
    rw [ih o1 o' h2 (fun e he => hv e (List.mem_cons_of_mem _ he)) h]
    unfold lengthAfter
    rw [List.foldl_cons]
    congr 1
    cases k with
    | name s =>
      simp only [JSObj.setitem, Prod.mk.injEq, and_true] at h1
      rw [← h1]
    | idx n =>
      obtain ⟨_, _, _, h6, _⟩ := JSObj.setitem_spec hg.inv (.idx n) hk (some v)
      rw [h1] at h6
      simp only at h6
      rw [h6]
      simp only [List.length_set, List.length_append, List.length_replicate]
      omega

theorem lengthAfter_keys {l l' : List (PKey × Val)} (h : l'.map (·.1) = l.map (·.1)) (n : Nat) :
    lengthAfter n l' = lengthAfter n l := by
  induction l generalizing l' n with
  | nil => simp only [List.map_nil, List.map_eq_nil_iff] at h; rw [h]
  | cons e t ih =>
    cases l' with
    | nil => simp at h
    | cons e' t' =>
      simp only [List.map_cons, List.cons.injEq] at h
      unfold lengthAfter
      rw [List.foldl_cons, List.foldl_cons, h.1]
      exact ih h.2 _

theorem lengthAfter_le {l : List (PKey × Val)} {n m : Nat} (hn : n ≤ m) (h : ∀ k v, (PKey.idx k, v) ∈ l → k < m) :
    lengthAfter n l ≤ m := by
  induction l generalizing n with
  | nil => exact hn
  | cons e t ih =>
    unfold lengthAfter
    rw [List.foldl_cons]
    refine ih ?_ (fun k v hk => h k v (List.mem_cons_of_mem _ hk))
    obtain ⟨k, v⟩ := e
    cases k with
    | idx k => have := h k v List.mem_cons_self; simp only; omega
    | name s => exact hn

theorem lengthAfter_mono {l : List (PKey × Val)} {n : Nat} : n ≤ lengthAfter n l := by
  induction l generalizing n with
  | nil => exact Nat.le_refl _
  | cons e t ih =>
    unfold lengthAfter
    rw [List.foldl_cons]
    refine Nat.le_trans ?_ ih
    split
    · exact Nat.le_max_left _ _
    · exact Nat.le_refl _

theorem lengthAfter_mem {l : List (PKey × Val)} {n k : Nat} {v : Val} (h : (PKey.idx k, v) ∈ l) : k < lengthAfter n l := by
  induction l generalizing n with
  | nil => simp at h
  | cons e t ih =>
    unfold lengthAfter
    rw [List.foldl_cons]
    rcases List.mem_cons.mp h with rfl | h
    · refine Nat.lt_of_lt_of_le ?_ (lengthAfter_mono (l := t))
      simp only; omega
    · exact ih h

theorem lengthAfter_items {o : JSObj Val} (h : o.Inv) (ht : NoTrailingHole o) : lengthAfter 0 o.items = o.array.abs.length := by
  have hm : ∀ k v, (PKey.idx k, v) ∈ o.items ↔ (o.array.abs[k]?).join = some v := by
    intro k v
    rw [JSObj.items_eq h, List.mem_append, ← mem_itemsOf]
    constructor
    · rintro (hx | hx)
      · obtain ⟨⟨a, b⟩, ha, he⟩ := List.mem_map.mp hx
        simp only [Prod.mk.injEq, PKey.idx.injEq] at he
        rw [← he.1, ← he.2]; exact ha
      · obtain ⟨a, _, he⟩ := List.mem_map.mp hx
        simp at he
    · exact fun hx => .inl (List.mem_map.mpr ⟨(k, v), hx, rfl⟩)
  apply Nat.le_antisymm
  · refine lengthAfter_le (Nat.zero_le _) ?_
    intro k v hk
    rw [hm] at hk
    by_contra hc
    rw [List.getElem?_eq_none (by omega)] at hk
    simp at hk
  · unfold NoTrailingHole at ht
    rw [List.getLast?_eq_getElem?] at ht
    by_cases h0 : o.array.abs.length = 0
    · omega
    · have hlt : o.array.abs.length - 1 < o.array.abs.length := by omega
      cases hx : o.array.abs[o.array.abs.length - 1]? with
      | none => rw [List.getElem?_eq_none_iff] at hx; omega
      | some x =>
        cases x with
        | none => exact absurd hx ht
        | some v =>
          have : (PKey.idx (o.array.abs.length - 1), v) ∈ o.items := (hm _ _).2 (by rw [hx]; rfl)
          have := lengthAfter_mem (n := 0) this
          omega

/-- Related values under the keys. -/
theorem zip_items {R : Val → Val → Prop} {l : List (PKey × Val)} {ws : List Val} (h : List.Forall₂ R (l.map (·.2)) ws) :
    List.Forall₂ (fun a b => a.1 = b.1 ∧ R a.2 b.2) l ((l.map (·.1)).zip ws) ∧ ((l.map (·.1)).zip ws).map (·.1) = l.map (·.1) ∧
      ∀ e ∈ (l.map (·.1)).zip ws, e.2 ∈ ws := by
  induction l generalizing ws with
  | nil => cases h; exact ⟨.nil, rfl, by simp⟩
  | cons e t ih =>
    cases h with
    | cons h1 h2 =>
      obtain ⟨i1, i2, i3⟩ := ih h2
      refine ⟨.cons ⟨rfl, h1⟩ i1, by simp only [List.map_cons, List.zip_cons_cons, i2], ?_⟩
      intro x hx
      simp only [List.map_cons, List.zip_cons_cons, List.mem_cons] at hx
      rcases hx with rfl | hx
      · exact List.mem_cons_self
      · exact List.mem_cons_of_mem _ (i3 x hx)

theorem items_valid {o : JSObj Val} (h : o.Inv) (hl : o.array.abs.length ≤ 2 ^ 32 - 1) : ∀ e ∈ o.items, e.1.Valid := by
  intro e he
  obtain ⟨es, ps, h1, _, _, h4⟩ := JSObj.items_shape h hl
  rw [h1] at he
  rcases List.mem_append.mp he with he | he
  · obtain ⟨a, ha, rfl⟩ := List.mem_map.mp he
    exact h4 a ha
  · obtain ⟨a, ha, rfl⟩ := List.mem_map.mp he
    trivial

/-- The object built from the items of an object with copies of the values. -/
theorem object_built {env : ReprEnv} {ee : PyEval} {o : JSObj Val} (ho : ObjectFits env ee o) (ht : NoTrailingHole o)
    {lo l : Nat} {h h' : Heap} {ws : List Val} (hm : MadeAll lo l h h' (o.items.map (·.2)) ws) :
    ∃ o', JSObj.empty.update (((o.items.map (·.1)).zip ws).map (fun e => (e.1, e.2.toElem))) = (o', none) ∧
      o.array.len = o'.array.len ∧ List.Forall₂ (fun a b => a.1 = b.1 ∧ CopyAt h' l a.2 b.2) o.items o'.items ∧
      (lo ≤ h.length → NodeNew lo h'.length (.jsobj o')) := by
  obtain ⟨z1, z2, z3⟩ := zip_items hm.copies
  have hnh := hm.not_hole (by
    intro v hv
    obtain ⟨e, he, rfl⟩ := List.mem_map.mp hv
    exact ho.values e he)
  have has : ((o.items.map (·.1)).zip ws).map (fun e => (e.1, e.2.toElem)) = assigns ((o.items.map (·.1)).zip ws) :=
    assignVals_eq fun e he => hnh _ (z3 e he)
  have hsh : ItemsShape ((o.items.map (·.1)).zip ws) := (JSObj.items_shape ho.inv ho.len).of_keys z2
  obtain ⟨o', u1, u2, u3, _⟩ := update_items _ hsh JSObj.empty JSObj.empty_good empty_items rfl
  refine ⟨o', by rw [has]; exact u1, ?_, by rw [u3]; exact z1, fun hlo => ⟨u2.inv, fun e he => ?_⟩⟩
  case refine_2 =>
    rw [u3] at he
    exact ⟨hnh _ (z3 e he), fun j hj => by
      have := hm.bounds _ (z3 e he) j hj
      exact ⟨Nat.le_trans hlo this.1, this.2⟩⟩
  have hv : ∀ e ∈ (o.items.map (·.1)).zip ws, e.1.Valid := by
    intro e he
    have : e.1 ∈ o.items.map (·.1) := by rw [← z2]; exact List.mem_map.mpr ⟨e, he, rfl⟩
    obtain ⟨a, ha, hae⟩ := List.mem_map.mp this
    rw [← hae]
    exact items_valid ho.inv ho.len a ha
  have hlen := update_length _ _ _ JSObj.empty_good hv u1
  rw [lengthAfter_keys z2] at hlen
  rw [Arr.len_eq ho.inv.arr, Arr.len_eq u2.inv.arr, hlen]
  exact congrArg _ (lengthAfter_items ho.inv ht).symm

/-! ## Calls -/

/-- The node of a call of JSObject or JSArray. -/
def clsNode (cls : ReprCls) : JSObj Val → Node := if cls = .object then .jsobj else .jsarr

theorem evalExpr_call (ee : PyEval) (f : Nat) (cls : ReprCls) (arg : PArg) (star : Bool) (kwargs : List (Str × PExpr))
    (more : Bool) (h : Heap) :
    evalExpr ee (f + 1) (.call cls arg star kwargs more) h = evalCall ee (evalExpr ee f) cls arg star kwargs more h := by
  rw [evalExpr]

theorem evalExpr_errorCall (ee : PyEval) (f : Nat) (m : PExpr) (n s c : Option PExpr) (h : Heap) :
    evalExpr ee (f + 1) (.errorCall m n s c) h = evalErrorCall (evalExpr ee f) m n s c h := by
  rw [evalExpr]

theorem evalCall_none {ee : PyEval} {ev : PExpr → Heap → Except EvalError (Val × Heap)} {cls : ReprCls}
    (hc : cls = .object ∨ cls = .array) {star : Bool} {kwargs : List (Str × PExpr)} {h h2 : Heap} {names : List Str}
    {ws : List Val} {kw : List (PKey × Option Val)}
    (h3 : kwNames ee star (kwargs.map (·.1)) = .ok names) (h4 : evalList ev (kwargs.map (·.2)) h = .ok (ws, h2))
    (h5 : assignments ee.floatStr ((names.map RawKey.str).zip ws) = .ok kw) :
    evalCall ee ev cls .none star kwargs false h = constructed (clsNode cls) h2 (JSObj.ofPairs [] kw) := by
  rcases hc with rfl | rfl <;>
    simp [evalCall, h3, h4, h5, clsNode, Except.bind, bind]

theorem evalCall_props {ee : PyEval} {ev : PExpr → Heap → Except EvalError (Val × Heap)} {cls : ReprCls}
    (hc : cls = .object ∨ cls = .array) {ps : List (PKey × PExpr)} {star : Bool} {kwargs : List (Str × PExpr)} {h h1 h2 : Heap}
    {vs : List Val} {pairs : List (PKey × Option Val)} {names : List Str} {ws : List Val} {kw : List (PKey × Option Val)}
    (h1' : evalList ev (ps.map (·.2)) h = .ok (vs, h1))
    (h2' : assignments ee.floatStr ((ps.map (fun e => e.1.raw)).zip vs) = .ok pairs)
    (h3 : kwNames ee star (kwargs.map (·.1)) = .ok names) (h4 : evalList ev (kwargs.map (·.2)) h1 = .ok (ws, h2))
    (h5 : assignments ee.floatStr ((names.map RawKey.str).zip ws) = .ok kw) :
    evalCall ee ev cls (.props ps false) star kwargs false h = constructed (clsNode cls) h2 (JSObj.ofPairs pairs kw) := by
  rcases hc with rfl | rfl <;>
    simp [evalCall, h1', h2', h3, h4, h5, clsNode, Except.bind, bind]

theorem evalCall_list {ee : PyEval} {ev : PExpr → Heap → Except EvalError (Val × Heap)}
    {es : List PExpr} {star : Bool} {kwargs : List (Str × PExpr)} {h h1 h2 : Heap}
    {vs : List Val} {names : List Str} {ws : List Val} {kw : List (PKey × Option Val)}
    (h1' : evalList ev es h = .ok (vs, h1)) (hne : vs ≠ [])
    (h3 : kwNames ee star (kwargs.map (·.1)) = .ok names) (h4 : evalList ev (kwargs.map (·.2)) h1 = .ok (ws, h2))
    (h5 : assignments ee.floatStr ((names.map RawKey.str).zip ws) = .ok kw) :
    evalCall ee ev .array (.list es false) star kwargs false h
      = constructed .jsarr h2 (JSObj.arrayOfValues (vs.map Val.toElem) kw) := by
  simp [evalCall, evalDisplay, h1', h3, h4, h5, Except.bind, bind, hne]

theorem assignments_ok {fs : F64 → Str} {l : List (PKey × Val)} (h : ∀ e ∈ l, normaliseKey fs e.1.raw = .ok e.1) :
    assignments fs (l.map (fun e => (e.1.raw, e.2))) = .ok (l.map (fun e => (e.1, e.2.toElem))) := by
  induction l with
  | nil => rfl
  | cons e t ih =>
    obtain ⟨k, v⟩ := e
    simp only [List.map_cons, assignments, h (k, v) List.mem_cons_self, ih (fun e he => h e (List.mem_cons_of_mem _ he))]

theorem assignments_zip {fs : F64 → Str} {ks : List PKey} {ws : List Val} (h : ∀ k ∈ ks, normaliseKey fs k.raw = .ok k) :
    assignments fs ((ks.map PKey.raw).zip ws) = .ok ((ks.zip ws).map (fun e => (e.1, e.2.toElem))) := by
  have : (ks.map PKey.raw).zip ws = (ks.zip ws).map (fun e => (e.1.raw, e.2)) := by
    rw [List.zip_map_left]; rfl
  rw [this]
  exact assignments_ok fun e he => h e.1 (List.of_mem_zip he).1

theorem fits_keys {env : ReprEnv} {ee : PyEval} {o : JSObj Val} (ho : ObjectFits env ee o) :
    ∀ k ∈ o.items.map (·.1), normaliseKey ee.floatStr k.raw = .ok k := by
  intro k hk
  obtain ⟨e, he, rfl⟩ := List.mem_map.mp hk
  have hv := items_valid ho.inv ho.len e he
  rw [JSObj.items_eq ho.inv] at he
  rcases List.mem_append.mp he with he | he
  · obtain ⟨a, ha, rfl⟩ := List.mem_map.mp he
    exact normaliseKey_idx _ hv
  · obtain ⟨a, ha, rfl⟩ := List.mem_map.mp he
    exact ho.names a ha

theorem fits_nameKeys {env : ReprEnv} {ee : PyEval} {o : JSObj Val} (ho : ObjectFits env ee o) :
    ∀ k ∈ o.props.map (fun e => PKey.name e.1), normaliseKey ee.floatStr k.raw = .ok k := by
  intro k hk
  obtain ⟨e, he, rfl⟩ := List.mem_map.mp hk
  exact ho.names e he

theorem canBeKwargs_iff {env : ReprEnv} {props : Dict Str Val} :
    canBeKwargs env props = true ↔ props ≠ [] ∧ ∀ e ∈ props, env.isIdent e.1 = true := by
  unfold canBeKwargs
  simp

theorem kwNames_ident {env : ReprEnv} {ee : PyEval} {o : JSObj Val} (ho : ObjectFits env ee o)
    (hc : canBeKwargs env o.props = true) : kwNames ee false (o.props.map (·.1)) = .ok (o.props.map (·.1)) := by
  obtain ⟨_, h2⟩ := canBeKwargs_iff.mp hc
  have h3 := ho.kwargs h2
  have hn : (o.props.map (·.1)).map ee.nfkc = o.props.map (·.1) := by
    rw [List.map_map]
    exact List.map_congr_left fun e he => (h3 e he).2
  unfold kwNames
  rw [if_neg (by simp), if_neg, hn, if_pos]
  · exact ho.inv.names
  · simp only [List.any_eq_true, List.mem_map, not_exists, not_and]
    rintro s ⟨e, he, rfl⟩
    rw [(h3 e he).1]; simp

/-- The keyword arguments with identifiers as names. -/
theorem kwargs_assigned {env : ReprEnv} {ee : PyEval} {o : JSObj Val} (ho : ObjectFits env ee o) {ws : List Val} :
    assignments ee.floatStr (((o.props.map (·.1)).map RawKey.str).zip ws)
      = .ok (((o.props.map (fun e => PKey.name e.1)).zip ws).map (fun e => (e.1, e.2.toElem))) := by
  have := assignments_zip (ws := ws) (fits_nameKeys ho)
  rw [← this, List.map_map, List.map_map]
  rfl

theorem len_zero {o : JSObj Val} (h : o.Inv) : o.len = 0 ↔ o.items = [] := by
  unfold JSObj.len
  rw [Arr.used_eq h.arr, JSObj.items_eq h]
  simp only [List.append_eq_nil_iff, List.map_eq_nil_iff]
  constructor
  · intro hz
    refine ⟨List.length_eq_zero_iff.mp ?_, List.length_eq_zero_iff.mp (by omega)⟩
    rw [itemsOf_length]; omega
  · rintro ⟨h1, h2⟩
    rw [← itemsOf_length, h1, h2]; rfl

theorem elementItems_length {o : JSObj Val} (h : o.Inv) : (JSObj.elementItems o.array).length = o.array.used.toNat := by
  rw [elementItems_eq h.arr, itemsOf_length, Arr.used_eq h.arr]; simp

/-- What is to be shown of an object: evaluating its text allocates a copy, after the copies of its parts. -/
def NodeEvaluates (H0 : Heap) (l : Nat) (ee : PyEval) (f : Nat) (e : PExpr) (n : Node) : Prop :=
  ∀ h, Ext H0 h → ∃ m h1, evalExpr ee (f + 1) e h = .ok (newObject m h1) ∧ Ext h h1 ∧ CopyNode (CopyAt h1 l) n m ∧
    NodeNew H0.length h1.length m ∧ (FreshFrom H0.length h → FreshFrom H0.length h1)

theorem object_evaluates {env : ReprEnv} {ee : PyEval} {l f : Nat} {sub : Val → PExpr} {cls : ReprCls} {maxprops : Nat}
    (hc : cls = .object ∨ cls = .array) {o : JSObj Val} (ho : ObjectFits env ee o) (ht : NoTrailingHole o)
    (hmax : o.items.length ≤ maxprops) (hs : ∀ e ∈ o.items, Evaluates env.heap l (evalExpr ee f) sub e.2) :
    NodeEvaluates env.heap l ee f (reprObject env sub cls maxprops o) (clsNode cls o) := by
  intro h hh
  have hlo := hh.length
  have hnew : ∀ {h1 : Heap} {o' : JSObj Val}, NodeNew env.heap.length h1.length (.jsobj o') →
      NodeNew env.heap.length h1.length (clsNode cls o') := by
    intro h1 o' hn
    rcases hc with rfl | rfl <;> exact hn
  have hcopy : ∀ {h1 : Heap} {o' : JSObj Val}, o.array.len = o'.array.len →
      List.Forall₂ (fun a b => a.1 = b.1 ∧ CopyAt h1 l a.2 b.2) o.items o'.items →
      CopyNode (CopyAt h1 l) (clsNode cls o) (clsNode cls o') := by
    intro h1 o' e1 e2
    rcases hc with rfl | rfl
    · exact .object e1 e2
    · exact .array e1 e2
  have hitems : o.items = (JSObj.elementItems o.array).map (fun e => (PKey.idx e.1, e.2)) ++
      o.props.map (fun e => (PKey.name e.1, e.2)) := rfl
  have hlen : o.items.length = o.array.used.toNat + o.props.length := by
    rw [hitems, List.length_append, List.length_map, List.length_map, elementItems_length ho.inv]
  unfold reprObject
  by_cases h0 : o.len = 0
  · rw [if_pos h0]
    have hi := (len_zero ho.inv).mp h0
    have hm : MadeAll env.heap.length l h h (o.items.map (·.2)) [] := by rw [hi]; exact MadeAll.nil _ l h
    obtain ⟨o', u1, u2, u3, u4⟩ := object_built ho ht hm
    rw [hi] at u1
    refine ⟨clsNode cls o', h, ?_, Ext.refl h, hcopy u2 u3, hnew (u4 hlo), id⟩
    have := evalCall_none (ee := ee) (ev := evalExpr ee f) hc (star := false) (kwargs := []) (h := h) (h2 := h) (names := [])
      (ws := []) (kw := []) (by simp [kwNames]) rfl rfl
    rw [evalExpr_call]
    rw [this, ofPairs_of_update (p := []) (k := []) u1]
    rfl
  · rw [if_neg h0]
    have htake : (JSObj.elementItems o.array).take maxprops = JSObj.elementItems o.array :=
      List.take_of_length_le (by rw [elementItems_length ho.inv]; omega)
    have htake2 : o.props.take (maxprops - o.array.used.toNat) = o.props := List.take_of_length_le (by omega)
    have hm1 : decide (maxprops < o.array.used.toNat) = false := decide_eq_false (by omega)
    have hm2 : decide (maxprops - o.array.used.toNat < o.props.length) = false := decide_eq_false (by omega)
    simp only [htake, htake2, hm1, hm2, Bool.and_false, Bool.or_false]
    have hsE : ∀ v ∈ (JSObj.elementItems o.array).map (·.2), Evaluates env.heap l (evalExpr ee f) sub v := by
      intro v hv
      obtain ⟨e, he, rfl⟩ := List.mem_map.mp hv
      exact hs (.idx e.1, e.2) (by rw [hitems]; exact List.mem_append_left _ (List.mem_map.mpr ⟨e, he, rfl⟩))
    have hsP : ∀ v ∈ o.props.map (·.2), Evaluates env.heap l (evalExpr ee f) sub v := by
      intro v hv
      obtain ⟨e, he, rfl⟩ := List.mem_map.mp hv
      exact hs (.name e.1, e.2) (by rw [hitems]; exact List.mem_append_right _ (List.mem_map.mpr ⟨e, he, rfl⟩))
    have hvals : o.items.map (·.2) = (JSObj.elementItems o.array).map (·.2) ++ o.props.map (·.2) := by
      rw [hitems, List.map_append, List.map_map, List.map_map]; rfl
    have hkeys : o.items.map (·.1) = (JSObj.elementItems o.array).map (fun e => PKey.idx e.1) ++
        o.props.map (fun e => PKey.name e.1) := by
      rw [hitems, List.map_append, List.map_map, List.map_map]; rfl
    obtain ⟨vs, h1, e1, e2⟩ := evalList_made _ hsE h hh
    obtain ⟨ws, h2, e3, e4⟩ := evalList_made _ hsP h1 (hh.trans e2.grown)
    have hm := e2.append e4
    rw [← hvals] at hm
    obtain ⟨o', u1, u2, u3, u4⟩ := object_built ho ht hm
    have hvl : ((JSObj.elementItems o.array).map (fun e => PKey.idx e.1)).length = vs.length := by
      have := e2.copies.length_eq
      simpa using this
    rw [hkeys, List.zip_append hvl, List.map_append] at u1
    have hkE : ∀ k ∈ (JSObj.elementItems o.array).map (fun e => PKey.idx e.1), normaliseKey ee.floatStr k.raw = .ok k :=
      fun k hk => fits_keys ho k (by rw [hkeys]; exact List.mem_append_left _ hk)
    have hpairs := assignments_zip (fs := ee.floatStr) (ws := vs) hkE
    rw [List.map_map] at e1 e3
    by_cases hk : canBeKwargs env o.props = true
    · rw [if_pos hk]
      have hkw := kwNames_ident ho hk
      have ha := kwargs_assigned ho (ws := ws)
      by_cases hu : o.array.used.toNat = 0
      · rw [if_pos hu]
        have hel : JSObj.elementItems o.array = [] := List.length_eq_zero_iff.mp (by rw [elementItems_length ho.inv, hu])
        rw [hel] at e1 u1
        simp only [List.map_nil, evalList, Except.ok.injEq, Prod.mk.injEq] at e1
        obtain ⟨rfl, rfl⟩ := e1
        refine ⟨clsNode cls o', h2, ?_, hm.grown, hcopy u2 u3, hnew (u4 hlo), hm.fresh⟩
        rw [evalExpr_call]
        rw [evalCall_none hc (kwargs := o.props.map (fun e => (e.1, sub e.2))) (by rw [List.map_map]; exact hkw)
          (by rw [List.map_map]; exact e3) ha, ofPairs_of_update (p := []) u1]
        rfl
      · rw [if_neg hu]
        refine ⟨clsNode cls o', h2, ?_, hm.grown, hcopy u2 u3, hnew (u4 hlo), hm.fresh⟩
        rw [evalExpr_call]
        rw [evalCall_props hc (kwargs := o.props.map (fun e => (e.1, sub e.2))) (by rw [List.map_map]; exact e1)
          (by rw [List.map_map] at hpairs ⊢; exact hpairs) (by rw [List.map_map]; exact hkw)
          (by rw [List.map_map]; exact e3) ha, ofPairs_of_update u1]
        rfl
    · rw [if_neg hk]
      obtain ⟨vs', h2', e5, e6⟩ := evalList_made (o.items.map (·.2)) (by
        rw [hvals]; intro v hv
        rcases List.mem_append.mp hv with hv | hv
        · exact hsE v hv
        · exact hsP v hv) h hh
      obtain ⟨o', u1, u2, u3, u4⟩ := object_built ho ht e6
      refine ⟨clsNode cls o', h2', ?_, e6.grown, hcopy u2 u3, hnew (u4 hlo), e6.fresh⟩
      rw [evalExpr_call]
      have hps : (JSObj.elementItems o.array).map (fun e => (PKey.idx e.1, sub e.2)) ++
          o.props.map (fun e => (PKey.name e.1, sub e.2)) = o.items.map (fun e => (e.1, sub e.2)) := by
        rw [hitems, List.map_append, List.map_map, List.map_map]; rfl
      rw [hps, evalCall_props hc (kwargs := []) (names := []) (ws := []) (kw := []) (h2 := h2') (by rw [List.map_map] at e5 ⊢; exact e5)
        (by have := assignments_zip (ws := vs') (fits_keys ho); rw [List.map_map] at this ⊢; exact this)
        (by simp [kwNames]) rfl rfl, ofPairs_of_update (k := []) (by rw [List.append_nil]; exact u1)]
      rfl
/-! ## Dense arrays -/

theorem reprArray_empty (env : ReprEnv) (sub : Val → PExpr) (u : Int) (hu : u = 0) (ps : Dict Str Val) :
    reprArray env sub ⟨.dense ⟨[], u⟩, ps⟩ = reprObject env sub .array env.maxjsarray ⟨.dense ⟨[], u⟩, ps⟩ := by
  subst hu
  unfold reprArray reprObject
  by_cases h0 : (JSObj.mk (.dense ⟨[], 0⟩) ps : JSObj Val).len = 0
  · rw [if_pos h0, if_pos h0]
  · rw [if_neg h0, if_neg h0]
    have he : JSObj.elementItems (.dense ⟨[], 0⟩ : Arr Val) = [] := rfl
    have hu : (Arr.dense ⟨[], 0⟩ : Arr Val).used.toNat = 0 := rfl
    simp only [he, hu, List.length_nil, List.take_nil, List.map_nil, List.nil_append, Nat.not_lt_zero, decide_false,
      Bool.false_or, if_true, Nat.sub_zero, List.map_map]
    rfl

/-- The array built from the elements and properties of a dense array with copies of the values. -/
theorem dense_built {env : ReprEnv} {ee : PyEval} {d : Dense Val} {ps : Dict Str Val} (ho : ObjectFits env ee ⟨.dense d, ps⟩)
    {lo l : Nat} {h h1 h2 : Heap} {vs ws : List Val} (hm : MadeAll lo l h h1 (d.items.map elemVal) vs)
    (hm2 : MadeAll lo l h1 h2 (ps.map (·.2)) ws) :
    ∃ o', JSObj.arrayOfValues (vs.map Val.toElem)
        (((ps.map (fun e => PKey.name e.1)).zip ws).map (fun e => (e.1, e.2.toElem))) = (o', none) ∧
      (d.items.length : Int) = o'.array.len ∧
      List.Forall₂ (fun a b => a.1 = b.1 ∧ CopyAt h2 l a.2 b.2) (JSObj.mk (.dense d) ps).items o'.items ∧
      (lo ≤ h.length → NodeNew lo h2.length (.jsarr o')) := by
  have hitems := JSObj.items_eq ho.inv
  have hel : ∀ v, some v ∈ d.items → v ≠ .hole := by
    intro v hv
    obtain ⟨k, hk⟩ := List.mem_iff_getElem?.mp hv
    refine ho.values (.idx k, v) ?_
    rw [hitems, List.mem_append]
    left
    exact List.mem_map.mpr ⟨(k, v), (mem_itemsOf _ _ _).2 (by show (d.items[k]?).join = _; rw [hk]; rfl), rfl⟩
  obtain ⟨d', x1, x2, x3⟩ := Props.extend_dense (vs.map Val.toElem) ⟨[], 0⟩ (rfl : (⟨[], 0⟩ : Dense Val).Inv)
  have hgood : (JSObj.mk (.dense d') [] : JSObj Val).Good := ⟨⟨x2, JSObj.empty_inv.names⟩, trivial⟩
  have hcop : List.Forall₂ (CopyAt h2 l) ((ps.map (fun e => (PKey.name e.1, e.2))).map (·.2)) ws := by
    rw [List.map_map]; exact hm2.copies
  obtain ⟨z1, z2, z3⟩ := zip_items hcop
  have hnh := hm2.not_hole (by
    intro v hv
    obtain ⟨e, he, rfl⟩ := List.mem_map.mp hv
    refine ho.values (.name e.1, e.2) ?_
    rw [hitems, List.mem_append]
    exact .inr (List.mem_map.mpr ⟨e, he, rfl⟩))
  have has := assignVals_eq (l := ((ps.map (fun e => (PKey.name e.1, e.2))).map (·.1)).zip ws) (fun e he => hnh _ (z3 e he))
  obtain ⟨ps', p1, p2⟩ := names_of_keys z2
  rw [p1] at has z1 z3
  obtain ⟨o', u1, u2, u3, u4⟩ := update_props hgood rfl (ps := ps') (by rw [p2]; exact ho.inv.names)
  have hrel : List.Forall₂ (fun a b => a.1 = b.1 ∧ CopyAt h2 l a.2 b.2)
      (List.map (fun e => (PKey.idx e.1, e.2)) (itemsOf d.items)) (List.map (fun e => (PKey.idx e.1, e.2)) (itemsOf d'.items)) := by
    simp only [x3, List.nil_append]
    refine itemsOf_map (itemsOf_rel ?_)
    refine (hm.elems hel).imp ?_
    rintro a b (⟨h3, h4⟩ | ⟨x, y, h3, h4, h5⟩)
    · exact .inl ⟨h3, h4⟩
    · exact .inr ⟨x, y, h3, h4, CopyAt.grow hm2.grown l _ _ h5⟩
  refine ⟨o', ?_, ?_, ?_, fun hlo => ⟨u2.inv, fun e he => ?_⟩⟩
  case refine_4 =>
    have hlo1 := Nat.le_trans hlo hm.grown.length
    rw [JSObj.items_eq u2.inv, u3, u4] at he
    rcases List.mem_append.mp he with he | he
    · obtain ⟨⟨k, v⟩, ha, rfl⟩ := List.mem_map.mp he
      have hk := (mem_itemsOf _ _ _).1 ha
      simp only [Arr.abs, x3, List.nil_append, List.getElem?_map] at hk
      cases hw : vs[k]? with
      | none => rw [hw] at hk; simp at hk
      | some w =>
        rw [hw] at hk
        have hwv : w = v ∧ v ≠ .hole := by
          cases w <;> simp [Val.toElem] at hk <;> subst hk <;> simp
        obtain ⟨rfl, hne⟩ := hwv
        refine ⟨hne, fun j hj => ?_⟩
        have := hm.bounds w (List.mem_of_getElem? hw) j hj
        exact ⟨Nat.le_trans hlo this.1, Nat.lt_of_lt_of_le this.2 hm2.grown.length⟩
    · exact ⟨hnh _ (z3 e he), fun j hj => by
        have := hm2.bounds _ (z3 e he) j hj
        exact ⟨Nat.le_trans hlo1 this.1, this.2⟩⟩
  · unfold JSObj.arrayOfValues
    have : (JSObj.empty : JSObj Val).array.extend (vs.map Val.toElem) = (.dense d', none) := x1
    rw [this]
    simp only
    rw [← u1, ← has, ← p1, List.map_map]
    rfl
  · rw [u3]
    simp only [Arr.len, Dense.len, x3, List.nil_append, List.length_map]
    have := hm.copies.length_eq
    rw [List.length_map] at this
    rw [this]
  · rw [hitems, JSObj.items_eq u2.inv, u3, u4]
    exact Forall₂.append hrel z1

theorem dense_evaluates {env : ReprEnv} {ee : PyEval} {l f : Nat} {sub : Val → PExpr} {d : Dense Val} {ps : Dict Str Val}
    (ho : ObjectFits env ee ⟨.dense d, ps⟩) (hmax : d.items.length + ps.length ≤ env.maxjsarray)
    (hne : d.items = [] ∨ (∃ v, some v ∈ d.items) ∨ ps ≠ [])
    (hsE : ∀ v ∈ d.items, Evaluates env.heap l (evalExpr ee f) sub (elemVal v))
    (hsP : ∀ e ∈ ps, Evaluates env.heap l (evalExpr ee f) sub e.2) :
    NodeEvaluates env.heap l ee f (reprArray env sub ⟨.dense d, ps⟩) (.jsarr ⟨.dense d, ps⟩) := by
  have hinv := ho.inv
  by_cases hd : d.items = []
  · obtain ⟨items, u⟩ := d
    simp only at hd
    subst hd
    have hu : u = 0 := hinv.arr
    rw [reprArray_empty env sub u hu ps]
    have hi : (JSObj.mk (.dense ⟨[], u⟩) ps : JSObj Val).items = ps.map (fun e => (PKey.name e.1, e.2)) := rfl
    refine object_evaluates (.inr rfl) ho (by simp [NoTrailingHole, Arr.abs]) ?_ ?_
    · rw [hi]; simpa using hmax
    · rw [hi]
      intro e he
      obtain ⟨a, ha, rfl⟩ := List.mem_map.mp he
      exact hsP a ha
  · intro h hh
    have h0 : ¬ (JSObj.mk (.dense d) ps : JSObj Val).len = 0 := by
      rw [len_zero hinv, JSObj.items_eq hinv]
      simp only [List.append_eq_nil_iff, List.map_eq_nil_iff, not_and]
      intro h1 h2
      rcases hne with h3 | ⟨v, h3⟩ | h3
      · exact hd h3
      · obtain ⟨k, hk⟩ := List.mem_iff_getElem?.mp h3
        have : (k, v) ∈ itemsOf (Arr.dense d : Arr Val).abs :=
          (mem_itemsOf _ _ _).2 (by show (d.items[k]?).join = _; rw [hk]; rfl)
        rw [h1] at this
        simp at this
      · exact h3 h2
    have hd0 : ¬ d.items.length = 0 := fun h => hd (List.length_eq_zero_iff.mp h)
    obtain ⟨vs, h1, e1, e2⟩ := evalList_made (H0 := env.heap) (l := l) (ev := evalExpr ee f) (sub := sub) (d.items.map elemVal) (by
      intro v hv
      obtain ⟨a, ha, rfl⟩ := List.mem_map.mp hv
      exact hsE a ha) h hh
    obtain ⟨ws, h2, e3, e4⟩ := evalList_made (H0 := env.heap) (l := l) (ev := evalExpr ee f) (sub := sub) (ps.map (·.2)) (by
      intro v hv
      obtain ⟨a, ha, rfl⟩ := List.mem_map.mp hv
      exact hsP a ha) h1 (hh.trans e2.grown)
    obtain ⟨o', u1, u2, u3, u4⟩ := dense_built ho e2 e4
    have hvs : vs ≠ [] := by
      rintro rfl
      have := e2.copies.length_eq
      simp at this
      exact hd this
    rw [List.map_map] at e1 e3
    change evalList (evalExpr ee f) (d.items.map (fun v => sub (elemVal v))) h = _ at e1
    refine ⟨.jsarr o', h2, ?_, e2.grown.trans e4.grown, .array u2 u3, u4 hh.length, fun hf => e4.fresh (e2.fresh hf)⟩
    unfold reprArray
    rw [if_neg h0]
    have htake : d.items.take env.maxjsarray = d.items := List.take_of_length_le (by omega)
    have htake2 : ps.take (env.maxjsarray - d.items.length) = ps := List.take_of_length_le (by omega)
    have hm1 : decide (env.maxjsarray < d.items.length) = false := decide_eq_false (by omega)
    have hm2 : decide (env.maxjsarray - d.items.length < ps.length) = false := decide_eq_false (by omega)
    simp only [htake, htake2, hm1, hm2]
    have ha := kwargs_assigned ho (ws := ws)
    simp only at ha
    by_cases hk : canBeKwargs env ps = true
    · rw [if_pos hk, if_neg hd0, evalExpr_call]
      rw [evalCall_list (kwargs := ps.map (fun e => (e.1, sub e.2))) e1 hvs
        (by rw [List.map_map]; exact kwNames_ident ho hk) (by rw [List.map_map]; exact e3) ha, u1]
      rfl
    · rw [if_neg hk, if_neg hd0]
      cases ps with
      | nil =>
        simp only [List.map_nil, evalList, Except.ok.injEq, Prod.mk.injEq] at e3
        obtain ⟨rfl, rfl⟩ := e3
        simp only [List.isEmpty_nil, if_true, evalExpr_call]
        rw [evalCall_list (kwargs := []) (names := []) (ws := []) (kw := []) e1 hvs (by simp [kwNames]) rfl rfl]
        have u1' : JSObj.arrayOfValues (vs.map Val.toElem) [] = (o', none) := u1
        rw [u1']
        rfl
      | cons p t =>
        rw [if_neg (by simp), evalExpr_call]
        rw [evalCall_list (kwargs := (p :: t).map (fun e => (e.1, sub e.2))) e1 hvs
          (names := (p :: t).map (·.1)) (by rw [List.map_map]; simp only [kwNames, if_true]; rfl) (by rw [List.map_map]; exact e3) ha, u1]
        rfl

/-! ## Maps and sets -/

theorem svz_kinds {lo hi : Nat} {vs ws : List Val} (hk : List.Forall₂ (Kind lo hi) vs ws)
    (ha : ws.Pairwise (fun a b => ∀ i j, a = .obj i → b = .obj j → i < j))
    (hv : vs.Pairwise (fun a b => ¬ SameValueZero a b)) : ws.Pairwise (fun a b => ¬ SameValueZero a b) := by
  induction hk with
  | nil => exact .nil
  | @cons v w vs ws h1 h2 ih =>
    rw [List.pairwise_cons] at ha hv ⊢
    refine ⟨?_, ih ha.2 hv.2⟩
    intro x hx
    obtain ⟨y, hy, hyx⟩ := Forall₂.mem_right h2 hx
    have hd := hv.1 y hy
    have hap := ha.1 x hx
    rcases h1 with ⟨s1, rfl⟩ | ⟨i, j, rfl, rfl, _, _⟩
    · rcases hyx with ⟨_, rfl⟩ | ⟨i', j', rfl, rfl, _, _⟩
      · exact hd
      · cases w <;> simp_all [SameValueZero, IsScalar]
    · rcases hyx with ⟨s2, rfl⟩ | ⟨i', j', rfl, rfl, _, _⟩
      · cases x <;> simp_all [SameValueZero, IsScalar]
      · have := hap j j' rfl rfl
        simp only [SameValueZero]
        intro he
        subst he
        exact absurd this (Nat.lt_irrefl _)

theorem tooBig_kinds {lo hi : Nat} {vs ws : List Val} (hk : List.Forall₂ (Kind lo hi) vs ws)
    (hv : ∀ v ∈ vs, ¬ TooBig v) : ∀ w ∈ ws, ¬ TooBig w := by
  intro w hw
  obtain ⟨v, hv', hvw⟩ := Forall₂.mem_right hk hw
  rcases hvw with ⟨_, rfl⟩ | ⟨i, j, _, rfl, _, _⟩
  · exact hv _ hv'
  · simp [TooBig]

theorem mapStore_absent {k v : Val} {l : List (Val × Val)} (h : ∀ e ∈ l, ¬ SameValueZero e.1 k) :
    mapStore k v l = l ++ [(k, v)] := by
  induction l with
  | nil => rfl
  | cons e t ih =>
    obtain ⟨k', v'⟩ := e
    have := h (k', v') List.mem_cons_self
    simp only at this
    simp only [mapStore, if_neg this, List.cons_append, ih fun e he => h e (List.mem_cons_of_mem _ he)]

theorem mapStore_all (l : List (Val × Val)) : ∀ acc : List (Val × Val),
    (acc ++ l).Pairwise (fun a b => ¬ SameValueZero a.1 b.1) → l.foldl (fun l e => mapStore e.1 e.2 l) acc = acc ++ l := by
  induction l with
  | nil => intro acc _; simp
  | cons e t ih =>
    intro acc h
    rw [List.foldl_cons]
    have h1 : ∀ a ∈ acc, ¬ SameValueZero a.1 e.1 := by
      rw [List.pairwise_append] at h
      exact fun a ha => h.2.2 a ha e List.mem_cons_self
    rw [mapStore_absent h1]
    rw [ih (acc ++ [e]) (by simpa using h)]
    simp

theorem setStore_all (l : List Val) : ∀ acc : List Val,
    (acc ++ l).Pairwise (fun a b => ¬ SameValueZero a b) → l.foldl (fun l v => setStore v l) acc = acc ++ l := by
  induction l with
  | nil => intro acc _; simp
  | cons e t ih =>
    intro acc h
    rw [List.foldl_cons]
    have h1 : hasMember e acc = false := by
      rw [List.pairwise_append] at h
      unfold hasMember
      simp only [List.any_eq_false, decide_eq_true_eq]
      exact fun a ha => h.2.2 a ha e List.mem_cons_self
    rw [setStore_absent h1]
    rw [ih (acc ++ [e]) (by simpa using h)]
    simp

theorem map_built {pairs : List (Val × Val)} (hb : ∀ k ∈ pairs.map (·.1), ¬ TooBig k)
    (hp : (pairs.map (·.1)).Pairwise (fun a b => ¬ SameValueZero a b)) :
    ∃ m : JSMap Val, JSMap.update [] pairs = (m, none) ∧ m.items = pairs := by
  obtain ⟨m, h1, _, h3⟩ := JSMap.update_ok pairs [] JSMap.inv_empty
    (fun e he => hb _ (List.mem_map.mpr ⟨e, he, rfl⟩))
  refine ⟨m, h1, ?_⟩
  rw [h3, mapStore_all]
  · rfl
  · rw [List.pairwise_map] at hp
    exact hp

theorem set_built {ms : List Val} (hb : ∀ k ∈ ms, ¬ TooBig k) (hp : ms.Pairwise (fun a b => ¬ SameValueZero a b)) :
    ∃ s : JSSet, JSSet.ior [] ms = (s, none) ∧ s.members = ms := by
  obtain ⟨m, h1, _, h3⟩ := JSSet.ior_ok ms [] JSSet.inv_empty hb
  refine ⟨m, h1, ?_⟩
  rw [h3, setStore_all]
  · rfl
  · exact hp

theorem entries_made {lo l : Nat} {h h' : Heap} {es : List (Val × Val)} : ∀ {ws : List Val},
    MadeAll lo l h h' (es.flatMap (fun e => [e.1, e.2])) ws → ∃ fs : List (Val × Val), keyValuePairs ws = fs ∧
      List.Forall₂ (fun e f => CopyAt h' l e.1 f.1 ∧ CopyAt h' l e.2 f.2) es fs ∧
      List.Forall₂ (Kind h.length h'.length) (es.map (·.1)) (fs.map (·.1)) ∧
      (fs.map (·.1)).Sublist ws ∧ ∀ f ∈ fs, f.1 ∈ ws ∧ f.2 ∈ ws := by
  intro ws hm
  have hk := hm.kinds
  have hc := hm.copies
  clear hm
  induction es generalizing ws with
  | nil => cases hk; exact ⟨[], rfl, .nil, .nil, .slnil, by simp⟩
  | cons e t ih =>
    simp only [List.flatMap_cons, List.cons_append, List.nil_append] at hk hc
    cases hk with
    | @cons _ a _ _ k1 k2 =>
      cases k2 with
      | @cons _ b _ ws k2 k3 =>
        cases hc with
        | cons c1 c2 =>
          cases c2 with
          | cons c2 c3 =>
            obtain ⟨fs, i1, i2, i3, i4, i5⟩ := ih k3 c3
            refine ⟨(a, b) :: fs, by simp only [keyValuePairs, i1], .cons ⟨c1, c2⟩ i2, .cons k1 i3, (i4.cons b).cons_cons a, ?_⟩
            intro f hf
            rcases List.mem_cons.mp hf with rfl | hf
            · simp
            · exact ⟨by simp [(i5 f hf).1], by simp [(i5 f hf).2]⟩

/-! ### Dicts with different keys -/

theorem store_length {py : PyCompare} {k : Val} (d : List (Val × Val)) : ∀ {v : Val} {d1 : List (Val × Val)},
    py.store k v d = .ok d1 → d1.length ≤ d.length + 1 ∧ (d1.length = d.length + 1 →
      ∀ (d' : List (Val × Val)) (v' : Val), d'.map (·.1) = d.map (·.1) → py.store k v' d' = .ok (d' ++ [(k, v')])) := by
  induction d with
  | nil =>
    intro v d1 h
    simp only [PyCompare.store, Except.ok.injEq] at h
    subst h
    refine ⟨by simp, fun _ d' v' hd => ?_⟩
    simp only [List.map_nil, List.map_eq_nil_iff] at hd
    subst hd
    rfl
  | cons e t ih =>
    obtain ⟨k', w⟩ := e
    intro v d1 h
    simp only [PyCompare.store] at h
    cases hm : py.keyMatch k' k with
    | error e => rw [hm] at h; simp at h
    | ok b =>
      rw [hm] at h
      cases b with
      | true =>
        simp only [Except.ok.injEq] at h
        subst h
        exact ⟨by simp, fun hc => by simp at hc⟩
      | false =>
        simp only at h
        cases hs : py.store k v t with
        | error e => rw [hs] at h; simp at h
        | ok r =>
          rw [hs] at h
          simp only [Except.ok.injEq] at h
          subst h
          obtain ⟨i1, i2⟩ := ih hs
          refine ⟨by simp only [List.length_cons]; omega, fun hc d' v' hd => ?_⟩
          cases d' with
          | nil => simp at hd
          | cons e' t' =>
            obtain ⟨k'', w'⟩ := e'
            simp only [List.map_cons, List.cons.injEq] at hd
            obtain ⟨rfl, hd⟩ := hd
            have := i2 (by simp only [List.length_cons] at hc; omega) t' v' hd
            simp only [PyCompare.store, hm, this, List.cons_append]

theorem storeAll_length {py : PyCompare} (t : List (Val × Val)) : ∀ {d c : List (Val × Val)},
    py.storeAll d t = .ok c → c.length ≤ d.length + t.length ∧ (∀ e ∈ t, py.hash e.1 ≠ none) ∧
      (c.length = d.length + t.length →
        ∀ (d' t' : List (Val × Val)), d'.map (·.1) = d.map (·.1) → t'.map (·.1) = t.map (·.1) →
          py.storeAll d' t' = .ok (d' ++ t')) := by
  induction t with
  | nil =>
    intro d c h
    simp only [PyCompare.storeAll, Except.ok.injEq] at h
    subst h
    refine ⟨by simp, by simp, fun _ d' t' _ ht => ?_⟩
    simp only [List.map_nil, List.map_eq_nil_iff] at ht
    subst ht
    simp [PyCompare.storeAll]
  | cons e t ih =>
    obtain ⟨k, v⟩ := e
    intro d c h
    simp only [PyCompare.storeAll] at h
    cases hh : py.hash k with
    | none => rw [hh] at h; simp at h
    | some x =>
      rw [hh] at h
      simp only at h
      cases hs : py.store k v d with
      | error e => rw [hs] at h; simp at h
      | ok d1 =>
        rw [hs] at h
        simp only at h
        obtain ⟨i1, i2, i3⟩ := ih h
        obtain ⟨j1, j2⟩ := store_length d hs
        refine ⟨by simp only [List.length_cons]; omega, ?_, ?_⟩
        · intro e he
          rcases List.mem_cons.mp he with rfl | he
          · simp [hh]
          · exact i2 e he
        · intro hc d' t' hd ht
          simp only [List.length_cons] at hc
          cases t' with
          | nil => simp at ht
          | cons e' t' =>
            obtain ⟨k', v'⟩ := e'
            simp only [List.map_cons, List.cons.injEq] at ht
            obtain ⟨rfl, ht⟩ := ht
            have hst := j2 (by omega) d' v' hd
            have hst0 := j2 (by omega) d v rfl
            rw [hs] at hst0
            simp only [Except.ok.injEq] at hst0
            have := i3 (by omega) (d' ++ [(k', v')]) t' (by rw [hst0]; simp [hd]) ht
            simp only [PyCompare.storeAll, hh, hst, this, List.append_assoc, List.cons_append, List.nil_append]

theorem dictEquivalent_keys {env : ReprEnv} {es : List (Val × Val)} (h : isDictEquivalent env es = true) :
    (∀ e ∈ es, env.py.hash e.1 ≠ none) ∧
    ∀ fs : List (Val × Val), fs.map (·.1) = es.map (·.1) → env.py.toDict fs = .ok fs := by
  unfold isDictEquivalent at h
  by_cases h0 : env.maxdict < es.length
  · rw [if_pos h0] at h; simp at h
  · rw [if_neg h0] at h
    cases hd : env.py.toDict es with
    | error e => rw [hd] at h; simp at h
    | ok c =>
      rw [hd] at h
      by_cases hl : es.length ≠ c.length
      · simp only [if_pos hl] at h; simp at h
      · unfold PyCompare.toDict at hd ⊢
        obtain ⟨_, i2, i3⟩ := storeAll_length es hd
        refine ⟨i2, fun fs hf => ?_⟩
        have := i3 (by simp only [List.length_nil]; omega) [] fs rfl hf
        simpa using this

theorem map_evaluates {env : ReprEnv} {ee : PyEval} (hpy : ee.py = env.py) {l f : Nat} {sub : Val → PExpr}
    {es : List (Val × Val)} (hmax : es.length ≤ env.maxdict) (hp : es.Pairwise (fun a b => ¬ SameValueZero a.1 b.1))
    (hb : ∀ e ∈ es, ¬ TooBig e.1) (hh : ∀ e ∈ es, ∀ i, e.1 = .obj i → env.py.hash (.obj i) = none)
    (hs : ∀ e ∈ es, Evaluates env.heap l (evalExpr ee f) sub e.1 ∧ Evaluates env.heap l (evalExpr ee f) sub e.2) :
    NodeEvaluates env.heap l ee f (reprMap env sub es) (.jsmap es) := by
  intro h hext
  unfold reprMap
  by_cases h0 : es.length = 0
  · rw [if_pos h0]
    have := List.length_eq_zero_iff.mp h0
    subst this
    refine ⟨.jsmap [], h, ?_, Ext.refl h, .map .nil, by simp [NodeNew], id⟩
    rw [evalExpr_call]
    rfl
  · rw [if_neg h0, List.take_of_length_le hmax, decide_eq_false (by omega)]
    obtain ⟨ws, h1, e1, e2⟩ := evalList_made (H0 := env.heap) (l := l) (ev := evalExpr ee f) (sub := sub)
      (es.flatMap (fun e => [e.1, e.2])) (by
        intro v hv
        obtain ⟨e, he, hv⟩ := List.mem_flatMap.mp hv
        simp only [List.mem_cons, List.not_mem_nil, or_false] at hv
        rcases hv with rfl | rfl
        · exact (hs e he).1
        · exact (hs e he).2) h hext
    obtain ⟨fs, f1, f2, f3, f4, f5⟩ := entries_made e2
    have hrange : ∀ w ∈ ws, InRange env.heap.length h1.length w := fun w hw j hj => by
      have := e2.bounds w hw j hj
      exact ⟨Nat.le_trans hext.length this.1, this.2⟩
    have hex : (es.map (fun e => (sub e.1, sub e.2))).flatMap (fun e => [e.1, e.2])
        = (es.flatMap (fun e => [e.1, e.2])).map sub := by
      rw [List.flatMap_map, List.map_flatMap]
      rfl
    have hbig := tooBig_kinds f3 (by
      intro v hv
      obtain ⟨e, he, rfl⟩ := List.mem_map.mp hv
      exact hb e he)
    have hsvz := svz_kinds f3 (e2.apart.sublist f4) (by rw [List.pairwise_map]; exact hp)
    obtain ⟨m, m1, m2⟩ := map_built hbig hsvz
    refine ⟨.jsmap fs, h1, ?_, e2.grown, .map f2, fun f hf => ⟨hrange _ (f5 f hf).1, hrange _ (f5 f hf).2⟩, e2.fresh⟩
    rw [evalExpr_call]
    have hdict : ∀ dict : Bool, isDictEquivalent env es = dict → mapEntries ee dict fs = .ok fs := by
      intro dict hd
      cases dict with
      | false => rfl
      | true =>
        obtain ⟨k1, k2⟩ := dictEquivalent_keys hd
        have hkeys : fs.map (·.1) = es.map (·.1) := by
          have : ∀ {vs ws : List Val}, List.Forall₂ (Kind h.length h1.length) vs ws → (∀ v ∈ vs, IsScalar v) → ws = vs := by
            intro vs ws hf
            induction hf with
            | nil => intro _; rfl
            | cons a1 _ ih =>
              intro hv
              rw [ih fun v hv' => hv v (List.mem_cons_of_mem _ hv')]
              have := hv _ List.mem_cons_self
              rcases a1 with ⟨_, rfl⟩ | ⟨i, j, rfl, _⟩
              · rfl
              · exact this.elim
          refine this f3 ?_
          intro v hv
          obtain ⟨e, he, rfl⟩ := List.mem_map.mp hv
          cases hv : e.1 with
          | obj i =>
            have := hh e he i hv
            exact absurd (by rw [hv]; exact this) (k1 e he)
          | _ => trivial
        simp only [mapEntries, if_true, hpy, k2 fs hkeys]
    simp only [evalCall, Bool.false_and, if_false, Bool.false_eq_true, hex, e1, f1, bind, Except.bind, hdict _ rfl, m1]
    simp only [constructed, m2]

theorem set_evaluates {env : ReprEnv} {ee : PyEval} {l f : Nat} {sub : Val → PExpr}
    {ms : List Val} (hmax : ms.length ≤ env.maxset) (hp : ms.Pairwise (fun a b => ¬ SameValueZero a b))
    (hb : ∀ v ∈ ms, ¬ TooBig v) (hs : ∀ v ∈ ms, Evaluates env.heap l (evalExpr ee f) sub v) :
    NodeEvaluates env.heap l ee f (reprSet env sub ms) (.jsset ms) := by
  intro h hext
  unfold reprSet
  by_cases h0 : ms.length = 0
  · rw [if_pos h0]
    have := List.length_eq_zero_iff.mp h0
    subst this
    refine ⟨.jsset [], h, ?_, Ext.refl h, .set .nil, by simp [NodeNew], id⟩
    rw [evalExpr_call]
    rfl
  · rw [if_neg h0, List.take_of_length_le hmax, decide_eq_false (by omega)]
    obtain ⟨ws, h1, e1, e2⟩ := evalList_made ms hs h hext
    obtain ⟨m, m1, m2⟩ := set_built (tooBig_kinds e2.kinds hb) (svz_kinds e2.kinds e2.apart hp)
    refine ⟨.jsset ws, h1, ?_, e2.grown, .set e2.copies, fun w hw j hj => by
      have := e2.bounds w hw j hj
      exact ⟨Nat.le_trans hext.length this.1, this.2⟩, e2.fresh⟩
    rw [evalExpr_call]
    simp only [evalCall, evalDisplay, if_false, Bool.false_eq_true, e1, bind, Except.bind, m1]
    simp only [constructed, m2]

/-! ## Errors -/

theorem str_evaluates {H0 : Heap} {l : Nat} {ev : PExpr → Heap → Except EvalError (Val × Heap)} {sub : Val → PExpr} {s : Str}
    (hs : Evaluates H0 l ev sub (.str s)) {h : Heap} (hh : Ext H0 h) :
    ∃ h', ev (sub (.str s)) h = .ok (.str s, h') ∧ Ext h h' ∧ (FreshFrom H0.length h → FreshFrom H0.length h') := by
  obtain ⟨w, h', e1, e2, _, e4, e5⟩ := hs h hh
  rcases e4 with ⟨_, rfl⟩ | ⟨i, j, h5, _⟩
  · exact ⟨h', e1, e2, e5⟩
  · simp at h5

theorem error_evaluates {env : ReprEnv} {ee : PyEval} {l f : Nat} {sub : Val → PExpr} {enum : Str → PExpr} {i : Id} {name : Str} {m : Str}
    {stack : Option Str} {cause : Val}
    (hm : Evaluates env.heap l (evalExpr ee f) sub (.str m))
    (hn : name = errorName ∨ env.enumName i = false ∧ Evaluates env.heap l (evalExpr ee f) sub (.str name))
    (hs : ∀ s, stack = some s → Evaluates env.heap l (evalExpr ee f) sub (.str s))
    (hc : cause = .null ∨ Evaluates env.heap l (evalExpr ee f) sub cause) :
    NodeEvaluates env.heap l ee f (reprError env sub enum i name (some m) stack cause) (.error name (some m) stack cause) := by
  intro h hh
  obtain ⟨h1, a1, a2, a3⟩ := str_evaluates hm hh
  have hl : ∃ g, l = g + 1 := by
    obtain ⟨w, h', _, _, e3, _⟩ := hm h hh
    cases l with
    | zero => exact e3.elim
    | succ g => exact ⟨g, rfl⟩
  -- the name
  obtain ⟨nv, h2, b1, b2, b3, b4⟩ : ∃ nv h2, evalOpt (evalExpr ee f)
      (if name = errorName then none else if env.enumName i then some (enum name) else some (sub (.str name))) h1
        = .ok (nv, h2) ∧ Ext h1 h2 ∧ nameArg nv = .ok name ∧ (FreshFrom env.heap.length h1 → FreshFrom env.heap.length h2) := by
    by_cases hne : name = errorName
    · refine ⟨none, h1, ?_, Ext.refl _, ?_, id⟩
      · rw [if_pos hne]; rfl
      · rw [hne]; rfl
    · obtain ⟨h3, h4⟩ := hn.resolve_left hne
      obtain ⟨h2, c1, c2, c3⟩ := str_evaluates h4 (hh.trans a2)
      refine ⟨some (.str name), h2, ?_, c2, rfl, c3⟩
      rw [if_neg hne, if_neg (by rw [h3]; simp)]
      simp only [evalOpt, c1]
  -- the stack
  obtain ⟨sv, h3, c1, c2, c3, c4⟩ : ∃ sv h3, evalOpt (evalExpr ee f) (stack.map (fun s => sub (.str s))) h2
        = .ok (sv, h3) ∧ Ext h2 h3 ∧ stackArg sv = .ok stack ∧ (FreshFrom env.heap.length h2 → FreshFrom env.heap.length h3) := by
    cases stack with
    | none => exact ⟨none, h2, rfl, Ext.refl _, rfl, id⟩
    | some s =>
      obtain ⟨h3, c1, c2, c3⟩ := str_evaluates (hs s rfl) ((hh.trans a2).trans b2)
      refine ⟨some (.str s), h3, ?_, c2, rfl, c3⟩
      simp only [Option.map_some, evalOpt, c1]
  have hh3 := ((hh.trans a2).trans b2).trans c2
  -- the cause
  obtain ⟨cv, h4, d1, d2, d3, d4, d5⟩ : ∃ cv h4, evalOpt (evalExpr ee f) (if cause = .null then none else some (sub cause)) h3
        = .ok (cv, h4) ∧ Ext h3 h4 ∧ CopyAt h4 l cause (cv.getD .null) ∧ InRange env.heap.length h4.length (cv.getD .null) ∧
          (FreshFrom env.heap.length h3 → FreshFrom env.heap.length h4) := by
    by_cases hnull : cause = .null
    · refine ⟨none, h3, by rw [if_pos hnull]; rfl, Ext.refl _, ?_, by simp [InRange], id⟩
      obtain ⟨g, rfl⟩ := hl
      subst hnull
      exact .inl ⟨trivial, rfl, by simp [numOf]⟩
    · obtain ⟨w, h4, e1, e2, e3, e4, e5⟩ := hc.resolve_left hnull h3 hh3
      refine ⟨some w, h4, ?_, e2, e3, e4.inRange hh3.length, e5⟩
      rw [if_neg hnull]
      simp only [evalOpt, e1]
  refine ⟨.error name (some m) stack (cv.getD .null), h4, ?_, ((a2.trans b2).trans c2).trans d2, .error d3, d4,
    fun hf => d5 (c4 (b4 (a3 hf)))⟩
  unfold reprError
  rw [evalExpr_errorCall]
  simp only [Option.getD_some, evalErrorCall, a1, b1, c1, d1, bind, Except.bind, strArg, b3, c3]

/-! ## Values -/

theorem nodeFits_isJS {env : ReprEnv} {ee : PyEval} {P : Val → Prop} {i : Id} {n : Node} (h : NodeFits env ee P i n) : IsJS n := by
  cases n <;> simp_all [NodeFits, IsJS]

theorem fits_key {env : ReprEnv} {ee : PyEval} (hu : Unhashable env) {l : Nat} {running : List Id} {i : Id}
    (h : ShownFully env ee l running (.obj i)) : env.py.hash (.obj i) = none := by
  cases l with
  | zero => exact h.elim
  | succ l =>
    obtain ⟨_, n, h1, h2⟩ := h
    exact hu i n h1 (nodeFits_isJS h2)

theorem repr_evaluates {env : ReprEnv} {ee : PyEval} (hpy : ee.py = env.py) (hu : Unhashable env) :
    ∀ (l : Nat) (running : List Id) (v : Val) (f : Nat), l ≤ f → ShownFully env ee l running v →
      Evaluates env.heap l (evalExpr ee f) (repr1 env l running) v := by
  intro l
  induction l with
  | zero => intro _ _ _ _ h; exact h.elim
  | succ l ih =>
    intro running v f hf hv h hh
    obtain ⟨f, rfl⟩ : ∃ g, f = g + 1 := ⟨f - 1, by omega⟩
    by_cases hob : ∃ i, v = .obj i
    · obtain ⟨i, rfl⟩ := hob
      obtain ⟨hr, n, hn, hfit⟩ := hv
      have ih' : ∀ v, ShownFully env ee l (i :: running) v →
          Evaluates env.heap l (evalExpr ee f) (repr1 env l (i :: running)) v :=
        fun v hv => ih (i :: running) v f (by omega) hv
      have hrepr : repr1 env (l + 1) running (.obj i) =
          reprNode env (repr1 env l (i :: running)) (fun s => if l = 0 then .fill else .enumMember s) i n := by
        simp only [repr1, if_neg hr, hn]
      have hnode : NodeEvaluates env.heap l ee f (reprNode env (repr1 env l (i :: running)) (fun s => if l = 0 then .fill else .enumMember s) i n) n := by
        cases n with
        | jsobj o =>
          obtain ⟨g1, g2, g3, g4⟩ := hfit
          exact object_evaluates (.inl rfl) g1 g3 g2 fun e he => ih' _ (g4 e he)
        | jsarr o =>
          obtain ⟨arr, ps⟩ := o
          cases arr with
          | dense d =>
            obtain ⟨g1, g2, g3, g4, g5⟩ := hfit
            exact dense_evaluates g1 g2 g3 (fun v hv => ih' _ (g4 v hv)) fun e he => ih' _ (g5 e he)
          | sparse s =>
            obtain ⟨g1, g2, g3, g4⟩ := hfit
            have : reprArray env (repr1 env l (i :: running)) ⟨.sparse s, ps⟩
                = reprObject env (repr1 env l (i :: running)) .array env.maxjsarray ⟨.sparse s, ps⟩ := by
              unfold reprArray
              by_cases h0 : (JSObj.mk (.sparse s) ps : JSObj Val).len = 0
              · rw [if_pos h0]; unfold reprObject; rw [if_pos h0]
              · rw [if_neg h0]
            show NodeEvaluates _ _ _ _ (reprArray _ _ _) _
            rw [this]
            exact object_evaluates (.inr rfl) g1 g3 g2 fun e he => ih' _ (g4 e he)
        | jsmap es =>
          obtain ⟨g1, g2, g3⟩ := hfit
          refine map_evaluates hpy g1 g2 (fun e he => (g3 e he).1) ?_ fun e he => ⟨ih' _ (g3 e he).2.1, ih' _ (g3 e he).2.2⟩
          intro e he j hj
          have := (g3 e he).2.1
          rw [hj] at this
          exact fits_key hu this
        | jsset ms =>
          obtain ⟨g1, g2, g3⟩ := hfit
          exact set_evaluates g1 g2 (fun e he => (g3 e he).1) fun e he => ih' _ (g3 e he).2
        | error name message stack cause =>
          obtain ⟨⟨m, rfl, g1⟩, g2, g3, g4⟩ := hfit
          exact error_evaluates (enum := fun s => if l = 0 then .fill else .enumMember s) (ih' _ g1)
            (g2.imp id fun g => ⟨g.1, ih' _ g.2⟩) (fun s hs => ih' _ (g3 s hs))
            (g4.imp id (ih' _))
        | _ => exact hfit.elim
      obtain ⟨m, h1, e1, e2, e3, e4, e5⟩ := hnode h hh
      rw [hrepr, e1]
      refine ⟨.obj h1.length, h1 ++ [m], rfl, e2.trans (Ext.push h1 m), ?_, ?_, fun hf => (e5 hf).push e4⟩
      · refine .inr ⟨i, h1.length, n, m, rfl, rfl, (hh.trans (e2.trans (Ext.push h1 m))).get hn, by simp, ?_⟩
        exact CopyNode.mono (CopyAt.grow (Ext.push h1 m) l) e3
      · exact .inr ⟨i, h1.length, rfl, rfl, e2.length, by simp⟩
    · have hsc : IsScalar v := by cases v <;> first | trivial | exact absurd ⟨_, rfl⟩ hob
      have hv' : env.short v = true ∧ ∀ x, v = .float x → ∃ s, fval x = .fin s := by
        cases v <;> first | exact hv | exact absurd ⟨_, rfl⟩ hob
      have hrepr : repr1 env (l + 1) running v = .lit v := by
        cases v <;> first | exact absurd ⟨_, rfl⟩ hob | (simp only [repr1, hv'.1, if_true])
      have hlit : literal v = true := by
        cases v with
        | float x => obtain ⟨s, hs⟩ := hv'.2 x rfl; simp [literal, hs]
        | obj i => exact absurd ⟨_, rfl⟩ hob
        | _ => rfl
      refine ⟨v, h, ?_, Ext.refl h, .inl ⟨hsc, rfl, ?_⟩, .inl ⟨hsc, rfl⟩, id⟩
      · rw [hrepr, evalExpr]; simp [hlit]
      · cases v with
        | float x => obtain ⟨s, hs⟩ := hv'.2 x rfl; simp [numOf, hs]
        | obj i => exact absurd ⟨_, rfl⟩ hob
        | _ => simp [numOf]

end V8
