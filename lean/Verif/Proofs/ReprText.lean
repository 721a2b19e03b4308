import Verif.Spec.ReprText

/-!
# The characters of `repr()`: proofs
-/

namespace V8.ReprText

open V8 V8.Spec.ReprText

/-! ## Two runs side by side -/

/-- If the second run returns, so does the first, and the results are related. -/
def Foll {α β : Type} (P : α → β → Prop) (x : Except PyExc α) (y : Except PyExc β) : Prop :=
  ∀ b, y = .ok b → ∃ a, x = .ok a ∧ P a b

theorem Foll.bind {α β γ δ : Type} {P : α → β → Prop} {Q : γ → δ → Prop} {x : Except PyExc α} {y : Except PyExc β}
    {f : α → Except PyExc γ} {g : β → Except PyExc δ} (h : Foll P x y) (hf : ∀ a b, P a b → Foll Q (f a) (g b)) :
    Foll Q (x >>= f) (y >>= g) := by
  intro d hd
  cases hy : y with
  | error e => rw [hy] at hd; cases hd
  | ok b =>
    rw [hy] at hd
    obtain ⟨a, ha, hp⟩ := h b hy
    obtain ⟨c, hc, hq⟩ := hf a b hp d hd
    exact ⟨c, by rw [ha]; exact hc, hq⟩

theorem Foll.ok {α β : Type} {P : α → β → Prop} {a : α} {b : β} (h : P a b) : Foll P (.ok a) (.ok b) := by
  intro d hd
  injection hd with hd
  subst hd
  exact ⟨a, rfl, h⟩

theorem Foll.ite {α β : Type} {P : α → β → Prop} {c : Prop} [Decidable c] {x x' : Except PyExc α} {y y' : Except PyExc β}
    (h : Foll P x y) (h' : Foll P x' y') : Foll P (if c then x else x') (if c then y else y') := by
  by_cases hc : c <;> simp only [hc, if_true, if_false] <;> assumption

/-- Lists of the same length with related members. -/
inductive Pairs (R : Text → Text → Prop) : List Text → List Text → Prop where
  | nil : Pairs R [] []
  | cons {a b : Text} {as bs : List Text} : R a b → Pairs R as bs → Pairs R (a :: as) (b :: bs)

theorem Pairs.append {R : Text → Text → Prop} {as bs cs ds : List Text} (h : Pairs R as bs) (h' : Pairs R cs ds) :
    Pairs R (as ++ cs) (bs ++ ds) := by
  induction h with
  | nil => exact h'
  | cons hr _ ih => exact .cons hr ih

theorem Pairs.isEmpty {R : Text → Text → Prop} {as bs : List Text} (h : Pairs R as bs) : as.isEmpty = bs.isEmpty := by
  cases h <;> rfl

theorem collect_foll {α : Type} {R : Text → Text → Prop} {f g : α → Except PyExc Text} : ∀ (l : List α),
    (∀ e ∈ l, Foll R (f e) (g e)) → Foll (Pairs R) (collect (l.map f)) (collect (l.map g))
  | [], _ => .ok .nil
  | e :: l, h => by
    simp only [List.map_cons, collect]
    refine (h e (by simp)).bind fun a b hab => ?_
    refine (collect_foll l fun e he => h e (by simp [he])).bind fun as bs hs => ?_
    exact .ok (.cons hab hs)

/-- A closing bracket. -/
def Closer (c : Char) : Prop := c = ')' ∨ c = ']' ∨ c = '}'

/-- What is asked of a relation between the texts of two runs. -/
structure Compat (R : Text → Text → Prop) (l1 l2 : Look) (d1 d2 : Nat) : Prop where
  app : ∀ {a b c d}, R a b → R c d → R (a ++ c) (b ++ d)
  fixed : ∀ s, '\n' ∉ s → R s s
  empty : ∀ {a b}, R a b → (a = [] ↔ b = [])
  fill : R l1.fill l2.fill
  lit : ∀ v, R (l1.lit v) (l2.lit v)
  enumText : ∀ s, R (l1.enumText s) (l2.enumText s)
  other : ∀ i, R (l1.other i) (l2.other i)
  ident : ∀ s, R (l1.ident s) (l2.ident s)
  key : ∀ s, R (l1.key s) (l2.key s)
  index : ∀ i, R (l1.index i) (l2.index i)
  join : ∀ generator p1 p2, Pairs R p1 p2 →
    Foll (fun a b => (∀ c, Closer c → R (a ++ [c]) (b ++ [c]) ∧ R (inside p1 a ++ [c]) (inside p2 b ++ [c])) ∧
      Foll (fun g h => R (",".toList ++ g) (",".toList ++ h)) (gapBefore a) (gapBefore b))
      (ReprText.join l1 d1 generator p1) (ReprText.join l2 d2 generator p2)

section
variable {R : Text → Text → Prop} {l1 l2 : Look} {d1 d2 : Nat} {env : ReprEnv} {sub1 sub2 : Val → Except PyExc Text}

theorem Compat.withFill (hc : Compat R l1 l2 d1 d2) (more : Bool) {p1 p2 : List Text} (h : Pairs R p1 p2) :
    Pairs R (withFill l1 more p1) (withFill l2 more p2) := by
  unfold ReprText.withFill
  cases more
  · exact h
  · exact h.append (.cons hc.fill .nil)

theorem Compat.after (hc : Compat R l1 l2 d1 d2) {h1 h2 : Text} (hh : R h1 h2) {x y : Except PyExc Text} (h : Foll R x y) :
    Foll R (after h1 x) (after h2 y) := by
  intro b hb
  unfold ReprText.after at hb
  cases hy : y with
  | error e => rw [hy] at hb; cases hb
  | ok b' =>
    rw [hy] at hb
    injection hb with hb
    subst hb
    obtain ⟨a, ha, hr⟩ := h b' hy
    refine ⟨h1 ++ a, ?_, hc.app hh hr⟩
    rw [ha]
    rfl

theorem close1 : Closer ')' := .inl rfl
theorem close2 : Closer ']' := .inr (.inl rfl)
theorem close3 : Closer '}' := .inr (.inr rfl)

theorem object_foll (hc : Compat R l1 l2 d1 d2) (hs : ∀ v, Foll R (sub1 v) (sub2 v)) {name : Text} (hn : '\n' ∉ name)
    (maxprops : Nat) (o : JSObj Val) :
    Foll R (textObject env l1 d1 sub1 name maxprops o) (textObject env l2 d2 sub2 name maxprops o) := by
  unfold textObject
  have hf := fun s h => hc.fixed s h
  refine Foll.ite (.ok (hc.app (hf _ hn) (hf _ (by decide)))) ?_
  refine (collect_foll _ fun e _ => hc.after (hc.app (hc.index _) (hf _ (by decide))) (hs _)).bind fun a b hab => ?_
  have harr := hc.withFill (decide (maxprops < o.array.used.toNat)) hab
  refine Foll.ite ?_ ?_
  · refine (collect_foll _ fun e _ => hc.after (hc.app (hc.ident _) (hf _ (by decide))) (hs _)).bind fun k k' hk => ?_
    have hkw := hc.withFill (decide (maxprops - o.array.used.toNat < o.props.length)) hk
    refine (hc.join false _ _ hkw).bind fun t t' ht => ?_
    rw [harr.isEmpty]
    refine Foll.ite (.ok (hc.app (hc.app (hf _ hn) (hf _ (by decide))) (ht.1 _ close1).2)) ?_
    refine (hc.join false _ _ harr).bind fun u u' hu => ?_
    refine ht.2.bind fun g g' hg => ?_
    exact .ok (hc.app (hc.app (hc.app (hc.app (hf _ hn) (hf _ (by decide))) (hu.1 _ close3).1) hg) (ht.1 _ close1).1)
  · refine (collect_foll _ fun e _ => hc.after (hc.app (hc.key _) (hf _ (by decide))) (hs _)).bind fun k k' hk => ?_
    refine (hc.join false _ _ (harr.append (hc.withFill _ hk))).bind fun t t' ht => ?_
    exact .ok (hc.app (hc.app (hc.app (hf _ hn) (hf _ (by decide))) (ht.1 _ close3).1) (hf _ (by decide)))

theorem array_foll (hc : Compat R l1 l2 d1 d2) (hs : ∀ v, Foll R (sub1 v) (sub2 v)) (o : JSObj Val) :
    Foll R (textArray env l1 d1 sub1 o) (textArray env l2 d2 sub2 o) := by
  unfold textArray
  have hf := fun s h => hc.fixed s h
  refine Foll.ite (.ok (hf _ (by decide))) ?_
  cases ho : o.array with
  | sparse _ => exact object_foll hc hs (by decide) _ _
  | dense d =>
    dsimp only
    refine (collect_foll _ fun e _ => hs _).bind fun a b hab => ?_
    have harr := hc.withFill (decide (env.maxjsarray < d.items.length)) hab
    refine Foll.ite ?_ ?_
    · refine (collect_foll _ fun e _ => hc.after (hc.app (hc.ident _) (hf _ (by decide))) (hs _)).bind fun k k' hk => ?_
      have hkw := hc.withFill (decide (env.maxjsarray - d.items.length < o.props.length)) hk
      refine (hc.join false _ _ hkw).bind fun t t' ht => ?_
      rw [harr.isEmpty]
      refine Foll.ite (.ok (hc.app (hf _ (by decide)) (ht.1 _ close1).2)) ?_
      refine (hc.join false _ _ harr).bind fun u u' hu => ?_
      refine ht.2.bind fun g g' hg => ?_
      exact .ok (hc.app (hc.app (hc.app (hf _ (by decide)) (hu.1 _ close2).1) hg) (ht.1 _ close1).1)
    · refine (collect_foll _ fun e _ => hc.after (hc.app (hc.key _) (hf _ (by decide))) (hs _)).bind fun k k' hk => ?_
      have hps := hc.withFill (!o.props.isEmpty && decide (env.maxjsarray - d.items.length < o.props.length)) hk
      refine (hc.join false _ _ hps).bind fun t t' ht => ?_
      rw [harr.isEmpty, hps.isEmpty]
      refine Foll.ite (.ok (hc.app (hc.app (hf _ (by decide)) (ht.1 _ close3).2) (hf _ (by decide)))) ?_
      refine (hc.join false _ _ harr).bind fun u u' hu => ?_
      refine Foll.ite (.ok (hc.app (hc.app (hf _ (by decide)) (hu.1 _ close2).1) (hf _ (by decide)))) ?_
      exact .ok (hc.app (hc.app (hc.app (hc.app (hf _ (by decide)) (hu.1 _ close2).1) (hf _ (by decide)))
        (ht.1 _ close3).1) (hf _ (by decide)))

theorem map_foll (hc : Compat R l1 l2 d1 d2) (hs : ∀ v, Foll R (sub1 v) (sub2 v)) (es : List (Val × Val)) :
    Foll R (textMap env l1 d1 sub1 es) (textMap env l2 d2 sub2 es) := by
  unfold textMap
  have hf := fun s h => hc.fixed s h
  refine Foll.ite (.ok (hf _ (by decide))) ?_
  refine Foll.bind (P := Pairs R) (collect_foll _ fun e _ => ?_) fun a b hab => ?_
  · unfold entryText
    refine (hs _).bind fun k k' hk => (hs _).bind fun v v' hv => .ok ?_
    cases isDictEquivalent env es
    · exact hc.app (hc.app (hc.app (hc.app (hf _ (by decide)) hk) (hf _ (by decide))) hv) (hf _ (by decide))
    · exact hc.app (hc.app hk (hf _ (by decide))) hv
  · refine (hc.join false _ _ (hc.withFill _ hab)).bind fun t t' ht => ?_
    refine Foll.ite ?_ ?_
    · exact .ok (hc.app (hc.app (hf _ (by decide)) (ht.1 _ close3).1) (hf _ (by decide)))
    · exact .ok (hc.app (hc.app (hf _ (by decide)) (ht.1 _ close2).1) (hf _ (by decide)))

theorem set_foll (hc : Compat R l1 l2 d1 d2) (hs : ∀ v, Foll R (sub1 v) (sub2 v)) (ms : List Val) :
    Foll R (textSet env l1 d1 sub1 ms) (textSet env l2 d2 sub2 ms) := by
  unfold textSet
  have hf := fun s h => hc.fixed s h
  refine Foll.ite (.ok (hf _ (by decide))) ?_
  refine (collect_foll _ fun e _ => hs e).bind fun a b hab => ?_
  refine (hc.join false _ _ (hc.withFill _ hab)).bind fun t t' ht => ?_
  exact .ok (hc.app (hc.app (hf _ (by decide)) (ht.1 _ close2).1) (hf _ (by decide)))

/-- Lists of runs with related results. -/
inductive Runs (R : Text → Text → Prop) : List (Except PyExc Text) → List (Except PyExc Text) → Prop where
  | nil : Runs R [] []
  | cons {x y : Except PyExc Text} {xs ys : List (Except PyExc Text)} : Foll R x y → Runs R xs ys → Runs R (x :: xs) (y :: ys)

theorem Runs.append {as bs cs ds : List (Except PyExc Text)} (h : Runs R as bs) (h' : Runs R cs ds) :
    Runs R (as ++ cs) (bs ++ ds) := by
  induction h with
  | nil => exact h'
  | cons hr _ ih => exact .cons hr ih

theorem Runs.collect {xs ys : List (Except PyExc Text)} (h : Runs R xs ys) :
    Foll (Pairs R) (ReprText.collect xs) (ReprText.collect ys) := by
  induction h with
  | nil => exact .ok .nil
  | cons hr _ ih =>
    simp only [ReprText.collect]
    exact hr.bind fun a b hab => ih.bind fun as bs hs => .ok (.cons hab hs)

theorem Pairs.nonempty (he : ∀ {a b}, R a b → (a = [] ↔ b = [])) {as bs : List Text} (h : Pairs R as bs) :
    Pairs R (as.filter (!·.isEmpty)) (bs.filter (!·.isEmpty)) := by
  induction h with
  | nil => exact .nil
  | @cons a b as bs hr _ ih =>
    have := he hr
    cases a with
    | nil =>
      have hb := this.1 rfl
      subst hb
      simpa using ih
    | cons x a =>
      cases b with
      | nil => have := this.2 rfl; cases this
      | cons y b => simpa using .cons hr ih

theorem error_foll (hc : Compat R l1 l2 d1 d2) (hs : ∀ v, Foll R (sub1 v) (sub2 v)) {enum1 enum2 : Str → Except PyExc Text}
    (he : ∀ s, Foll R (enum1 s) (enum2 s)) (i : Id) (name : Str) (message stack : Option Str) (cause : Val) :
    Foll R (textError env l1 d1 sub1 enum1 i name message stack cause)
      (textError env l2 d2 sub2 enum2 i name message stack cause) := by
  unfold textError
  have hf := fun s h => hc.fixed s h
  refine Foll.bind (P := Pairs R) (Runs.collect ?_) fun a b hab => ?_
  · refine ((Runs.append (.cons (hs _) .nil) ?_).append ?_).append ?_
    · by_cases hn : name = errorName
      · rw [if_pos hn, if_pos hn]
        exact .nil
      · rw [if_neg hn, if_neg hn]
        exact .cons (hc.after (hf _ (by decide)) (Foll.ite (he _) (hs _))) .nil
    · cases stack with
      | none => exact .nil
      | some s => exact .cons (hc.after (hf _ (by decide)) (hs _)) .nil
    · by_cases hn : cause = .null
      · rw [if_pos hn, if_pos hn]
        exact .nil
      · rw [if_neg hn, if_neg hn]
        exact .cons (hc.after (hf _ (by decide)) (hs _)) .nil
  · refine (hc.join true _ _ (hab.nonempty hc.empty)).bind fun t t' ht => ?_
    exact .ok (hc.app (hf _ (by decide)) (ht.1 _ close1).1)

theorem node_foll (hc : Compat R l1 l2 d1 d2) (hs : ∀ v, Foll R (sub1 v) (sub2 v)) {enum1 enum2 : Str → Except PyExc Text}
    (he : ∀ s, Foll R (enum1 s) (enum2 s)) (i : Id) (n : Node) :
    Foll R (textNode env l1 d1 sub1 enum1 i n) (textNode env l2 d2 sub2 enum2 i n) := by
  unfold textNode
  split
  · exact object_foll hc hs (by decide) _ _
  · exact array_foll hc hs _
  · exact map_foll hc hs _
  · exact set_foll hc hs _
  · exact error_foll hc hs he _ _ _ _ _
  · exact .ok (hc.other _)

end

/-- Two whole runs, for relations that fit at every depth. -/
theorem text_foll {R : Text → Text → Prop} {l1 l2 : Look} {env : ReprEnv} {m1 m2 : Nat} (bound : Nat)
    (hc : ∀ level < bound, Compat R l1 l2 (m1 - (level + 1) + 1) (m2 - (level + 1) + 1))
    (hfill : R l1.fill l2.fill) (hlit : ∀ v, R (l1.lit v) (l2.lit v)) (hother : ∀ i, R (l1.other i) (l2.other i)) :
    ∀ (level : Nat), level ≤ bound → ∀ (running : List Id) (v : Val),
      Foll R (text env l1 m1 level running v) (text env l2 m2 level running v)
  | 0, _, _, _ => by
    unfold text
    exact .ok hfill
  | level + 1, hl, running, v => by
    have hcl := hc level (by omega)
    cases v with
    | obj i =>
      simp only [text]
      by_cases hr : i ∈ running
      · simp only [hr, if_true]
        exact .ok hfill
      · simp only [hr, if_false]
        cases env.heap[i]? with
        | none => exact .ok (hother i)
        | some n =>
          refine node_foll hcl (fun v => text_foll bound hc hfill hlit hother level (by omega) _ v) (fun s => .ok ?_) i n
          by_cases h0 : level = 0
          · rw [if_pos h0, if_pos h0]
            exact hfill
          · rw [if_neg h0, if_neg h0]
            exact hcl.enumText s
    | _ => simp only [text]; exact .ok (hlit _)

/-! ## `_join` with an indent -/

theorem joined_lines (m : Nat) : ∀ (p : List Text) (x : Text),
    joinWith (",\n".toList ++ List.replicate m ' ') (x :: (p ++ [[]])) =
      x ++ ',' :: (lines m p ++ '\n' :: List.replicate m ' ')
  | [], x => by
    show x ++ (",\n".toList ++ List.replicate m ' ') ++ [] = _
    rw [List.append_nil]
    rfl
  | y :: p, x => by
    show x ++ (",\n".toList ++ List.replicate m ' ') ++
      joinWith (",\n".toList ++ List.replicate m ' ') (y :: (p ++ [[]])) = _
    rw [joined_lines m p y]
    show x ++ (',' :: '\n' :: List.replicate m ' ') ++ (y ++ ',' :: (lines m p ++ '\n' :: List.replicate m ' ')) = _
    unfold lines
    simp only [List.flatMap_cons, List.append_assoc, List.cons_append, List.nil_append]

theorem join_indented {look : Look} {n : Int} (hi : look.indent = some n) (hn : 0 ≤ n) (d : Nat) (generator : Bool)
    (p : List Text) (hp : generator = true ∨ p ≠ []) :
    join look (d + 1) generator p =
      .ok (lines ((d + 1) * n.toNat) p ++ '\n' :: List.replicate (d * n.toNat) ' ') := by
  unfold join
  rw [hi]
  dsimp only
  have hcond : (!generator && p.isEmpty) = false := by
    rcases hp with hp | hp
    · rw [hp]
      rfl
    · cases p with
      | nil => exact absurd rfl hp
      | cons x p => cases generator <;> rfl
  rw [hcond, if_neg (by decide), if_neg (by omega)]
  rw [joined_lines]
  congr 1
  have hr : List.replicate ((d + 1) * n.toNat) ' ' = List.replicate (d * n.toNat) ' ' ++ List.replicate n.toNat ' ' := by
    rw [List.replicate_append_replicate, Nat.succ_mul]
  conv => lhs; arg 2; rw [List.nil_append, List.drop_succ_cons, List.drop_zero, hr]
  rw [hr]
  have hl : lines ((d + 1) * n.toNat) p ++ '\n' :: (List.replicate (d * n.toNat) ' ' ++ List.replicate n.toNat ' ') =
      (lines ((d + 1) * n.toNat) p ++ '\n' :: List.replicate (d * n.toNat) ' ') ++ List.replicate n.toNat ' ' := by
    simp only [List.append_assoc, List.cons_append]
  rw [hl]
  apply List.take_left'
  simp only [List.nil_append, List.length_cons, List.length_append, List.length_replicate]
  omega

theorem join_plain {look : Look} (hi : look.indent = none) (d : Nat) (generator : Bool) (p : List Text) :
    join look d generator p = .ok (joinWith ", ".toList p) := by
  unfold join
  rw [hi]

theorem inside_plain (p : List Text) : inside p (joinWith ", ".toList p) = joinWith ", ".toList p := by
  unfold inside singlePiece
  split
  · rename_i heq
    split at heq
    · split at heq
      · cases heq
      · injection heq with heq
        subst heq
        rfl
    · cases heq
  · rfl

/-! ## The same without layout -/

/-- Two texts are alike: in front of anything they are the same without layout, and both are empty or none. -/
def Alike (a b : Text) : Prop := (∀ r, a.foldr squashStep r = b.foldr squashStep r) ∧ (a = [] ↔ b = [])

theorem squash_spaces (m : Nat) (r : Text) : (List.replicate m ' ').foldr squashStep r = r := by
  induction m with
  | zero => rfl
  | succ m ih =>
    rw [List.replicate_succ, List.foldr_cons, ih]
    rfl

theorem squash_newline (r : Text) : squashStep '\n' r = r := rfl

theorem squash_space (r : Text) : squashStep ' ' r = r := rfl

theorem squash_comma {c : Char} (h : Closer c) (r : Text) : squashStep ',' (c :: r) = c :: r := by
  unfold squashStep
  rw [if_neg (by decide), if_pos rfl]
  exact if_pos h

theorem closer_step {c : Char} (h : Closer c) (r : Text) : squashStep c r = c :: r := by
  rcases h with rfl | rfl | rfl <;> rfl

theorem alike_join {p1 p2 : List Text} (m k : Nat) (h : Pairs Alike p1 p2) {c : Char} (hc : Closer c) (r : Text) :
    (lines m p1 ++ '\n' :: List.replicate k ' ').foldr squashStep (c :: r) =
      (joinWith ", ".toList p2).foldr squashStep (c :: r) := by
  rw [List.foldr_append, List.foldr_cons, squash_newline, squash_spaces]
  induction h with
  | nil => rfl
  | @cons a b as bs hr hs ih =>
    have hl : lines m (a :: as) = '\n' :: (List.replicate m ' ' ++ (a ++ ',' :: lines m as)) := by
      unfold lines
      simp only [List.flatMap_cons, List.append_assoc, List.cons_append, List.nil_append]
    rw [hl, List.foldr_cons, squash_newline, List.foldr_append, squash_spaces, List.foldr_append, List.foldr_cons, ih]
    cases hs with
    | nil =>
      show a.foldr squashStep (squashStep ',' (c :: r)) = b.foldr squashStep (c :: r)
      rw [squash_comma hc, hr.1]
    | @cons a' b' as' bs' hr' hs' =>
      show _ = (b ++ ", ".toList ++ joinWith ", ".toList (b' :: bs')).foldr squashStep (c :: r)
      rw [List.foldr_append, List.foldr_append, hr.1]
      rfl

theorem alike_refl (s : Text) : Alike s s := ⟨fun _ => rfl, .rfl⟩

theorem alike_append {a b c d : Text} (h : Alike a b) (h' : Alike c d) : Alike (a ++ c) (b ++ d) := by
  refine ⟨fun r => ?_, ?_⟩
  · rw [List.foldr_append, List.foldr_append, h'.1, h.1]
  · rw [List.append_eq_nil_iff, List.append_eq_nil_iff, h.2, h'.2]

theorem alike_close {a b : Text} {c : Char} (hc : Closer c)
    (h : ∀ r, a.foldr squashStep (c :: r) = b.foldr squashStep (c :: r)) : Alike (a ++ [c]) (b ++ [c]) := by
  refine ⟨fun r => ?_, by simp⟩
  rw [List.foldr_append, List.foldr_append, List.foldr_cons, List.foldr_nil, closer_step hc]
  exact h r

theorem compat_alike (look : Look) {n : Int} (hn : 0 ≤ n) (d1 d2 : Nat) :
    Compat Alike { look with indent := some n } { look with indent := none } (d1 + 1) d2 where
  app := alike_append
  fixed s _ := alike_refl s
  empty h := h.2
  fill := alike_refl _
  lit _ := alike_refl _
  enumText _ := alike_refl _
  other _ := alike_refl _
  ident _ := alike_refl _
  key _ := alike_refl _
  index _ := alike_refl _
  join generator p1 p2 h := by
    rw [join_plain (look := { look with indent := none }) rfl]
    by_cases hp : generator = true ∨ p1 ≠ []
    · rw [join_indented (look := { look with indent := some n }) rfl hn _ _ _ hp]
      refine .ok ⟨fun c hc => ⟨alike_close hc (alike_join _ _ h hc), ?_⟩, ?_⟩
      · rw [inside_plain]
        refine alike_close hc fun r => ?_
        unfold inside
        cases hs : singlePiece p1 with
        | none => exact alike_join _ _ h hc r
        | some x =>
          unfold singlePiece at hs
          cases h with
          | nil => cases hs
          | cons hr hrest =>
            cases hrest with
            | cons _ _ => cases hs
            | nil =>
              dsimp only at hs
              split at hs
              · cases hs
              · injection hs with hs
                subst hs
                exact hr.1 (c :: r)
      · intro g hg
        refine ⟨[], ?_, ?_⟩
        · have : ∀ t : Text, gapBefore ('\n' :: t) = .ok [] := fun t => rfl
          cases p1 with
          | nil => exact this _
          | cons x p => exact this _
        · refine ⟨fun r => ?_, by simp⟩
          unfold gapBefore at hg
          split at hg
          · cases hg
          · injection hg with hg
            subst hg
            split <;> rfl
    · have hg : generator = false := by
        cases generator
        · rfl
        · exact absurd (.inl rfl) hp
      have hp1 : p1 = [] := Decidable.byContradiction fun h => hp (.inr h)
      subst hg hp1
      cases h
      refine .ok ⟨fun c hc => ⟨alike_refl _, alike_refl _⟩, fun g hg => ?_⟩
      cases hg

/-! ## Moving to the right -/

theorem shift_append (n : Nat) (a b : Text) : shift n (a ++ b) = shift n a ++ shift n b := by
  unfold shift
  rw [List.flatMap_append]

theorem shift_oneLine {n : Nat} {s : Text} (h : '\n' ∉ s) : shift n s = s := by
  induction s with
  | nil => rfl
  | cons c s ih =>
    simp only [List.mem_cons, not_or] at h
    unfold shift at ih ⊢
    rw [List.flatMap_cons, ih h.2, if_neg fun hc => h.1 hc.symm]
    rfl

theorem mem_shift {n : Nat} {c : Char} (hc : c ≠ ' ') (s : Text) : c ∈ shift n s ↔ c ∈ s := by
  unfold shift
  rw [List.mem_flatMap]
  constructor
  · rintro ⟨d, hd, hm⟩
    split at hm
    · rename_i he
      rcases List.mem_cons.1 hm with rfl | hm
      · rw [← he]
        exact hd
      · exact absurd (List.eq_of_mem_replicate hm) hc
    · rw [List.mem_singleton.1 hm]
      exact hd
  · intro hm
    refine ⟨c, hm, ?_⟩
    split
    · rename_i he
      rw [he]
      simp
    · simp

theorem shift_newline (n m : Nat) : shift n ('\n' :: List.replicate m ' ') = '\n' :: List.replicate (m + n) ' ' := by
  have hs : '\n' ∉ List.replicate m ' ' := fun h => absurd (List.eq_of_mem_replicate h) (by decide)
  rw [← List.singleton_append, shift_append, shift_oneLine hs]
  show '\n' :: List.replicate n ' ' ++ [] ++ List.replicate m ' ' = _
  rw [List.append_nil, List.cons_append, List.replicate_append_replicate, Nat.add_comm]

theorem shift_lines (n m : Nat) (p : List Text) : shift n (lines m p) = lines (m + n) (p.map (shift n)) := by
  induction p with
  | nil => rfl
  | cons x p ih =>
    have hl : ∀ k (y : Text) q, lines k (y :: q) = ('\n' :: List.replicate k ' ') ++ (y ++ ([','] ++ lines k q)) := by
      intro k y q
      unfold lines
      simp only [List.flatMap_cons, List.append_assoc, List.cons_append, List.nil_append]
    rw [hl, List.map_cons, hl, shift_append, shift_newline, shift_append, shift_append, ih]
    rfl

theorem singlePiece_shift (n : Nat) (p : List Text) : singlePiece (p.map (shift n)) = singlePiece p := by
  match p with
  | [] => rfl
  | [x] =>
    simp only [List.map_cons, List.map_nil, singlePiece, mem_shift (show '\n' ≠ ' ' by decide),
      mem_shift (show '\r' ≠ ' ' by decide)]
    split
    · rfl
    · rename_i h
      rw [shift_oneLine fun hm => h (.inl hm)]
  | x :: y :: p => rfl

theorem inside_shift (n : Nat) (p : List Text) (b : Text) :
    inside (p.map (shift n)) (shift n b) = shift n (inside p b) := by
  unfold inside
  rw [singlePiece_shift]
  cases hs : singlePiece p with
  | none => rfl
  | some x =>
    refine (shift_oneLine ?_).symm
    unfold singlePiece at hs
    split at hs
    · split at hs
      · cases hs
      · rename_i h
        injection hs with hs
        subst hs
        exact fun hm => h (.inl hm)
    · cases hs

theorem pairs_shift {n : Nat} {p1 p2 : List Text} (h : Pairs (fun a b => a = shift n b) p1 p2) : p1 = p2.map (shift n) := by
  induction h with
  | nil => rfl
  | cons hr _ ih => rw [List.map_cons, hr, ih]

theorem gap_shift (n : Nat) (b : Text) : gapBefore (shift n b) = gapBefore b := by
  cases b with
  | nil => rfl
  | cons c b =>
    unfold shift
    rw [List.flatMap_cons]
    split
    · rename_i h
      subst h
      rfl
    · rfl

theorem gap_oneLine {b g : Text} (h : gapBefore b = .ok g) : '\n' ∉ g := by
  unfold gapBefore at h
  split at h
  · cases h
  · injection h with h
    subst h
    split <;> decide

theorem compat_shift {look : Look} (ho : OneLine look) {n : Int} (hi : look.indent = some n) (d : Nat) :
    Compat (fun a b => a = shift n.toNat b) look look (d + 1 + 1) (d + 1) where
  app h h' := by rw [h, h', shift_append]
  fixed s h := (shift_oneLine h).symm
  empty {a b} h := by
    subst h
    cases b with
    | nil => exact ⟨fun _ => rfl, fun _ => rfl⟩
    | cons c b =>
      unfold shift
      rw [List.flatMap_cons]
      split <;> simp
  fill := (shift_oneLine ho.fill).symm
  lit v := (shift_oneLine (ho.lit v)).symm
  enumText v := (shift_oneLine (ho.enumText v)).symm
  other v := (shift_oneLine (ho.other v)).symm
  ident v := (shift_oneLine (ho.ident v)).symm
  key v := (shift_oneLine (ho.key v)).symm
  index v := (shift_oneLine (ho.index v)).symm
  join generator p1 p2 h := by
    have hp := pairs_shift h
    subst hp
    have key : ∀ b : Text, (∀ c, Closer c → shift n.toNat b ++ [c] = shift n.toNat (b ++ [c]) ∧
        inside (p2.map (shift n.toNat)) (shift n.toNat b) ++ [c] = shift n.toNat (inside p2 b ++ [c])) ∧
        Foll (fun g h => ",".toList ++ g = shift n.toNat (",".toList ++ h)) (gapBefore (shift n.toNat b)) (gapBefore b) := by
      intro b
      refine ⟨fun c hc => ?_, ?_⟩
      · have hcn : '\n' ∉ [c] := by rcases hc with rfl | rfl | rfl <;> decide
        rw [shift_append, shift_append, shift_oneLine hcn, inside_shift]
        exact ⟨rfl, rfl⟩
      · rw [gap_shift]
        intro g hg
        refine ⟨g, hg, ?_⟩
        show ",".toList ++ g = shift n.toNat (",".toList ++ g)
        rw [shift_append, shift_oneLine (gap_oneLine hg)]
        rfl
    by_cases hp : generator = true ∨ p2 ≠ []
    · have hp' : generator = true ∨ p2.map (shift n.toNat) ≠ [] := by
        rcases hp with hp | hp
        · exact .inl hp
        · exact .inr (by simpa using hp)
      by_cases hn : 0 ≤ n
      · rw [join_indented hi hn _ _ _ hp, join_indented hi hn _ _ _ hp']
        have he : lines ((d + 1 + 1) * n.toNat) (p2.map (shift n.toNat)) ++ '\n' :: List.replicate ((d + 1) * n.toNat) ' ' =
            shift n.toNat (lines ((d + 1) * n.toNat) p2 ++ '\n' :: List.replicate (d * n.toNat) ' ') := by
          rw [shift_append, shift_lines, shift_newline, ← Nat.succ_mul, ← Nat.succ_mul]
        rw [he]
        exact .ok (key _)
      · intro b hb
        exfalso
        unfold ReprText.join at hb
        rw [hi] at hb
        dsimp only at hb
        have hcond : (!generator && p2.isEmpty) = false := by
          rcases hp with hp | hp
          · rw [hp]
            rfl
          · cases p2 with
            | nil => exact absurd rfl hp
            | cons x p => cases generator <;> rfl
        rw [hcond, if_neg (by decide), if_pos (by omega)] at hb
        cases hb
    · have hg : generator = false := by
        cases generator
        · rfl
        · exact absurd (.inl rfl) hp
      have hp1 : p2 = [] := Decidable.byContradiction fun h => hp (.inr h)
      subst hg hp1
      have hj : ∀ k, ReprText.join look k false [] = .ok [] := by
        intro k
        unfold ReprText.join
        rw [hi]
        rfl
      rw [List.map_nil, hj, hj]
      exact .ok (key [])

/-! ## One line -/

theorem joinWith_oneLine {p : List Text} (h : ∀ x ∈ p, '\n' ∉ x) : '\n' ∉ joinWith ", ".toList p := by
  induction p with
  | nil => exact List.not_mem_nil
  | cons x p ih =>
    cases p with
    | nil => exact h x (by simp)
    | cons y p =>
      show '\n' ∉ x ++ ", ".toList ++ joinWith ", ".toList (y :: p)
      rw [List.mem_append, List.mem_append]
      rintro ((h' | h') | h')
      · exact h x (by simp) h'
      · exact absurd h' (by decide)
      · exact ih (fun z hz => h z (by simp [hz])) h'

theorem pairs_oneLine {p1 p2 : List Text} (h : Pairs (fun a b => a = b ∧ '\n' ∉ a) p1 p2) :
    p1 = p2 ∧ ∀ x ∈ p1, '\n' ∉ x := by
  induction h with
  | nil => exact ⟨rfl, fun _ h => absurd h List.not_mem_nil⟩
  | cons hr _ ih =>
    refine ⟨by rw [hr.1, ih.1], fun x hx => ?_⟩
    rcases List.mem_cons.1 hx with rfl | hx
    · exact hr.2
    · exact ih.2 x hx

theorem compat_oneLine {look : Look} (ho : OneLine look) (hi : look.indent = none) (d : Nat) :
    Compat (fun a b => a = b ∧ '\n' ∉ a) look look d d where
  app h h' := by
    refine ⟨by rw [h.1, h'.1], fun hm => ?_⟩
    rcases List.mem_append.1 hm with hm | hm
    · exact h.2 hm
    · exact h'.2 hm
  fixed s h := ⟨rfl, h⟩
  empty h := by rw [h.1]
  fill := ⟨rfl, ho.fill⟩
  lit v := ⟨rfl, ho.lit v⟩
  enumText v := ⟨rfl, ho.enumText v⟩
  other v := ⟨rfl, ho.other v⟩
  ident v := ⟨rfl, ho.ident v⟩
  key v := ⟨rfl, ho.key v⟩
  index v := ⟨rfl, ho.index v⟩
  join generator p1 p2 h := by
    obtain ⟨he, hl⟩ := pairs_oneLine h
    subst he
    rw [join_plain hi]
    have hj := joinWith_oneLine hl
    refine .ok ⟨fun c hc => ?_, fun g hg => ⟨g, hg, rfl, ?_⟩⟩
    · rw [inside_plain]
      refine ⟨⟨rfl, ?_⟩, ⟨rfl, ?_⟩⟩ <;>
      · rw [List.mem_append]
        rintro (h' | h')
        · exact hj h'
        · rcases hc with rfl | rfl | rfl <;> exact absurd h' (by decide)
    · rw [List.mem_append]
      rintro (h' | h')
      · exact absurd h' (by decide)
      · exact gap_oneLine hg h'

/-! ## Always a text -/

/-- The run returns. -/
def Returns {α : Type} (x : Except PyExc α) : Prop := ∃ a, x = .ok a

theorem Returns.bind {α β : Type} {x : Except PyExc α} {f : α → Except PyExc β} (h : Returns x)
    (hf : ∀ a, x = .ok a → Returns (f a)) : Returns (x >>= f) := by
  obtain ⟨a, rfl⟩ := h
  exact hf a rfl

theorem Returns.ok {α : Type} (a : α) : Returns (Except.ok a : Except PyExc α) := ⟨a, rfl⟩

theorem Returns.ite {α : Type} {c : Prop} [Decidable c] {x y : Except PyExc α} (h : Returns x) (h' : Returns y) :
    Returns (if c then x else y) := by
  by_cases hc : c <;> simp only [hc, if_true, if_false] <;> assumption

theorem Returns.after {x : Except PyExc Text} (h : Returns x) (s : Text) : Returns (after s x) := by
  obtain ⟨a, rfl⟩ := h
  exact ⟨s ++ a, rfl⟩

theorem Returns.collect : ∀ {l : List (Except PyExc Text)}, (∀ x ∈ l, Returns x) → Returns (collect l)
  | [], _ => .ok []
  | x :: l, h => by
    simp only [ReprText.collect]
    exact (h x (by simp)).bind fun a _ => (Returns.collect fun y hy => h y (by simp [hy])).bind fun b _ => .ok _

theorem Returns.collectMap {α : Type} {l : List α} {f : α → Except PyExc Text} (h : ∀ e, Returns (f e)) :
    Returns (ReprText.collect (l.map f)) :=
  Returns.collect fun x hx => by
    obtain ⟨e, _, rfl⟩ := List.mem_map.1 hx
    exact h e

theorem Returns.join {look : Look} (hi : ∀ n, look.indent = some n → 0 ≤ n) (d : Nat) (generator : Bool) (p : List Text) :
    Returns (join look d generator p) := by
  unfold ReprText.join
  cases h : look.indent with
  | none => exact .ok _
  | some n =>
    dsimp only
    refine Returns.ite (.ok _) ?_
    rw [if_neg (by have := hi n h; omega)]
    exact .ok _

/-- Members of a list of texts that were made with a head in front. -/
theorem collect_after {α : Type} {head : α → Text} {f : α → Except PyExc Text} (hh : ∀ e, head e ≠ []) :
    ∀ {l : List α} {ts : List Text}, collect (l.map fun e => after (head e) (f e)) = .ok ts → ∀ t ∈ ts, t ≠ []
  | [], ts, h => by
    injection h with h
    subst h
    exact fun _ ht => absurd ht List.not_mem_nil
  | e :: l, ts, h => by
    rw [List.map_cons, collect] at h
    cases hf : f e with
    | error x => rw [hf] at h; cases h
    | ok t =>
      rw [hf] at h
      cases hc : collect (l.map fun e => after (head e) (f e)) with
      | error x => rw [hc] at h; cases h
      | ok ts' =>
        have ih := collect_after hh hc
        rw [hc] at h
        have h : Except.ok ((head e ++ t) :: ts') = Except.ok (ε := PyExc) ts := h
        injection h with h
        subst h
        intro x hx
        rcases List.mem_cons.1 hx with rfl | hx
        · intro hn
          exact hh e (List.append_eq_nil_iff.1 hn).1
        · exact ih x hx

theorem collect_length : ∀ {l : List (Except PyExc Text)} {ts : List Text}, collect l = .ok ts → ts.length = l.length
  | [], ts, h => by
    injection h with h
    subst h
    rfl
  | x :: l, ts, h => by
    simp only [collect] at h
    cases x with
    | error e => cases h
    | ok t =>
      cases hc : collect l with
      | error e => rw [hc] at h; cases h
      | ok ts' =>
        rw [hc] at h
        have : Except.ok (t :: ts') = Except.ok (ε := PyExc) ts := h
        injection this with this
        subst this
        rw [List.length_cons, List.length_cons, collect_length hc]

/-- The keyword arguments joined are not empty. -/
theorem joined_ne {look : Look} {d : Nat} {p : List Text} {t : Text} (hd : 1 ≤ d) (hp : p ≠ []) (hx : ∀ x ∈ p, x ≠ [])
    (h : join look d false p = .ok t) : t ≠ [] := by
  cases hi : look.indent with
  | none =>
    rw [join_plain hi] at h
    injection h with h
    subst h
    match p with
    | [] => exact absurd rfl hp
    | [x] => exact hx x (by simp)
    | x :: y :: p =>
      intro hn
      have : x ++ ", ".toList ++ joinWith ", ".toList (y :: p) = [] := hn
      rw [List.append_eq_nil_iff, List.append_eq_nil_iff] at this
      exact hx x (by simp) this.1.1
  | some n =>
    by_cases hn : 0 ≤ n
    · obtain ⟨d, rfl⟩ : ∃ e, d = e + 1 := ⟨d - 1, by omega⟩
      rw [join_indented hi hn _ _ _ (.inr hp)] at h
      injection h with h
      subst h
      simp
    · unfold join at h
      rw [hi] at h
      dsimp only at h
      split at h
      · rename_i hc
        cases p with
        | nil => exact absurd rfl hp
        | cons x p => cases hc
      · rw [if_pos (by omega)] at h
        cases h

theorem returns_gap {t : Text} (h : t ≠ []) : Returns (gapBefore t) := by
  cases t with
  | nil => exact absurd rfl h
  | cons c t => exact .ok _

/-- The pieces of the keyword arguments: there are some, and none is empty. -/
theorem kwargs_pieces {look : Look} (hf : look.fill ≠ []) {props : Dict Str Val} {env : ReprEnv}
    (hk : canBeKwargs env props = true) {left : Nat} {sub : Val → Except PyExc Text} {kw : List Text}
    (h : collect ((props.take left).map fun e => after (look.ident e.1 ++ "=".toList) (sub e.2)) = .ok kw) :
    withFill look (decide (left < props.length)) kw ≠ [] ∧ ∀ x ∈ withFill look (decide (left < props.length)) kw, x ≠ [] := by
  have hne := collect_after (fun e : Str × Val => show look.ident e.1 ++ "=".toList ≠ [] by simp) h
  have hlen := collect_length h
  rw [List.length_map, List.length_take] at hlen
  have hprops : props.length ≠ 0 := by
    unfold canBeKwargs at hk
    cases props with
    | nil => cases hk
    | cons e p => simp
  unfold withFill
  by_cases hl : left < props.length
  · rw [decide_eq_true hl, if_pos rfl]
    refine ⟨by simp, fun x hx => ?_⟩
    rcases List.mem_append.1 hx with hx | hx
    · exact hne x hx
    · rw [List.mem_singleton.1 hx]
      exact hf
  · rw [decide_eq_false hl, if_neg (by decide)]
    refine ⟨fun hn => ?_, hne⟩
    rw [hn, List.length_nil] at hlen
    omega

section
variable {look : Look} {env : ReprEnv} {d : Nat} {sub : Val → Except PyExc Text}

theorem object_returns (hf : look.fill ≠ []) (hi : ∀ n, look.indent = some n → 0 ≤ n) (hd : 1 ≤ d)
    (hs : ∀ v, Returns (sub v)) (name : Text) (maxprops : Nat) (o : JSObj Val) :
    Returns (textObject env look d sub name maxprops o) := by
  unfold textObject
  refine Returns.ite (.ok _) ?_
  refine (Returns.collectMap fun e => (hs _).after _).bind fun a _ => ?_
  by_cases hk : canBeKwargs env o.props = true
  · rw [if_pos hk]
    refine (Returns.collectMap fun e => (hs _).after _).bind fun kw hkw => ?_
    have hp := kwargs_pieces hf hk hkw
    refine (Returns.join hi d false _).bind fun t ht => Returns.ite (.ok _) ?_
    exact (Returns.join hi d false _).bind fun u _ => (returns_gap (joined_ne hd hp.1 hp.2 ht)).bind fun g _ => .ok _
  · rw [if_neg hk]
    refine (Returns.collectMap fun e => (hs _).after _).bind fun kw hkw => ?_
    exact (Returns.join hi d false _).bind fun t ht => .ok _

theorem array_returns (hf : look.fill ≠ []) (hi : ∀ n, look.indent = some n → 0 ≤ n) (hd : 1 ≤ d)
    (hs : ∀ v, Returns (sub v)) (o : JSObj Val) : Returns (textArray env look d sub o) := by
  unfold textArray
  refine Returns.ite (.ok _) ?_
  cases ho : o.array with
  | sparse _ => exact object_returns hf hi hd hs _ _ _
  | dense a =>
    dsimp only
    refine (Returns.collectMap fun e => hs _).bind fun arr _ => ?_
    by_cases hk : canBeKwargs env o.props = true
    · rw [if_pos hk]
      refine (Returns.collectMap fun e => (hs _).after _).bind fun kw hkw => ?_
      have hp := kwargs_pieces hf hk hkw
      refine (Returns.join hi d false _).bind fun t ht => Returns.ite (.ok _) ?_
      exact (Returns.join hi d false _).bind fun u _ => (returns_gap (joined_ne hd hp.1 hp.2 ht)).bind fun g _ => .ok _
    · rw [if_neg hk]
      refine (Returns.collectMap fun e => (hs _).after _).bind fun kw hkw => ?_
      refine (Returns.join hi d false _).bind fun t ht => Returns.ite (.ok _) ?_
      exact (Returns.join hi d false _).bind fun u _ => Returns.ite (.ok _) (.ok _)

theorem node_returns (hf : look.fill ≠ []) (hi : ∀ n, look.indent = some n → 0 ≤ n) (hd : 1 ≤ d)
    (hs : ∀ v, Returns (sub v)) {enum : Str → Except PyExc Text} (he : ∀ s, Returns (enum s)) (i : Id) (n : Node) :
    Returns (textNode env look d sub enum i n) := by
  unfold textNode
  split
  · exact object_returns hf hi hd hs _ _ _
  · exact array_returns hf hi hd hs _
  · unfold textMap
    refine Returns.ite (.ok _) ?_
    refine (Returns.collectMap fun e => (hs _).bind fun _ _ => (hs _).bind fun _ _ => .ok _).bind fun a _ => ?_
    exact (Returns.join hi d false _).bind fun t _ => Returns.ite (.ok _) (.ok _)
  · unfold textSet
    refine Returns.ite (.ok _) ?_
    refine (Returns.collectMap fun e => hs _).bind fun a _ => ?_
    exact (Returns.join hi d false _).bind fun t _ => .ok _
  · unfold textError
    refine (Returns.collect fun x hx => ?_).bind fun a _ => (Returns.join hi d true _).bind fun t _ => .ok _
    have harg : ∀ (head : Text) (y : Option (Except PyExc Text)), (∀ z, y = some z → Returns z) →
        x ∈ errorArg head y → Returns x := by
      intro head y hy hm
      cases y with
      | none => exact absurd hm List.not_mem_nil
      | some z =>
        rw [List.mem_singleton.1 hm]
        exact (hy z rfl).after _
    simp only [List.mem_append, List.mem_singleton] at hx
    rcases hx with ((hx | hx) | hx) | hx
    · rw [hx]
      exact hs _
    · refine harg _ _ (fun z hz => ?_) hx
      split at hz
      · cases hz
      · injection hz with hz
        subst hz
        exact Returns.ite (he _) (hs _)
    · refine harg _ _ (fun z hz => ?_) hx
      obtain ⟨s, _, rfl⟩ := Option.map_eq_some_iff.1 hz
      exact hs _
    · refine harg _ _ (fun z hz => ?_) hx
      split at hz
      · cases hz
      · injection hz with hz
        subst hz
        exact hs _
  · exact .ok _

end

theorem text_returns {look : Look} (env : ReprEnv) (hf : look.fill ≠ []) (hi : ∀ n, look.indent = some n → 0 ≤ n) (m : Nat) :
    ∀ (level : Nat) (running : List Id) (v : Val), Returns (text env look m level running v)
  | 0, _, _ => by
    unfold text
    exact .ok _
  | level + 1, running, v => by
    cases v with
    | obj i =>
      simp only [text]
      refine Returns.ite (.ok _) ?_
      cases env.heap[i]? with
      | none => exact .ok _
      | some n =>
        exact node_returns hf hi (by omega) (fun v => text_returns env hf hi m level _ v) (fun s => .ok _) i n
    | _ => simp only [text]; exact .ok _

end V8.ReprText
