import Verif.Proofs.ReprWritten
import Verif.Props.ReprText

/-!
# C95: the text of `repr()` is an expression

`Model/ReprText` has the characters that `repr()` returns, `Model/Repr` the expressions that C66 evaluates.  They are made
by two readings of the same Python functions (_repr.py:133-317).  Here the characters are shown to be the expression, written
as in `Spec/ReprWritten`.
-/

namespace V8.Props

open V8 V8.ReprText V8.Spec V8.Spec.ReprText V8.Spec.ReprWritten

theorem exampleLook_ordinary (indent : Option Int) : Ordinary (exampleLook indent) where
  fill := ⟨'.', ['.', '.'], by simp only [exampleLook]; decide, by decide⟩
  lit v := by
    simp only [exampleLook]
    split
    · decide
    · split <;> decide
    · decide
    · decide
  ident s := by
    simp only [exampleLook]
    split
    · exact ⟨'k', [], by decide, by decide⟩
    · exact ⟨'e', [], by decide, by decide⟩

theorem shown_oneFill : OneFillEach (reprExample shownHeap) := by
  refine ⟨fun i o hi => ⟨(shown_ok i _ (.inl hi)).1, ?_⟩, fun i s ps hi => ⟨(shown_ok i _ (.inr hi)).1, ?_⟩⟩
  · have hm : Node.jsobj o ∈ shownHeap := List.mem_of_getElem? hi
    simp only [shownHeap, List.mem_cons, Node.jsobj.injEq, List.not_mem_nil, reduceCtorEq, or_false] at hm
    subst hm
    exact .inr (.inr (by decide))
  · have hm : Node.jsarr ⟨.sparse s, ps⟩ ∈ shownHeap := List.mem_of_getElem? hi
    simp [shownHeap] at hm

/-- **C95, text**: without an indent, the text of a value is its expression written on one line, for all levels, cycles and
limits.  Missing for the full claim: objects whose elements and other properties are both cut off in one dict display. -/
theorem C95_text_partial (env : ReprEnv) {look : Look} (ho : Ordinary look) (hi : look.indent = none) (hh : OneFillEach env)
    (maxlevel : Nat) (v : Val) :
    reprOf env look maxlevel v = .ok (write look (maxlevel + 1) (repr1 env maxlevel [] v)) :=
  written hi ho hh maxlevel maxlevel [] v

/-- The expression of the example, as C66 has it, written out. -/
example : write (exampleLook none) 7 (repr1 (reprExample shownHeap) 6 [] (.obj 0)) =
    ("JSObject(k=JSArray([1, JSHole, JSMap([('s', 1), (JSSet([1, 's']), None)])]), " ++
      "e=JSError('m, m', name='s'))").toList := by
  have h := C95_text_partial (reprExample shownHeap) (exampleLook_ordinary none) rfl shown_oneFill 6 (.obj 0)
  have h3 : reprOf (reprExample shownHeap) (exampleLook none) 6 (.obj 0) =
    .ok ("JSObject(k=JSArray([1, JSHole, JSMap([('s', 1), (JSSet([1, 's']), None)])]), " ++
      "e=JSError('m, m', name='s'))").toList := by decide +kernel
  rw [h] at h3
  exact Except.ok.inj h3

/-- **C95, evaluation**: the text of a value that is shown in full is an expression, written on one line, whose evaluation
gives a copy of the value. -/
theorem C95_evaluates_partial (env : ReprEnv) {look : Look} (ho : Ordinary look) (hi : look.indent = none)
    (hh : OneFillEach env) (ee : PyEval) (hpy : ee.py = env.py) (hu : Unhashable env) (maxlevel fuel : Nat)
    (hfuel : maxlevel ≤ fuel) (v : Val) (hv : ShownFully env ee maxlevel [] v) :
    ∃ e w new, reprOf env look maxlevel v = .ok (write look (maxlevel + 1) e) ∧
      evalExpr ee fuel e env.heap = .ok (w, env.heap ++ new) ∧ CopyAt (env.heap ++ new) maxlevel v w := by
  obtain ⟨w, new, h1, h2, _⟩ := C66_repr_evaluates_partial env ee hpy hu maxlevel fuel hfuel v hv
  exact ⟨_, w, new, C95_text_partial env ho hi hh maxlevel v, h1, h2⟩

example : ∃ e w new, reprOf (reprExample shownHeap) (exampleLook none) 5 (.obj 0) = .ok (write (exampleLook none) 6 e) ∧
    evalExpr exampleEval 5 e shownHeap = .ok (w, shownHeap ++ new) ∧ CopyAt (shownHeap ++ new) 5 (.obj 0) w :=
  C95_evaluates_partial (reprExample shownHeap) (exampleLook_ordinary none) rfl shown_oneFill exampleEval rfl
    (fun _ _ _ _ => rfl) 5 5 (Nat.le_refl _) _ shown_fits

/-- **C95, equality**: and `==` of the value and the result of the evaluation answers True, as in C66. -/
theorem C95_equal_partial (env : ReprEnv) {look : Look} (ho : Ordinary look) (hi : look.indent = none)
    (hh : OneFillEach env) (ee : PyEval) (hpy : ee.py = env.py) (hu : Unhashable env) (maxlevel fuel : Nat)
    (hfuel : maxlevel ≤ fuel) (v : Val) (hv : ShownFully env ee maxlevel [] v)
    (hok : HeapOK env.heap) (hacyclic : Acyclic env.heap) (hexist : AllExist env.heap)
    (leaf : Val → Val → Except PyExc Bool) (hhole : ∀ v, v ≠ .hole → leaf v .hole ≠ .ok true)
    (hleaf : ∀ a b, ∃ r, leaf a b = .ok r) :
    ∃ e w h', reprOf env look maxlevel v = .ok (write look (maxlevel + 1) e) ∧
      evalExpr ee fuel e env.heap = .ok (w, h') ∧ pyEqTop ⟨h', leaf⟩ v w = (.ok true, []) := by
  obtain ⟨w, h', h1, h2⟩ := C66_repr_equal_partial env ee hpy hu maxlevel fuel hfuel v hv hok hacyclic hexist leaf hhole hleaf
  exact ⟨_, w, h', C95_text_partial env ho hi hh maxlevel v, h1, h2⟩

example : ∃ e w h', reprOf (reprExample shownHeap) (exampleLook none) 5 (.obj 0) = .ok (write (exampleLook none) 6 e) ∧
    evalExpr exampleEval 5 e shownHeap = .ok (w, h') ∧ pyEqTop ⟨h', fun _ _ => .ok false⟩ (.obj 0) w = (.ok true, []) :=
  C95_equal_partial (reprExample shownHeap) (exampleLook_ordinary none) rfl shown_oneFill exampleEval rfl
    (fun _ _ _ _ => rfl) 5 5 (Nat.le_refl _) _ shown_fits shown_ok
    ⟨fun i => 6 - i, fun i j h => later_rank (shown_parts i j h)⟩
    (fun i j h => (shown_parts i j h).2) (fun _ _ => .ok false) (fun _ _ h => by cases h) (fun _ _ => ⟨_, rfl⟩)
/-- **C95, indented**: with an indent the text is the expression too, but for the layout. -/
theorem C95_indented_partial (env : ReprEnv) {look : Look} (ho : Ordinary look) (hh : OneFillEach env) {n : Int} (hn : 0 ≤ n)
    (maxlevel : Nat) (v : Val) :
    ∃ t, reprOf env { look with indent := some n } maxlevel v = .ok t ∧
      squash t = squash (write look (maxlevel + 1) (repr1 env maxlevel [] v)) := by
  have ho' : Ordinary { look with indent := none } := ⟨ho.fill, ho.lit, ho.ident⟩
  have h := C95_text_partial env ho' rfl hh maxlevel v
  obtain ⟨t, ht, hs⟩ := C94_same env look hn maxlevel v h
  refine ⟨t, ht, hs.trans ?_⟩
  rw [write_indent]

example : ∃ t, reprOf (reprExample shownHeap) (exampleLook (some 2)) 6 (.obj 0) = .ok t ∧
    squash t = squash (write (exampleLook none) 7 (repr1 (reprExample shownHeap) 6 [] (.obj 0))) :=
  C95_indented_partial (reprExample shownHeap) (exampleLook_ordinary none) shown_oneFill (by decide) 6 (.obj 0)

/-- An object with more elements than are shown and a property whose name is no identifier: the dict display has the fill
value twice, which no expression of C66 has. -/
theorem C95_two_fills :
    let env := reprExample [.jsobj ⟨.dense ⟨[some .null, some .null, some .null, some .null], 4⟩, [(str " ", .null)]⟩]
    reprOf env (exampleLook none) 6 (.obj 0) =
        .ok "JSObject({7: None, 7: None, 7: None, ..., ...})".toList ∧
      write (exampleLook none) 7 (repr1 env 6 [] (.obj 0)) = "JSObject({7: None, 7: None, 7: None, ...})".toList := by
  decide +kernel

end V8.Props
