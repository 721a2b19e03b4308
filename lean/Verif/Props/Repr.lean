import Verif.Proofs.ReprEqual
import Verif.Props.PlainEq

/-!
# C66: evaluating the `repr` of a JS value gives an equal value

`repr1 env level running v` is the expression that `repr(v)` prints, `evalExpr ee fuel e h` is what the expression `e`
evaluates to when the objects of `h` exist.  `Spec/Repr.lean` says what a copy is (`CopyAt`) and which values are
shown in full (`ShownFully`).
-/

namespace V8.Props
open Spec

/-- If `v` is shown in full, then its `repr` is an expression; evaluating it adds objects to those that exist and gives
a copy of `v`: scalars are the same, and objects are new ones of the same class, whose parts are copies, in the
same order.  Missing for the full claim: values that are not shown in full (see the theorems below). -/
theorem C66_repr_evaluates_partial (env : ReprEnv) (ee : PyEval) (hpy : ee.py = env.py) (hu : Unhashable env)
    (level fuel : Nat) (hfuel : level ≤ fuel) (v : Val) (hv : ShownFully env ee level [] v) :
    ∃ w new, evalExpr ee fuel (repr1 env level [] v) env.heap = .ok (w, env.heap ++ new) ∧
      CopyAt (env.heap ++ new) level v w ∧ (∀ j, w = .obj j → env.heap.length ≤ j) := by
  obtain ⟨w, h', e1, ⟨new, rfl⟩, e3, e4, _⟩ := repr_evaluates hpy hu level [] v fuel hfuel hv env.heap (Ext.refl _)
  exact ⟨w, new, e1, e3, fun j hj => (e4.inRange (Nat.le_refl _) j hj).1⟩

/-- And the result is equal to `v`: `==` of the two answers True, given that there are no cycles among the objects that
exist, and `==` of classes outside the model does not raise. -/
theorem C66_repr_equal_partial (env : ReprEnv) (ee : PyEval) (hpy : ee.py = env.py) (hu : Unhashable env)
    (level fuel : Nat) (hfuel : level ≤ fuel) (v : Val) (hv : ShownFully env ee level [] v)
    (hok : HeapOK env.heap) (hacyclic : Acyclic env.heap) (hexist : AllExist env.heap)
    (leaf : Val → Val → Except PyExc Bool) (hhole : ∀ v, v ≠ .hole → leaf v .hole ≠ .ok true)
    (hleaf : ∀ a b, ∃ r, leaf a b = .ok r) :
    ∃ w h', evalExpr ee fuel (repr1 env level [] v) env.heap = .ok (w, h') ∧
      pyEqTop ⟨h', leaf⟩ v w = (.ok true, []) := by
  obtain ⟨w, h', e1, e2, e3, _, e5⟩ := repr_evaluates hpy hu level [] v fuel hfuel hv env.heap (Ext.refl _)
  have hf : FreshFrom env.heap.length h' := e5 fun i n hi hn => by
    have := (List.getElem?_eq_some_iff.mp hn).1
    omega
  have hok' := fresh_heapOK hok e2 hf
  have hac' := fresh_acyclic hacyclic hexist e2 hf
  refine ⟨w, h', e1, Prod.ext ?_ (pyEq_run _ _ v w [])⟩
  rcases C34_answers ⟨h', leaf⟩ hok' v w with ⟨b, hb⟩ | ⟨e, a, b, _, hl⟩
  · have hs : StructEq ⟨h', leaf⟩ v w := copy_structEq (env := ⟨h', leaf⟩) hok' e3
    rw [hb, (C34_structural_partial ⟨h', leaf⟩ hok' hhole hac' v w b hb).2 hs]
  · obtain ⟨r, hr⟩ := hleaf a b
    have : leaf a b = .error e := hl
    rw [hr] at this
    cases this

/-! ## Values that are not shown in full -/

theorem evalCall_more {ee : PyEval} {ev : PExpr → Heap → Except EvalError (Val × Heap)} (cls : ReprCls) (arg : PArg)
    (star : Bool) (kwargs : List (Str × PExpr)) (h : Heap) :
    evalCall ee ev cls arg star kwargs true h = .error .syntaxError := by
  simp [evalCall, bind, Except.bind]

theorem evalCall_propsMore {ee : PyEval} {ev : PExpr → Heap → Except EvalError (Val × Heap)} (ps : List (PKey × PExpr))
    (star : Bool) (kwargs : List (Str × PExpr)) (h : Heap) :
    evalCall ee ev .object (.props ps true) star kwargs false h = .error .syntaxError := by
  simp [evalCall, bind, Except.bind]

theorem evalCall_keyword {ee : PyEval} {ev : PExpr → Heap → Except EvalError (Val × Heap)} {arg : PArg}
    {kwargs : List (Str × PExpr)} {more : Bool} {h : Heap} {s : Str} (hs : s ∈ kwargs.map (·.1)) (hk : ee.keyword s = true)
    {r : Val × Heap} : evalCall ee ev .object arg false kwargs more h ≠ .ok r := by
  intro hr
  have hn : kwNames ee false (kwargs.map (·.1)) = .error .syntaxError := by
    unfold kwNames
    rw [if_neg (by simp), if_pos (List.any_eq_true.2 ⟨s, hs, hk⟩)]
  cases more with
  | true => rw [evalCall_more] at hr; cases hr
  | false =>
    simp only [evalCall, bind, Except.bind, hn] at hr
    repeat' split at hr
    all_goals contradiction

/-- A JSObject with more properties than `maxjsobject` has a `repr` that cannot be evaluated: the dict display, or the keyword
arguments, end in `...`. -/
theorem C66_many_properties (env : ReprEnv) (ee : PyEval) (level fuel : Nat) (running : List Id) (i : Id) (o : JSObj Val)
    (hi : env.heap[i]? = some (.jsobj o)) (hr : i ∉ running) (hinv : o.Inv) (hmany : env.maxjsobject < o.items.length) (h : Heap) :
    evalExpr ee (fuel + 1) (repr1 env (level + 1) running (.obj i)) h = .error .syntaxError := by
  have hne : ¬ o.len = 0 := fun h0 => by rw [(len_zero hinv).1 h0] at hmany; simp at hmany
  have hlen : o.items.length = o.array.used.toNat + o.props.length := by
    rw [← elementItems_length hinv, JSObj.items_eq hinv, elementItems_eq hinv.arr]; simp
  simp only [repr1, if_neg hr, hi, reprNode, reprObject, if_neg hne]
  by_cases hk : canBeKwargs env o.props = true
  · have hp := List.length_pos_of_ne_nil (canBeKwargs_iff.1 hk).1
    have hm : decide (env.maxjsobject - o.array.used.toNat < o.props.length) = true := decide_eq_true (by omega)
    rw [if_pos hk, hm]
    split <;> rw [evalExpr_call, evalCall_more]
  · have hm : (decide (env.maxjsobject < o.array.used.toNat) ||
        (!o.props.isEmpty && decide (env.maxjsobject - o.array.used.toNat < o.props.length))) = true := by
      by_cases h1 : env.maxjsobject < o.array.used.toNat
      · simp [h1]
      · have h2 : o.props ≠ [] := fun h2 => by rw [h2] at hlen; simp at hlen; omega
        have h3 : env.maxjsobject - o.array.used.toNat < o.props.length := by omega
        simp [h2, h3]
    rw [if_neg hk, hm, evalExpr_call, evalCall_propsMore]

/-- A JSObject all of whose property names look like identifiers, one of them being a reserved word such as `class`, has a
`repr` that cannot be evaluated: it is printed as a keyword argument. -/
theorem C66_keyword_name (env : ReprEnv) (ee : PyEval) (level fuel : Nat) (running : List Id) (i : Id) (o : JSObj Val)
    (hi : env.heap[i]? = some (.jsobj o)) (hr : i ∉ running) (hident : ∀ e ∈ o.props, env.isIdent e.1 = true)
    (hinv : o.Inv) (e : Str × Val) (he : e ∈ o.props) (hk : ee.keyword e.1 = true) (h : Heap) (r : Val × Heap) :
    evalExpr ee fuel (repr1 env (level + 1) running (.obj i)) h ≠ .ok r := by
  have hne : ¬ o.len = 0 := fun h0 => by
    have h1 := (len_zero hinv).1 h0
    rw [JSObj.items_eq hinv] at h1
    simp only [List.append_eq_nil_iff, List.map_eq_nil_iff] at h1
    rw [h1.2] at he; cases he
  have hc : canBeKwargs env o.props = true := canBeKwargs_iff.2 ⟨fun h1 => (by rw [h1] at he; cases he), hident⟩
  cases fuel with
  | zero => intro hx; cases hx
  | succ fuel =>
    simp only [repr1, if_neg hr, hi, reprNode, reprObject, if_neg hne, if_pos hc]
    by_cases hm : env.maxjsobject - o.array.used.toNat < o.props.length
    · rw [decide_eq_true hm]
      split <;> rw [evalExpr_call, evalCall_more] <;> intro hx <;> cases hx
    · have hall : o.props.take (env.maxjsobject - o.array.used.toNat) = o.props := List.take_of_length_le (by omega)
      have hs : e.1 ∈ (o.props.map (fun e => (e.1, repr1 env level (i :: running) e.2))).map (·.1) := by
        rw [List.map_map]
        exact List.mem_map.2 ⟨e, he, rfl⟩
      rw [hall]
      split <;> rw [evalExpr_call] <;> exact evalCall_keyword hs hk

/-- A JSError whose name is a member of JSErrorName other than Error, as every decoded error of such a kind, has a
`repr` that cannot be evaluated: it contains `name=<JSErrorName.X: 'X'>`.  (On the last level it is `JSError(..., name=...)`.) -/
theorem C66_error_name (env : ReprEnv) (ee : PyEval) (level fuel : Nat) (running : List Id) (i : Id) (name : Str)
    (message stack : Option Str) (cause : Val) (hi : env.heap[i]? = some (.error name message stack cause)) (hr : i ∉ running)
    (hname : name ≠ str "Error") (henum : env.enumName i = true) (h : Heap) (r : Val × Heap) :
    evalExpr ee fuel (repr1 env (level + 2) running (.obj i)) h ≠ .ok r := by
  have he : name ≠ errorName := hname
  intro hx
  cases fuel with
  | zero => cases hx
  | succ fuel =>
    simp only [repr1, if_neg hr, hi, reprNode, reprError, if_neg he, henum, if_true, evalExpr_errorCall, evalErrorCall, bind,
      Except.bind] at hx
    split at hx
    · cases hx
    · cases fuel <;> simp [evalOpt, evalExpr] at hx

/-! ## Examples -/

/-- The names used below are identifiers; `class` is a reserved word; the ligature `ﬁ` (U+FB01) is read as `fi`; the
string `long` is over the limit and printed as one that stands for `l...g`. -/
def exampleEval : PyEval where
  floatStr := fun _ => []
  keyword := fun s => s = str "class"
  nfkc := fun s => if s = [0xFB01] then str "fi" else s
  abbreviated := fun _ => str "l...g"
  py := exampleCompare

/-- The default limits are larger (_repr.py:101-128); errors of the heap have plain names, except number 4. -/
def reprExample (heap : Heap) : ReprEnv where
  heap := heap
  maxjsobject := 3
  maxjsarray := 3
  maxdict := 3
  maxset := 3
  short := fun v => v ≠ .str (str "long")
  isIdent := fun s => s ≠ [] ∧ str " " ≠ s
  enumName := fun i => i = 4
  py := exampleCompare

/-- `{k: [1, <hole>, Map{"x" => 1, Set{1, "s"} => null}], e: TypeError("m")}` -/
def shownHeap : Heap :=
  [.jsobj ⟨.dense ⟨[], 0⟩, [(str "k", .obj 1), (str "e", .obj 5)]⟩,
   .jsarr ⟨.dense ⟨[some (.int 1), none, some (.obj 2)], 2⟩, []⟩,
   .jsmap [(.str (str "x"), .int 1), (.obj 3, .null)],
   .jsset [.int 1, .str (str "s")],
   .error (str "TypeError") (some (str "m")) none .null,
   .error (str "TypeError") (some (str "m")) none .null]

theorem shown_fits : ShownFully (reprExample shownHeap) exampleEval 5 [] (.obj 0) := by
  refine ⟨by simp, _, rfl, ⟨⟨rfl, by decide +kernel⟩, by decide +kernel, by decide +kernel, by decide +kernel, fun _ => by decide +kernel⟩,
    by decide +kernel, by simp [NoTrailingHole, Arr.abs], ?_⟩
  intro e he
  have : e = (.name (str "k"), .obj 1) ∨ e = (.name (str "e"), .obj 5) := by
    have h1 : (JSObj.mk (.dense ⟨[], 0⟩) [(str "k", Val.obj 1), (str "e", .obj 5)]).items
        = [(.name (str "k"), .obj 1), (.name (str "e"), .obj 5)] := by decide +kernel
    rw [h1] at he
    simpa using he
  rcases this with rfl | rfl
  · refine ⟨by decide, _, rfl, ⟨⟨rfl, by decide +kernel⟩, by decide +kernel, by decide +kernel, by decide +kernel, fun _ => by decide +kernel⟩,
      by decide +kernel, .inr (.inl ⟨.int 1, by simp⟩), ?_, by simp⟩
    intro v hv
    simp only [List.mem_cons, List.not_mem_nil, or_false] at hv
    rcases hv with rfl | rfl | rfl
    · exact ⟨by decide +kernel, by simp [elemVal]⟩
    · exact ⟨by decide +kernel, by simp [elemVal]⟩
    · refine ⟨by decide, _, rfl, by decide, ?_, ?_⟩
      · simp [SameValueZero]
      · intro e he
        simp only [List.mem_cons, List.not_mem_nil, or_false] at he
        rcases he with rfl | rfl
        · exact ⟨by simp [TooBig], ⟨by decide +kernel, by simp⟩, ⟨by decide +kernel, by simp⟩⟩
        · refine ⟨by simp [TooBig], ⟨by decide, _, rfl, by decide, ?_, ?_⟩, ⟨by decide +kernel, by simp⟩⟩
          · simp [SameValueZero]
          · intro v hv
            simp only [List.mem_cons, List.not_mem_nil, or_false] at hv
            rcases hv with rfl | rfl
            · exact ⟨by decide +kernel, ⟨by decide +kernel, by simp⟩⟩
            · exact ⟨by simp [TooBig], ⟨by decide +kernel, by simp⟩⟩
  · exact ⟨by decide, _, rfl, ⟨_, rfl, by decide +kernel, by simp⟩, .inr ⟨by decide +kernel, by decide +kernel, by simp⟩, by simp, .inl rfl⟩

/-- The values directly inside. -/
def partsOf : Node → List Val
  | .jsobj o | .jsarr o => o.items.map (·.2)
  | .jsmap es => es.flatMap (fun e => [e.1, e.2])
  | .jsset ms => ms
  | .error _ _ _ c => [c]
  | _ => []

theorem inside_parts {h : Heap} (hh : HeapOK h) {i : Id} {v : Val} (hin : Inside h i v) : ∃ n, h[i]? = some n ∧ v ∈ partsOf n := by
  cases hin with
  | @prop o k c h1 h2 =>
    have hinv := (hh i o h1).1
    have hm : v ∈ o.items.map (·.2) := List.mem_map.2 ⟨(k, v), (JSObj.mem_items hinv (k, v)).2 h2, rfl⟩
    rcases h1 with h1 | h1 <;> exact ⟨_, h1, hm⟩
  | @entryKey es e h1 h2 => exact ⟨_, h1, List.mem_flatMap.2 ⟨e, h2, by simp⟩⟩
  | @entryValue es e h1 h2 => exact ⟨_, h1, List.mem_flatMap.2 ⟨e, h2, by simp⟩⟩
  | @member ms c h1 h2 => exact ⟨_, h1, h2⟩
  | cause h1 => exact ⟨_, h1, by simp [partsOf]⟩

theorem shown_ok : HeapOK shownHeap := by
  have key : ∀ n ∈ shownHeap, ∀ o, n = .jsobj o ∨ n = .jsarr o → o.Inv ∧ ∀ e ∈ o.items, e.2 ≠ .hole := by
    intro n hn o ho
    simp only [shownHeap, List.mem_cons, List.not_mem_nil, or_false] at hn
    rcases hn with rfl | rfl | rfl | rfl | rfl | rfl <;> rcases ho with ho | ho <;> cases ho <;>
      exact ⟨⟨rfl, by decide +kernel⟩, by decide +kernel⟩
  intro i o hi
  have h1 : o.Inv ∧ ∀ e ∈ o.items, e.2 ≠ .hole := by
    rcases hi with hi | hi
    · exact key _ (List.mem_of_getElem? hi) o (.inl rfl)
    · exact key _ (List.mem_of_getElem? hi) o (.inr rfl)
  exact ⟨h1.1, fun k hk => h1.2 (k, .hole) ((JSObj.mem_items h1.1 (k, .hole)).2 hk) rfl⟩

/-- Not a reference to an object that does not come after `a`. -/
def refersWithin (a : Id) : Val → Bool
  | .obj b => decide (a < b ∧ b < 6)
  | _ => true

/-- The objects inside come later in `shownHeap`. -/
theorem shown_parts : ∀ i j : Id, Inside shownHeap i (.obj j) → i < j ∧ j < 6 := by
  intro i j hin
  obtain ⟨n, h1, h2⟩ := inside_parts shown_ok hin
  have hlt : (i : Nat) < 6 := (List.getElem?_eq_some_iff.1 h1).1
  have hcase : ∀ x : Nat, x < 6 → x = 0 ∨ x = 1 ∨ x = 2 ∨ x = 3 ∨ x = 4 ∨ x = 5 := by omega
  replace hcase := hcase i hlt
  have key : ∀ (a : Id) (m : Node), shownHeap[a]? = some m → (∀ v ∈ partsOf m, refersWithin a v = true) →
      i = a → i < j ∧ j < 6 := by
    rintro a m hm hall rfl
    rw [hm] at h1; cases h1
    have := hall _ h2
    simpa [refersWithin] using this
  rcases hcase with h | h | h | h | h | h <;> exact key _ _ rfl (by decide +kernel) h

theorem later_rank {i j : Nat} (h : i < j ∧ j < 6) : 6 - j < 6 - i := by omega

example : ∃ w h', evalExpr exampleEval 5 (repr1 (reprExample shownHeap) 5 [] (.obj 0)) shownHeap = .ok (w, h') ∧
    pyEqTop ⟨h', fun _ _ => .ok false⟩ (.obj 0) w = (.ok true, []) :=
  C66_repr_equal_partial (reprExample shownHeap) exampleEval rfl (fun _ _ _ _ => rfl) 5 5 (Nat.le_refl _) _ shown_fits shown_ok
    ⟨fun i => 6 - i, fun i j h => later_rank (shown_parts i j h)⟩
    (fun i j h => (shown_parts i j h).2) (fun _ _ => .ok false) (fun _ _ h => by cases h) (fun _ _ => ⟨_, rfl⟩)

/-- What `repr` of the first object of the heap evaluates to. -/
def evalFirst (heap : Heap) : Except EvalError (Val × Heap) :=
  evalExpr exampleEval 4 (repr1 (reprExample heap) 3 [] (.obj 0)) heap

example : evalFirst [.jsmap [(.str (str "x"), .int 1), (.obj 1, .null)], .jsset [.int 1, .str (str "s")]]
    = .ok (.obj 3, [.jsmap [(.str (str "x"), .int 1), (.obj 1, .null)], .jsset [.int 1, .str (str "s")],
      .jsset [.int 1, .str (str "s")], .jsmap [(.str (str "x"), .int 1), (.obj 2, .null)]]) := by decide +kernel

/-- Values that are not shown in full, and what their `repr` evaluates to: something else, or nothing. -/
theorem C66_other_values :
    -- `JSObject` with the array `[1, <hole>]`: the array gets shorter
    evalFirst [.jsobj ⟨.dense ⟨[some (.int 1), none], 1⟩, []⟩]
      = .ok (.obj 1, [.jsobj ⟨.dense ⟨[some (.int 1), none], 1⟩, []⟩, .jsobj ⟨.dense ⟨[some (.int 1)], 1⟩, []⟩]) ∧
    -- `JSArray` of holes alone: printed as `JSArray()`
    evalFirst [.jsarr ⟨.dense ⟨[none, none], 0⟩, []⟩]
      = .ok (.obj 1, [.jsarr ⟨.dense ⟨[none, none], 0⟩, []⟩, .jsarr ⟨.dense ⟨[], 0⟩, []⟩]) ∧
    -- a set over the limit: printed as `JSSet([1, 2, 3, ...])`, which has Ellipsis in it
    evalFirst [.jsset [.int 1, .int 2, .int 3, .int 4]]
      = .ok (.obj 2, [.jsset [.int 1, .int 2, .int 3, .int 4], .other, .jsset [.int 1, .int 2, .int 3, .obj 1]]) ∧
    -- an array over the limit
    evalFirst [.jsarr ⟨.dense ⟨[some .null, some .null, some .null, some .null], 4⟩, []⟩]
      = .ok (.obj 2, [.jsarr ⟨.dense ⟨[some .null, some .null, some .null, some .null], 4⟩, []⟩, .other,
          .jsarr ⟨.dense ⟨[some .null, some .null, some .null, some (.obj 1)], 4⟩, []⟩]) ∧
    -- a set in itself: printed as `JSSet([...])`
    evalFirst [.jsset [.obj 0]] = .ok (.obj 2, [.jsset [.obj 0], .other, .jsset [.obj 1]]) ∧
    -- a set at the depth limit
    evalFirst [.jsset [.obj 1], .jsset [.obj 2], .jsset [.int 1]]
      = .ok (.obj 6, [.jsset [.obj 1], .jsset [.obj 2], .jsset [.int 1], .other, .jsset [.obj 3], .jsset [.obj 4], .jsset [.obj 5]]) ∧
    -- infinity
    evalFirst [.jsset [.float 0x7FF0000000000000]] = .error .nameError ∧
    -- a property named with the ligature `ﬁ` is read as `fi`
    evalFirst [.jsobj ⟨.dense ⟨[], 0⟩, [([0xFB01], .null)]⟩]
      = .ok (.obj 1, [.jsobj ⟨.dense ⟨[], 0⟩, [([0xFB01], .null)]⟩, .jsobj ⟨.dense ⟨[], 0⟩, [(str "fi", .null)]⟩]) ∧
    -- a long string is read as a shorter one
    evalFirst [.jsset [.str (str "long")]] = .ok (.obj 1, [.jsset [.str (str "long")], .jsset [.str (str "l...g")]]) ∧
    -- a map over the limit
    evalFirst [.jsmap [(.int 1, .null), (.int 2, .null), (.int 3, .null), (.int 4, .null)]] = .error (.raised .typeError) := by
  decide +kernel

-- the hypotheses of the other theorems
example : evalFirst [.jsobj ⟨.dense ⟨[some .null, some .null], 2⟩, [(str "a", .null), (str " ", .null)]⟩] = .error .syntaxError :=
  C66_many_properties (reprExample _) exampleEval 2 3 [] 0 ⟨.dense ⟨[some .null, some .null], 2⟩, [(str "a", .null), (str " ", .null)]⟩
    rfl (by simp) ⟨rfl, by decide +kernel⟩ (by decide +kernel) _

example : ∀ r, evalFirst [.jsobj ⟨.dense ⟨[], 0⟩, [(str "a", .null), (str "class", .null)]⟩] ≠ .ok r :=
  C66_keyword_name (reprExample _) exampleEval 2 4 [] 0 ⟨.dense ⟨[], 0⟩, [(str "a", .null), (str "class", .null)]⟩
    rfl (by simp) (by decide +kernel) ⟨rfl, by decide +kernel⟩ (str "class", .null) (by simp) (by decide +kernel) _

example : ∀ r, evalExpr exampleEval 4 (repr1 (reprExample shownHeap) 3 [] (.obj 4)) shownHeap ≠ .ok r :=
  C66_error_name (reprExample shownHeap) exampleEval 2 4 [] 4 _ _ _ _ rfl (by simp) (by decide +kernel) (by decide +kernel) _

end V8.Props
