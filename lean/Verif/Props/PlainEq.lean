import Verif.Proofs.PlainEq
import Verif.Model.RecursiveEq
import Mathlib.Data.List.Perm.Basic

/-!
# C62: a JSMap equals a dict as a dict would, a JSSet equals a set as a set would

`Spec/PlainEq.lean` says when two containers are equal: `AgreeInAnyOrder` for dicts and sets,
`AgreeInOrder` for lists.
-/

namespace V8.Props
open V8 V8.Spec

/-- Scalars with Python's `==`, and objects that are all bytearrays holding `b"a"`: not hashable, equal to each
other and to the bytes `b"a"`.  A scalar is the same object as another one with the same value. -/
def exampleCompare : PyCompare where
  hash
    | .obj _ => none
    | .bytes b => some (b.length + 2)
    | .str _ => some 1
    | _ => some 0
  same v w := v = w
  eq
    | .obj _, .obj _ => .ok true
    | .obj _, .bytes b => .ok (b = [97])
    | .bytes b, .obj _ => .ok (b = [97])
    | .obj _, _ => .ok false
    | _, .obj _ => .ok false
    | v, w => .ok (scalarEq v w)

theorem exampleCompare_equal {v w : Val} (hv : CanHash exampleCompare v)
    (hw : CanHash exampleCompare w) :
    Equal exampleCompare v w ↔ v = w ∨ ∃ a, numOf v = some a ∧ numOf w = some a ∧ a ≠ .nan := by
  have h1 : exampleCompare.eq v w = .ok (scalarEq v w) := by
    cases v <;> cases w <;> first | rfl | simp [CanHash, exampleCompare] at hv hw
  have h2 : exampleCompare.same v w = decide (v = w) := rfl
  unfold Equal
  rw [h1, h2]
  unfold scalarEq
  cases hn : numOf v with
  | none => simp
  | some a =>
    cases hm : numOf w with
    | none =>
      have : v ≠ w := by intro h; rw [h, hm] at hn; cases hn
      simp [this]
    | some b =>
      simp only [decide_eq_true_eq, Except.ok.injEq, Option.some.injEq]
      constructor
      · rintro (h | ⟨h, rfl⟩)
        · exact .inl h
        · exact .inr ⟨a, rfl, rfl, h⟩
      · rintro (h | ⟨c, rfl, h, hc⟩)
        · exact .inl h
        · exact .inr ⟨hc, h.symm⟩

/-- The assumption `HashesWell` holds of the scalars of Python. -/
theorem exampleCompare_hashesWell : HashesWell exampleCompare where
  refl v := by simp [exampleCompare]
  total v w hv hw := by
    refine ⟨scalarEq v w, ?_⟩
    cases v <;> cases w <;> first | rfl | simp [CanHash, exampleCompare] at hv hw
  symm v w hv hw h := by
    rw [exampleCompare_equal hv hw] at h
    rw [exampleCompare_equal hw hv]
    rcases h with h | ⟨a, h1, h2, h3⟩
    · exact .inl h.symm
    · exact .inr ⟨a, h2, h1, h3⟩
  trans u v w hu hv hw h h' := by
    rw [exampleCompare_equal hu hv] at h
    rw [exampleCompare_equal hv hw] at h'
    rw [exampleCompare_equal hu hw]
    rcases h with rfl | ⟨a, h1, h2, h3⟩
    · exact h'
    · rcases h' with rfl | ⟨b, k1, k2, k3⟩
      · exact .inr ⟨a, h1, h2, h3⟩
      · rw [h2] at k1
        cases k1
        exact .inr ⟨a, h1, k2, h3⟩
  hash v w hv hw h := by
    rw [exampleCompare_equal hv hw] at h
    rcases h with rfl | ⟨a, h1, h2, h3⟩
    · rfl
    · cases v <;> first | (simp [numOf] at h1; done) | cases w <;> first | rfl | simp [numOf] at h2

/-! ## JSMap -/

/-- **C62.** A JSMap whose keys are hashable equals a dict exactly when its entries and those of the dict can be matched
one to one, in any order, with equal keys and equal values.  (In particular it never does when two of its
keys are equal in Python, like `1` and `True`.)

The full claim, for all JSMaps, fails: see `C62_order_matters`. -/
theorem C62_map_dict_partial {py : PyCompare} (hw : HashesWell py) (m : JSMap Val)
    (hm : ∀ e ∈ m.items, CanHash py e.1) (d : List (Val × Val))
    (hd : DistinctKeys py (d.map (·.1))) :
    m.pyEq py (.dict d) = .ok (some true) ↔ AgreeInAnyOrder (EqualPair py) m.items d := by
  simp only [JSMap.pyEq]
  have hlen : m.items.length = m.len := by simp [JSMap.items, JSMap.len]
  by_cases h : m.len = d.length
  · rw [if_neg (show ¬ m.len ≠ d.length from fun hn => hn h)]
    obtain ⟨r, hr, hiff⟩ := toDict_agree hw (Equal py) (fun c => py.entriesIn d c = .ok true) m.items d hm hd
      (by rw [hlen, h]) (fun c hc => entriesIn_true hw d c hc hd)
    rw [hr]
    show (py.dictEq r d).map some = _ ↔ AgreeInAnyOrder (fun x y => Equal py x.1 y.1 ∧ Equal py x.2 y.2) m.items d
    rw [map_some_true, ← hiff]
    unfold PyCompare.dictEq
    by_cases hl : r.length = d.length
    · simp [hl]
    · simp [hl]
  · rw [if_pos (show m.len ≠ d.length from h)]
    constructor
    · intro hf; simp at hf
    · rintro ⟨d', hp, hf⟩
      exact absurd (by rw [← hlen, hf.length_eq, hp.length_eq]) h

/-- A JSMap `{1: 'x', 'k': 'y'}` equals the dict `{'k': 'y', True: 'x'}`. -/
example : (JSMap.update [] [(.int 1, .str [120]), (.str [107], .str [121])]).1.pyEq exampleCompare
    (.dict [(.str [107], .str [121]), (.bool true, .str [120])]) = .ok (some true) := by decide +kernel

/-- A JSMap with both keys `1` and `True` equals no dict with two entries. -/
example (d : List (Val × Val)) (hd : DistinctKeys exampleCompare (d.map (·.1))) :
    (JSMap.update [] [(.int 1, .null), (.bool true, .null)]).1.pyEq exampleCompare (.dict d) ≠ .ok (some true) := by
  rw [Ne, C62_map_dict_partial exampleCompare_hashesWell _ (by unfold CanHash; decide +kernel) d hd]
  intro h
  have := distinct_of_agree exampleCompare_hashesWell (Equal exampleCompare) _ d
    (by unfold CanHash; decide +kernel) hd h
  revert this
  rw [show JSMap.items (JSMap.update [] [(.int 1, .null), (.bool true, .null)]).1 =
    [(Val.int 1, Val.null), (.bool true, .null)] by decide +kernel]
  simp only [List.map_cons, List.pairwise_cons, List.mem_cons]
  intro h
  exact h.1 (.bool true) (.inl rfl) (.inr (by decide +kernel))

/-- **C62.** The order of the entries makes no difference, neither in the dict nor in the JSMap, if its keys are
hashable. -/
theorem C62_map_dict_order_partial {py : PyCompare} (hw : HashesWell py) (m m' : JSMap Val)
    (hm : ∀ e ∈ m.items, CanHash py e.1) (hmm : m.items.Perm m'.items) (d d' : List (Val × Val))
    (hd : DistinctKeys py (d.map (·.1))) (hdd : d.Perm d') :
    m.pyEq py (.dict d) = .ok (some true) ↔ m'.pyEq py (.dict d') = .ok (some true) := by
  have hsymm : ∀ a b, CanHash py a → CanHash py b → (¬ Equal py a b ↔ ¬ Equal py b a) := by
    intro a b ha hb
    exact ⟨fun h h' => h (hw.symm _ _ hb ha h'), fun h h' => h (hw.symm _ _ ha hb h')⟩
  have hd' : DistinctKeys py (d'.map (·.1)) := by
    refine ⟨fun k hk => hd.1 k ((hdd.map _).mem_iff.2 hk), ?_⟩
    have h1 : (d.map (·.1)).Pairwise (fun a b => CanHash py a → CanHash py b → ¬ Equal py a b) :=
      hd.2.imp (fun h _ _ => h)
    have h2 := (List.Perm.pairwise_iff (fun h hb ha => (hsymm _ _ ha hb).1 (h ha hb)) (hdd.map (·.1))).1 h1
    refine h2.imp_of_mem (fun ha hb h => h ?_ ?_)
    · exact hd.1 _ ((hdd.map _).mem_iff.2 ha)
    · exact hd.1 _ ((hdd.map _).mem_iff.2 hb)
  have hm' : ∀ e ∈ m'.items, CanHash py e.1 := fun e he => hm e (hmm.mem_iff.2 he)
  rw [C62_map_dict_partial hw m hm d hd, C62_map_dict_partial hw m' hm' d' hd']
  constructor
  · rintro ⟨b, hp, hf⟩
    obtain ⟨c, hc1, hc2⟩ := List.perm_comp_forall₂ hmm.symm hf
    exact ⟨c, (hc2.trans hp).trans hdd, hc1⟩
  · rintro ⟨b, hp, hf⟩
    obtain ⟨c, hc1, hc2⟩ := List.perm_comp_forall₂ hmm hf
    exact ⟨c, (hc2.trans hp).trans hdd.symm, hc1⟩

/-- With an unhashable key the entries are compared in order. -/
theorem C62_map_dict_unhashable {py : PyCompare} (m : JSMap Val)
    (hm : ∃ e ∈ m.items, ¬ CanHash py e.1) (d : List (Val × Val)) :
    m.pyEq py (.dict d) = .ok (some true) ↔ AgreeInOrder (EqualPair py) m.items d := by
  have hlen : m.items.length = m.len := by simp [JSMap.items, JSMap.len]
  simp only [JSMap.pyEq]
  by_cases h : m.len = d.length
  · rw [if_neg (show ¬ m.len ≠ d.length from fun hn => hn h)]
    obtain ⟨e, he⟩ := storeAll_unhashable (py := py) m.items [] hm
    rw [show py.toDict m.items = .error e from he]
    show (allZip py.pairEq m.items d).map some = _ ↔ _
    rw [map_some_true, allZip_true _ _ _ (by rw [hlen, h])]
    unfold AgreeInOrder
    simp only [pairEq_true]
  · rw [if_pos (show m.len ≠ d.length from h)]
    constructor
    · intro hf; simp at hf
    · intro hf
      exact absurd (by rw [← hlen, List.Forall₂.length_eq hf]) h

/-- Both parts are needed: the claim that the order makes no difference fails for a JSMap with the unhashable key
`bytearray(b"a")`, which equals the hashable key `b"a"` of the dict. -/
theorem C62_order_matters : ∃ (py : PyCompare) (m : JSMap Val) (d d' : List (Val × Val)), HashesWell py ∧
    DistinctKeys py (d.map (·.1)) ∧ d.Perm d' ∧
    m.pyEq py (.dict d) = .ok (some true) ∧ m.pyEq py (.dict d') = .ok (some false) := by
  refine ⟨exampleCompare, (JSMap.update [] [(.obj 0, .null), (.str [107], .null)]).1,
    [(.bytes [97], .null), (.str [107], .null)], [(.str [107], .null), (.bytes [97], .null)],
    exampleCompare_hashesWell, ⟨?_, ?_⟩, .swap _ _ _, ?_, ?_⟩
  · unfold CanHash; decide +kernel
  · simp only [List.map_cons, List.map_nil, List.pairwise_cons, List.mem_singleton, forall_eq]
    refine ⟨?_, by simp⟩
    unfold Equal; decide +kernel
  · decide +kernel
  · decide +kernel

/-- **C62.** Two JSMaps are equal exactly when the lists of their entries are. -/
theorem C62_map_map (py : PyCompare) (m m' : JSMap Val) :
    m.pyEq py (.jsmap m') = .ok (some true) ↔ AgreeInOrder (EqualPair py) m.items m'.items := by
  have hlen : m.items.length = m.len := by simp [JSMap.items, JSMap.len]
  have hlen' : m'.items.length = m'.len := by simp [JSMap.items, JSMap.len]
  simp only [JSMap.pyEq]
  by_cases h : m.len = m'.len
  · rw [if_neg (show ¬ m.len ≠ m'.len from fun hn => hn h), map_some_true,
      allZip_true _ _ _ (by rw [hlen, hlen', h])]
    unfold AgreeInOrder
    simp only [pairEq_true]
  · rw [if_pos (show m.len ≠ m'.len from h)]
    constructor
    · intro hf; simp at hf
    · intro hf
      exact absurd (by rw [← hlen, List.Forall₂.length_eq hf, hlen']) h

example : (JSMap.update [] [(.obj 0, .int 1), (.str [107], .null)]).1.pyEq exampleCompare
    (.jsmap (JSMap.update [] [(.obj 1, .bool true), (.str [107], .null)]).1) = .ok (some true) := by
  decide +kernel

/-- A consequence of using two notions of equality: `==` is not transitive.  A JSMap and another one with its
entries in another order both equal the same dict, and not each other. -/
theorem C62_not_transitive : ∃ (py : PyCompare) (m m' : JSMap Val) (d : List (Val × Val)), HashesWell py ∧
    m.pyEq py (.dict d) = .ok (some true) ∧ m'.pyEq py (.dict d) = .ok (some true) ∧
    m.pyEq py (.jsmap m') = .ok (some false) :=
  ⟨exampleCompare, (JSMap.update [] [(.int 1, .null), (.int 2, .null)]).1,
    (JSMap.update [] [(.int 2, .null), (.int 1, .null)]).1, [(.int 1, .null), (.int 2, .null)],
    exampleCompare_hashesWell, by decide +kernel, by decide +kernel, by decide +kernel⟩

/-! ## JSSet -/

/-- **C62.** A JSSet whose members are hashable equals a set exactly when their members can be matched one to one, in any
order.

The full claim, for all JSSets, fails: see `C62_unhashable_equal`. -/
theorem C62_set_set_partial {py : PyCompare} (hw : HashesWell py) (s : JSSet)
    (hs : ∀ v ∈ s.members, CanHash py v) (l : List Val) (hl : DistinctKeys py l) :
    s.pyEq py (.set l) = .ok (some true) ↔ AgreeInAnyOrder (Equal py) s.members l := by
  have hlen : s.members.length = s.len := by simp [JSSet.members, JSSet.len]
  have hunit : ∀ a b : List Val, AgreeInAnyOrder (fun x y : Val × Unit => Equal py x.1 y.1 ∧ True)
      (a.map (·, ())) (b.map (·, ())) ↔ AgreeInAnyOrder (Equal py) a b := by
    intro a b
    constructor
    · rintro ⟨b', hp, hf⟩
      refine ⟨b'.map (·.1), ?_, ?_⟩
      · have := hp.map (·.1)
        rwa [List.map_map, show ((fun x : Val × Unit => x.1) ∘ fun x : Val => (x, ())) = id from rfl,
          List.map_id] at this
      · rw [List.forall₂_map_left_iff] at hf
        rw [List.forall₂_map_right_iff]
        exact hf.imp (fun _ _ h => h.1)
    · rintro ⟨b', hp, hf⟩
      refine ⟨b'.map (·, ()), hp.map _, ?_⟩
      rw [List.forall₂_map_left_iff, List.forall₂_map_right_iff]
      exact hf.imp (fun _ _ h => ⟨h, trivial⟩)
  simp only [JSSet.pyEq]
  by_cases h : s.len = l.length
  · rw [if_neg (show ¬ s.len ≠ l.length from fun hn => hn h)]
    have hd : DistinctKeys py ((l.map (·, ())).map (·.1)) := by
      rw [List.map_map]
      simpa [Function.comp_def] using hl
    obtain ⟨r, hr, hiff⟩ := toDict_agree hw (fun _ _ => True)
      (fun c => PyCompare.setEq.go py (l.map (·, ())) c = .ok true) (s.members.map (·, ())) (l.map (·, ()))
      (by
        intro e he
        obtain ⟨v, hv, rfl⟩ := List.mem_map.1 he
        exact hs v hv) hd (by simp [hlen, h]) (fun c hc => setGo_true hw _ c hc hd)
    rw [show py.toSet s.members = .ok r from hr]
    show (py.setEq r (l.map (·, ()))).map some = _ ↔ _
    rw [map_some_true, ← hunit, ← hiff]
    unfold PyCompare.setEq
    by_cases hl : r.length = (l.map (·, ())).length
    · simp [hl]
    · rw [if_pos (show r.length ≠ (l.map (·, ())).length from hl)]
      constructor
      · intro hf; simp at hf
      · intro hf; exact absurd hf.1 hl
  · rw [if_pos (show s.len ≠ l.length from h)]
    constructor
    · intro hf; simp at hf
    · rintro ⟨d', hp, hf⟩
      exact absurd (by rw [← hlen, hf.length_eq, hp.length_eq]) h

example : (JSSet.ior [] [.int 1, .str [107]]).1.pyEq exampleCompare (.set [.str [107], .bool true]) =
    .ok (some true) := by decide +kernel

/-- With an unhashable member the members are compared in order. -/
theorem C62_set_set_unhashable {py : PyCompare} (s : JSSet) (hs : ∃ v ∈ s.members, ¬ CanHash py v)
    (l : List Val) :
    s.pyEq py (.set l) = .ok (some true) ↔ AgreeInOrder (fun v w => py.eq v w = .ok true) s.members l := by
  have hlen : s.members.length = s.len := by simp [JSSet.members, JSSet.len]
  simp only [JSSet.pyEq]
  by_cases h : s.len = l.length
  · rw [if_neg (show ¬ s.len ≠ l.length from fun hn => hn h)]
    obtain ⟨e, he⟩ := storeAll_unhashable (py := py) (s.members.map (·, ())) [] (by
      obtain ⟨v, hv, hn⟩ := hs
      exact ⟨(v, ()), List.mem_map_of_mem hv, hn⟩)
    rw [show py.toSet s.members = .error e from he]
    show (allZip py.eq s.members l).map some = _ ↔ _
    rw [map_some_true, allZip_true _ _ _ (by rw [hlen, h])]
    rfl
  · rw [if_pos (show s.len ≠ l.length from h)]
    constructor
    · intro hf; simp at hf
    · intro hf
      exact absurd (by rw [← hlen, List.Forall₂.length_eq hf]) h

/-- The documentation of JSSet says that a JSSet with a member that is not hashable equals no set, "as normal sets cannot
contain non-hashable members".  It can: `JSSet([bytearray(b"a")]) == {b"a"}`. -/
theorem C62_unhashable_equal : ∃ (py : PyCompare) (s : JSSet) (l : List Val), HashesWell py ∧ DistinctKeys py l ∧
    (∃ v ∈ s.members, ¬ CanHash py v) ∧ s.pyEq py (.set l) = .ok (some true) := by
  refine ⟨exampleCompare, (JSSet.ior [] [.obj 0]).1, [.bytes [97]], exampleCompare_hashesWell,
    ⟨?_, List.pairwise_singleton _ _⟩, ⟨.obj 0, ?_, ?_⟩, ?_⟩
  · unfold CanHash; decide +kernel
  · decide +kernel
  · unfold CanHash; decide +kernel
  · decide +kernel

/-- **C62.** Two JSSets are equal exactly when their members are pairwise `==`, in order.

The documentation says "as if you compared a list of both set's elements".  Lists compare their elements by `is` first,
JSSet does not: see `C62_set_unlike_list`. -/
theorem C62_jsset_jsset_partial (py : PyCompare) (s s' : JSSet) :
    s.pyEq py (.jsset s') = .ok (some true) ↔
      AgreeInOrder (fun v w => py.eq v w = .ok true) s.members s'.members := by
  have hlen : s.members.length = s.len := by simp [JSSet.members, JSSet.len]
  have hlen' : s'.members.length = s'.len := by simp [JSSet.members, JSSet.len]
  simp only [JSSet.pyEq]
  by_cases h : s.len = s'.len
  · rw [if_neg (show ¬ s.len ≠ s'.len from fun hn => hn h), map_some_true,
      allZip_true _ _ _ (by rw [hlen, hlen', h])]
    rfl
  · rw [if_pos (show s.len ≠ s'.len from h)]
    constructor
    · intro hf; simp at hf
    · intro hf
      exact absurd (by rw [← hlen, List.Forall₂.length_eq hf, hlen']) h

example : (JSSet.ior [] [.obj 0, .int 1]).1.pyEq exampleCompare (.jsset (JSSet.ior [] [.obj 1, .bool true]).1) =
    .ok (some true) := by decide +kernel

/-- Two JSSets of one and the same NaN are not equal, though the lists `[nan]` and `[nan]` and the JSMaps
`{nan: None}` are. -/
theorem C62_set_unlike_list : ∃ (py : PyCompare) (v : Val), HashesWell py ∧
    AgreeInOrder (Equal py) (JSSet.ior [] [v]).1.members (JSSet.ior [] [v]).1.members ∧
    (JSSet.ior [] [v]).1.pyEq py (.jsset (JSSet.ior [] [v]).1) = .ok (some false) ∧
    (JSMap.update [] [(v, .null)]).1.pyEq py (.jsmap (JSMap.update [] [(v, .null)]).1) = .ok (some true) := by
  refine ⟨exampleCompare, .float 0x7ff8000000000000, exampleCompare_hashesWell, ?_, ?_, ?_⟩
  · exact List.forall₂_same.2 (fun v _ => .inl (exampleCompare_hashesWell.refl v))
  · decide +kernel
  · decide +kernel

/-! ## Exceptions and other operands -/

/-- JSMap and JSSet leave the answer to the other operand exactly when it is no mapping, or no set. -/
theorem C62_declines (py : PyCompare) (m : JSMap Val) (o : MapOperand) (s : JSSet) (p : SetOperand) :
    (m.pyEq py o = .ok none ↔ o = .other) ∧ (s.pyEq py p = .ok none ↔ p = .other) := by
  have hmap : ∀ r : Except PyExc Bool, r.map some ≠ .ok none := by
    intro r; cases r <;> simp [Except.map]
  constructor
  · cases o with
    | itself => simp [JSMap.pyEq]
    | other => simp [JSMap.pyEq]
    | jsmap m' =>
      simp only [JSMap.pyEq, reduceCtorEq, iff_false]
      split
      · simp
      · exact hmap _
    | dict d =>
      simp only [JSMap.pyEq, reduceCtorEq, iff_false]
      split
      · simp
      · split <;> exact hmap _
  · cases p with
    | itself => simp [JSSet.pyEq]
    | other => simp [JSSet.pyEq]
    | jsset s' =>
      simp only [JSSet.pyEq, reduceCtorEq, iff_false]
      split
      · simp
      · exact hmap _
    | set l =>
      simp only [JSSet.pyEq, reduceCtorEq, iff_false]
      split
      · simp
      · split <;> exact hmap _

/-- **C62.** Comparing raises only what comparing the values raises: an unhashable key does not. -/
theorem C62_total {py : PyCompare} (ht : ∀ v w, ∃ b, py.eq v w = .ok b) (m : JSMap Val) (o : MapOperand)
    (s : JSSet) (p : SetOperand) : (∃ r, m.pyEq py o = .ok r) ∧ ∃ r, s.pyEq py p = .ok r := by
  have hmap : ∀ r : Except PyExc Bool, (∃ b, r = .ok b) → ∃ b, r.map some = .ok b := by
    rintro _ ⟨b, rfl⟩; exact ⟨_, rfl⟩
  refine ⟨?_, ?_⟩
  · cases o with
    | itself => exact ⟨_, rfl⟩
    | other => exact ⟨_, rfl⟩
    | jsmap m' =>
      simp only [JSMap.pyEq]
      split
      · exact ⟨_, rfl⟩
      · exact hmap _ (allZip_total (pairEq_total ht) _ _)
    | dict d =>
      simp only [JSMap.pyEq]
      split
      · exact ⟨_, rfl⟩
      · cases py.toDict m.items with
        | error e => exact hmap _ (allZip_total (pairEq_total ht) _ _)
        | ok c =>
          refine hmap _ ?_
          unfold PyCompare.dictEq
          split
          · exact ⟨_, rfl⟩
          · exact entriesIn_total ht d c
  · cases p with
    | itself => exact ⟨_, rfl⟩
    | other => exact ⟨_, rfl⟩
    | jsset s' =>
      simp only [JSSet.pyEq]
      split
      · exact ⟨_, rfl⟩
      · exact hmap _ (allZip_total ht _ _)
    | set l =>
      simp only [JSSet.pyEq]
      split
      · exact ⟨_, rfl⟩
      · cases py.toSet s.members with
        | error e => exact hmap _ (allZip_total ht _ _)
        | ok c =>
          refine hmap _ ?_
          unfold PyCompare.setEq
          split
          · exact ⟨_, rfl⟩
          · exact setGo_total ht _ c

example : ∀ v w, ∃ b, exampleCompare.eq v w = .ok b := by
  intro v w; cases v <;> cases w <;> exact ⟨_, rfl⟩

end V8.Props
