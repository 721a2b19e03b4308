import Verif.Proofs.Copies

/-!
# Copies of containers by `copy` and `pickle` (C84)
-/

namespace V8.Props

open V8.Copies V8.Spec

/-! ## `copy.copy` -/

/-- **C84** (`_partial`: the copy should also be a container of its own, see `C84_shallow_shares`.)  A copy of a JSMap is a
new object with the same items; the other objects are as before. -/
theorem C84_shallow_partial (s : Maps) (i : Nat) (m : JSMap Val) (h : s.view i = some m) :
    (s.step (.copy i)).objs.length = s.objs.length + 1 ∧
      (s.step (.copy i)).view s.objs.length = some m ∧
      ∀ j, j < s.objs.length → (s.step (.copy i)).view j = s.view j := by
  unfold Maps.view at h
  split at h
  · cases h
  · rename_i c hc
    simp only [Maps.step, hc]
    refine ⟨by simp, by simp [Maps.view, h], fun j hj => ?_⟩
    simp [Maps.view, List.getElem?_append_left hj]

/-- What is missing from `C84_shallow_partial`: the copy and the original are the same map under two names.  Whatever the
program does to either of them, or to other maps, they have the same items. -/
theorem C84_shallow_shares (s : Maps) (i : Nat) (m : JSMap Val) (h : s.view i = some m) (ops : List MapOp) :
    ((s.step (.copy i)).run ops).view s.objs.length = ((s.step (.copy i)).run ops).view i := by
  unfold Maps.view at h
  split at h
  · cases h
  · rename_i c hc
    have h1 : (s.step (.copy i)).objs[i]? = some c := mapStep_objs s _ hc
    have h2 : (s.step (.copy i)).objs[s.objs.length]? = some c := by simp [Maps.step, hc]
    unfold Maps.view
    rw [mapRun_objs ops _ h1, mapRun_objs ops _ h2]

/-- **C84** An assignment to a JSMap is that of `Model/Value`, and it changes no map that is not a copy of it. -/
theorem C84_assign (s : Maps) (i : Nat) (m : JSMap Val) (h : s.view i = some m) (k v : Val) :
    (s.step (.set i k v)).view i = some (m.setitem k v).1 ∧
      ∀ j, s.objs[j]? ≠ s.objs[i]? → (s.step (.set i k v)).view j = s.view j := by
  unfold Maps.view at h
  split at h
  · cases h
  · rename_i c hc
    simp only [Maps.step, hc, h]
    have hlt := (List.getElem?_eq_some_iff.1 h).1
    refine ⟨by simp [Maps.view, hc, hlt], fun j hj => ?_⟩
    unfold Maps.view
    cases q : s.objs[j]? with
    | none => rfl
    | some c' =>
      have : c ≠ c' := fun r => hj (by rw [q, r])
      simp [List.getElem?_set_ne this]

/-- A copy of a JSObject has the same content. -/
theorem C84_object_shallow_partial (s : Objects) (i : Nat) (o : JSObj Val) (h : s.view i = some o) :
    (s.step (.copy i)).objs.length = s.objs.length + 1 ∧
      (s.step (.copy i)).view s.objs.length = some o ∧
      ∀ j, j < s.objs.length → (s.step (.copy i)).view j = s.view j := by
  unfold Objects.view at h
  split at h
  · cases h
  · rename_i a d hc
    simp only [Objects.step, hc]
    refine ⟨by simp, by simpa [Objects.view] using h, fun j hj => ?_⟩
    simp [Objects.view, List.getElem?_append_left hj]

/-- What is missing from `C84_object_shallow_partial`: whatever the program does to a JSObject, its copy, or other
objects, the two have the same properties with names; and they have the same elements as long as they have the same
array object. -/
theorem C84_object_shares (s : Objects) (i : Nat) (o : JSObj Val) (h : s.view i = some o) (ops : List ObjOp)
    (x y : JSObj Val) (hx : ((s.step (.copy i)).run ops).view i = some x)
    (hy : ((s.step (.copy i)).run ops).view s.objs.length = some y) :
    x.props = y.props ∧
      (((s.step (.copy i)).run ops).objs[i]? = ((s.step (.copy i)).run ops).objs[s.objs.length]? → x = y) := by
  unfold Objects.view at h
  split at h
  · cases h
  · rename_i a d hc
    have hlt := (List.getElem?_eq_some_iff.1 hc).1
    have h1 : (s.step (.copy i)).objs[i]? = some (a, d) := by
      simp only [Objects.step, hc, List.getElem?_append_left hlt]
    have h2 : (s.step (.copy i)).objs[s.objs.length]? = some (a, d) := by simp [Objects.step, hc]
    obtain ⟨a₁, q₁⟩ := objRun_dict ops _ h1
    obtain ⟨a₂, q₂⟩ := objRun_dict ops _ h2
    refine ⟨?_, fun e => ?_⟩
    · unfold Objects.view at hx hy
      rw [q₁] at hx
      rw [q₂] at hy
      simp only at hx hy
      split at hx
      · rename_i x₁ y₁ _ r₁
        split at hy
        · rename_i x₂ y₂ _ r₂
          cases hx
          cases hy
          rw [r₁] at r₂
          exact Option.some.inj r₂
        · cases hy
      · cases hx
    · unfold Objects.view at hx hy
      rw [e, hy] at hx
      exact (Option.some.inj hx).symm

/-- **C84** An assignment to a JSObject is that of `Model/JSObject`, and it changes no object that shares neither its
array nor its properties. -/
theorem C84_object_assign (s : Objects) (i : Nat) (o : JSObj Val) (h : s.view i = some o) (k : PKey) (v : Option Val) :
    (s.step (.set i k v)).view i = some (o.setitem k v).1 ∧
      ∀ j o' p q, s.view j = some o' → s.objs[j]? = some p → s.objs[i]? = some q → p.1 ≠ q.1 → p.2 ≠ q.2 →
        (s.step (.set i k v)).view j = some o' := by
  unfold Objects.view at h
  split at h
  · cases h
  · rename_i a d hc
    split at h
    · rename_i x y hx hy
      cases h
      have ha := (List.getElem?_eq_some_iff.1 hx).1
      have hd := (List.getElem?_eq_some_iff.1 hy).1
      have hi := (List.getElem?_eq_some_iff.1 hc).1
      simp only [Objects.step, hc, hx, hy]
      cases k with
      | name n =>
        refine ⟨?_, fun j o' p q ho hp hq n1 n2 => ?_⟩
        · simp only [Objects.view, hc, hx, List.getElem?_set_self hd]
          cases v <;> rfl
        · cases hq
          simp only [Objects.view, hp] at ho
          simp only [Objects.view, hp, List.getElem?_set_ne (Ne.symm n2), ho]
      | idx n =>
        have same : JSObj.mk (JSObj.setitem ⟨x, y⟩ (.idx n) v).1.array y = (JSObj.setitem ⟨x, y⟩ (.idx n) v).1 := by
          simp only [JSObj.setitem]
          split <;> rfl
        by_cases hs : switches x n = true
        · simp only [hs, if_true]
          refine ⟨?_, fun j o' p q ho hp hq n1 n2 => ?_⟩
          · simp only [Objects.view, List.getElem?_set_self hi, List.getElem?_concat_length, hy, same]
          · cases hq
            have hij : i ≠ j := fun e => n1 (by rw [e, hp] at hc; cases hc; rfl)
            simp only [Objects.view, hp] at ho
            simp only [Objects.view, List.getElem?_set_ne hij, hp]
            cases r : s.arrays[p.1]? with
            | none => simp [r] at ho
            | some z =>
              have hz := (List.getElem?_eq_some_iff.1 r).1
              rw [r] at ho
              simp only [List.getElem?_append_left hz, r, ho]
        · simp only [hs]
          refine ⟨?_, fun j o' p q ho hp hq n1 n2 => ?_⟩
          · simp [Objects.view, hc, hy, ha, same]
          · cases hq
            simp only [Objects.view, hp] at ho
            simp [Objects.view, hp, List.getElem?_set_ne (Ne.symm n1), ho]
    · cases h

/-! ## `copy.deepcopy` and `pickle` -/

/-- **C84** A deep copy of a JSMap has the copies of its keys and values as its items, in the same order. -/
theorem C84_deep_items (φ : Id → Except PyExc Id) (m m' : JSMap Val) (h : deepMap φ m = .ok m') :
    List.Forall₂ (fun p p' => CopyOf φ p.1 p'.1 ∧ CopyOf φ p.2 p'.2) m.items m'.items := by
  have := deepMap_ok h
  clear h
  induction this with
  | nil => exact .nil
  | cons he _ ih => exact .cons he.2 ih

/-- **C84** A deep copy of a JSMap raises exactly if the copy of one of the objects in it raises. -/
theorem C84_deep_raises (φ : Id → Except PyExc Id) (m : JSMap Val) :
    (∃ e, deepMap φ m = .error e) ↔ ∃ p ∈ m.items, ∃ i e, (p.1 = .obj i ∨ p.2 = .obj i) ∧ φ i = .error e :=
  deepMap_error φ m

/-- The deep copy of a JSMap finds, for any key, the copy of what the original finds for the same key: for the keys of the
original, not for the copies of them. -/
theorem C84_deep_original_keys (φ : Id → Except PyExc Id) (m m' : JSMap Val) (h : deepMap φ m = .ok m') (k : Val) :
    CopiedAnswer φ (m.getitem k) (m'.getitem k) := by
  unfold JSMap.getitem
  cases hk : sameValueZero k with
  | error e => exact .error
  | ok key =>
    simp only
    rcases deepMap_get (deepMap_ok h) key with ⟨h1, h2⟩ | ⟨p, p', h1, h2, _, h4⟩
    · rw [h1, h2]
      exact .error
    · rw [h1, h2]
      exact .ok h4

/-- **C84** (`_partial`: keys that are objects are missing, see `C84_deep_lost`.)  Looking up the copy of a key in
the deep copy gives the copy of the value. -/
theorem C84_deep_lookup_partial (φ : Id → Except PyExc Id) (m m' : JSMap Val) (h : deepMap φ m = .ok m') (k k' : Val)
    (hk : CopyOf φ k k') (hn : ∀ i, k ≠ .obj i) : CopiedAnswer φ (m.getitem k) (m'.getitem k') := by
  cases hk with
  | object _ => exact absurd rfl (hn _)
  | value _ => exact C84_deep_original_keys φ m m' h k

/-- What is missing from `C84_deep_lookup_partial`: if a key of a JSMap is an object and is copied to a new object, then
that object is a key of the deep copy but cannot be found in it; the key of the original can be. -/
theorem C84_deep_lost (φ : Id → Except PyExc Id) (m m' : JSMap Val) (hm : MadeMap m) (h : deepMap φ m = .ok m')
    (i j : Id) (p : Val × Val) (hp : p ∈ m.items) (hi : p.1 = .obj i) (hj : φ i = .ok j)
    (new : ∀ q ∈ m.items, q.1 ≠ .obj j) :
    (∃ q ∈ m'.items, q.1 = .obj j) ∧ m'.getitem (.obj j) = .error .keyError ∧ ∃ v, m'.getitem (.obj i) = .ok v := by
  refine ⟨?_, ?_, ?_⟩
  · obtain ⟨q, hq, h1, _⟩ := mem_copied (C84_deep_items φ m m' h) hp
    rw [hi] at h1
    exact ⟨q, hq, copyOf_obj h1 hj⟩
  · simp only [JSMap.getitem, sameValueZero]
    rcases deepMap_get (deepMap_ok h) (.obj j) with ⟨_, h2⟩ | ⟨q, _, h1, _⟩
    · rw [h2]
    · have hmem := dictGet_mem h1
      have := svz_obj (madeMap_keys hm _ hmem)
      exact absurd this (new q (List.mem_map.2 ⟨_, hmem, rfl⟩))
  · obtain ⟨e, he, rfl⟩ := List.mem_map.1 hp
    have hk := madeMap_keys hm e he
    rw [hi] at hk
    obtain ⟨w, hw⟩ := dictGet_isSome he
    simp only [sameValueZero, Except.ok.injEq] at hk
    rw [← hk] at hw
    simp only [JSMap.getitem, sameValueZero]
    rcases deepMap_get (deepMap_ok h) (.obj i) with ⟨h1, _⟩ | ⟨_, q', _, h2, _⟩
    · rw [h1] at hw
      cases hw
    · rw [h2]
      exact ⟨q'.2, rfl⟩

/-- **C84** A deep copy of a JSSet has the copies of its members in the same order, and answers for any value what the
original answers for it. -/
theorem C84_deep_set (φ : Id → Except PyExc Id) (s s' : JSSet) (h : deepSet φ s = .ok s') :
    List.Forall₂ (CopyOf φ) s.members s'.members ∧ ∀ v, s'.contains v = s.contains v := by
  constructor
  · have := deepSet_ok h
    clear h
    induction this with
    | nil => exact .nil
    | cons he _ ih => exact .cons he.2 ih
  · intro v
    unfold JSSet.contains
    cases sameValueZero v with
    | error e => rfl
    | ok key => simp only [deepSet_get (deepSet_ok h) key]

/-- So a new object that is a member of the deep copy of a JSSet is not found in it. -/
theorem C84_deep_set_lost (φ : Id → Except PyExc Id) (s s' : JSSet) (hs : MadeSet s) (h : deepSet φ s = .ok s')
    (i j : Id) (hi : .obj i ∈ s.members) (hj : φ i = .ok j) (new : .obj j ∉ s.members) :
    .obj j ∈ s'.members ∧ s'.contains (.obj j) = .ok false ∧ s'.contains (.obj i) = .ok true := by
  obtain ⟨h1, h2⟩ := C84_deep_set φ s s' h
  refine ⟨?_, ?_, ?_⟩
  · obtain ⟨q, hq, r⟩ := mem_copied h1 hi
    rw [copyOf_obj r hj] at hq
    exact hq
  · rw [h2]
    simp only [JSSet.contains, sameValueZero]
    cases q : Dict.get s (.obj j) with
    | none => rfl
    | some v =>
      have hmem := dictGet_mem q
      have := svz_obj (madeSet_keys hs _ hmem)
      simp only at this
      subst this
      exact absurd (List.mem_map.2 ⟨_, hmem, rfl⟩) new
  · rw [h2]
    obtain ⟨e, he, hv⟩ := List.mem_map.1 hi
    have hk := madeSet_keys hs e he
    rw [hv] at hk
    simp only [sameValueZero, Except.ok.injEq] at hk
    obtain ⟨w, hw⟩ := dictGet_isSome he
    rw [← hk] at hw
    simp [JSSet.contains, sameValueZero, hw]

/-- A JSMap that went through `pickle` is as a deep copy, but does not find NaN. -/
theorem C84_pickle (φ : Id → Except PyExc Id) (m : JSMap Val) (m' : Dict (Option SvzKey) (Val × Val))
    (h : pickleMap φ m = .ok m') (k : Val) :
    (sameValueZero k ≠ .ok .nan → CopiedAnswer φ (m.getitem k) (pickledGet m' k)) ∧
      (sameValueZero k = .ok .nan → pickledGet m' k = .error .keyError) := by
  unfold pickleMap at h
  split at h
  · cases h
  · rename_i d hd
    cases h
    constructor
    · intro hk
      have := C84_deep_original_keys φ m d hd k
      unfold JSMap.getitem at this ⊢
      unfold pickledGet
      cases q : sameValueZero k with
      | error e => exact .error
      | ok key =>
        have hne : key ≠ .nan := fun r => hk (by rw [q, r])
        rw [q] at this
        simp only at this ⊢
        rw [pickled_get, if_neg hne]
        cases r : Dict.get d key with
        | none =>
          rw [r] at this
          exact this
        | some p =>
          rw [r] at this
          exact this
    · intro hk
      simp only [pickledGet, hk]
      rw [pickled_get, if_pos rfl]

/-- What is missing for JSObject and JSArray: they cannot be deep-copied or pickled at all.  If the copies of the elements
do not raise, the exception is the TypeError for the attribute `properties`. -/
theorem C84_object_deep_fails (φ : Id → Except PyExc Id) (o : JSObj Val) :
    (∃ e, deepObject φ o = .error e) ∧
      ((∀ n v i, (n, v) ∈ JSObj.elementItems o.array → v = .obj i → ∃ j, φ i = .ok j) →
        deepObject φ o = .error .typeError) := by
  constructor
  · simp only [deepObject, slots, copySlots]
    cases copyVals φ ((JSObj.elementItems o.array).map (·.2)) with
    | error e => exact ⟨e, rfl⟩
    | ok l => exact ⟨.typeError, rfl⟩
  · intro h
    obtain ⟨l, hl⟩ := copyVals_ok (φ := φ) (l := (JSObj.elementItems o.array).map (·.2)) (by
      intro i hi
      obtain ⟨e, he, hv⟩ := List.mem_map.1 hi
      exact h e.1 e.2 i he hv)
    simp only [deepObject, slots, copySlots, hl]

/-! ## Examples -/

/-- `m = JSMap(); m[x] = 1; m["a"] = 2`, where `x` is the object with the identity 7 -/
def exampleMap : JSMap Val := [(.obj 7, .obj 7, .int 1), (.str (str "a"), .str (str "a"), .int 2)]

theorem exampleMap_made : MadeMap exampleMap :=
  .set (m := [(.obj 7, .obj 7, .int 1)]) (k := .str (str "a")) (v := .int 2)
    (.set (m := []) (k := .obj 7) (v := .int 1) .empty)

/-- The copy of an object has the identity 100 more. -/
def exampleCopies (i : Id) : Except PyExc Id := .ok (i + 100)

example : ∃ m', deepMap exampleCopies exampleMap = .ok m' ∧ m'.getitem (.obj 107) = .error .keyError ∧
    m'.getitem (.str (str "a")) = .ok (.int 2) := by
  refine ⟨[(.obj 7, .obj 107, .int 1), (.str (str "a"), .str (str "a"), .int 2)], rfl, ?_, rfl⟩
  exact (C84_deep_lost exampleCopies exampleMap _ exampleMap_made rfl 7 107 (.obj 7, .int 1) (by decide) rfl rfl
    (by decide)).2.1

example : ∃ s', deepSet exampleCopies [(.obj 7, .obj 7)] = .ok s' ∧ s'.contains (.obj 107) = .ok false :=
  ⟨[(.obj 7, .obj 107)], rfl, (C84_deep_set_lost exampleCopies [(.obj 7, .obj 7)] _
    (.add (s := []) (v := .obj 7) .empty) rfl 7 107 (by decide) rfl (by decide)).2.1⟩

/-- `c = copy.copy(m); c["b"] = 3` gives `m["b"] == 3`. -/
example : ((((Maps.mk [] []).run [.new, .set 0 (.str (str "a")) (.int 1)]).step (.copy 0)).run
    [.set 1 (.str (str "b")) (.int 3)]).view 0 =
      some [(.str (str "a"), .str (str "a"), .int 1), (.str (str "b"), .str (str "b"), .int 3)] := by decide +kernel

/-- `o = JSObject(); c = copy.copy(o); c["a"] = 1; c[0] = 2; c[99] = 3; c[1] = 4` gives `o == {0: 2, "a": 1}`: the copies
share names, and elements until one becomes sparse. -/
example :
    (((Objects.mk [] [] []).run [.new, .copy 0, .set 1 (.name (str "a")) (some (.int 1)), .set 1 (.idx 0) (some (.int 2)),
      .set 1 (.idx 99) (some (.int 3)), .set 1 (.idx 1) (some (.int 4))]).view 0).map JSObj.items =
      some [(.idx 0, .int 2), (.name (str "a"), .int 1)] := by decide +kernel

example : deepObject exampleCopies ⟨.dense ⟨[some (.obj 3)], 1⟩, []⟩ = .error .typeError :=
  (C84_object_deep_fails _ _).2 fun _ _ i _ _ => ⟨i + 100, rfl⟩

example : pickleMap exampleCopies [(.nan, .float 0x7FF8000000000000, .int 1)] =
    .ok [(none, .float 0x7FF8000000000000, .int 1)] := by decide +kernel

end V8.Props
