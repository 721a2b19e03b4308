import Verif.Proofs.JSObject
import Verif.Proofs.SparseInit
import Verif.Spec.PropMap

/-!
# C27, C28, C29, C31: array storage and JSObject histories
-/

namespace V8.Props
open V8 V8.Spec

variable {α : Type}

/-! ## C27: DenseArrayProperties -/

/-- Every operation of a history is in the domain of the state it is applied to. -/
def HistIn (dom : List (Option α) → ArrOp α → Prop) : List (Option α) → List (ArrOp α) → Prop
  | _, [] => True
  | l, op :: ops => dom l op ∧ HistIn dom (listStep l op).1 ops

/-- `insert` at an index before the front is the only operation left out. -/
theorem denseDom_iff (l : List (Option α)) (op : ArrOp α) :
    denseDom l op ↔ ∀ i v, op = .insert i v → -(l.length : Int) ≤ i := by
  cases op <;> simp [denseDom]

/-- C27. For every list of initial values and every history of operations (get, set, del, insert,
append, pop, resize, len, elements_used, element_indexes, iteration), a DenseArrayProperties
returns or raises at every step exactly what a Python list with holes does, and ends with the same
elements.  `insert(i)` with `i < -len` is excluded (see `C27_insert_before_front`).
`extend` is repeated `append`. -/
theorem C27_dense_is_a_list_partial (values : List (Option α)) (ops : List (ArrOp α))
    (hin : HistIn denseDom values ops) :
    (runHist arrStep (.dense (Dense.ofValues values)) ops).2 = (runHist listStep values ops).2 ∧
    (runHist arrStep (.dense (Dense.ofValues values)) ops).1.toList
      = (runHist listStep values ops).1 := by
  suffices H : ∀ (ops : List (ArrOp α)) (d : Dense α), d.Inv → HistIn denseDom d.items ops →
      (runHist arrStep (.dense d) ops).2 = (runHist listStep d.items ops).2 ∧
      (runHist arrStep (.dense d) ops).1.toList = (runHist listStep d.items ops).1 from
    H ops (Dense.ofValues values) rfl hin
  intro ops
  induction ops with
  | nil => intro d hd _; exact ⟨rfl, rfl⟩
  | cons op ops ih =>
    intro d hd hin
    obtain ⟨d', h1, h2, h3, h4⟩ := dense_step d hd op hin.1
    have := ih d' h2 (by rw [h3]; exact hin.2)
    simp only [runHist]
    rw [h1, h4, ← h3]
    exact ⟨by rw [this.1], this.2⟩

/-- A history meeting the hypothesis: growing, inserting past the end, holes, negative indexes. -/
example : HistIn denseDom [some 1, none]
    [.append (some 5), .insert 100 (some 7), .set (-1) none, .del 0, .insert (-2) (some 9),
      .resize 6, .used, .indexes true, .iter] := by
  simp [HistIn, denseDom, listStep, subscript, insertPos]

/-- What is missing from C27: on an ordinary list `insert(-5, x)` inserts at the front; here it
raises IndexError. -/
theorem C27_insert_before_front :
    (arrStep (.dense (Dense.ofValues [some 1])) (.insert (-5) (some 2))).2
      = .error .indexError ∧
    listStep [some 1] (.insert (-5) (some 2)) = ([some 2, some 1], .ok .unit) := by
  decide +kernel

/-! ## C28: SparseArrayProperties -/

/-- The states a SparseArrayProperties can be created in, and the list each stands for: from values; from index/value
pairs and a length; from index/value pairs alone, and then the last element is at the largest index. -/
inductive SparseStart : Sparse α → List (Option α) → Prop where
  | values (l : List (Option α)) (s : Sparse α) (h : Sparse.ofValues l = .ok s) : SparseStart s l
  | entries (es : List (Int × α)) (n : Nat) (s : Sparse α) (h : Sparse.ofEntries es n = .ok s) :
      SparseStart s (fromEntries es n)
  | entriesOnly (es : List (Int × α)) (n : Nat) (s : Sparse α) (h : Sparse.ofEntriesNoLength es = .ok s)
      (hlt : ∀ e ∈ es, e.1 < n) (hmax : (es = [] ∧ n = 0) ∨ ∃ e ∈ es, e.1 + 1 = n) : SparseStart s (fromEntries es n)

/-- Outputs agree, except that an assignment may raise AssertionError. -/
def AgreeButAssert : List (ArrOp α) → List (Except PyExc (ArrOut α)) →
    List (Except PyExc (ArrOut α)) → Prop
  | [], [], [] => True
  | op :: ops, x :: xs, y :: ys =>
    (x = y ∨ (x = .error .assertionError ∧ ∃ i v, op = .set i v)) ∧ AgreeButAssert ops xs ys
  | _, _, _ => False

theorem sparse_start_inv {s : Sparse α} {l : List (Option α)} (h : SparseStart s l) :
    s.Inv ∧ s.abs = l := by
  cases h with
  | values l s h =>
    unfold Sparse.ofValues at h
    by_cases hl : l.length ≤ 2 ^ 32 - 1
    · obtain ⟨s', h1, h2, h3⟩ := Sparse.ofEntries_enumUsed l l.length (Nat.le_refl _) hl
      rw [h1] at h
      simp only [Except.ok.injEq] at h
      subst h
      exact ⟨h2, by simpa using h3⟩
    · exfalso
      have hmax : ((maxArrayLength : Nat) : Int) = 2 ^ 32 - 1 := by decide
      unfold Sparse.ofEntries at h
      rw [hmax, if_pos (by omega)] at h
      simp at h
  | entries es n s h => exact Sparse.ofEntries_spec es n s h
  | entriesOnly es n s h hlt hmax =>
    obtain ⟨h1, m, h2, h3, h4, h5⟩ := Sparse.ofEntriesNoLength_spec es s h
    refine ⟨h1, ?_⟩
    rw [h2]
    congr 1
    rcases hmax with ⟨hes, hn⟩ | ⟨e', he', hem'⟩
    · rw [h4 hes, hn]
    · obtain ⟨e, he, hem⟩ := h5 (List.ne_nil_of_mem he')
      have := hlt e he
      have := h3 e' he'
      omega

/-- C28. For every history in the domain (`insert` at an existing position, appending values, below
the maximum length), a SparseArrayProperties returns or raises at every step exactly what a Python
list with holes does, except that an assignment may raise a spurious AssertionError; the elements
are those of the list throughout, even after such an error.  Missing from the full statement:
the AssertionErrors, appending a hole, and inserting at the end; see the `C28_…` facts below. -/
theorem C28_sparse_is_a_list_partial (s : Sparse α) (l : List (Option α)) (hs : SparseStart s l)
    (ops : List (ArrOp α)) (hin : HistIn sparseDom l ops) :
    AgreeButAssert ops (runHist arrStep (.sparse s) ops).2 (runHist listStep l ops).2 ∧
    (runHist arrStep (.sparse s) ops).1.toList = (runHist listStep l ops).1 := by
  obtain ⟨hinv, rfl⟩ := sparse_start_inv hs
  clear hs
  induction ops generalizing s with
  | nil => exact ⟨trivial, Sparse.toList_eq hinv⟩
  | cons op ops ih =>
    obtain ⟨s', h1, h2, h3, h4⟩ := sparse_step s hinv op hin.1
    have := ih s' h2 (by rw [h3]; exact hin.2)
    simp only [runHist]
    rw [h1, ← h3]
    refine ⟨⟨?_, this.1⟩, this.2⟩
    rcases h4 with h4 | ⟨h4, _, _, h5⟩
    · exact Or.inl h4
    · exact Or.inr ⟨h5, h4⟩

/-- A history meeting the hypotheses. -/
example : ∃ s, SparseStart s [none, some 1, none, some 3] ∧ HistIn sparseDom
    [none, some 1, none, some 3]
    [.set 0 (some 9), .del 1, .append (some 5), .insert (-1) none, .resize 30, .set 29 (some 2),
      .resize 2, .indexes false, .iter] :=
  ⟨_, .values _ _ rfl, by simp [HistIn, sparseDom, listStep, subscript, insertPos]⟩

/-- The same with index/value pairs, given out of order and one of them twice. -/
example : ∃ s, SparseStart s [none, some 7, none, some 4] ∧ HistIn sparseDom [none, some 7, none, some 4]
    [.del 0, .set (-1) none, .append (some 5), .iter] :=
  ⟨_, .entriesOnly [(3, 4), (1, 6), (1, 7)] 4 _ rfl (by simp) (Or.inr ⟨(3, 4), by simp⟩),
    by simp [HistIn, sparseDom, listStep, subscript]⟩

/-- An assignment raises no AssertionError when the sorted keys are cached, as they are right after
reading the indexes, iterating or resizing, nor when more than two elements are set. -/
theorem C28_no_assertion (s : Sparse α) (h : s.Inv) (i : Int) (v : Option α)
    (hc : s.sortedKeys ≠ none ∨ 2 < s.used) :
    (s.setitem i v).2 ≠ some .assertionError := by
  obtain ⟨_, h2⟩ := Sparse.setitem_spec h i v
  cases hs : subscript s.abs.length i with
  | none => rw [hs] at h2; simp only at h2; rw [h2]; simp
  | some k =>
    rw [hs] at h2
    rcases h2.2 with h3 | ⟨h3, h4, _⟩
    · rw [h3]; simp
    · rcases hc with hc | hc
      · exact absurd h3 hc
      · unfold Sparse.used at hc; omega

example : ∃ s : Sparse Nat, s.Inv ∧ s.sortedKeys ≠ none ∧ s.items = [(3, 1), (0, 2)] :=
  ⟨⟨[(3, 1), (0, 2)], some [0, 3], 5⟩,
    ⟨by decide, by decide, by decide, by
      intro l hl
      simp only [Option.some.injEq] at hl
      subst hl
      refine ⟨by decide, fun k => ?_⟩
      simp [Dict.keys]; omega⟩, by simp, rfl⟩

/-- The full C28 is false: an assignment that a list accepts raises AssertionError.
Python: `a = SparseArrayProperties([1, 2, JSHole]); a[0] = JSHole; a[1] = JSHole`. -/
theorem C28_spurious_assertion :
    ∃ (s : Sparse Nat), SparseStart s [some 1, some 2, none] ∧
      (runHist arrStep (.sparse s) [.indexes false, .set 0 none, .set 1 none]).2
        = [.ok (.idxs [0, 1]), .ok .unit, .error .assertionError] :=
  ⟨_, .values _ _ rfl, by decide +kernel⟩

/-- Appending a hole leaves the length unchanged, unlike a list (or the dense implementation). -/
theorem C28_append_hole (s : Sparse α) : s.append none = (s, none) := rfl

/-- `insert(len, x)`, which appends on a list, raises IndexError. -/
theorem C28_insert_at_end (s : Sparse α) (h : s.Inv) (v : Option α) :
    (s.insert s.len v).2 = some .indexError := by
  have h0 := h.nonneg
  unfold Sparse.insert Sparse.normaliseIndex
  rw [if_neg (by omega), if_pos (by omega)]

/-- The view `array.elements()` raises IndexError rather than KeyError for the key `len`. -/
theorem C28_elements_view_off_by_one (a : Arr α) (h : a.Inv) :
    a.elementsGet a.len = .error .indexError := by
  unfold Arr.elementsGet
  have hl := Arr.len_eq h
  rw [if_neg (by omega), Arr.getitem_eq h, subscript_none (Or.inr (by omega))]

/-! ## C29: JSObject as a mapping -/

/-- A JSObject holds exactly the properties of a map. -/
structure Holds (o : JSObj α) (m : PropMap α) : Prop where
  inv : o.Inv
  val : ∀ k, o.lookup k = m.val k
  order : o.props.keys = m.order

/-- Outputs agree, except that a write may raise AssertionError. -/
def AgreeButAssertO : List (ObjOp α) → List (Except PyExc (Option α)) →
    List (Except PyExc (Option α)) → Prop
  | [], [], [] => True
  | op :: ops, x :: xs, y :: ys =>
    (x = y ∨ (x = .error .assertionError ∧ ∀ k, op ≠ .get k)) ∧ AgreeButAssertO ops xs ys
  | _, _, _ => False

theorem holds_empty : Holds (JSObj.empty : JSObj α) PropMap.empty :=
  ⟨JSObj.empty_inv, by intro k; cases k <;> rfl, rfl⟩

theorem holds_name_mem {o : JSObj α} {m : PropMap α} (h : Holds o m) (s : Str) :
    s ∈ o.props.keys ↔ (m.val (.name s)).isSome := by
  rw [Dict.mem_keys_iff, ← h.val (.name s)]
  exact (Option.isSome_iff_exists).symm

theorem obj_step {o : JSObj α} {m : PropMap α} (h : Holds o m) (op : ObjOp α)
    (hk : op.key.Valid) :
    Holds (objStep o op).1 (mapStep m op).1 ∧
    ((objStep o op).2 = (mapStep m op).2 ∨
      ((objStep o op).2 = .error .assertionError ∧ ∀ k, op ≠ .get k)) := by
  cases op with
  | get k =>
    have e : (mapStep m (.get k)).1 = m := by simp only [mapStep]; split <;> rfl
    refine ⟨by rw [e]; exact h, Or.inl ?_⟩
    simp only [objStep, mapStep, JSObj.getitem_eq h.inv, h.val]
    cases m.val k <;> rfl
  | set k v =>
    obtain ⟨h1, h2, h3, _, h4⟩ := JSObj.setitem_spec h.inv k hk v
    constructor
    · cases v with
      | none =>
        refine ⟨h1, ?_, ?_⟩
        · intro k'
          simp only [objStep, objStep.ret, mapStep, h2, h.val, eq_comm]
        · simp only [objStep, objStep.ret, mapStep, h3, orderAfterDel]
          cases k <;> simp only [h.order]
      | some w =>
        refine ⟨h1, ?_, ?_⟩
        · intro k'
          simp only [objStep, objStep.ret, mapStep, h2, h.val, eq_comm]
        · simp only [objStep, objStep.ret, mapStep, h3, orderAfterSet]
          cases k with
          | idx n => simp only [h.order]
          | name s =>
            simp only
            by_cases hm : s ∈ o.props.keys
            · rw [if_pos hm, if_pos ((holds_name_mem h s).1 hm), h.order]
            · rw [if_neg hm, if_neg (fun hc => hm ((holds_name_mem h s).2 hc)), h.order]
    · simp only [objStep, objStep.ret]
      rcases h4 with h4 | h4
      · left; rw [h4]; cases v <;> rfl
      · right; rw [h4]; exact ⟨rfl, by simp⟩
  | del k =>
    have h5 := JSObj.delitem_spec h.inv k hk
    rw [h.val k] at h5
    simp only [objStep, objStep.ret, mapStep]
    cases hm : m.val k with
    | none =>
      rw [hm] at h5
      simp only at h5
      rw [h5]; exact ⟨h, Or.inl rfl⟩
    | some w =>
      rw [hm] at h5
      obtain ⟨h1, h2, h3, h4⟩ := h5
      refine ⟨⟨h1, ?_, ?_⟩, ?_⟩
      · intro k'; simp only [h2, h.val, eq_comm]
      · simp only [h3, orderAfterDel]
        cases k <;> simp only [h.order]
      · rcases h4 with h4 | h4
        · left; rw [h4]
        · right; rw [h4]; exact ⟨rfl, by simp⟩

theorem obj_hist {o : JSObj α} {m : PropMap α} (h : Holds o m) (ops : List (ObjOp α))
    (hk : ∀ op ∈ ops, op.key.Valid) :
    Holds (runHist objStep o ops).1 (runHist mapStep m ops).1 ∧
    AgreeButAssertO ops (runHist objStep o ops).2 (runHist mapStep m ops).2 := by
  induction ops generalizing o m with
  | nil => exact ⟨h, trivial⟩
  | cons op ops ih =>
    obtain ⟨h1, h2⟩ := obj_step h op (hk op List.mem_cons_self)
    obtain ⟨h3, h4⟩ := ih h1 (fun op' ho => hk op' (List.mem_cons_of_mem _ ho))
    exact ⟨h3, h2, h4⟩

/-- C29. Starting from `JSObject()` (or `JSArray()`), whatever sequence of reads, assignments and
deletions is done, every read returns the last value assigned to that key, or KeyError if it was
removed or never set, as on a plain map: nothing of the storage (dense, sparse, or the switch
between them) shows.  Missing from the full statement: a write may raise a spurious
AssertionError (`C29_spurious_assertion`), though the contents stay right. -/
theorem C29_reads_last_write_partial (ops : List (ObjOp α)) (hk : ∀ op ∈ ops, op.key.Valid) :
    AgreeButAssertO ops (runHist objStep JSObj.empty ops).2
      (runHist mapStep PropMap.empty ops).2 ∧
    ∀ k, (∀ v, (runHist objStep JSObj.empty ops).1.getitem k = .ok v ↔
        (runHist mapStep (PropMap.empty : PropMap α) ops).1.val k = some v) ∧
      ((runHist objStep JSObj.empty ops).1.getitem k = .error .keyError ↔
        (runHist mapStep (PropMap.empty : PropMap α) ops).1.val k = none) := by
  obtain ⟨h1, h2⟩ := obj_hist holds_empty ops hk
  refine ⟨h2, fun k => ?_⟩
  rw [JSObj.getitem_eq h1.inv, h1.val]
  cases (runHist mapStep (PropMap.empty : PropMap α) ops).1.val k <;> simp

/-- The history below makes the storage switch from dense to sparse (index 100 of 2 elements). -/
example : (∀ op ∈ ([.set (.idx 0) (some 1), .set (.idx 100) (some 2), .set (.name (str "x")) (some 3),
      .del (.idx 0), .get (.idx 100)] : List (ObjOp Nat)), op.key.Valid) ∧
    ∃ s, (runHist objStep JSObj.empty [.set (.idx 0) (some 1), .set (.idx 100) (some 2)]).1.array
      = .sparse s := by
  constructor
  · intro op hop
    simp only [List.mem_cons, List.not_mem_nil, or_false] at hop
    rcases hop with rfl | rfl | rfl | rfl | rfl <;> simp [ObjOp.key, PKey.Valid]
  · exact ⟨⟨[(0, 1), (100, 2)], some [0, 100], 100⟩, by decide +kernel⟩

/-- The state of a JSObject in which no element was ever removed keeps sorted keys for at most one
element. -/
def Arr.Cached : Arr α → Prop
  | .dense _ => True
  | .sparse s => s.sortedKeys = none → 1 ≤ s.items.length

theorem ensureCapacity_cached {a : Arr α} (h : a.Inv) (hc : Arr.Cached a) (k : Nat) :
    Arr.Cached (JSObj.ensureCapacity a k).1 := by
  unfold JSObj.ensureCapacity
  split
  · exact hc
  · cases a with
    | dense d =>
      simp only
      split
      · unfold Sparse.ofEntries
        split_ifs
        · trivial
        · trivial
        · simp only [Arr.Cached]
          intro hs
          split at hs
          · omega
          · simp at hs
      · simp only [Arr.resize]; trivial
    | sparse s =>
      simp only [Arr.resize]
      unfold Sparse.resize
      simp only
      split_ifs
      · exact hc
      · cases Sparse.selectKeys s.items (List.take (bisectLeft s.sortedKeysNow
          ((k : Int) + 1).toNat) s.sortedKeysNow) <;> simp [Arr.Cached, Sparse.cacheSorted]
      · simp [Arr.Cached]

theorem setitem_cached {a : Arr α} (h : a.Inv) (hc : Arr.Cached a) (k : Nat)
    (hk : k < a.abs.length) (v : α) :
    Arr.Cached (a.setitem k (some v)).1 ∧ (a.setitem k (some v)).2 = none := by
  obtain ⟨_, _, h3⟩ := Arr.setitem_spec h k hk (some v)
  cases a with
  | dense d =>
    refine ⟨trivial, ?_⟩
    rcases h3 with h3 | ⟨s, hs, _⟩
    · exact h3
    · simp at hs
  | sparse s =>
    simp only [Arr.Cached] at hc
    have hn : s.normaliseIndex (k : Int) = some k := by
      rw [Sparse.normaliseIndex_eq h, subscript_of_nonneg (by omega) (by
        simp only [Arr.abs] at hk; omega)]
      simp
    simp only [Arr.setitem, Sparse.setitem, hn]
    cases hg : s.items.get k with
    | some w =>
      simp only [Arr.Cached]
      refine ⟨?_, trivial⟩
      intro hs
      have hm := (Dict.mem_keys_iff s.items k).2 ⟨w, hg⟩
      rw [Dict.length_set_of_mem _ _ _ hm]
      exact hc hs
    | none =>
      have hm := (Dict.get_eq_none_iff s.items k).1 hg
      have hl := Dict.length_set_of_not_mem s.items k v hm
      simp only [Sparse.fillHole]
      cases hs : s.sortedKeys with
      | none =>
        have := hc hs
        simp only
        rw [if_neg (by omega)]
        simp only [Arr.Cached]
        exact ⟨fun _ => by omega, trivial⟩
      | some l =>
        simp only
        split
        · exact ⟨by simp [Arr.Cached], rfl⟩
        · simp only [Arr.Cached]
          exact ⟨fun _ => by omega, trivial⟩

/-- C29 without removals: as long as nothing is deleted (and no JSHole assigned), every operation
returns or raises exactly what it does on the plain map; the dense-to-sparse switch is completely
invisible. -/
theorem C29_switch_invisible_without_removal (ops : List (ObjOp α))
    (hk : ∀ op ∈ ops, op.key.Valid) (hnodel : ∀ op ∈ ops, (∃ k, op = .get k) ∨ ∃ k v, op = .set k (some v)) :
    (runHist objStep JSObj.empty ops).2 = (runHist mapStep PropMap.empty ops).2 := by
  suffices H : ∀ (ops : List (ObjOp α)) (o : JSObj α) (m : PropMap α), Holds o m →
      Arr.Cached o.array → (∀ op ∈ ops, op.key.Valid) →
      (∀ op ∈ ops, (∃ k, op = .get k) ∨ ∃ k v, op = .set k (some v)) →
      (runHist objStep o ops).2 = (runHist mapStep m ops).2 from
    H ops _ _ holds_empty trivial hk hnodel
  clear hk hnodel ops
  intro ops
  induction ops with
  | nil => intro o m _ _ _ _; rfl
  | cons op ops ih =>
    intro o m h hc hk hnd
    obtain ⟨h1, h2⟩ := obj_step h op (hk op List.mem_cons_self)
    have hk' := fun op' ho => hk op' (List.mem_cons_of_mem op ho)
    have hnd' := fun op' ho => hnd op' (List.mem_cons_of_mem op ho)
    have key : (objStep o op).2 = (mapStep m op).2 ∧ Arr.Cached (objStep o op).1.array := by
      rcases hnd op List.mem_cons_self with ⟨k, rfl⟩ | ⟨k, v, rfl⟩
      · refine ⟨?_, hc⟩
        rcases h2 with h2 | ⟨_, h2⟩
        · exact h2
        · exact absurd rfl (h2 k)
      · have hkv := hk _ List.mem_cons_self
        simp only [ObjOp.key] at hkv
        cases k with
        | name s => exact ⟨rfl, hc⟩
        | idx n =>
          simp only [PKey.Valid] at hkv
          obtain ⟨e1, e2, e3⟩ := ensureCapacity_spec h.inv.arr n hkv
          have hlt : n < (JSObj.ensureCapacity o.array n).1.abs.length := by
            rw [e3, List.length_append, List.length_replicate]; omega
          obtain ⟨c1, c2⟩ := setitem_cached e1 (ensureCapacity_cached h.inv.arr hc n) n hlt v
          have hr : o.setitem (.idx n) (some v) = ({ o with
              array := ((JSObj.ensureCapacity o.array n).1.setitem n (some v)).1 },
              ((JSObj.ensureCapacity o.array n).1.setitem n (some v)).2) := by
            simp only [JSObj.setitem]
            rw [show JSObj.ensureCapacity o.array n = ((JSObj.ensureCapacity o.array n).1, none)
              from Prod.ext rfl e2]
          simp only [objStep, objStep.ret, mapStep, hr, c2]
          exact ⟨trivial, c1⟩
    simp only [runHist]
    rw [key.1, ih _ _ h1 key.2 hk' hnd']

/-- Non-trivial instance: five elements spread so that the storage becomes sparse, filled out of
order and overwritten. -/
example : ∀ op ∈ ([.set (.idx 0) (some 1), .set (.idx 100) (some 2), .set (.idx 50) (some 3),
      .set (.idx 50) (some 4), .get (.idx 50), .get (.idx 51)] : List (ObjOp Nat)),
    op.key.Valid ∧ ((∃ k, op = .get k) ∨ ∃ k v, op = .set k (some v)) := by
  intro op hop
  simp only [List.mem_cons, List.not_mem_nil, or_false] at hop
  rcases hop with rfl | rfl | rfl | rfl | rfl | rfl <;> simp [ObjOp.key, PKey.Valid]

/-- The full C29 is false.  Python: `a = JSArray(['a', 'b']); a[100] = 'c'; del a[0]; del a[1]`
raises AssertionError. -/
theorem C29_spurious_assertion :
    (runHist objStep (JSObj.empty : JSObj Nat) [.set (.idx 0) (some 1), .set (.idx 1) (some 2),
      .set (.idx 100) (some 3), .del (.idx 0), .del (.idx 1)]).2
      = [.ok none, .ok none, .ok none, .ok none, .error .assertionError] ∧
    (runHist mapStep (PropMap.empty : PropMap Nat) [.set (.idx 0) (some 1), .set (.idx 1) (some 2),
      .set (.idx 100) (some 3), .del (.idx 0), .del (.idx 1)]).2
      = [.ok none, .ok none, .ok none, .ok none, .ok none] := by
  decide +kernel

/-! ## C31: enumeration order -/

/-- C31. After any history of operations, iterating a JSObject yields first the array indexes that
have a value, strictly ascending, then the names in the order in which they were created (a name
removed and set again moves to the end); each key exactly once, only keys that have a value, and
`len()` is the number of keys yielded. -/
theorem C31_enumeration_order (ops : List (ObjOp α)) (hk : ∀ op ∈ ops, op.key.Valid) :
    let o := (runHist objStep (JSObj.empty : JSObj α) ops).1
    let m := (runHist mapStep (PropMap.empty : PropMap α) ops).1
    ∃ idxs : List Nat, o.keys = idxs.map .idx ++ m.order.map .name ∧
      idxs.Pairwise (· < ·) ∧
      (∀ k, k ∈ o.keys ↔ (m.val k).isSome) ∧
      o.keys.Nodup ∧
      o.len = o.keys.length := by
  intro o m
  obtain ⟨h, _⟩ := obj_hist holds_empty ops hk
  change Holds o m at h
  have hkeys : o.keys = (occupied o.array.abs).map .idx ++ m.order.map .name := by
    unfold JSObj.keys
    rw [Arr.elementIndexes_eq h.inv.arr, h.order]
  have hmem : ∀ k, k ∈ o.keys ↔ (m.val k).isSome := by
    intro k
    rw [hkeys, List.mem_append, ← h.val k]
    cases k with
    | idx n =>
      simp only [List.mem_map, PKey.idx.injEq, exists_eq_right, reduceCtorEq, and_false,
        exists_false, or_false, JSObj.lookup]
      rw [mem_occupied]
      constructor
      · rintro ⟨v, hv⟩; rw [hv]; rfl
      · intro hs
        obtain ⟨v, hv⟩ := Option.isSome_iff_exists.1 hs
        exact ⟨v, by simpa [Option.join_eq_some_iff] using hv⟩
    | name s =>
      simp only [List.mem_map, PKey.name.injEq, exists_eq_right, reduceCtorEq, and_false,
        exists_false, false_or, JSObj.lookup]
      rw [← h.order, Dict.mem_keys_iff]
      exact Option.isSome_iff_exists.symm
  refine ⟨occupied o.array.abs, hkeys, occupied_sorted _, hmem, ?_, ?_⟩
  · rw [hkeys, List.nodup_append]
    refine ⟨?_, ?_, ?_⟩
    · have hn : (occupied o.array.abs).Nodup :=
        (occupied_sorted o.array.abs).imp (fun h => Nat.ne_of_lt h)
      exact List.Nodup.map (fun a b hab => by simpa using hab) hn
    · rw [← h.order]
      exact List.Nodup.map (fun a b hab => by simpa using hab) h.inv.names
    · intro a ha b hb
      obtain ⟨_, _, rfl⟩ := List.mem_map.1 ha
      obtain ⟨_, _, rfl⟩ := List.mem_map.1 hb
      simp
  · rw [hkeys]
    simp only [JSObj.len, Arr.used_eq h.inv.arr, List.length_append, List.length_map,
      length_occupied, ← h.order, Dict.length_keys]
    simp

/-- Python: `o = JSObject(); o['b']=1; o[7]=2; o['a']=3; o[2]=4; del o['b']; o['b']=5`; the keys are
`2, 7, 'a', 'b'`. -/
example : (runHist objStep (JSObj.empty : JSObj Nat) [.set (.name (str "b")) (some 1),
    .set (.idx 7) (some 2), .set (.name (str "a")) (some 3), .set (.idx 2) (some 4),
    .del (.name (str "b")), .set (.name (str "b")) (some 5)]).1.keys
    = [.idx 2, .idx 7, .name (str "a"), .name (str "b")] := by
  decide +kernel

end V8.Props
