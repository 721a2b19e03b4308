import Verif.Model.JSObject

/-! Helper lemmas: assigning to properties of a JSObject does not depend on the values, only on whether they are
holes. -/

namespace V8
variable {α β : Type} (g : α → β)

/-- Apply a function to the values of a dict. -/
def Dict.mapV {κ : Type} (d : Dict κ α) : Dict κ β := d.map (fun e => (e.1, g e.2))

/-- Apply a function to the elements. -/
def Dense.mapV (d : Dense α) : Dense β := ⟨d.items.map (Option.map g), d.used⟩

def Sparse.mapV (s : Sparse α) : Sparse β := ⟨Dict.mapV g s.items, s.sortedKeys, s.maxIndex⟩

def Arr.mapV : Arr α → Arr β
  | .dense d => .dense (d.mapV g)
  | .sparse s => .sparse (s.mapV g)

def JSObj.mapV (o : JSObj α) : JSObj β := ⟨o.array.mapV g, Dict.mapV g o.props⟩

section dict
variable {κ : Type} [DecidableEq κ]

theorem Dict.get_mapV (d : Dict κ α) (k : κ) : (Dict.mapV g d).get k = (d.get k).map g := by
  induction d with
  | nil => rfl
  | cons e t ih =>
    obtain ⟨k', v⟩ := e
    change (if k' = k then some (g v) else Dict.get (Dict.mapV g t) k) = _
    rw [ih]
    by_cases h : k' = k
    · rw [if_pos h]; simp [Dict.get, h]
    · rw [if_neg h]; simp [Dict.get, h]

theorem Dict.set_mapV (d : Dict κ α) (k : κ) (v : α) : (Dict.mapV g d).set k (g v) = Dict.mapV g (d.set k v) := by
  induction d with
  | nil => rfl
  | cons e t ih =>
    obtain ⟨k', w⟩ := e
    change (if k' = k then (k', g v) :: Dict.mapV g t else (k', g w) :: Dict.set (Dict.mapV g t) k (g v)) = _
    rw [ih]
    by_cases h : k' = k
    · rw [if_pos h]; simp [Dict.set, h, Dict.mapV]
    · rw [if_neg h]; simp [Dict.set, h, Dict.mapV]

theorem Dict.del_mapV (d : Dict κ α) (k : κ) : (Dict.mapV g d).del k = Dict.mapV g (d.del k) := by
  induction d with
  | nil => rfl
  | cons e t ih =>
    obtain ⟨k', w⟩ := e
    change (if k' = k then Dict.mapV g t else (k', g w) :: Dict.del (Dict.mapV g t) k) = _
    rw [ih]
    by_cases h : k' = k
    · rw [if_pos h]; simp [Dict.del, h, Dict.mapV]
    · rw [if_neg h]; simp [Dict.del, h, Dict.mapV]

omit [DecidableEq κ] in
theorem Dict.keys_mapV (d : Dict κ α) : (Dict.mapV g d).keys = d.keys := by
  simp [Dict.keys, Dict.mapV, Function.comp_def]

omit [DecidableEq κ] in
theorem Dict.length_mapV (d : Dict κ α) : (Dict.mapV g d).length = d.length := by simp [Dict.mapV]

theorem Dict.foldl_mapV (l : List (κ × α)) (d : Dict κ α) :
    (Dict.mapV g l).foldl (fun d p => Dict.set d p.1 p.2) (Dict.mapV g d) =
      Dict.mapV g (l.foldl (fun d p => Dict.set d p.1 p.2) d) := by
  induction l generalizing d with
  | nil => rfl
  | cons e t ih =>
    change List.foldl _ (Dict.set (Dict.mapV g d) e.1 (g e.2)) (Dict.mapV g t) = _
    rw [Dict.set_mapV, ih]
    rfl

theorem Dict.ofList_mapV (l : List (κ × α)) : Dict.ofList (Dict.mapV g l) = Dict.mapV g (Dict.ofList l) :=
  Dict.foldl_mapV g l []

end dict

theorem countUsed_map (l : List (Option α)) : countUsed (l.map (Option.map g)) = countUsed l := by
  induction l with
  | nil => rfl
  | cons a t ih => cases a <;> simp_all [countUsed, isHole]

theorem isHole_map (v : Option α) : isHole (v.map g) = isHole v := by cases v <;> rfl

theorem Dense.resize_mapV (d : Dense α) (n : Int) :
    (d.mapV g).resize n = ((d.resize n).1.mapV g, (d.resize n).2) := by
  unfold Dense.resize
  simp only [Dense.mapV, List.length_map]
  split
  · rfl
  · split
    · simp only [← List.map_take, ← List.map_drop, countUsed_map]
    · simp

theorem Dense.setitem_mapV (d : Dense α) (i : Int) (v : Option α) :
    (d.mapV g).setitem i (v.map g) = ((d.setitem i v).1.mapV g, (d.setitem i v).2) := by
  unfold Dense.setitem
  have hn : (d.mapV g).normaliseIndex i = d.normaliseIndex i := by
    have hl : (d.mapV g).len = d.len := List.length_map _
    unfold Dense.normaliseIndex
    rw [hl]
  rw [hn]
  cases d.normaliseIndex i with
  | none => rfl
  | some k =>
    have hk : (d.mapV g).items[k]? = (d.items[k]?).map (Option.map g) := by simp [Dense.mapV]
    simp only [hk]
    cases d.items[k]? with
    | none => rfl
    | some c => simp [isHole_map, Dense.mapV, List.map_set]

theorem enumUsed_mapV (l : List (Option α)) (i : Nat) :
    Sparse.enumUsed (l.map (Option.map g)) i = (Sparse.enumUsed l i).map (fun e => (e.1, g e.2)) := by
  induction l generalizing i with
  | nil => rfl
  | cons a t ih => cases a <;> simp [Sparse.enumUsed, ih]

theorem Sparse.ofEntries_mapV (l : List (Int × α)) (n : Int) :
    Sparse.ofEntries (l.map (fun e => (e.1, g e.2))) n = (Sparse.ofEntries l n).map (Sparse.mapV g) := by
  unfold Sparse.ofEntries
  have ha : (l.map (fun e => (e.1, g e.2))).any (fun e => decide (e.1 < 0)) = l.any (fun e => decide (e.1 < 0)) := by
    simp [List.any_map, Function.comp_def]
  have hf : ((l.map (fun e => (e.1, g e.2))).filter (fun e => decide (e.1 < n))).map (fun e => (e.1.toNat, e.2)) =
      Dict.mapV g ((l.filter (fun e => decide (e.1 < n))).map (fun e => (e.1.toNat, e.2))) := by
    simp [Dict.mapV, List.filter_map, Function.comp_def]
  rw [ha, hf, Dict.ofList_mapV]
  simp only [Dict.length_mapV, Dict.keys_mapV]
  split
  · rfl
  · split <;> rfl

theorem selectKeys_mapV (d : Dict Nat α) (l : List Nat) :
    Sparse.selectKeys (Dict.mapV g d) l = (Sparse.selectKeys d l).map (Dict.mapV g) := by
  induction l with
  | nil => rfl
  | cons k t ih =>
    unfold Sparse.selectKeys
    rw [ih, Dict.get_mapV]
    cases d.get k <;> cases Sparse.selectKeys d t <;> rfl

theorem delKeys_mapV (d : Dict Nat α) (l : List Nat) :
    Sparse.delKeys (Dict.mapV g d) l = Dict.mapV g (Sparse.delKeys d l) := by
  induction l generalizing d with
  | nil => rfl
  | cons k t ih =>
    unfold Sparse.delKeys
    rw [Dict.del_mapV, ih]

theorem Sparse.sortedKeysNow_mapV (s : Sparse α) : (s.mapV g).sortedKeysNow = s.sortedKeysNow := by
  simp [Sparse.sortedKeysNow, Sparse.mapV, Dict.keys_mapV]

theorem Sparse.resize_mapV (s : Sparse α) (n : Int) :
    (s.mapV g).resize n = ((s.resize n).1.mapV g, (s.resize n).2) := by
  unfold Sparse.resize
  rw [Sparse.sortedKeysNow_mapV]
  have hi : (s.mapV g).items = Dict.mapV g s.items := rfl
  simp only [hi, selectKeys_mapV, delKeys_mapV]
  split
  · rfl
  · split
    · cases Sparse.selectKeys s.items (List.take (bisectLeft s.sortedKeysNow n.toNat) s.sortedKeysNow) with
      | none =>
        simp only [Sparse.cacheSorted, Sparse.sortedKeysNow_mapV, Option.map_none]
        rfl
      | some l => simp [Sparse.mapV, Dict.ofList_mapV]
    · rfl

theorem Sparse.setHole_mapV (s : Sparse α) (k : Nat) :
    (s.mapV g).setHole k = ((s.setHole k).1.mapV g, (s.setHole k).2) := by
  unfold Sparse.setHole
  have hi : (s.mapV g).items = Dict.mapV g s.items := rfl
  have hs : (s.mapV g).sortedKeys = s.sortedKeys := rfl
  simp only [hi, hs, Dict.del_mapV, Dict.length_mapV]
  cases s.sortedKeys with
  | none => simp only; split <;> rfl
  | some l =>
    simp only
    cases l.getLast? with
    | none => rfl
    | some x => simp only; split <;> rfl

theorem Sparse.fillHole_mapV (s : Sparse α) (k : Nat) (v : α) :
    (s.mapV g).fillHole k (g v) = ((s.fillHole k v).1.mapV g, (s.fillHole k v).2) := by
  unfold Sparse.fillHole
  have hi : (s.mapV g).items = Dict.mapV g s.items := rfl
  have hs : (s.mapV g).sortedKeys = s.sortedKeys := rfl
  simp only [hi, hs, Dict.set_mapV, Dict.length_mapV]
  cases s.sortedKeys with
  | none => simp only; split <;> rfl
  | some l => simp only; split <;> rfl

theorem Sparse.setitem_mapV (s : Sparse α) (i : Int) (v : Option α) :
    (s.mapV g).setitem i (v.map g) = ((s.setitem i v).1.mapV g, (s.setitem i v).2) := by
  unfold Sparse.setitem
  have hn : (s.mapV g).normaliseIndex i = s.normaliseIndex i := rfl
  have hi : (s.mapV g).items = Dict.mapV g s.items := rfl
  rw [hn]
  cases s.normaliseIndex i with
  | none => rfl
  | some k =>
    simp only [hi, Dict.get_mapV]
    cases s.items.get k with
    | none =>
      cases v with
      | none => rfl
      | some v => exact Sparse.fillHole_mapV g s k v
    | some w =>
      cases v with
      | none => exact Sparse.setHole_mapV g s k
      | some v => simp [Sparse.mapV, Dict.set_mapV]

theorem Arr.len_mapV (a : Arr α) : (a.mapV g).len = a.len := by
  cases a <;> simp [Arr.mapV, Arr.len, Dense.mapV, Sparse.mapV, Dense.len, Sparse.len]

theorem Arr.resize_mapV (a : Arr α) (n : Int) : (a.mapV g).resize n = ((a.resize n).1.mapV g, (a.resize n).2) := by
  cases a with
  | dense d => simp only [Arr.mapV, Arr.resize, Dense.resize_mapV]
  | sparse s => simp only [Arr.mapV, Arr.resize, Sparse.resize_mapV]

theorem Arr.setitem_mapV (a : Arr α) (i : Int) (v : Option α) :
    (a.mapV g).setitem i (v.map g) = ((a.setitem i v).1.mapV g, (a.setitem i v).2) := by
  cases a with
  | dense d => simp only [Arr.mapV, Arr.setitem, Dense.setitem_mapV]
  | sparse s => simp only [Arr.mapV, Arr.setitem, Sparse.setitem_mapV]

theorem ensureCapacity_mapV (a : Arr α) (k : Nat) :
    JSObj.ensureCapacity (a.mapV g) k =
      ((JSObj.ensureCapacity a k).1.mapV g, (JSObj.ensureCapacity a k).2) := by
  unfold JSObj.ensureCapacity
  rw [Arr.len_mapV]
  split
  · rfl
  · cases a with
    | sparse s => exact Arr.resize_mapV g (.sparse s) _
    | dense d =>
      simp only [Arr.mapV]
      have hu : (d.mapV g).used = d.used := rfl
      rw [hu]
      split
      · have he : JSObj.denseEntries (d.mapV g).items 0 = (JSObj.denseEntries d.items 0).map (fun e => (e.1, g e.2)) :=
          enumUsed_mapV g d.items 0
        rw [he, Sparse.ofEntries_mapV]
        cases Sparse.ofEntries (JSObj.denseEntries d.items 0) (k + 1) <;> rfl
      · exact Arr.resize_mapV g (.dense d) _

theorem JSObj.setitem_mapV (o : JSObj α) (k : PKey) (v : Option α) :
    (o.mapV g).setitem k (v.map g) = ((o.setitem k v).1.mapV g, (o.setitem k v).2) := by
  cases k with
  | name s =>
    cases v with
    | none => simp [JSObj.setitem, JSObj.mapV, Dict.del_mapV]
    | some v => simp [JSObj.setitem, JSObj.mapV, Dict.set_mapV]
  | idx n =>
    unfold JSObj.setitem
    have ha : (o.mapV g).array = o.array.mapV g := rfl
    simp only [ha, ensureCapacity_mapV]
    cases JSObj.ensureCapacity o.array n with
    | mk a e =>
      cases e with
      | some e => rfl
      | none => simp only [Arr.setitem_mapV]; rfl

/-! ## Reading -/

theorem usedIndexes_map (l : List (Option α)) (i : Nat) : usedIndexes (l.map (Option.map g)) i = usedIndexes l i := by
  induction l generalizing i with
  | nil => rfl
  | cons a t ih => cases a <;> simp [usedIndexes, ih]

theorem Arr.elementIndexes_mapV (a : Arr α) : (a.mapV g).elementIndexes .ascending = a.elementIndexes .ascending := by
  cases a with
  | dense d => exact usedIndexes_map g d.items 0
  | sparse s => exact Sparse.sortedKeysNow_mapV g s

theorem Arr.getitem_mapV (a : Arr α) (i : Int) : (a.mapV g).getitem i = (a.getitem i).map (Option.map g) := by
  cases a with
  | dense d =>
    have hk : ∀ k : Nat, (d.mapV g).items[k]? = (d.items[k]?).map (Option.map g) := by simp [Dense.mapV]
    have hl : (d.mapV g).items.length = d.items.length := List.length_map _
    simp only [Arr.mapV, Arr.getitem, Dense.getitem, hl, hk]
    cases pyIndex d.items.length i with
    | none => rfl
    | some k => simp only; cases d.items[k]? <;> rfl
  | sparse s =>
    have hn : (s.mapV g).normaliseIndex i = s.normaliseIndex i := rfl
    have hi : (s.mapV g).items = Dict.mapV g s.items := rfl
    simp only [Arr.mapV, Arr.getitem, Sparse.getitem, hn, hi]
    cases s.normaliseIndex i with
    | none => rfl
    | some k => simp only [Dict.get_mapV]; rfl

theorem JSObj.items_mapV (o : JSObj α) : (o.mapV g).items = o.items.map (fun e => (e.1, g e.2)) := by
  have ha : (o.mapV g).array = o.array.mapV g := rfl
  have hp : (o.mapV g).props = Dict.mapV g o.props := rfl
  unfold JSObj.items JSObj.elementItems
  rw [ha, hp, Arr.elementIndexes_mapV]
  simp only [List.map_append, List.map_map, Dict.mapV, Arr.getitem_mapV]
  congr 1
  induction o.array.elementIndexes .ascending with
  | nil => rfl
  | cons k t ih =>
    simp only [List.filterMap_cons]
    cases o.array.getitem k with
    | error e => exact ih
    | ok v =>
      cases v with
      | none => exact ih
      | some v => exact congrArg (List.cons (PKey.idx k, g v)) ih

end V8
