import Verif.Model.JSObject
import Verif.Model.ReprText

/-!
# `alternating_regions` and `str()` of array properties

Models `src/v8serialize/jstypes/jsarrayproperties.py:107-171` for both implementations.  Simplification: `repr()` of an element is a
parameter that does not raise.
-/

namespace V8.Regions

open V8 V8.ReprText

/-- `EmptyRegion`, jsarrayproperties.py:161-171, and `OccupiedRegion`, jsarrayproperties.py:174-208. -/
inductive Region (α : Type) where
  | empty (start length : Int)
  | occupied (start : Int) (items : List α)
  deriving DecidableEq, Repr

/-- The loop over the remaining groups and what follows it, jsarrayproperties.py:150-158; `gapStart` is
`occupied.start + occupied.length`. -/
def moreRegions {α : Type} (length : Int) : Int → List (Nat × List α) → List (Region α)
  | gapStart, [] => if gapStart < length then [.empty gapStart (length - gapStart)] else []
  | gapStart, (start, vs) :: rest =>
    .empty gapStart (start - gapStart) :: .occupied start vs :: moreRegions length (start + vs.length) rest

/-- The keys of the items, each with its value: `first_index_of_preceding_adjacent_elements` called on each,
jsarrayproperties.py:124-131; the arguments are `prev_index` and `start_index`. -/
def groupKeys {α : Type} : Int → Nat → List (Nat × α) → List (Nat × α)
  | _, _, [] => []
  | prevIndex, startIndex, (i, v) :: rest =>
    let start := if (i : Int) - 1 ≠ prevIndex then i else startIndex
    (start, v) :: groupKeys i start rest

/-- `itertools.groupby`, each group used up before the next: the items next to each other whose keys are the same. -/
def groupAdjacent {α : Type} : List (Nat × α) → List (Nat × List α)
  | [] => []
  | (key, v) :: rest =>
    match groupAdjacent rest with
    | (key', vs) :: groups => if key = key' then (key, v :: vs) :: groups else (key, [v]) :: (key', vs) :: groups
    | [] => [(key, [v])]

/-- `alternating_regions`, jsarrayproperties.py:116-158; lines 121-122 have the first `prev_index` and `start_index`. -/
def alternatingRegions {α : Type} (a : Arr α) : List (Region α) :=
  match groupAdjacent (groupKeys (-1) 0 (JSObj.elementItems a)) with
  | [] => if a.len = 0 then [] else [.empty 0 a.len]
  | (start, vs) :: rest =>
    (if start > 0 then [.empty 0 start] else []) ++ .occupied start vs :: moreRegions a.len (start + vs.length) rest

/-- `SparseArrayProperties.__iter__` of the regions, jsarrayproperties.py:635-640 (`none` is JSHole). -/
def iterRegions {α : Type} : List (Region α) → List (Option α)
  | [] => []
  | .empty _ length :: rest => List.replicate length.toNat none ++ iterRegions rest
  | .occupied _ items :: rest => items.map some ++ iterRegions rest

/-- `str(r)` of an empty region (jsarrayproperties.py:167-168) or `repr()` of each item (jsarrayproperties.py:111). -/
def regionTexts {α : Type} (repr : α → Text) : Region α → List Text
  | .empty _ length => [("<" ++ toString length ++ " empty items>").toList]
  | .occupied _ items => items.map repr

/-- `AbstractArrayProperties.__str__`, jsarrayproperties.py:107-113 -/
def arrayStr {α : Type} (repr : α → Text) (a : Arr α) : Text :=
  "[ ".toList ++ joinWith ", ".toList ((alternatingRegions a).flatMap (regionTexts repr)) ++ " ]".toList

end V8.Regions
