import Verif.Model.Bytes

/-!
# Python dictionaries

A `dict` is a list of (key, value) pairs in insertion order with pairwise distinct keys.
-/

namespace V8

/-- A Python `dict`: entries in iteration (insertion) order. -/
abbrev Dict (κ α : Type) := List (κ × α)

namespace Dict
variable {κ α : Type} [DecidableEq κ]

/-- `d.get(k)`. -/
def get : Dict κ α → κ → Option α
  | [], _ => none
  | (k', v) :: t, k => if k' = k then some v else get t k

/-- `d[k] = v`: an existing key keeps its place, a new key goes last. -/
def set : Dict κ α → κ → α → Dict κ α
  | [], k, v => [(k, v)]
  | (k', v') :: t, k, v => if k' = k then (k', v) :: t else (k', v') :: set t k v

/-- `d.pop(k, None)` (and `del d[k]` where `k` is known to be present). -/
def del : Dict κ α → κ → Dict κ α
  | [], _ => []
  | (k', v') :: t, k => if k' = k then t else (k', v') :: del t k

/-- `list(d)`. -/
def keys (d : Dict κ α) : List κ := d.map (·.1)

/-- `dict(pairs)`, or a dict comprehension over `pairs`. -/
def ofList (l : List (κ × α)) : Dict κ α := l.foldl (fun d p => set d p.1 p.2) []

end Dict
end V8
