/-!
# How `TagWriter` picks the method for a value

`TagWriter.encode` is a `functools.singledispatchmethod` (`src/v8serialize/encode.py:863-1085`).  The choice is made by
`functools.singledispatch` from the class of the value and the classes registered.  This models the functions of CPython 3.11
that make it (`functools.py:660-798`, `818-839`) over any set of classes.

The result is the registered class whose method is called.  The cache of results is left out: it is cleared when an
abstract class gets a new virtual subclass.
-/

namespace V8.Dispatch

/-- The classes of a program: `__bases__`, `__mro__`, `issubclass()`, whether there is an attribute `__abstractmethods__`,
and `__subclasses__()`. -/
structure Classes (κ : Type) where
  bases : κ → List κ
  mro : κ → List κ
  sub : κ → κ → Bool
  abstract : κ → Bool
  children : κ → List κ

/-- `inconsistent` and `ambiguous` are RuntimeErrors; `noMatch` stands for the TypeError of calling None; `tooDeep` for more
recursion than the model follows. -/
inductive Failure where
  | inconsistent
  | ambiguous
  | noMatch
  | tooDeep
  deriving DecidableEq, Repr

variable {κ : Type} [DecidableEq κ]

/-- The head of a sequence that occurs in no tail, functools.py:671-680. -/
def candidate (seqs : List (List κ)) : Option κ :=
  (seqs.filterMap List.head?).find? (fun x => seqs.all (fun s => !s.tail.contains x))

/-- `if seq[0] == candidate: del seq[0]`, functools.py:683-685 -/
def removeHead (x : κ) (seqs : List (List κ)) : List (List κ) := seqs.map (fun s => if s.head? = some x then s.tail else s)

/-- The loop of `_c3_merge`, functools.py:660-685 -/
def mergeLoop : Nat → List (List κ) → Except Failure (List κ)
  | 0, _ => .error .tooDeep
  | fuel + 1, seqs =>
    let seqs := seqs.filter (fun s => !s.isEmpty)
    if seqs.isEmpty then .ok []
    else
      match candidate seqs with
      | none => .error .inconsistent
      | some x =>
        match mergeLoop fuel (removeHead x seqs) with
        | .error e => .error e
        | .ok r => .ok (x :: r)

/-- `_c3_merge`: each round removes an element. -/
def c3Merge (seqs : List (List κ)) : Except Failure (List κ) := mergeLoop ((seqs.map List.length).sum + 1) seqs

/-- `[f(x) for x in l]`, with exceptions -/
def mapE (f : κ → Except Failure (List κ)) : List κ → Except Failure (List (List κ))
  | [] => .ok []
  | x :: t =>
    match f x, mapE f t with
    | .ok r, .ok rs => .ok (r :: rs)
    | .error e, _ => .error e
    | .ok _, .error e => .error e

namespace Classes

/-- `boundary`, functools.py:704-709: the bases up to the last abstract one. -/
def boundary (W : Classes κ) (c : κ) : Nat := ((W.bases c).reverse.dropWhile (fun b => !W.abstract b)).length

/-- `cls` introduces the behaviour of `base`, functools.py:714-720. -/
def introduces (W : Classes κ) (c a : κ) : Bool := W.sub c a && !(W.bases c).any (fun b => W.sub b a)

/-- `_c3_mro`, functools.py:687-730; the recursion is at most `fuel` deep.  `abcs.remove(base)` for each one found leaves
those not found. -/
def c3Mro (W : Classes κ) : Nat → κ → List κ → Except Failure (List κ)
  | 0, _, _ => .error .tooDeep
  | fuel + 1, c, abcs =>
    let explicit := (W.bases c).take (W.boundary c)
    let abstract := abcs.filter (fun a => W.introduces c a)
    let other := (W.bases c).drop (W.boundary c)
    let rest := abcs.filter (fun a => !W.introduces c a)
    match mapE (fun b => W.c3Mro fuel b rest) explicit, mapE (fun b => W.c3Mro fuel b rest) abstract,
        mapE (fun b => W.c3Mro fuel b rest) other with
    | .ok e, .ok a, .ok o => c3Merge ([[c]] ++ e ++ a ++ o ++ [explicit] ++ [abstract] ++ [other])
    | .error x, _, _ => .error x
    | .ok _, .error x, _ => .error x
    | .ok _, .ok _, .error x => .error x

/-- The registered classes that `cls` belongs to without inheriting from them, but for bases of others,
functools.py:739-754. -/
def related (W : Classes κ) (c : κ) (types : List κ) : List κ :=
  let types := types.filter (fun t => !(W.mro c).contains t && W.sub c t)
  types.filter (fun t => !types.any (fun o => decide (t ≠ o) && (W.mro o).contains t))

/-- `if subcls not in mro: mro.append(subcls)`, functools.py:768-771 -/
def addNew : List κ → List κ → List κ
  | mro, [] => mro
  | mro, x :: t => if mro.contains x then addNew mro t else addNew (mro ++ [x]) t

/-- One round of the loop of `_compose_mro`, functools.py:758-771.  `mergeSort` is stable, as `list.sort` is. -/
def addType (W : Classes κ) (c : κ) (types mro : List κ) (t : κ) : List κ :=
  let found := ((W.children t).filter (fun s => !(W.mro c).contains s && W.sub c s)).map
    (fun s => (W.mro s).filter (fun x => types.contains x))
  if found.isEmpty then mro ++ [t]
  else (found.mergeSort (fun a b => decide (b.length ≤ a.length))).foldl addNew mro

/-- The abstract classes in the order in which `_compose_mro` passes them on, functools.py:757-771. -/
def order (W : Classes κ) (c : κ) (types : List κ) : List κ := types.foldl (W.addType c types) []

/-- `_compose_mro`, functools.py:732-772 -/
def composeMro (W : Classes κ) (fuel : Nat) (c : κ) (registry : List κ) : Except Failure (List κ) :=
  W.c3Mro fuel c (W.order c (W.related c registry))

/-- The loop of `_find_impl`, functools.py:785-798: the first registered class; the class after it decides whether there
was a choice. -/
def pick (W : Classes κ) (c : κ) (registry : List κ) : List κ → Except Failure κ
  | [] => .error .noMatch
  | t :: rest =>
    if registry.contains t then
      match rest with
      | [] => .ok t
      | u :: _ =>
        if registry.contains u && !(W.mro c).contains u && !(W.mro c).contains t && !W.sub t u then .error .ambiguous
        else .ok t
    else W.pick c registry rest

/-- `dispatch(cls)`, functools.py:818-839 and 774-798 -/
def dispatch (W : Classes κ) (fuel : Nat) (registry : List κ) (c : κ) : Except Failure κ :=
  if registry.contains c then .ok c
  else
    match W.composeMro fuel c registry with
    | .error e => .error e
    | .ok mro => W.pick c registry mro

end Classes
end V8.Dispatch
