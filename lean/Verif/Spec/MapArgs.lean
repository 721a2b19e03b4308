import Verif.Model.MapArgs
import Verif.Spec.JSCollections

/-!
# What a mapping type should make of its arguments: those of `dict`

`dict(source, **keywords)` has the entries of the source, one stored after the other, then one entry for each keyword.
-/

namespace V8.Spec.MapArgs
open V8 V8.Spec V8.MapArgs

/-- One step in filling a mapping: an entry, or an exception. -/
abbrev Step := Except PyExc (Val × Val)

/-- The entries that an argument gives, in order.  For an object with `keys` the key is looked at before the value. -/
def steps : Source → List Step
  | .mapping items => items.map .ok
  | .keyed entries => entries.map fun e =>
      if TooBig e.1 then .error .overflowError else
      match e.2 with
      | .ok v => .ok (e.1, v)
      | .error x => .error x
  | .iterable items fails =>
      (items.map fun i => match i with | .pair k v => .ok (k, v) | .bad e => .error e) ++
        (match fails with | some e => [.error e] | none => [])
  | .plain => [.error .typeError]

/-- One entry for each keyword. -/
def keywordSteps (kw : Keywords) : List Step := kw.map fun e => .ok (.str e.1, e.2.val)

/-- Store the entries one after the other, up to the first exception. An integer too big for a double cannot be a
key. -/
def storeAll (l : List (Val × Val)) : List Step → List (Val × Val) × Option PyExc
  | [] => (l, none)
  | .error e :: _ => (l, some e)
  | .ok (k, v) :: t => if TooBig k then (l, some .overflowError) else storeAll (mapStore k v l) t

/-- What `dict(*pos, **kw)` and `d.update(*pos, **kw)` take: at most one source. -/
def wanted (pos : List Arg) (kw : Keywords) : List Step :=
  match pos with
  | [] => keywordSteps kw
  | [a] => steps a.source ++ keywordSteps kw
  | _ :: _ :: _ => [.error .typeError]

/-- Fill a new mapping. -/
def filled (s : List Step) : Except PyExc (List (Val × Val)) :=
  match storeAll [] s with
  | (l, none) => .ok l
  | (_, some e) => .error e

end V8.Spec.MapArgs
