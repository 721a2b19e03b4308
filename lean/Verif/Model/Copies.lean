import Verif.Model.JSObject
import Verif.Model.Value

/-!
# Copies of containers by `copy` and `pickle`

The classes JSMap (jsmap.py:29-31), JSSet (jsset.py:24-26) and JSObject (jsobject.py:36-38) are dataclasses with slots and
define neither `__copy__`, `__deepcopy__` nor `__reduce__`.  So Python makes a new object of the class and fills its
slots: with the same objects for `copy.copy`, with copies of them for `copy.deepcopy`, and with objects built from their
serialized form for `pickle` (Python's `copy.py`, `_reconstruct`).

The slots are: for a JSMap the dict of jsmap.py:136, for a JSSet the dict of jsset.py:115, for a JSObject
`array`, `properties` and `_properties` of jsobject.py:105-110, where `properties` is a `MappingProxyType`
(jsobject.py:138).
-/

namespace V8.Copies

/-! ## `copy.copy` -/

/-- JSMap objects and the dicts that they refer to: `objs[i]` is the dict of the i-th JSMap. -/
structure Maps where
  dicts : List (JSMap Val)
  objs : List Nat
  deriving DecidableEq, Repr

/-- What a program does with JSMap objects. -/
inductive MapOp where
  | new
  | copy (i : Nat)
  | set (i : Nat) (k v : Val)
  | del (i : Nat) (k : Val)

/-- `m[i]` as a mapping, if there is such an object. -/
def Maps.view (s : Maps) (i : Nat) : Option (JSMap Val) :=
  match s.objs[i]? with
  | none => none
  | some c => s.dicts[c]?

/-- `JSMap()` (jsmap.py:183), `copy.copy(m)`, `m[k] = v` and `del m[k]` (jsmap.py:189-193).  Exceptions of the
latter two are left out; what they leave behind is `Model/Value`. -/
def Maps.step (s : Maps) : MapOp → Maps
  | .new => ⟨s.dicts ++ [[]], s.objs ++ [s.dicts.length]⟩
  | .copy i =>
    match s.objs[i]? with
    | none => s
    | some c => { s with objs := s.objs ++ [c] }
  | .set i k v =>
    match s.objs[i]? with
    | none => s
    | some c =>
      match s.dicts[c]? with
      | none => s
      | some d => { s with dicts := s.dicts.set c (d.setitem k v).1 }
  | .del i k =>
    match s.objs[i]? with
    | none => s
    | some c =>
      match s.dicts[c]? with
      | none => s
      | some d => { s with dicts := s.dicts.set c (d.delitem k).1 }

/-- JSObject objects, the array properties and the dicts that they refer to: `objs[i]` has the places of `array` and
`_properties` of the i-th JSObject. -/
structure Objects where
  arrays : List (Arr Val)
  dicts : List (Dict Str Val)
  objs : List (Nat × Nat)
  deriving DecidableEq, Repr

/-- What a program does with JSObject objects; keys are normalised. -/
inductive ObjOp where
  | new
  | copy (i : Nat)
  | set (i : Nat) (k : PKey) (v : Option Val)
  | del (i : Nat) (k : PKey)

/-- The i-th JSObject as a mapping. -/
def Objects.view (s : Objects) (i : Nat) : Option (JSObj Val) :=
  match s.objs[i]? with
  | none => none
  | some (a, d) =>
    match s.arrays[a]?, s.dicts[d]? with
    | some x, some y => some ⟨x, y⟩
    | _, _ => none

/-- Whether `_ensure_array_capacity` makes a new sparse array and assigns it to `self.array`, jsobject.py:181-189; in all
other cases the array object stays, and only its content changes. -/
def switches (a : Arr Val) (index : Nat) : Bool :=
  match a, (JSObj.ensureCapacity a index).1 with
  | .dense _, .sparse _ => true
  | _, _ => false

/-- `JSObject()` (jsobject.py:133-138), `copy.copy(o)`, `o[k] = v` (jsobject.py:160-191) and `del o[k]`
(jsobject.py:193-211).  The content that an assignment leaves is that of `Model/JSObject`; what matters here is where it
is stored: in the same array object and dict, or in a new array if `switches`. -/
def Objects.step (s : Objects) : ObjOp → Objects
  | .new => ⟨s.arrays ++ [.dense ⟨[], 0⟩], s.dicts ++ [[]], s.objs ++ [(s.arrays.length, s.dicts.length)]⟩
  | .copy i =>
    match s.objs[i]? with
    | none => s
    | some p => { s with objs := s.objs ++ [p] }
  | .set i k v =>
    match s.objs[i]? with
    | none => s
    | some (a, d) =>
      match s.arrays[a]?, s.dicts[d]? with
      | some x, some y =>
        let o := (JSObj.setitem ⟨x, y⟩ k v).1
        match k with
        | .name _ => { s with dicts := s.dicts.set d o.props }
        | .idx n =>
          if switches x n then
            ⟨s.arrays ++ [o.array], s.dicts, s.objs.set i (s.arrays.length, d)⟩
          else { s with arrays := s.arrays.set a o.array }
      | _, _ => s
  | .del i k =>
    match s.objs[i]? with
    | none => s
    | some (a, d) =>
      match s.arrays[a]?, s.dicts[d]? with
      | some x, some y =>
        let o := (JSObj.delitem ⟨x, y⟩ k).1
        match k with
        | .name _ => { s with dicts := s.dicts.set d o.props }
        | .idx _ => { s with arrays := s.arrays.set a o.array }
      | _, _ => s

/-- Several operations. -/
def Maps.run (s : Maps) (ops : List MapOp) : Maps := ops.foldl Maps.step s

/-- Several operations. -/
def Objects.run (s : Objects) (ops : List ObjOp) : Objects := ops.foldl Objects.step s

/-! ## `copy.deepcopy` and `pickle`

`φ` says what the copy of the object with an identity is; Python copies an object once in a call and uses
the copy wherever the object is referred to.  It may raise. -/

/-- A deep copy of a value: values that are no objects are copied as they are. -/
def copyVal (φ : Id → Except PyExc Id) : Val → Except PyExc Val
  | .obj i =>
    match φ i with
    | .error e => .error e
    | .ok j => .ok (.obj j)
  | v => .ok v

/-- `copy.deepcopy(m)` for a JSMap: `_deepcopy_dict` of Python copies the keys of the dict and its values, which are pairs.
The keys are the results of `same_value_zero`, strings, numbers and tuples of these, so that their copies are equal to
them, also for the identity of an object. -/
def deepMap (φ : Id → Except PyExc Id) : JSMap Val → Except PyExc (JSMap Val)
  | [] => .ok []
  | (key, k, v) :: t =>
    match copyVal φ k with
    | .error e => .error e
    | .ok k' =>
      match copyVal φ v with
      | .error e => .error e
      | .ok v' =>
        match deepMap φ t with
        | .error e => .error e
        | .ok t' => .ok ((key, k', v') :: t')

/-- `copy.deepcopy(s)` for a JSSet. -/
def deepSet (φ : Id → Except PyExc Id) : JSSet → Except PyExc JSSet
  | [] => .ok []
  | (key, v) :: t =>
    match copyVal φ v with
    | .error e => .error e
    | .ok v' =>
      match deepSet φ t with
      | .error e => .error e
      | .ok t' => .ok ((key, v') :: t')

/-- The key of a dict after `pickle`: the tuple of NaN of _equality.py:8 becomes another tuple with another NaN, which
equals no result of `same_value_zero`. -/
def pickledKey : SvzKey → Option SvzKey
  | .nan => none
  | k => some k

/-- `pickle.loads(pickle.dumps(m))` for a JSMap, in the same process; the keys are `pickledKey`. -/
def pickleMap (φ : Id → Except PyExc Id) (m : JSMap Val) : Except PyExc (Dict (Option SvzKey) (Val × Val)) :=
  match deepMap φ m with
  | .error e => .error e
  | .ok m' => .ok (m'.map fun e => (pickledKey e.1, e.2))

/-- `m[k]` for such a JSMap, jsmap.py:195-196 -/
def pickledGet (m : Dict (Option SvzKey) (Val × Val)) (k : Val) : Except PyExc Val :=
  match sameValueZero k with
  | .error e => .error e
  | .ok key =>
    match Dict.get m (some key) with
    | none => .error .keyError
    | some p => .ok p.2

/-- What a slot of a JSObject holds. -/
inductive Slot where
  | array (values : List Val)
  | proxy
  | dict (values : List Val)

/-- The slots of a JSObject in order. -/
def slots (o : JSObj Val) : List Slot :=
  [.array ((JSObj.elementItems o.array).map (·.2)), .proxy, .dict (o.props.map (·.2))]

/-- Copies of values in order. -/
def copyVals (φ : Id → Except PyExc Id) : List Val → Except PyExc (List Val)
  | [] => .ok []
  | v :: t =>
    match copyVal φ v with
    | .error e => .error e
    | .ok v' =>
      match copyVals φ t with
      | .error e => .error e
      | .ok t' => .ok (v' :: t')

/-- Deep copies of what slots hold, in order; Python raises TypeError for a `MappingProxyType`, "cannot pickle
'mappingproxy' object". -/
def copySlots (φ : Id → Except PyExc Id) : List Slot → Except PyExc (List (List Val))
  | [] => .ok []
  | .proxy :: _ => .error .typeError
  | .array vs :: t | .dict vs :: t =>
    match copyVals φ vs with
    | .error e => .error e
    | .ok vs' =>
      match copySlots φ t with
      | .error e => .error e
      | .ok t' => .ok (vs' :: t')

/-- `copy.deepcopy(o)` or `pickle.dumps(o)` for a JSObject or JSArray: the copies of what is in its slots. -/
def deepObject (φ : Id → Except PyExc Id) (o : JSObj Val) : Except PyExc (List (List Val)) :=
  copySlots φ (slots o)

end V8.Copies
