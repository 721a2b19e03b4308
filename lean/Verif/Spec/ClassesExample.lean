import Verif.Spec.Classes

/-!
# Some classes of the library and of Python

A finite set of classes for examples.  Registered are some of the classes of `TagWriter.encode`
(`src/v8serialize/encode.py:863-1085`); the classes of the library are declared in `jstypes/jserror.py:27-132`,
`jstypes/jsobject.py:38`, `jstypes/jsarray.py:31`, `jstypes/jsmap.py:31`, `jstypes/jsset.py:27`, `jstypes/jsbuffers.py:53-60`,
`_values.py:167` and `_errors.py:14`.  `errorFields` is `_JSErrorData`; `myJSError` is a class derived from `JSError`; `both` is
a class registered with `Mapping` and with `Set`.  Type parameters are left out: `Generic` is a base only where it has no
part in the choice.  The tables are those of CPython 3.11 for classes declared in the same way.  `issubclass(_, AnyJSError)`,
which raises TypeError and is not called, is False.
-/

namespace V8.Dispatch.World

inductive Cls where
  | object | int | bool | noneType | str | float | errorFields | generic | protocol | anyJSError | abc | jsErrorData
  | baseException | sized | iterable | container | collection | mapping | mutableMapping | jsObject | jsArray | set
  | baseJSArrayBuffer | bytes | mutableSet | exception | v8SerializeError | jsError | myJSError | jsMap | jsSet
  | jsArrayBuffer | dict | list | frozenset | orderedDict | both
  deriving DecidableEq, Repr

/-- `__bases__` -/
def bases : Cls → List Cls
  | .int => [.object]
  | .bool => [.int]
  | .noneType => [.object]
  | .str => [.object]
  | .float => [.object]
  | .errorFields => [.object]
  | .generic => [.object]
  | .protocol => [.generic]
  | .anyJSError => [.protocol]
  | .abc => [.object]
  | .jsErrorData => [.errorFields, .anyJSError, .abc]
  | .baseException => [.object]
  | .sized => [.object]
  | .iterable => [.object]
  | .container => [.object]
  | .collection => [.sized, .iterable, .container]
  | .mapping => [.collection]
  | .mutableMapping => [.mapping]
  | .jsObject => [.mutableMapping, .abc]
  | .jsArray => [.jsObject]
  | .set => [.collection]
  | .baseJSArrayBuffer => [.abc]
  | .bytes => [.object]
  | .mutableSet => [.set]
  | .exception => [.baseException]
  | .v8SerializeError => [.exception]
  | .jsError => [.anyJSError, .v8SerializeError]
  | .myJSError => [.jsError]
  | .jsMap => [.mutableMapping]
  | .jsSet => [.mutableSet]
  | .jsArrayBuffer => [.abc]
  | .dict => [.object]
  | .list => [.object]
  | .frozenset => [.object]
  | .orderedDict => [.dict]
  | .both => [.object]
  | _ => []

/-- `__mro__` -/
def mro : Cls → List Cls
  | .object => [.object]
  | .int => [.int, .object]
  | .bool => [.bool, .int, .object]
  | .noneType => [.noneType, .object]
  | .str => [.str, .object]
  | .float => [.float, .object]
  | .errorFields => [.errorFields, .object]
  | .generic => [.generic, .object]
  | .protocol => [.protocol, .generic, .object]
  | .anyJSError => [.anyJSError, .protocol, .generic, .object]
  | .abc => [.abc, .object]
  | .jsErrorData => [.jsErrorData, .errorFields, .anyJSError, .protocol, .generic, .abc, .object]
  | .baseException => [.baseException, .object]
  | .sized => [.sized, .object]
  | .iterable => [.iterable, .object]
  | .container => [.container, .object]
  | .collection => [.collection, .sized, .iterable, .container, .object]
  | .mapping => [.mapping, .collection, .sized, .iterable, .container, .object]
  | .mutableMapping => [.mutableMapping, .mapping, .collection, .sized, .iterable, .container, .object]
  | .jsObject => [.jsObject, .mutableMapping, .mapping, .collection, .sized, .iterable, .container, .abc, .object]
  | .jsArray => [.jsArray, .jsObject, .mutableMapping, .mapping, .collection, .sized, .iterable, .container, .abc, .object]
  | .set => [.set, .collection, .sized, .iterable, .container, .object]
  | .baseJSArrayBuffer => [.baseJSArrayBuffer, .abc, .object]
  | .bytes => [.bytes, .object]
  | .mutableSet => [.mutableSet, .set, .collection, .sized, .iterable, .container, .object]
  | .exception => [.exception, .baseException, .object]
  | .v8SerializeError => [.v8SerializeError, .exception, .baseException, .object]
  | .jsError => [.jsError, .anyJSError, .protocol, .generic, .v8SerializeError, .exception, .baseException, .object]
  | .myJSError => [.myJSError, .jsError, .anyJSError, .protocol, .generic, .v8SerializeError, .exception, .baseException, .object]
  | .jsMap => [.jsMap, .mutableMapping, .mapping, .collection, .sized, .iterable, .container, .object]
  | .jsSet => [.jsSet, .mutableSet, .set, .collection, .sized, .iterable, .container, .object]
  | .jsArrayBuffer => [.jsArrayBuffer, .abc, .object]
  | .dict => [.dict, .object]
  | .list => [.list, .object]
  | .frozenset => [.frozenset, .object]
  | .orderedDict => [.orderedDict, .dict, .object]
  | .both => [.both, .object]

/-- What `issubclass()` holds for without inheritance. -/
def virtual : Cls → List Cls
  | .str => [.sized, .iterable, .container, .collection]
  | .bytes => [.sized, .iterable, .container, .collection]
  | .jsError => [.abc, .jsErrorData]
  | .myJSError => [.abc, .jsErrorData]
  | .jsArrayBuffer => [.baseJSArrayBuffer]
  | .dict => [.sized, .iterable, .container, .collection, .mapping, .mutableMapping]
  | .list => [.sized, .iterable, .container, .collection]
  | .frozenset => [.sized, .iterable, .container, .collection, .set]
  | .orderedDict => [.sized, .iterable, .container, .collection, .mapping, .mutableMapping]
  | .both => [.sized, .iterable, .container, .collection, .mapping, .set]
  | _ => []

/-- `__subclasses__()` -/
def children : Cls → List Cls
  | .object => [.int, .noneType, .str, .float, .errorFields, .generic, .abc, .baseException, .sized, .iterable, .container, .bytes, .dict, .list, .frozenset, .both]
  | .int => [.bool]
  | .errorFields => [.jsErrorData]
  | .generic => [.protocol]
  | .protocol => [.anyJSError]
  | .anyJSError => [.jsErrorData, .jsError]
  | .abc => [.jsErrorData, .jsObject, .baseJSArrayBuffer, .jsArrayBuffer]
  | .baseException => [.exception]
  | .sized => [.collection]
  | .iterable => [.collection]
  | .container => [.collection]
  | .collection => [.mapping, .set]
  | .mapping => [.mutableMapping]
  | .mutableMapping => [.jsObject, .jsMap]
  | .jsObject => [.jsArray]
  | .set => [.mutableSet]
  | .mutableSet => [.jsSet]
  | .exception => [.v8SerializeError]
  | .v8SerializeError => [.jsError]
  | .jsError => [.myJSError]
  | .dict => [.orderedDict]
  | _ => []

/-- The classes with `__abstractmethods__`. -/
def abstracts : List Cls :=
  [.protocol, .anyJSError, .abc, .jsErrorData, .sized, .iterable, .container, .collection, .mapping, .mutableMapping, .jsObject, .jsArray,
   .set, .baseJSArrayBuffer, .mutableSet, .jsError, .myJSError, .jsMap, .jsSet, .jsArrayBuffer]

def world : Classes Cls where
  bases := bases
  mro := mro
  sub c d := (mro c).contains d || (virtual c).contains d
  abstract c := abstracts.contains c
  children := children

/-- Registered, in order. -/
def registry : List Cls :=
  [.object, .int, .bool, .noneType, .str, .float, .jsErrorData, .baseException,
   .jsObject, .jsArray, .mapping, .set, .collection, .baseJSArrayBuffer, .bytes]

/-- All classes, those made first first. -/
def all : List Cls :=
  [.object, .int, .bool, .noneType, .str, .float, .errorFields, .generic, .protocol, .anyJSError, .abc,
   .jsErrorData, .baseException, .sized, .iterable, .container, .collection, .mapping, .mutableMapping,
   .jsObject, .jsArray, .set, .baseJSArrayBuffer, .bytes, .mutableSet,
   .exception, .v8SerializeError, .jsError, .myJSError, .jsMap, .jsSet, .jsArrayBuffer, .dict, .list, .frozenset, .orderedDict, .both]

theorem mem_all (c : Cls) : c ∈ all := by cases c <;> decide +kernel

def born (c : Cls) : Nat := all.idxOf c

theorem world_ok : PyClasses world registry born := by
  have h1 : ∀ c ∈ all, c ∈ world.mro c := by decide +kernel
  have h2 : ∀ c ∈ all, ∀ b ∈ world.bases c, ∀ d ∈ world.mro b, d ∈ world.mro c := by decide +kernel
  have h3 : ∀ c ∈ all, ∀ d ∈ world.mro c, d ≠ c → ∃ b ∈ world.bases c, d ∈ world.mro b := by decide +kernel
  have h4 : ∀ c ∈ all, ∀ b ∈ world.bases c, born b < born c := by decide +kernel
  have h5 : ∀ c ∈ all, ∀ s ∈ world.children c, c ∈ world.mro s := by decide +kernel
  have h6 : ∀ c ∈ all, ∀ d ∈ world.mro c, world.sub c d = true := by decide +kernel
  have h7 : ∀ c ∈ all, ∀ b ∈ world.bases c, ∀ e ∈ registry, world.sub b e = true → world.sub c e = true := by decide +kernel
  have h8 : ∀ c ∈ all, ∀ a ∈ registry, world.sub c a = true → ∀ e ∈ registry, world.sub a e = true →
      world.sub c e = true := by decide +kernel
  have h9 : ∀ c ∈ all, ∀ a ∈ registry, world.sub c a = true → c ∈ world.mro a → c = a := by decide +kernel
  exact ⟨fun c => h1 c (mem_all c), fun c => h2 c (mem_all c), fun c => h3 c (mem_all c), fun c => h4 c (mem_all c),
    fun c => h5 c (mem_all c), fun c => h6 c (mem_all c), fun c b e hb he h => h7 c (mem_all c) b hb e he h,
    fun c a e ha he h h' => h8 c (mem_all c) a ha h e he h', fun c a ha => h9 c (mem_all c) a ha⟩

/-- What CPython 3.11 chooses for each class but `both`. -/
def chosen : List (Cls × Cls) :=
  [(.object, .object), (.int, .int), (.bool, .bool), (.noneType, .noneType), (.str, .str), (.float, .float),
   (.errorFields, .object), (.generic, .object), (.protocol, .object), (.anyJSError, .object), (.abc, .object),
   (.jsErrorData, .jsErrorData), (.baseException, .baseException), (.sized, .object), (.iterable, .object),
   (.container, .object), (.collection, .collection), (.mapping, .mapping), (.mutableMapping, .mapping),
   (.jsObject, .jsObject), (.jsArray, .jsArray), (.set, .set), (.baseJSArrayBuffer, .baseJSArrayBuffer),
   (.bytes, .bytes), (.mutableSet, .set), (.exception, .baseException), (.v8SerializeError, .baseException),
   (.jsError, .jsErrorData), (.myJSError, .jsErrorData), (.jsMap, .mapping), (.jsSet, .set),
   (.jsArrayBuffer, .baseJSArrayBuffer), (.dict, .mapping), (.list, .collection), (.frozenset, .set),
   (.orderedDict, .mapping)]

/-- A test of the model, not a property. -/
example : ∀ x ∈ chosen, (match world.dispatch 30 registry x.1 with | .ok t => decide (t = x.2) | .error _ => false) = true := by
  decide +kernel

end V8.Dispatch.World
