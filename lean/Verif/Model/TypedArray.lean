import Verif.Model.Float
import Verif.Model.RecursiveEq

/-!
# Elements of typed arrays

Models `JSTypedArray.get_buffer`, `JSArrayBufferView.__eq__` and `__hash__`, and `BackportJSFloat16Array`
(`src/v8serialize/jstypes/jsbuffers.py`).  The elements are reached through the `memoryview` that `get_buffer()`
returns, so most of this is the behaviour of CPython's `memoryview` on the formats that `DataFormat.resolve`
picks (jsbuffers.py:348-382), on a little-endian machine as the code assumes.
-/

namespace V8

/-- The type of the elements, jsbuffers.py:716-807 (`element_type` and `data_format` of the classes); a DataView has
none. -/
def ViewTag.elem : ViewTag → Option DVType
  | .int8 => some .int8
  | .uint8 => some .uint8
  | .uint8Clamped => some .uint8
  | .int16 => some .int16
  | .uint16 => some .uint16
  | .int32 => some .int32
  | .uint32 => some .uint32
  | .float16 => some .float16
  | .float32 => some .float32
  | .float64 => some .float64
  | .bigInt64 => some .bigint64
  | .bigUint64 => some .biguint64
  | .dataView => none

/-- `len(mv)` of a memoryview of elements. -/
def elemCount (t : DVType) (region : Bytes) : Nat := region.length / t.size

/-- The `j`-th element of a memoryview (`unpack_single` of CPython). -/
def elemAt (c : FloatConv) (t : DVType) (region : Bytes) (j : Nat) : DVVal :=
  dvUnpack c t (fromLE ((region.drop (j * t.size)).take t.size))

/-- `list(mv)` -/
def elements (c : FloatConv) (t : DVType) (region : Bytes) : List DVVal :=
  (List.range (elemCount t region)).map (elemAt c t region)

/-- An index of a memoryview of `len` elements: negative ones count from the end. -/
def mvIndex (len : Nat) (i : Int) : Option Nat :=
  let j := if i < 0 then i + len else i
  if 0 ≤ j ∧ j < len then some j.toNat else none

/-- `mv[i]` where `mv` is `view.get_buffer()`, jsbuffers.py:698-713 -/
def typedGet (c : FloatConv) (t : DVType) (v : View) (mv : Bytes) (i : Int) : Except PyExc DVVal :=
  match mvIndex (elemCount t (v.bytes mv)) i with
  | none => .error .indexError
  | some j => .ok (elemAt c t (v.bytes mv) j)

/-- The pattern stored for a value (`pack_single` of CPython): integers out of range, and integers too big for
a float, are ValueError, a float for an integer element is TypeError.  A number too big for `f` is stored as
infinity (the C conversion), for `e` it is ValueError. -/
def mvPack (c : FloatConv) : DVType → DVVal → Except PyExc Nat
  | .float64, .float x => .ok x.toNat
  | .float32, .float x => .ok (packOrInf x)
  | .float16, .float x =>
    match c.pack16 x with
    | some b => .ok b
    | none => .error .valueError
  | .float64, .int n =>
    match c.ofInt n with
    | none => .error .valueError
    | some x => .ok x.toNat
  | .float32, .int n =>
    match c.ofInt n with
    | none => .error .valueError
    | some x => .ok (packOrInf x)
  | .float16, .int n =>
    match c.ofInt n with
    | none => .error .valueError
    | some x =>
      match c.pack16 x with
      | some b => .ok b
      | none => .error .valueError
  | t, .int n =>
    match dvPack c t (.int n) with
    | .ok b => .ok b
    | .error _ => .error .valueError
  | _, .float _ => .error .typeError
where
  /-- `(float)x` in C. -/
  packOrInf (x : F64) : Nat :=
    match c.pack32 x with
    | some b => b
    | none => (if fSign x.toNat then 2 ^ 31 else 0) + b32.inf

/-- `mv[i] = x` where `mv` is `view.get_buffer()`: the contents of the backing buffer afterwards, and the exception.
`readonly`: the buffer cannot be written (TypeError). -/
def typedSet (c : FloatConv) (t : DVType) (readonly : Bool) (v : View) (mv : Bytes) (i : Int) (x : DVVal) :
    Bytes × Option PyExc :=
  if readonly then (mv, some .typeError)
  else
    match mvIndex (elemCount t (v.bytes mv)) i with
    | none => (mv, some .indexError)
    | some j =>
      match mvPack c t x with
      | .error e => (mv, some e)
      | .ok bits => (overwrite mv (v.byteOffset mv + j * t.size) (toLE t.size bits), none)

/-! ### Equality and hash -/

/-- An element as a Python value. -/
def DVVal.toVal : DVVal → Val
  | .int n => .int n
  | .float x => .float x

/-- `==` on two memoryviews of elements (`memory_richcompare` of CPython): the same number of elements, pairwise equal
as numbers whatever their formats are. -/
def mvEq (a b : List DVVal) : Bool :=
  a.length == b.length && (a.zip b).all (fun p => scalarEq p.1.toVal p.2.toVal)

/-- What `get_buffer_as_memoryview` gives for a backing buffer that may be inaccessible (`none`): the exception is
replaced by an empty buffer, jsbuffers.py:554-557. -/
def View.dataOf (v : View) (mv : Option Bytes) : Bytes :=
  v.bytes (match mv with | some b => b | none => [])

/-- `JSArrayBufferView.__eq__`, jsbuffers.py:609-622, between two different typed arrays.  The `except NotImplementedError`
there is never reached. -/
def typedEq (c : FloatConv) (t u : DVType) (v w : View) (mv nv : Option Bytes) : Bool :=
  mvEq (elements c t (v.dataOf mv)) (elements c u (w.dataOf nv))

/-- `JSArrayBufferView.__hash__`, jsbuffers.py:624-633: the hash of the bytes, by the function `h` of CPython; TypeError
if the object that has the bytes (`hashable`: it is `bytes`) has no hash itself. -/
def viewHash (h : Bytes → Int) (v : View) (mv : Option Bytes) (hashable : Bool) : Except PyExc Int :=
  if hashable then .ok (h (v.dataOf mv)) else .error .typeError

/-! ### Float16 arrays before Python 3.12 -/

/-- Entering `BackportJSFloat16Array.get_buffer()`, jsbuffers.py:818-833: the patterns of the float32 array made of the
float16 elements. -/
def backportEnter (c : FloatConv) (region : Bytes) : List Nat :=
  (elements c .float16 region).map (fun v =>
    match v with
    | .float x => mvPack.packOrInf c x
    | .int _ => 0)

/-- `view[i] = x` inside the block, on the float32 array. -/
def backportSet (c : FloatConv) (view : List Nat) (i : Int) (x : DVVal) : List Nat × Option PyExc :=
  match mvIndex view.length i with
  | none => (view, some .indexError)
  | some j =>
    match mvPack c .float32 x with
    | .error e => (view, some e)
    | .ok bits => (view.set j bits, none)

/-- The assignments inside the block, until one raises. -/
def backportEdits (c : FloatConv) (view : List Nat) : List (Int × DVVal) → List Nat × Option PyExc
  | [] => (view, none)
  | (i, x) :: rest =>
    match backportSet c view i x with
    | (view, some e) => (view, some e)
    | (view, none) => backportEdits c view rest

/-- Leaving the block, jsbuffers.py:847-848: every element is packed as float16; OverflowError stops the loop after
`struct.pack_into` has zeroed the element. -/
def backportLeave (c : FloatConv) : List Nat → Bytes × Option PyExc
  | [] => ([], none)
  | bits :: rest =>
    match c.pack16 (c.unpack32 bits) with
    | none => (toLE 2 0, some .overflowError)
    | some b =>
      match backportLeave c rest with
      | (bs, e) => (toLE 2 b ++ bs, e)

/-- `with view.get_buffer() as a: a[i] = x; ...`, jsbuffers.py:818-848: the backing buffer afterwards and the exception.
If the block raises, nothing is written back (the generator has no `finally`).  The block on a read-only
buffer is a read-only view. -/
def backportBlock (c : FloatConv) (readonly : Bool) (v : View) (mv : Bytes) (edits : List (Int × DVVal)) :
    Bytes × Option PyExc :=
  if readonly then
    match edits with
    | [] => (mv, none)
    | _ :: _ => (mv, some .typeError)
  else
    match backportEdits c (backportEnter c (v.bytes mv)) edits with
    | (_, some e) => (mv, some e)
    | (view, none) =>
      match backportLeave c view with
      | (bs, e) => (overwrite mv (v.byteOffset mv) bs, e)

/-- The same block with a memoryview of format `e` (`JSFloat16Array` since Python 3.12): assignments go to the buffer
directly. -/
def nativeBlock (c : FloatConv) (readonly : Bool) (v : View) (mv : Bytes) : List (Int × DVVal) → Bytes × Option PyExc
  | [] => (mv, none)
  | (i, x) :: rest =>
    match typedSet c .float16 readonly v mv i x with
    | (mv, some e) => (mv, some e)
    | (mv, none) => nativeBlock c readonly v mv rest

end V8
