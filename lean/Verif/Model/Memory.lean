import Verif.Model.Buffers

/-!
# Memory shared between array buffers, memoryviews and Python objects

Models `JSArrayBuffer` with all its options (`src/v8serialize/jstypes/jsbuffers.py:60-243`), `get_buffer`
(`_pycompat/typing.py:63-80`) and `JSArrayBufferView.get_buffer_as_memoryview` (jsbuffers.py:551-607) on memory that
several objects share, under any sequence of calls.  `Model/Buffers` has the same methods for a buffer on its own.

Python's own objects are modelled as CPython has them: `bytes`, `bytearray` and `array.array` own memory; a memoryview
refers to a part of it; a bytearray that has memoryviews cannot change its length (BufferError).

Simplifications: memoryviews are contiguous (slices with a step, and more than one dimension, are left out); a memoryview
that nobody refers to any more is released at once, as CPython does, and dropping the last reference to one is a
`release`; an `array.array` keeps its length.
-/

namespace V8

/-- What owns memory. -/
inductive BlockKind where
  | bytes
  | bytearray
  | array (itemsize : Nat)
  deriving DecidableEq, Repr

/-- A Python object that owns memory. -/
structure Block where
  kind : BlockKind
  data : Bytes
  deriving DecidableEq, Repr

/-- A memoryview: `len` is its `nbytes`. -/
structure MView where
  block : Nat
  off : Nat
  len : Nat
  itemsize : Nat
  readonly : Bool
  live : Bool
  deriving DecidableEq, Repr

/-- `JSArrayBuffer._data`, jsbuffers.py:96: bytes, bytearray or array; or a memoryview. -/
inductive BufData where
  | block (i : Nat)
  | view (j : Nat)
  deriving DecidableEq, Repr

/-- `JSArrayBuffer`, jsbuffers.py:96-101 -/
structure SBuf where
  data : BufData
  max : Nat
  resizable : Bool
  deriving DecidableEq, Repr

/-- All objects, numbered in the order of their creation. -/
structure Mem where
  blocks : List Block
  views : List MView
  bufs : List SBuf
  deriving DecidableEq, Repr

/-- `noObject` is no Python exception: the object named does not exist. -/
inductive MemErr where
  | valueError
  | typeError
  | indexError
  | bufferError
  | assertionError
  | jsArrayBufferError
  | noObject
  deriving DecidableEq, Repr

/-! ## Python's memory objects -/

/-- `len(obj)` -/
def Block.size (b : Block) : Nat :=
  match b.kind with
  | .array k => b.data.length / k
  | _ => b.data.length

/-- `memoryview(obj)` -/
def Block.view (b : Block) (i : Nat) : MView :=
  match b.kind with
  | .bytes => ⟨i, 0, b.data.length, 1, true, true⟩
  | .bytearray => ⟨i, 0, b.data.length, 1, false, true⟩
  | .array k => ⟨i, 0, b.data.length, k, false, true⟩

namespace MView

/-- `len(view)` -/
def size (v : MView) : Nat := v.len / v.itemsize

/-- `view[lo:hi]` for indexes that are not negative -/
def slice (v : MView) (lo hi : Nat) : MView :=
  let lo' := Nat.min lo v.size
  let hi' := Nat.max lo' (Nat.min hi v.size)
  { v with off := v.off + lo' * v.itemsize, len := (hi' - lo') * v.itemsize }

/-- `view.cast(format)`, for a format of items of `k` bytes -/
def cast (v : MView) (k : Nat) : Except MemErr MView :=
  if v.itemsize ≠ 1 ∧ k ≠ 1 then .error .typeError
  else if k = 0 ∨ v.len % k ≠ 0 then .error .typeError
  else .ok { v with itemsize := k }

/-- `view.toreadonly()` -/
def toReadonly (v : MView) : MView := { v with readonly := true }

end MView

namespace Mem

/-- The objects at the start. -/
def empty : Mem := ⟨[], [], []⟩

/-- A Python object that exists. -/
def getBlock (m : Mem) (i : Nat) : Except MemErr Block :=
  match m.blocks[i]? with
  | some b => .ok b
  | none => .error .noObject

/-- A memoryview that can be used: ValueError after `release()`. -/
def getView (m : Mem) (j : Nat) : Except MemErr MView :=
  match m.views[j]? with
  | some v => if v.live then .ok v else .error .valueError
  | none => .error .noObject

/-- A JSArrayBuffer that exists. -/
def getBuf (m : Mem) (b : Nat) : Except MemErr SBuf :=
  match m.bufs[b]? with
  | some buf => .ok buf
  | none => .error .noObject

def addBlock (m : Mem) (b : Block) : Mem := { m with blocks := m.blocks ++ [b] }
def addView (m : Mem) (v : MView) : Mem := { m with views := m.views ++ [v] }
def addBuf (m : Mem) (b : SBuf) : Mem := { m with bufs := m.bufs ++ [b] }

/-- Whether memoryviews of the object exist. -/
def exported (m : Mem) (i : Nat) : Bool := m.views.any (fun v => v.live && v.block == i)

/-- Other contents for an object, which keeps its length if memoryviews exist. -/
def setData (m : Mem) (i : Nat) (data : Bytes) : Except MemErr Mem := do
  let b ← m.getBlock i
  if b.data.length ≠ data.length ∧ m.exported i = true then .error .bufferError
  else .ok { m with blocks := m.blocks.set i { b with data := data } }

/-- `view.release()` -/
def releaseView (m : Mem) (j : Nat) : Except MemErr Mem :=
  match m.views[j]? with
  | some v => .ok { m with views := m.views.set j { v with live := false } }
  | none => .error .noObject

/-- The bytes that a memoryview shows. -/
def contents (m : Mem) (v : MView) : Except MemErr Bytes := do
  let b ← m.getBlock v.block
  .ok ((b.data.drop v.off).take v.len)

/-! ## JSArrayBuffer -/

/-- `get_buffer(obj)`, _pycompat/typing.py:63-80: a memoryview of bytes. -/
def bytesOf (m : Mem) : BufData → Except MemErr MView
  | .block i => do
    let b ← m.getBlock i
    .ok { b.view i with itemsize := 1 }
  | .view j => do
    let v ← m.getView j
    .ok { v with itemsize := 1 }

/-- `__buffer__` and `data`, jsbuffers.py:215-218, 240-241 -/
def bufView (m : Mem) (b : SBuf) : Except MemErr MView := do
  let v ← m.bytesOf b.data
  .ok (v.slice 0 b.max)

/-- The bytes of the buffer; ValueError if its memory was released. -/
def exposed (m : Mem) (b : Nat) : Except MemErr Bytes := do
  let buf ← m.getBuf b
  let v ← m.bufView buf
  m.contents v

end Mem

/-- The first arguments of `JSArrayBuffer(...)`: a length, or an object with data. -/
inductive BufSource where
  | length (n : Int)
  | block (i : Nat)
  | view (j : Nat)
  deriving DecidableEq, Repr

/-- The others, jsbuffers.py:127-133; None stands for False, and for True in `copy_data`. -/
structure BufOptions where
  maxByteLength : Option Int
  resizable : Bool
  copyData : Bool
  readonly : Bool
  deriving DecidableEq, Repr

/-- `len(data) if max_byte_length is None else max_byte_length`, jsbuffers.py:164 -/
def BufOptions.limit (o : BufOptions) (len : Nat) : Int :=
  match o.maxByteLength with
  | some n => n
  | none => len

namespace Mem

/-- `bytes(data) if readonly else bytearray(data)`, jsbuffers.py:156, 161: a new object. -/
def copied (m : Mem) (readonly : Bool) (data : Bytes) : Mem × BufData × Nat :=
  (m.addBlock ⟨if readonly then .bytes else .bytearray, data⟩, .block m.blocks.length, data.length)

/-- What `_data` becomes, and its `len()`, jsbuffers.py:134-164 -/
def sourceData (m : Mem) (o : BufOptions) : BufSource → Except MemErr (Mem × BufData × Nat)
  | .length n =>
    if o.readonly then .ok (m.copied true (List.replicate n.toNat 0))
    else if n < 0 then .error .valueError
    else .ok (m.copied false (List.replicate n.toNat 0))
  | .block i => do
    let b ← m.getBlock i
    if o.copyData then .ok (m.copied o.readonly b.data)
    else if o.readonly ∧ b.kind ≠ .bytes then
      .ok (m.addView (b.view i).toReadonly, .view m.views.length, b.size)
    else .ok (m, .block i, b.size)
  | .view j => do
    let v ← m.getView j
    if o.copyData then do
      let data ← m.contents v
      .ok (m.copied o.readonly data)
    else if o.readonly then .ok (m.addView v.toReadonly, .view m.views.length, v.size)
    else .ok (m.addView v, .view m.views.length, v.size)

/-- `isinstance(data, bytearray)` -/
def isBytearray (m : Mem) : BufData → Bool
  | .block i =>
    match m.blocks[i]? with
    | some b => decide (b.kind = .bytearray)
    | none => false
  | .view _ => false

/-- `JSArrayBuffer.__init__`, jsbuffers.py:126-190 -/
def newBuf (m : Mem) (src : BufSource) (o : BufOptions) : Except MemErr Mem :=
  let resizable := o.resizable || o.maxByteLength.isSome
  if resizable = true ∧ o.readonly = true then .error .valueError
  else
    match m.sourceData o src with
    | .error e => .error e
    | .ok (m', data, len) =>
      if resizable = true ∧ m'.isBytearray data = false then .error .valueError
      else if (len : Int) > o.limit len then .error .jsArrayBufferError
      else .ok (m'.addBuf ⟨data, (o.limit len).toNat, resizable⟩)

/-- `resize`, jsbuffers.py:192-213 -/
def resizeBuf (m : Mem) (b : Nat) (n : Int) : Except MemErr Mem := do
  let buf ← m.getBuf b
  if buf.resizable = false then .error .jsArrayBufferError
  else if ¬ (0 ≤ n ∧ n ≤ buf.max) then .error .jsArrayBufferError
  else
    match buf.data with
    | .view _ => .error .assertionError
    | .block i => do
      let blk ← m.getBlock i
      if blk.kind ≠ .bytearray then .error .assertionError
      else if n > blk.data.length then
        m.setData i (blk.data ++ List.replicate (n.toNat - blk.data.length) 0)
      else m.setData i (blk.data.take n.toNat)

/-- `close`, jsbuffers.py:232-235 -/
def closeBuf (m : Mem) (b : Nat) : Except MemErr Mem := do
  let buf ← m.getBuf b
  match buf.data with
  | .view j => m.releaseView j
  | .block _ => .ok m

end Mem

/-- `JSArrayBufferView.__get_buffer_as_memoryview`, jsbuffers.py:551-588, on the memoryview of the backing buffer. -/
def View.memory (v : View) (mv : MView) : MView :=
  let itemsize := v.tag.size
  let byteOffset := v.itemOffset * itemsize
  match v.itemLength with
  | some n =>
    let byteLength := n * itemsize
    if byteOffset + byteLength > mv.len then mv.slice byteOffset (byteOffset + 0)
    else mv.slice byteOffset (byteOffset + byteLength)
  | none =>
    let available := mv.len - byteOffset
    let fullItems := available / itemsize
    mv.slice byteOffset (byteOffset + fullItems * itemsize)

namespace Mem

/-- `view.get_buffer_as_memoryview(readonly=...)` of a view on buffer `b`, jsbuffers.py:551-607; with `typed`, that of
`JSTypedArray.get_buffer`, jsbuffers.py:698-714. -/
def accessBuf (m : Mem) (b : Nat) (v : View) (readonly typed : Bool) : Except MemErr Mem := do
  let buf ← m.getBuf b
  let mv ← m.bufView buf
  let region := v.memory (if readonly then mv.toReadonly else mv)
  if typed then do
    let elements ← region.cast v.tag.size
    .ok (m.addView elements)
  else .ok (m.addView region)

end Mem

/-! ## Sequences of calls -/

/-- A call.  Objects that are made get the next number of their kind.
* `newBytes`, `newBytearray`, `newArray`: Python objects;
* `extend`, `truncate`, `setByte`: `obj.extend(more)`, `del obj[n:]`, `obj[i] = x` of a bytearray;
* `view`: `memoryview(obj)`; `slice`, `cast`, `toReadonly`, `release`: methods of memoryview `j`;
* `setItem`: `view[i] = x`, where `x` is stored as `bs`;
* `newBuf`: `JSArrayBuffer(...)`; `bufData`, `resize`, `close`: `data`, `resize(n)`, `close()` of buffer `b`;
* `access`: `get_buffer()` of a typed array or DataView on buffer `b`. -/
inductive MemEvent where
  | newBytes (data : Bytes)
  | newBytearray (data : Bytes)
  | newArray (itemsize : Nat) (data : Bytes)
  | extend (i : Nat) (more : Bytes)
  | truncate (i n : Nat)
  | setByte (i pos : Nat) (x : UInt8)
  | view (i : Nat)
  | slice (j lo hi : Nat)
  | cast (j k : Nat)
  | toReadonly (j : Nat)
  | release (j : Nat)
  | setItem (j pos : Nat) (bs : Bytes)
  | newBuf (src : BufSource) (o : BufOptions)
  | bufData (b : Nat)
  | resize (b : Nat) (n : Int)
  | close (b : Nat)
  | access (b : Nat) (v : View) (readonly typed : Bool)
  deriving DecidableEq, Repr

namespace Mem

/-- The data of a bytearray; other objects have no such methods. -/
def bytearray (m : Mem) (i : Nat) : Except MemErr Bytes := do
  let b ← m.getBlock i
  if b.kind = .bytearray then .ok b.data else .error .typeError

/-- `view[i] = x`, with `x` stored as `bs` -/
def setItem (m : Mem) (j pos : Nat) (bs : Bytes) : Except MemErr Mem := do
  let v ← m.getView j
  if v.readonly then .error .typeError
  else if pos ≥ v.size then .error .indexError
  else if bs.length ≠ v.itemsize then .error .valueError
  else do
    let b ← m.getBlock v.block
    m.setData v.block (overwrite b.data (v.off + pos * v.itemsize) bs)

/-- One call: the objects afterwards, or an exception. -/
def call (m : Mem) : MemEvent → Except MemErr Mem
  | .newBytes data => .ok (m.addBlock ⟨.bytes, data⟩)
  | .newBytearray data => .ok (m.addBlock ⟨.bytearray, data⟩)
  | .newArray k data => if k = 0 ∨ data.length % k ≠ 0 then .error .valueError else .ok (m.addBlock ⟨.array k, data⟩)
  | .extend i more => do
    let data ← m.bytearray i
    m.setData i (data ++ more)
  | .truncate i n => do
    let data ← m.bytearray i
    m.setData i (data.take n)
  | .setByte i pos x => do
    let data ← m.bytearray i
    if pos ≥ data.length then .error .indexError else m.setData i (data.set pos x)
  | .view i => do
    let b ← m.getBlock i
    .ok (m.addView (b.view i))
  | .slice j lo hi => do
    let v ← m.getView j
    .ok (m.addView (v.slice lo hi))
  | .cast j k => do
    let v ← m.getView j
    let v' ← v.cast k
    .ok (m.addView v')
  | .toReadonly j => do
    let v ← m.getView j
    .ok (m.addView v.toReadonly)
  | .release j => m.releaseView j
  | .setItem j pos bs => m.setItem j pos bs
  | .newBuf src o => m.newBuf src o
  | .bufData b => do
    let buf ← m.getBuf b
    let v ← m.bufView buf
    .ok (m.addView v)
  | .resize b n => m.resizeBuf b n
  | .close b => m.closeBuf b
  | .access b v readonly typed => m.accessBuf b v readonly typed

/-- A call whose exception, if any, is caught: nothing changed then. -/
def step (m : Mem) (e : MemEvent) : Mem :=
  match m.call e with
  | .ok m' => m'
  | .error _ => m

/-- A sequence of calls. -/
def run : Mem → List MemEvent → Mem
  | m, [] => m
  | m, e :: es => run (m.step e) es

end Mem

end V8
