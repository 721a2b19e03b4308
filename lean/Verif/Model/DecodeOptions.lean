import Verif.Model.Decode
import Verif.Model.PlainEq

/-!
# Options of TagReader

Models `TagReader.__init__` and the methods that use its options (`src/v8serialize/decode.py:1104-1415`).
`Model/Decode` has the same methods with the default options.

Simplifications: the container types are the defaults or the `dict` and `set` that the documentation of the options
names (decode.py:1131-1138); the error builder is `JSError.builder` or `JSErrorData.builder`; `tag_readers`
is in `Model/TagReaders`; `default_timezone` is not modelled (`msDate` of the environment stands for any time zone).  Which class an object
has is not part of the model: a `dict` is a `Node.jsmap` with its entries, as in the encoder.
-/

namespace V8

/-- The options, decode.py:1162-1181; `cmp` is how Python hashes and compares keys of a dict.  `mapDict`:
`jsmap_type=dict`; `setSet`: `jsset_type=set`; `objectDict`: `js_object_type=dict`; `arrayDict`: `js_array_type=dict`;
`errorData`: `js_error_builder=JSErrorData.builder`; `constants`: `js_constants`. -/
structure ReaderOptions where
  cmp : PyCompare
  mapDict : Bool
  setSet : Bool
  objectDict : Bool
  arrayDict : Bool
  errorData : Bool
  constants : Tag → Option Val

namespace ReaderOptions

/-- `TagReader()` -/
def default (cmp : PyCompare) : ReaderOptions := ⟨cmp, false, false, false, false, false, fun _ => none⟩

/-- `_js_constants.setdefault(tag, value)` and `self.js_constants[tag]`, decode.py:1182-1188, 1242-1243 -/
def constant (o : ReaderOptions) (t : Tag) (value : Val) : Val :=
  match o.constants t with
  | some v => v
  | none => value

end ReaderOptions

/-! ## Containers under construction -/

/-- `d[k] = v` on a dict: TypeError for an unhashable key. -/
def dictPut (cmp : PyCompare) (d : List (Val × Val)) (k v : Val) : RM (List (Val × Val)) :=
  orRaise (cmp.storeAll d [(k, v)])

/-- What `self.jsmap_type()` returned. -/
inductive MapBox where
  | jsmap (m : JSMap Val)
  | dict (d : List (Val × Val))

namespace MapBox

/-- `self.jsmap_type()`, decode.py:1251 -/
def new (o : ReaderOptions) : MapBox := if o.mapDict then .dict [] else .jsmap []

/-- One round of `map.update(...)`, decode.py:1252 -/
def put (cmp : PyCompare) : MapBox → Val → Val → RM MapBox
  | .jsmap m, k, v => do
    let m' ← putEntry m k v
    return .jsmap m'
  | .dict d, k, v => do
    let d' ← dictPut cmp d k v
    return .dict d'

/-- The object it is. -/
def node : MapBox → Node
  | .jsmap m => .jsmap m.items
  | .dict d => .jsmap d

end MapBox

/-- What `self.js_object_type()` or `self.js_array_type()` returned. -/
inductive ObjBox where
  | js (o : JSObj Val)
  | dict (d : List (Val × Val))

namespace ObjBox

/-- `self.js_object_type()`, decode.py:1269, or `self.js_array_type()`, decode.py:1279, 1289 -/
def new (dict : Bool) : ObjBox := if dict then .dict [] else .js JSObj.empty

/-- One round of `obj.update(...)`, decode.py:1270, 1280, 1297, or `obj[length - 1] = JSHole`, decode.py:1296; the key
as it was read, and as JSObject takes it. -/
def put (cmp : PyCompare) (py : PyEnv) : ObjBox → Val → RawKey → Val → RM ObjBox
  | .js o, _, key, v => do
    let o' ← putProp py o key v
    return .js o'
  | .dict d, k, _, v => do
    let d' ← dictPut cmp d k v
    return .dict d'

/-- The object it is. -/
def node (array : Bool) : ObjBox → Node
  | .js o => if array then .jsarr o else .jsobj o
  | .dict d => .jsmap d

end ObjBox

/-! ## The methods of TagReader -/

/-- The loop of `read_jsmap` driven by `map.update`, decode.py:532-534, 1252 -/
def mapLoopO (o : ReaderOptions) (rec : Tag → RM Val) : Nat → MapBox → Nat → RM (MapBox × Nat)
  | 0, _, _ => RM.fail .fuel
  | f + 1, m, count => do
    let t ← RM.lift readAnyTag
    if t = .kEndJSMap then return (m, count)
    else do
      let k ← rec t
      let v ← decodeNext rec
      let m' ← m.put o.cmp k v
      mapLoopO o rec f m' (count + 2)

/-- `deserialize_jsmap` and `read_jsmap`, decode.py:524-542, 1245-1253 -/
def decodeJSMapO (o : ReaderOptions) (rec : Tag → RM Val) : RM Val := do
  let i ← alloc (MapBox.new o).node
  let _ ← recordD (.obj i)
  let fuel ← loopFuel
  let r ← mapLoopO o rec fuel (MapBox.new o) 0
  let expected ← RM.lift readVarint
  checkCount expected r.2
  setNode i r.1.node
  return .obj i

/-- `deserialize_jsset`, decode.py:1255-1263.  `set |= generator` is TypeError for the built-in `set`, whose `|=` takes
other sets only; the generator has not started then. -/
def decodeJSSetO (o : ReaderOptions) (rec : Tag → RM Val) : RM Val :=
  if o.setSet then RM.fail (.py .typeError) else decodeJSSet rec

/-- The loop of `_read_js_object_properties`, decode.py:581-601 -/
def propsLoopO (o : ReaderOptions) (env : DEnv) (rec : Tag → RM Val) (endTag : Tag) :
    Nat → ObjBox → Nat → RM (ObjBox × Nat)
  | 0, _, _ => RM.fail .fuel
  | f + 1, b, count => do
    let t ← RM.lift readAnyTag
    if jsObjectKeyTags.contains t then do
      let k ← rec t
      let key ← checkKey k
      let v ← decodeNext rec
      let b' ← b.put o.cmp env.py k key v
      propsLoopO o env rec endTag f b' (count + 1)
    else if t = endTag then return (b, count)
    else RM.fail .decode

/-- `_read_js_object_properties`, decode.py:574-609 -/
def readPropsO (o : ReaderOptions) (env : DEnv) (rec : Tag → RM Val) (endTag : Tag) (b : ObjBox) : RM ObjBox := do
  let fuel ← loopFuel
  let r ← propsLoopO o env rec endTag fuel b 0
  let expected ← RM.lift readVarint
  checkCount expected r.2
  return r.1

/-- `deserialize_js_object` and `read_js_object`, decode.py:564-572, 1265-1271 -/
def decodeJSObjectO (o : ReaderOptions) (env : DEnv) (rec : Tag → RM Val) : RM Val := do
  let i ← alloc ((ObjBox.new o.objectDict).node false)
  let _ ← recordD (.obj i)
  let b ← readPropsO o env rec .kEndJSObject (ObjBox.new o.objectDict)
  setNode i (b.node false)
  return .obj i

/-- The element loop of `read_js_array_dense`, decode.py:622-624: `n` elements, the next one with
index `i`. -/
def elemsLoopO (o : ReaderOptions) (env : DEnv) (rec : Tag → RM Val) : Nat → Nat → ObjBox → RM ObjBox
  | 0, _, b => return b
  | n + 1, i, b => do
    let v ← decodeNext rec
    let b' ← b.put o.cmp env.py (.int i) (.int i) v
    elemsLoopO o env rec n (i + 1) b'

/-- `deserialize_js_array_dense` and `read_js_array_dense`, decode.py:611-639, 1273-1281 -/
def decodeDenseArrayO (o : ReaderOptions) (env : DEnv) (rec : Tag → RM Val) : RM Val := do
  let i ← alloc ((ObjBox.new o.arrayDict).node true)
  let _ ← recordD (.obj i)
  let n ← RM.lift readVarint
  let b ← elemsLoopO o env rec n 0 (ObjBox.new o.arrayDict)
  let b ← readPropsO o env rec .kEndDenseJSArray b
  let final ← RM.lift readVarint
  checkCount n final
  setNode i (b.node true)
  return .obj i

/-- `if length > 0: obj[length - 1] = JSHole`, decode.py:1291-1296 -/
def resizeToO (o : ReaderOptions) (env : DEnv) (length : Nat) (b : ObjBox) : RM ObjBox :=
  if length > 0 then b.put o.cmp env.py (.int (length - 1 : Nat)) (.int (length - 1 : Nat)) .hole else RM.pure b

/-- `deserialize_js_array_sparse` and `read_js_array_sparse`, decode.py:641-664, 1283-1298 -/
def decodeSparseArrayO (o : ReaderOptions) (env : DEnv) (rec : Tag → RM Val) : RM Val := do
  let i ← alloc ((ObjBox.new o.arrayDict).node true)
  let _ ← recordD (.obj i)
  let n ← RM.lift readVarint
  let b ← resizeToO o env n (ObjBox.new o.arrayDict)
  let b ← readPropsO o env rec .kEndSparseJSArray b
  let final ← RM.lift readVarint
  checkCount n final
  setNode i (b.node true)
  return .obj i

/-- The message of what the builder returns: `JSError` makes "" of a missing one (jstypes/jserror.py:162-164),
`JSErrorData` keeps it (jserror.py:35-46). -/
def ReaderOptions.message (o : ReaderOptions) (m : Option Str) : Option Str :=
  if o.errorData then m else some (m.getD [])

/-- `read_js_error` with the builder, decode.py:435-513, 1393-1397 and jstypes/jserror.py:101-117, 180-206 -/
def decodeErrorO (o : ReaderOptions) (rec : Tag → RM Val) : RM Val := do
  let etag ← RM.lift readErrTag
  let name := ErrName.forTag etag
  let etag ← RM.lift (readAfterName etag)
  let m ← readErrText rec .message etag
  let st ← readErrText rec .stack m.2
  let i ← alloc (.error name.value (o.message m.1) st.1 .null)
  let _ ← recordD (.obj i)
  let c ← readErrCause rec st.2
  let st' ← readLateStack rec st.1 c.2
  checkErrEnd st'.2
  setNode i (.error name.value (o.message m.1) st'.1 c.1)
  return .obj i

/-- `TagReader.decode`, decode.py:1234-1240, with the registry of decode.py:1195-1230; the methods that use no option
are those of `tagReader`. -/
def tagReaderO (o : ReaderOptions) (env : DEnv) (rec : Tag → RM Val) (t : Tag) (next : Tag → RM Val) : RM Val :=
  match t with
  | .kTheHole => return o.constant .kTheHole .hole
  | .kUndefined => return o.constant .kUndefined .undef
  | .kNull => return o.constant .kNull .null
  | .kTrue => return o.constant .kTrue (.bool true)
  | .kFalse => return o.constant .kFalse (.bool false)
  | .kBeginJSMap => decodeJSMapO o rec
  | .kBeginJSSet => decodeJSSetO o rec
  | .kBeginJSObject => decodeJSObjectO o env rec
  | .kBeginDenseJSArray => decodeDenseArrayO o env rec
  | .kBeginSparseJSArray => decodeSparseArrayO o env rec
  | .kError => decodeErrorO o rec
  | t => tagReader env rec t next

/-- `loads(data, decode_steps=[TagReader(...)])`, decode.py:1480-1504 -/
def loadsWith (o : ReaderOptions) (env : DEnv) (data : Bytes) : Except DErr (Val × DS) :=
  match readHeader data 0 with
  | .error e => .error e
  | .ok (version, p) =>
    decodeNext (decodeWith [tagReaderO o env] (data.length - p + 1)) data (DS.start p version)

end V8
