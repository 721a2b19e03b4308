import Verif.Model.Decode

/-!
# The decoder filling containers in place

`Model/Decode` keeps a container under construction outside the heap and puts it into its cell when it is
complete.  Here the containers are filled as the code does it: `deserialize_jsmap` and the others make an empty
container, record it, and `update` or `|=` store each entry in it as soon as the generator yields it
(decode.py:1245-1298).  So nested values are decoded while the containers around them are in the heap with the
entries read so far, and references can lead to them.  Everything that makes no container is taken from
`Model/Decode`; the simplifications stated there apply, except the one about containers.
-/

namespace V8.InPlace

/-- The dict of a JSMap with the given items: each pair is stored under what `same_value_zero` gives for its key
(jsmap.py:79, 189-190; a key that has none cannot be stored). -/
def dictOfItems (es : List (Val × Val)) : JSMap Val :=
  es.filterMap fun e => match sameValueZero e.1 with
    | .ok key => some (key, e)
    | .error _ => none

/-- `map[k] = v` of `update` on the JSMap `i`, jsmap.py:189-190, 259-273.  (The object `i` is a JSMap.) -/
def storeEntry (i : Id) (k v : Val) : RM Unit := fun _ s =>
  match s.heap[i]? with
  | some (.jsmap es) =>
    match (dictOfItems es).setitem k v with
    | (m, none) => .ok ((), { s with heap := s.heap.set i (.jsmap m.items) })
    | (_, some e) => .error (.py e)
  | _ => .error (.py .typeError)

/-- The dict of a JSSet with the given members, jsset.py:115, 128-129. -/
def dictOfMembers (ms : List Val) : JSSet :=
  ms.filterMap fun v => match sameValueZero v with
    | .ok key => some (key, v)
    | .error _ => none

/-- `set.add(v)` of `|=` on the JSSet `i`, jsset.py:179-181.  (The object `i` is a JSSet.) -/
def storeMember (i : Id) (v : Val) : RM Unit := fun _ s =>
  match s.heap[i]? with
  | some (.jsset ms) =>
    match (dictOfMembers ms).add v with
    | (m, none) => .ok ((), { s with heap := s.heap.set i (.jsset m.members) })
    | (_, some e) => .error (.py e)
  | _ => .error (.py .typeError)

/-- `obj[key] = value` on the JSObject or JSArray `i`, jsobject.py:160-170.  (The object `i` is one of them.) -/
def storeProp (py : PyEnv) (i : Id) (key : RawKey) (v : Val) : RM Unit := fun d s =>
  match s.heap[i]? with
  | some (.jsobj o) =>
    match putProp py o key v d s with
    | .ok (o', s') => .ok ((), { s' with heap := s'.heap.set i (.jsobj o') })
    | .error e => .error e
  | some (.jsarr o) =>
    match putProp py o key v d s with
    | .ok (o', s') => .ok ((), { s' with heap := s'.heap.set i (.jsarr o') })
    | .error e => .error e
  | _ => .error (.py .typeError)

/-- The loop of `read_jsmap` driven by `map.update`, decode.py:532-534, 1252, with the number of items read. -/
def mapLoop (rec : Tag → RM Val) (i : Id) : Nat → Nat → RM Nat
  | 0, _ => RM.fail .fuel
  | f + 1, count => do
    let t ← RM.lift readAnyTag
    if t = .kEndJSMap then return count
    else do
      let k ← rec t
      let v ← decodeNext rec
      storeEntry i k v
      mapLoop rec i f (count + 2)

/-- `deserialize_jsmap` and `read_jsmap`, decode.py:524-542, 1245-1253 -/
def decodeJSMap (rec : Tag → RM Val) : RM Val := do
  let i ← alloc (.jsmap [])
  let _ ← recordD (.obj i)
  let fuel ← loopFuel
  let count ← mapLoop rec i fuel 0
  let expected ← RM.lift readVarint
  checkCount expected count
  return .obj i

/-- The loop of `read_jsset` driven by `set |=`, decode.py:552-554, 1262 -/
def setLoop (rec : Tag → RM Val) (i : Id) : Nat → Nat → RM Nat
  | 0, _ => RM.fail .fuel
  | f + 1, count => do
    let t ← RM.lift readAnyTag
    if t = .kEndJSSet then return count
    else do
      let v ← rec t
      storeMember i v
      setLoop rec i f (count + 1)

/-- `deserialize_jsset` and `read_jsset`, decode.py:544-562, 1255-1263 -/
def decodeJSSet (rec : Tag → RM Val) : RM Val := do
  let i ← alloc (.jsset [])
  let _ ← recordD (.obj i)
  let fuel ← loopFuel
  let count ← setLoop rec i fuel 0
  let expected ← RM.lift readVarint
  checkCount expected count
  return .obj i

/-- The loop of `_read_js_object_properties`, decode.py:581-601 -/
def propsLoop (env : DEnv) (rec : Tag → RM Val) (endTag : Tag) (i : Id) : Nat → Nat → RM Nat
  | 0, _ => RM.fail .fuel
  | f + 1, count => do
    let t ← RM.lift readAnyTag
    if jsObjectKeyTags.contains t then do
      let k ← rec t
      let key ← checkKey k
      let v ← decodeNext rec
      storeProp env.py i key v
      propsLoop env rec endTag i f (count + 1)
    else if t = endTag then return count
    else RM.fail .decode

/-- `_read_js_object_properties`, decode.py:574-609 -/
def readProps (env : DEnv) (rec : Tag → RM Val) (endTag : Tag) (i : Id) : RM Unit := do
  let fuel ← loopFuel
  let count ← propsLoop env rec endTag i fuel 0
  let expected ← RM.lift readVarint
  checkCount expected count

/-- `deserialize_js_object` and `read_js_object`, decode.py:564-572, 1265-1271 -/
def decodeJSObject (env : DEnv) (rec : Tag → RM Val) : RM Val := do
  let i ← alloc (.jsobj JSObj.empty)
  let _ ← recordD (.obj i)
  readProps env rec .kEndJSObject i
  return .obj i

/-- The element loop of `read_js_array_dense`, decode.py:622-624: `n` elements, the next one with index `j`. -/
def elemsLoop (env : DEnv) (rec : Tag → RM Val) (i : Id) : Nat → Nat → RM Unit
  | 0, _ => return ()
  | n + 1, j => do
    let v ← decodeNext rec
    storeProp env.py i (.int j) v
    elemsLoop env rec i n (j + 1)

/-- `deserialize_js_array_dense` and `read_js_array_dense`, decode.py:611-639, 1273-1281 -/
def decodeDenseArray (env : DEnv) (rec : Tag → RM Val) : RM Val := do
  let i ← alloc (.jsarr JSObj.empty)
  let _ ← recordD (.obj i)
  let n ← RM.lift readVarint
  elemsLoop env rec i n 0
  readProps env rec .kEndDenseJSArray i
  let final ← RM.lift readVarint
  checkCount n final
  return .obj i

/-- `if length > 0: obj[length - 1] = JSHole`, decode.py:1291-1296 -/
def resizeTo (env : DEnv) (length : Nat) (i : Id) : RM Unit :=
  if length > 0 then storeProp env.py i (.int (length - 1 : Nat)) .hole else RM.pure ()

/-- `deserialize_js_array_sparse` and `read_js_array_sparse`, decode.py:641-664, 1283-1298 -/
def decodeSparseArray (env : DEnv) (rec : Tag → RM Val) : RM Val := do
  let i ← alloc (.jsarr JSObj.empty)
  let _ ← recordD (.obj i)
  let n ← RM.lift readVarint
  resizeTo env n i
  readProps env rec .kEndSparseJSArray i
  let final ← RM.lift readVarint
  checkCount n final
  return .obj i

/-- `TagReader.decode` with the registry of decode.py:1195-1240 -/
def tagReader (env : DEnv) (rec : Tag → RM Val) (t : Tag) (next : Tag → RM Val) : RM Val :=
  match t with
  | .kBeginJSMap => decodeJSMap rec
  | .kBeginJSSet => decodeJSSet rec
  | .kBeginJSObject => decodeJSObject env rec
  | .kBeginDenseJSArray => decodeDenseArray env rec
  | .kBeginSparseJSArray => decodeSparseArray env rec
  | t => V8.tagReader env rec t next

/-- `decode_object(tag=t)` with the default step, decode.py:1074-1088, 1418 -/
def decodeTag (env : DEnv) : Nat → Tag → RM Val := decodeWith [tagReader env]

/-- `Decoder.decodes` / `loads`, decode.py:1480-1504 -/
def loads (env : DEnv) (data : Bytes) : Except DErr (Val × DS) :=
  match readHeader data 0 with
  | .error e => .error e
  | .ok (version, p) => decodeNext (decodeTag env (data.length - p + 1)) data (DS.start p version)

end V8.InPlace
