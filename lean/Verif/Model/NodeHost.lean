import Verif.Model.Encode
import Verif.Model.Decode

/-! # Writing views as Node.js host objects (src/v8serialize/extensions.py) -/

namespace V8

/-- `write_host_object` (encode.py:687-694) with `serialize_host_object` of
`NodeJsArrayBufferViewHostObjectHandler`, extensions.py:97-117; `code` is `buffer_format.nodejs_code`.
The view is not recorded. -/
def writeNodeView (env : EEnv) (code : Nat) (backing : Val) (v : View) : Wr := fun ws => do
  let data := v.bytes ((backingBytes env.heap backing).getD [])
  let ws ← writeTag .kHostObject ws
  let ws ← emitE (writeUint32 code) ws
  let ws ← emitE (writeUint32 data.length) ws
  emit data ws

/-- `serialize_js_array_buffer_views_as_nodejs_host_object`, extensions.py:125-150.
`NodeBufferFormat.supports` is that there is a code for the kind of view. -/
def nodeHostStep (env : EEnv) : EncStep := fun _ value next =>
  match value with
  | .obj i =>
    match env.heap[i]? with
    | some (.view backing v) =>
      match nodeCodeOfView v.tag with
      | some code => writeNodeView env code backing v
      | none => next value
    | _ => next value
  | _ => next value

/-- `[serialize_js_array_buffer_views_as_nodejs_host_object, *default_encode_steps]`, the use that
the docstring describes. -/
def nodeEncodeSteps (env : EEnv) : List EncStep := nodeHostStep env :: defaultEncodeSteps env

end V8
