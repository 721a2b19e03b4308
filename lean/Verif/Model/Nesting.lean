import Verif.Model.Encode
import Verif.Model.Decode

/-!
# Python's recursion limit

`decode_object` and `encode_object` call themselves for nested values (decode.py:1074-1088, encode.py:817-834).
The calls between two of them (the step, the TagReader method, the container's `update`, the generator that
reads its items) take a number of frames that depends on the kind of value only; `frames` is any such number,
`room` how many frames are left when `loads` or `dumps` is called.  The frames of calls that return before the
next nested call are not counted.  RecursionError, which the code does not catch, is the error `fuel` here.
-/

namespace V8

/-- `decode_object(tag=t)` with `room` frames left, decode.py:1074-1088 with the default step. -/
def decodeRoom (env : DEnv) (frames : Tag → Nat) (room : Nat) (t : Tag) : RM Val := do
  if h : room ≤ frames t then RM.fail .fuel
  else do
    tick
    tagReader env (fun t' => decodeRoom env frames (room - (frames t + 1)) t') t unhandledTag
termination_by room
decreasing_by omega

/-- `loads`, decode.py:1480-1504, with `room` frames left. -/
def loadsRoom (env : DEnv) (frames : Tag → Nat) (room : Nat) (data : Bytes) : Except DErr (Val × DS) :=
  match readHeader data 0 with
  | .error e => .error e
  | .ok (version, p) => decodeNext (decodeRoom env frames room) data (DS.start p version)

/-- `encode_object` with `room` frames left, encode.py:817-834 with the default steps. -/
def encodeRoom (env : EEnv) (frames : Val → Nat) (room : Nat) (v : Val) : Wr :=
  if h : room ≤ frames v then fun _ => .error .fuel
  else refsStep env v fun v' => tagWriter env (fun x => encodeRoom env frames (room - (frames v + 1)) x) v' unhandledValue
termination_by room
decreasing_by omega

/-- `dumps`, encode.py:1187-1207, with `room` frames left. -/
def dumpsRoom (env : EEnv) (frames : Val → Nat) (room : Nat) (v : Val) : Except EErr Bytes := do
  let ws ← emit writeHeader WS.new
  let ws ← encodeRoom env frames room v ws
  return ws.data

end V8
