import Verif.Model.Heap
import Verif.Model.Keys

/-!
# Python exceptions as JavaScript errors

Models `src/v8serialize/jstypes/_v8traceback.py` and `JSErrorData.from_traceback_exception`
(`src/v8serialize/jstypes/jserror.py`).
-/

namespace V8

/-- A `traceback.FrameSummary`, as far as it is used.  Line and column numbers are ints from the
interpreter, taken to be non-negative. -/
structure Frame where
  name : Str
  filename : Option Str
  lineno : Option Nat
  colno : Option Nat
  deriving DecidableEq, Repr

/-- A `traceback.TracebackException`: the strings `format_exception_only()` yields (which the standard
library makes), `stack`, `exceptions` (empty for None), `__context__`, `__suppress_context__` and
`__cause__`.  The standard library has cut all cycles, so this is a tree. -/
inductive Tbe where
  | mk (only : List Str) (stack : List Frame) (exceptions : List Tbe) (context : Option Tbe)
      (suppress : Bool) (cause : Option Tbe)

/-- `sub_none`, _v8traceback.py:126-127 -/
def subNone (value : Option Str) (substitute : Str) : Str := value.getD substitute

/-- `format_v8_frame_location`, _v8traceback.py:114-123.  On Pythons before 3.11 frames have no
`colno`, and line 115 would raise AttributeError for a frame without file name and line number; this
is the behaviour from 3.11 on. -/
def formatFrameLocation (f : Frame) : Str :=
  if f.filename.isNone && f.lineno.isNone && f.colno.isNone then str "(unknown location)"
  else
    let filename := subNone f.filename (str "<unknown>")
    let lineno := subNone (f.lineno.map decDigits) (str "<unknown>")
    let colno := subNone (f.colno.map decDigits) (str "<unknown>")
    str "(" ++ filename ++ str ":" ++ lineno ++ str ":" ++ colno ++ str ")"

/-- `format_v8_frame`, _v8traceback.py:110-111 -/
def formatFrame (f : Frame) : Str :=
  str "    at " ++ f.name ++ str " " ++ formatFrameLocation f ++ str "\n"

/-- `str.isspace` of one character. -/
def isSpaceChar (c : Nat) : Bool :=
  (9 ≤ c && c ≤ 13) || (28 ≤ c && c ≤ 32) || c == 0x85 || c == 0xa0 || c == 0x1680 ||
  (0x2000 ≤ c && c ≤ 0x200a) || c == 0x2028 || c == 0x2029 || c == 0x202f || c == 0x205f || c == 0x3000

/-- `str.isspace()`: not empty and all white space. -/
def pyIsSpace (s : Str) : Bool := !s.isEmpty && s.all isSpaceChar

/-- `str.lstrip(" ")` -/
def lstripSpaces (s : Str) : Str := s.dropWhile (· == 32)

/-- `str.rstrip()` -/
def pyRstrip (s : Str) : Str := (s.reverse.dropWhile isSpaceChar).reverse

/-- `prefix_lines`, _v8traceback.py:97-107: the prefixes in turn, the last one for all further lines. -/
def prefixLines (lastPrefix : Str) : List Str → List Str → List Str
  | [], _ => []
  | line :: lines, prefixes =>
    let p := prefixes.headD lastPrefix
    let result := p ++ line
    (if pyIsSpace result then lstripSpaces result else result) :: prefixLines p lines prefixes.tail

/-- `format_group_path`, _v8traceback.py:93-94 -/
def formatGroupPath (path : List Nat) : Str := (str ".").intercalate (path.map decDigits)

mutual

/-- `format_v8_stack`, _v8traceback.py:68-90 -/
def formatStack : Tbe → List Nat → List Str
  | .mk only stack exceptions _ _ _, groupPath =>
    only ++ stack.reverse.map formatFrame ++ formatSubs exceptions groupPath 1

/-- The loop over the sub-exceptions from number `i` on, _v8traceback.py:82-90, with
`format_exception_for_v8` written out. -/
def formatSubs : List Tbe → List Nat → Nat → List Str
  | [], _, _ => []
  | sub :: rest, groupPath, i =>
    str "\n" ::
      prefixLines [] (formatStack sub (groupPath ++ [i]) ++ formatRelated sub)
        [str "  ↳ " ++ formatGroupPath (groupPath ++ [i]) ++ str ": ", str "    "] ++
      formatSubs rest groupPath (i + 1)

/-- The loop over `walk_related`, _v8traceback.py:53-65 -/
def formatRelated : Tbe → List Str
  | .mk _ _ _ context suppress _ => if suppress then [] else formatContext context

/-- One round of that loop and the following ones. -/
def formatContext : Option Tbe → List Str
  | none => []
  | some c =>
    [str "\n", str "The above exception occurred while handling another exception:\n", str "\n"] ++
      formatStack c [] ++ formatRelated c

end

/-- `format_exception_for_v8`, _v8traceback.py:9-59 -/
def formatException (t : Tbe) (groupPath : List Nat) : List Str :=
  formatStack t groupPath ++ formatRelated t

/-- The fields of a JSErrorData that `from_traceback_exception` sets; the name is always `Error`.
The causes follow each other in a list. -/
structure ErrText where
  message : Option Str
  stack : Str
  deriving DecidableEq, Repr

/-- `_get_message`, jserror.py:120-126 -/
def getMessage : Tbe → Option Str
  | .mk only _ _ _ _ _ => only.head?.map pyRstrip

mutual

/-- `from_traceback_exception`, jserror.py:78-99: the error and its chain of causes. -/
def fromTraceback : Tbe → List ErrText
  | .mk only stack exceptions context suppress cause =>
    ⟨getMessage (.mk only stack exceptions context suppress cause),
      pyRstrip (formatException (.mk only stack exceptions context suppress cause) []).flatten⟩ ::
      fromCause cause

/-- `if tbe.__cause__: …`, jserror.py:86-88 -/
def fromCause : Option Tbe → List ErrText
  | none => []
  | some c => fromTraceback c

end

/-- The objects that stand for a Python exception when it is written (encode.py:953-959): an Error for
it, under its own identity, and new ones for its causes, each the cause of the one before. -/
def errorNodes : Nat → List ErrText → List Node
  | _, [] => []
  | i, e :: rest =>
    .error (str "Error") e.message (some e.stack) (if rest.isEmpty then .null else .obj (i + 1)) ::
      errorNodes (i + 1) rest

end V8
