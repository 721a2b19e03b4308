import Verif.Model.Traceback

/-!
# Specification: how an exception is laid out as a stack trace

The exceptions that are shown, in the order in which they are shown, and the lines for each of them.
-/

namespace V8.Spec

/-- What `format_exception_only()` says of an exception, and its frames (oldest call first). -/
def excHeader : Tbe → List Str
  | .mk only _ _ _ _ _ => only
def excFrames : Tbe → List Frame
  | .mk _ stack _ _ _ _ => stack

/-- How an exception comes to be shown: it is the exception itself, a member of a group (with the numbers
that lead to it), or the exception during whose handling another one occurred. -/
inductive Role where
  | self
  | member (path : List Nat)
  | handled
  deriving DecidableEq, Repr

/-- An exception that is shown, and how deep it is inside exception groups. -/
structure Shown where
  role : Role
  depth : Nat
  exc : Tbe

mutual

/-- The members of a group, each followed by its own members and then by the exceptions that were being
handled.  `path` leads to the group. -/
def membersShown : Tbe → List Nat → Nat → List Shown
  | .mk _ _ exceptions _ _ _, path, d => membersFrom exceptions path 1 d

/-- The members from number `i` on. -/
def membersFrom : List Tbe → List Nat → Nat → Nat → List Shown
  | [], _, _, _ => []
  | e :: rest, path, i, d =>
    ⟨.member (path ++ [i]), d + 1, e⟩ :: membersShown e (path ++ [i]) (d + 1) ++ handledShown e (d + 1) ++
      membersFrom rest path (i + 1) d

/-- The exceptions that were being handled, the latest first, up to one raised with `from`. -/
def handledShown : Tbe → Nat → List Shown
  | .mk _ _ _ context suppress _, d => if suppress then [] else contextShown context d

/-- The exception that was being handled, its members, and those handled before. -/
def contextShown : Option Tbe → Nat → List Shown
  | none, _ => []
  | some c, d => ⟨.handled, d, c⟩ :: membersShown c [] d ++ handledShown c d

end

/-- Everything that is shown of an exception. -/
def shown (t : Tbe) : List Shown := ⟨.self, 0, t⟩ :: membersShown t [] 0 ++ handledShown t 0

/-- Only white space, or empty. -/
def Blank (s : Str) : Prop := ∀ c ∈ s, isSpaceChar c = true

instance (s : Str) : Decidable (Blank s) := by unfold Blank; infer_instance

/-- `s` with four spaces in front for each level; blank lines lose their spaces instead. -/
def indented (d : Nat) (s : Str) : Str :=
  if d = 0 then s else if Blank s then s.dropWhile (· == 32) else List.replicate (4 * d) 32 ++ s

/-- Where a frame is: file, line and column, with a word for what is not known. -/
def place (f : Frame) : Str :=
  match f.filename, f.lineno, f.colno with
  | none, none, none => str "(unknown location)"
  | file, line, col =>
    str "(" ++ file.getD (str "<unknown>") ++ str ":" ++ (line.map decDigits).getD (str "<unknown>") ++ str ":" ++
      (col.map decDigits).getD (str "<unknown>") ++ str ")"

/-- The line for a frame: name and place. -/
def frameLine (f : Frame) : Str := str "    at " ++ f.name ++ str " " ++ place f ++ str "\n"

/-- The numbers of a path with dots between them. -/
def pathText : List Nat → Str
  | [] => []
  | [n] => decDigits n
  | n :: m :: p => decDigits n ++ str "." ++ pathText (m :: p)

/-- The lines for an exception: what it says, then its frames, the most recent call first.  A member of a
group has an empty line and its number in front, an exception that was being handled a sentence. -/
def excLines (s : Shown) : List Str :=
  let own := (excHeader s.exc ++ (excFrames s.exc).reverse.map frameLine).map (indented s.depth)
  match s.role with
  | .self => own
  | .member path =>
    str "\n" :: (List.replicate (4 * (s.depth - 1)) 32 ++ str "  ↳ " ++ pathText path ++ str ": " ++
      (excHeader s.exc).headD []) :: own.tail
  | .handled =>
    [str "\n", indented s.depth (str "The above exception occurred while handling another exception:\n"), str "\n"] ++ own

/-- The number that leads to a member. -/
def Shown.path : Shown → Option (List Nat)
  | ⟨.member p, _, _⟩ => some p
  | _ => none

/-- `r` is `s` without the white space at its end. -/
def Trimmed (s r : Str) : Prop := (∃ w, s = r ++ w ∧ Blank w) ∧ ∀ c ∈ r.getLast?, isSpaceChar c = false

/-- An exception and its causes, each the cause of the one before. -/
inductive Causes : Tbe → List Tbe → Prop
  | last {only : List Str} {stack : List Frame} {excs : List Tbe} {ctx : Option Tbe} {sup : Bool} :
      Causes (.mk only stack excs ctx sup none) [.mk only stack excs ctx sup none]
  | more {only : List Str} {stack : List Frame} {excs : List Tbe} {ctx : Option Tbe} {sup : Bool} {c : Tbe}
      {rest : List Tbe} : Causes c rest →
      Causes (.mk only stack excs ctx sup (some c)) (.mk only stack excs ctx sup (some c) :: rest)

/-- In the heap `h`, `v` is an Error with the message and stack of the first of `l`, whose cause is an Error with
those of the second, and so on; the last one has no cause. -/
def HoldsErrors (h : Heap) : Val → List ErrText → Prop
  | v, [] => v = .null
  | v, e :: rest => ∃ j cause, v = .obj j ∧
      h[j]? = some (.error (str "Error") (some (e.message.getD [])) (some e.stack) cause) ∧ HoldsErrors h cause rest

end V8.Spec
