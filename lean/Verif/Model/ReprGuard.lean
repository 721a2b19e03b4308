/-!
# The recursion guard of `repr()` (C89)

Models `RecursiveReprMixin` (src/v8serialize/jstypes/_repr.py:24-42), the dispatch of `reprlib.Repr.repr1` and
`repr_instance` (Python 3.11 Lib/reprlib.py:55-63, 143-154) and `js_repr` (_repr.py:410-412).

The guard is one set for the whole process (_repr.py:28, a class attribute), so a `repr()` is modelled as a procedure
whose steps are the accesses to that set; the threads of the process take their steps in any order.

Simplifications: a text is the tree of what it shows, without its characters (those are the subject of C66, C84 and C85);
the limits `maxjsobject`, `maxother`, ... do not leave anything out; the settings do not change while a text is made (C65).
-/

namespace V8.ReprGuard

/-- `id(x)` of an object that is alive. -/
abbrev Id := Nat

/-- `get_ident()` (_repr.py:34). -/
abbrev Thread := Nat

/-- An object as `repr()` sees it.  `js`: its class has the `__repr__` of JSObject, JSArray, JSMap, JSSet, JSError or
JSArrayBuffer, which is `return _repr.js_repr(self)` (jsobject.py:220, jsarray.py:187, jsmap.py:240, jsset.py:174,
jserror.py:209, jsbuffers.py:241); also a subclass of one of these that does not define its own.  `parts`: the objects that
its text shows, in order.  `fails`: its own `__repr__` raises after that. -/
structure Node where
  typename : String
  js : Bool
  parts : List Id
  fails : Bool := false
deriving Repr, DecidableEq

/-- The objects of the process; everything else (numbers, strings, ...) is shown without looking at other objects. -/
abbrev Heap := List Node

/-- The types for which the Repr object has a method `repr_<name>`: those of _repr.py:130, 194, 266, 293, 298, 319, 354,
377, 387 and those of reprlib.Repr that show other objects (Lib/reprlib.py:80-125). -/
def methods : List String :=
  ["JSObject", "JSArray", "JSMap", "JSSet", "JSError", "JSArrayBuffer", "memoryview", "bytearray", "bytes",
   "tuple", "list", "array", "set", "frozenset", "deque", "dict"]

/-- What a text shows. -/
inductive Text where
  /-- `fillvalue`, that is `...` -/
  | fill
  /-- the text of an object that shows no other object -/
  | scalar (x : Id)
  /-- the text that `repr_<name>` makes: name and parts -/
  | shown (name : String) (parts : List Text)
  /-- the text that the object's own `__repr__` makes -/
  | own (name : String) (parts : List Text)
  /-- `<name instance at 0x...>` (Lib/reprlib.py:149) -/
  | broken (name : String)
deriving Repr

/-- The exceptions: one raised by a `__repr__`, and RecursionError if calls are nested too deep. -/
inductive Exc where
  | raised (x : Id)
  | recursion
deriving Repr, DecidableEq

/-- A procedure of one thread.  Its steps on the shared set: `key in repr_running`, `repr_running.add(key)`,
`repr_running.discard(key)` (_repr.py:35, 37, 41); the key is made of the object and of the thread that runs it. -/
inductive Proc (β : Type) where
  | done (r : β)
  | ask (x : Id) (k : Bool → Proc β)
  | add (x : Id) (k : Proc β)
  | discard (x : Id) (k : Proc β)

/-- One procedure after the other. -/
def Proc.bind {β γ : Type} : Proc β → (β → Proc γ) → Proc γ
  | .done r, f => f r
  | .ask x k, f => .ask x (fun b => (k b).bind f)
  | .add x k, f => .add x (k.bind f)
  | .discard x k, f => .discard x (k.bind f)

/-- `[repr1(elem, newlevel) for elem in x]` (Lib/reprlib.py:72 and the loops of _repr.py:130-330): the texts of the parts,
or the first exception. -/
def each (f : Id → Proc (Except Exc Text)) : List Id → Proc (Except Exc (List Text))
  | [] => .done (.ok [])
  | x :: xs => (f x).bind fun
    | .error e => .done (.error e)
    | .ok t => (each f xs).bind fun
      | .error e => .done (.error e)
      | .ok ts => .done (.ok (t :: ts))

/-- The text of a `repr_<name>` method from the texts of the parts. -/
def showParts (name : String) : Except Exc (List Text) → Except Exc Text
  | .error e => .error e
  | .ok ts => .ok (.shown name ts)

/-- The text of an object's own `__repr__` from the texts of the parts. -/
def ownParts (x : Id) (nd : Node) : Except Exc (List Text) → Except Exc Text
  | .error e => .error e
  | .ok ts => if nd.fails then .error (.raised x) else .ok (.own nd.typename ts)

/-- `except Exception: return '<%s instance at %#x>'` (Lib/reprlib.py:148-149); a RecursionError is an Exception, too. -/
def rescue (nd : Node) : Except Exc Text → Except Exc Text
  | .error _ => .ok (.broken nd.typename)
  | .ok t => .ok t

/-- The guard (_repr.py:34-42) around `super().repr1(x, level)`. -/
def guarded (x : Id) (body : Proc (Except Exc Text)) : Proc (Except Exc Text) :=
  .ask x fun running =>
    if running then .done (.ok .fill)                              -- _repr.py:35-36
    else .add x (body.bind fun r => .discard x (.done r))          -- _repr.py:37-42: try ... finally

mutual
/-- `RecursiveReprMixin.repr1(x, level)` (_repr.py:30-42) with `Repr.repr1` (Lib/reprlib.py:55-63).  The first argument is
the number of calls that may still be nested. -/
def repr1 (h : Heap) (maxlevel : Nat) : Nat → Nat → Id → Proc (Except Exc Text)
  | 0, _, _ => .done (.error .recursion)
  | n + 1, level, x =>
    if level = 0 then .done (.ok .fill)                            -- _repr.py:31-32
    else guarded x <| match h[x]? with
      | none => .done (.ok (.scalar x))
      | some nd =>
        if methods.contains nd.typename then                       -- Lib/reprlib.py:60-61
          (each (repr1 h maxlevel n (level - 1)) nd.parts).bind fun r => .done (showParts nd.typename r)
        else                                                       -- Lib/reprlib.py:63, 143-154
          (pyRepr h maxlevel n x).bind fun r => .done (rescue nd r)
/-- `builtins.repr(x)`: the `__repr__` of the class of `x`.  For the classes of the package it is `js_repr(self)`, that is
`active_js_repr.repr(obj)` = `repr1(obj, maxlevel)` (_repr.py:410-412, Lib/reprlib.py:52-53). -/
def pyRepr (h : Heap) (maxlevel : Nat) : Nat → Id → Proc (Except Exc Text)
  | 0, _ => .done (.error .recursion)
  | n + 1, x =>
    match h[x]? with
    | none => .done (.ok (.scalar x))
    | some nd =>
      if nd.js then repr1 h maxlevel n maxlevel x
      else (each (pyRepr h maxlevel n) nd.parts).bind fun r => .done (ownParts x nd r)
end

/-! ## Threads -/

/-- The process: the shared set (`__repr_running`, _repr.py:28) and what each thread still has to do. -/
structure Process (β : Type) where
  guard : List (Id × Thread)
  todo : Thread → Proc β

/-- `set.add`. -/
def setAdd {α : Type} [BEq α] (s : List α) (k : α) : List α := if s.contains k then s else k :: s

/-- `set.discard`. -/
def setDiscard {α : Type} [BEq α] (s : List α) (k : α) : List α := s.filter (fun j => !(j == k))

/-- Thread `t` goes on with `p`. -/
def Process.set {β : Type} (s : Process β) (t : Thread) (p : Proc β) : Thread → Proc β :=
  fun u => if u = t then p else s.todo u

/-- Thread `t` takes one step.  The three operations on the set are atomic in CPython. -/
def Process.step {β : Type} (s : Process β) (t : Thread) : Process β :=
  match s.todo t with
  | .done _ => s
  | .ask x k => { s with todo := s.set t (k (s.guard.contains (x, t))) }
  | .add x k => { guard := setAdd s.guard (x, t), todo := s.set t k }
  | .discard x k => { guard := setDiscard s.guard (x, t), todo := s.set t k }

/-- The threads take steps in the given order. -/
def Process.run {β : Type} (s : Process β) (schedule : List Thread) : Process β := schedule.foldl Process.step s

/-- A process that has only one thread: the result, and the objects in the set afterwards. -/
def alone {β : Type} : Proc β → List Id → β × List Id
  | .done r, s => (r, s)
  | .ask x k, s => alone (k (s.contains x)) s
  | .add x k, s => alone k (setAdd s x)
  | .discard x k, s => alone k (setDiscard s x)

end V8.ReprGuard
