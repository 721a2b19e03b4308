import Verif.Model.RecursiveEq

/-!
# Comparisons in several threads

Models how `recursive_eq` (`src/v8serialize/_recursive_eq.py`) uses the set `_RUNNING_EQ_KEYS`, which
all threads share.  A comparison is a program whose steps are the operations on that set; between two
steps of one thread other threads can make any number of steps.

Simplifications.  One operation on the set (`in`, `add`, `remove` with a tuple of ints) is atomic, as in
CPython with the global interpreter lock.  No thread changes an object while another one compares it.
What is compared is as in `Model/RecursiveEq`.
-/

namespace V8

/-- What `get_ident()` returns. -/
abbrev Thread := Nat

/-- A key of the set: `(id(self), thread_id)`, _recursive_eq.py:44-46 -/
abbrev EqKey := Id × Thread

/-- A program that uses the set: it ends, or makes one operation and goes on depending on its outcome. -/
inductive Prog (α : Type) where
  | ret (a : α)
  | has (key : EqKey) (next : Bool → Prog α)
  | add (key : EqKey) (next : Prog α)
  | remove (key : EqKey) (next : Bool → Prog α)

/-- One program after the other. -/
def Prog.bind {α β : Type} : Prog α → (α → Prog β) → Prog β
  | .ret a, f => f a
  | .has k next, f => .has k (fun b => (next b).bind f)
  | .add k next, f => .add k (next.bind f)
  | .remove k next, f => .remove k (fun b => (next b).bind f)

/-- The comparisons one after the other, as `runCmps`. -/
def runCmpsProg (eq : Val → Val → Prog (Except EqErr Bool)) : List Cmp → Prog (Except EqErr Bool)
  | [] => .ret (.ok true)
  | .differ :: _ => .ret (.ok false)
  | .raise e :: _ => .ret (.error (.exc e))
  | .pair shortcut v w :: rest =>
    if shortcut && isSame v w then runCmpsProg eq rest
    else (eq v w).bind fun r =>
      match r with
      | .ok true => runCmpsProg eq rest
      | .ok false => .ret (.ok false)
      | .error e => .ret (.error e)

/-- The `finally` clause, _recursive_eq.py:65-67. -/
def finallyProg {α : Type} (t : Thread) (i j : Id) (r : Except EqErr α) : Prog (Except EqErr α) :=
  .remove (i, t) fun b =>
    if b then .remove (j, t) fun b => if b then .ret r else .ret (.error (.exc .keyError))
    else .ret (.error (.exc .keyError))

/-- `wrapped_eq(self, other)`, _recursive_eq.py:63-64; `none` is NotImplemented. -/
def wrappedProg (eq : Val → Val → Prog (Except EqErr Bool)) (n m : Node) : Prog (Except EqErr (Option Bool)) :=
  match nodeCmps n m with
  | none => .ret (.ok none)
  | some cmps => (runCmpsProg eq cmps).bind fun r =>
    match r with
    | .ok b => .ret (.ok (some b))
    | .error e => .ret (.error e)

/-- The decorated `__eq__` in the thread `t`, _recursive_eq.py:33-68. -/
def recursiveEqProg (eq : Val → Val → Prog (Except EqErr Bool)) (t : Thread) (i j : Id) (n m : Node) :
    Prog (Except EqErr (Option Bool)) :=
  if i = j then .ret (.ok (some true))
  else
    .has (i, t) fun selfRunning =>
      .has (j, t) fun otherRunning =>
        if selfRunning || otherRunning then .ret (.ok (some (selfRunning && otherRunning)))
        else .add (i, t) (.add (j, t) ((wrappedProg eq n m).bind (finallyProg t i j)))

/-- Python `v == w` in the thread `t`, as `pyEq`. -/
def pyEqProg (env : EqEnv) (t : Thread) : Nat → Val → Val → Prog (Except EqErr Bool)
  | 0, _, _ => .ret (.error .fuel)
  | fuel + 1, v, w =>
    match trackedNode env.heap v, trackedNode env.heap w with
    | some (i, n), some (j, m) =>
      (recursiveEqProg (pyEqProg env t fuel) t i j n m).bind fun r =>
        match r with
        | .error e => .ret (.error e)
        | .ok (some b) => .ret (.ok b)
        | .ok none =>
          (recursiveEqProg (pyEqProg env t fuel) t j i m n).bind fun r =>
            match r with
            | .error e => .ret (.error e)
            | .ok (some b) => .ret (.ok b)
            | .ok none => .ret (.ok (decide (i = j)))
    | some _, none => .ret (.ok false)
    | none, some _ => .ret (.ok false)
    | none, none =>
      match v, w with
      | .obj _, _ | _, .obj _ =>
        match env.leaf v w with
        | .ok b => .ret (.ok b)
        | .error e => .ret (.error (.exc e))
      | _, _ => .ret (.ok (scalarEq v w))

/-- A comparison that a thread makes. -/
structure EqJob where
  env : EqEnv
  left : Val
  right : Val

/-- The comparisons a thread makes, one after the other, and their results. -/
def threadProg (t : Thread) : List EqJob → Prog (List (Except EqErr Bool))
  | [] => .ret []
  | j :: js =>
    (pyEqProg j.env t (j.env.heap.length + 1) j.left j.right).bind fun r =>
      (threadProg t js).bind fun rs => .ret (r :: rs)

/-- `_RUNNING_EQ_KEYS` and what each thread has left to do. -/
structure EqSys where
  keys : List EqKey
  prog : Thread → Prog (List (Except EqErr Bool))

/-- One operation of a program on the set; a program that has ended does nothing. -/
def Prog.step {α : Type} : Prog α → List EqKey → Prog α × List EqKey
  | .ret a, s => (.ret a, s)
  | .has k next, s => (next (decide (k ∈ s)), s)
  | .add k next, s => (next, if k ∈ s then s else k :: s)
  | .remove k next, s => (next (decide (k ∈ s)), s.erase k)

/-- The thread `t` makes one step. -/
def EqSys.step (sys : EqSys) (t : Thread) : EqSys :=
  let r := (sys.prog t).step sys.keys
  { keys := r.2, prog := fun u => if u = t then r.1 else sys.prog u }

/-- Threads make steps in the order of the schedule. -/
def EqSys.run (sys : EqSys) (schedule : List Thread) : EqSys := schedule.foldl EqSys.step sys

/-- All threads before their first step. -/
def EqSys.start (jobs : Thread → List EqJob) : EqSys where
  keys := []
  prog := fun t => threadProg t (jobs t)

end V8
