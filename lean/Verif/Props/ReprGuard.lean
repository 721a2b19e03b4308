import Mathlib.Tactic.Tauto
import Verif.Proofs.ReprGuard

/-!
# C89: the recursion guard of `repr()`

`repr()` of the package's containers watches with one set for the whole process which objects are being shown, so that an
object inside itself is `...`.  The text that a thread gets does not depend on the other threads, the set is as before
afterwards, whatever is raised, and the text ends for every cyclic structure.  But the guard also stops the text of an
instance of a subclass, which is only `...` (disagreement 92).
-/

namespace V8.Props
open V8 V8.ReprGuard V8.Spec.ReprGuard

theorem methods_known (n : String) : n ∈ methods ↔ n ∈ known := by
  simp only [methods, known, List.mem_cons, List.not_mem_nil, or_false, List.cons_append, List.nil_append]
  constructor <;> intro h <;> tauto

/-- C89: whatever the other threads do and in which order the threads take their steps, a thread that makes `repr(x)` gets
the text (or the exception) that it gets in a process of its own; afterwards the shared set has the same objects of this
thread as before, also if an exception is raised. -/
theorem C89_threads (h : Heap) (maxlevel depth : Nat) (x : Id) (s : Process (Except Exc Text)) (t : Thread)
    (htodo : s.todo t = pyRepr h maxlevel depth x) (hnone : ∀ y, ¬ Running s t y)
    (schedule : List Thread) (r : Except Exc Text) (hr : Finished (s.run schedule) t r) :
    r = (alone (pyRepr h maxlevel depth x) []).1 ∧ ∀ y, ¬ Running (s.run schedule) t y := by
  have hmine : mine s.guard t = [] := by
    apply List.eq_nil_iff_forall_not_mem.2
    intro y hy
    exact hnone y ((mem_mine _ _ _).1 hy)
  have key := run_alone s t schedule
  rw [hr, htodo, hmine, (alone_eq h maxlevel depth).2 x [], alone] at key
  rw [(alone_eq h maxlevel depth).2 x []]
  have h1 := congrArg Prod.fst key
  have h2 := congrArg Prod.snd key
  simp only at h1 h2
  refine ⟨h1, fun y hy => ?_⟩
  have : y ∈ mine (s.run schedule).guard t := (mem_mine _ _ _).2 hy
  rw [h2] at this
  cases this

/-- C89: a `repr()` inside another one (`level` left, some objects of this thread being shown) leaves the set as it is. -/
theorem C89_restored (h : Heap) (maxlevel depth level : Nat) (x : Id) (s : Process (Except Exc Text)) (t : Thread)
    (htodo : s.todo t = repr1 h maxlevel depth level x)
    (schedule : List Thread) (r : Except Exc Text) (hr : Finished (s.run schedule) t r) (y : Id) :
    Running (s.run schedule) t y ↔ Running s t y := by
  have key := run_alone s t schedule
  rw [hr, htodo, (alone_eq h maxlevel depth).1 level x _, alone] at key
  have h2 := congrArg Prod.snd key
  simp only at h2
  rw [Running, Running, ← mem_mine, ← mem_mine, h2]

/-- C89: a thread that gets enough steps finishes; no thread can keep another one from it. -/
theorem C89_finishes (h : Heap) (maxlevel depth : Nat) (x : Id) :
    ∃ enough : Nat, ∀ (s : Process (Except Exc Text)) (t : Thread) (schedule : List Thread),
      s.todo t = pyRepr h maxlevel depth x → enough ≤ schedule.count t → ∃ r, Finished (s.run schedule) t r :=
  finishes _

/-- C89: however the objects refer to each other and however many levels are shown, the text of a JSObject (or one of the
other classes) ends: calls are nested no deeper than three per object, and no exception comes out of it, even if the own
`__repr__` of some object fails.  (Objects with a `__repr__` of their own may hold objects of the package and objects that
hold nothing.) -/
theorem C89_ends (h : Heap)
    (hown : ∀ nd ∈ h, nd.js = false → ∀ y ∈ nd.parts, ∀ nd', h[y]? = some nd' → nd'.js = true)
    (maxlevel : Nat) (x : Id) (nd : Node) (hx : h[x]? = some nd) (hjs : nd.js = true) :
    ∃ text, ∀ depth, 3 * h.length + 2 ≤ depth → (alone (pyRepr h maxlevel depth x) []).1 = .ok text := by
  obtain ⟨t, ht⟩ := repr1P_ends h hown maxlevel (free h []) [] rfl maxlevel x
  refine ⟨t, fun depth hd => ?_⟩
  have hle : free h [] ≤ h.length := by
    rw [free]
    exact Nat.le_trans (List.length_filter_le _ _) (by simp)
  obtain ⟨n, rfl⟩ : ∃ k, depth = k + 1 := ⟨depth - 1, by omega⟩
  rw [(alone_eq h maxlevel (n + 1)).2 x []]
  simp only
  rw [pyReprP, hx]
  simp only [hjs, if_true]
  exact ht n (by omega)

/-- C89, for objects whose classes are the package's and Python's own, without subclasses: the text shows the class of the
object and its parts, down to `maxlevel` levels, with `...` only for an object inside itself and below the last level.
Missing: subclasses, see `C89_subclass`. -/
theorem C89_shows_partial (h : Heap) (hclass : ∀ nd ∈ h, nd.typename ∈ known)
    (maxlevel depth : Nat) (hd : maxlevel + 2 ≤ depth) (x : Id) (nd : Node) (hx : h[x]? = some nd) (hjs : nd.js = true) :
    ∃ text, (alone (pyRepr h maxlevel depth x) []).1 = .ok text ∧ Shows h [] maxlevel x text := by
  obtain ⟨n, rfl⟩ : ∃ k, depth = k + 1 := ⟨depth - 1, by omega⟩
  obtain ⟨t, ht, hs⟩ := repr1P_shows h maxlevel (fun nd hnd => (methods_known _).2 (hclass nd hnd)) maxlevel n (by omega) x []
  refine ⟨t, ?_, hs⟩
  rw [(alone_eq h maxlevel (n + 1)).2 x []]
  simp only
  rw [pyReprP, hx]
  simp only [hjs, if_true]
  exact ht

/-- C89, where the code disagrees: `repr()` of an instance of a subclass of JSObject, JSArray, JSMap, JSSet, JSError or
JSArrayBuffer is always `...`, whatever it holds.  There is no method `repr_<name of the subclass>`, so `repr_instance`
calls `repr()` of the same object again, which the guard stops. -/
theorem C89_subclass (h : Heap) (maxlevel depth : Nat) (hd : 4 ≤ depth) (x : Id) (nd : Node)
    (hx : h[x]? = some nd) (hjs : nd.js = true) (hsub : nd.typename ∉ known) :
    (alone (pyRepr h maxlevel depth x) []).1 = .ok .fill := by
  obtain ⟨n, rfl⟩ : ∃ k, depth = k + 1 + 1 + 1 + 1 := ⟨depth - 4, by omega⟩
  rw [(alone_eq h maxlevel _).2 x [], pyReprP, hx]
  simp only [hjs, if_true]
  rw [repr1P]
  by_cases hl : maxlevel = 0
  · rw [if_pos hl]
  · rw [if_neg hl, hx]
    simp only [List.contains_nil, Bool.false_eq_true, if_false]
    rw [if_neg (by rw [← methods_known] at hsub; simpa using hsub), pyReprP, hx]
    simp only [hjs, if_true]
    rw [repr1P, if_neg hl]
    simp only [List.contains_cons, beq_self_eq_true, Bool.true_or, if_true]
    rfl

/-- C89, where the code disagrees: that is not what the text should be. -/
theorem C89_subclass_hidden (h : Heap) (maxlevel : Nat) (hm : 0 < maxlevel) (x : Id) : ¬ Shows h [] maxlevel x .fill := by
  intro hs
  cases hs with
  | deep => omega
  | again hx => cases hx

/-! ## Examples -/

/-- `o = JSObject(a=o, b=[1], c=Sub())` with `class Sub(JSObject)`, and a view whose own `__repr__` shows its buffer. -/
def exampleHeap : Heap :=
  [⟨"JSObject", true, [0, 1, 2, 3], false⟩, ⟨"list", false, [9], false⟩, ⟨"Sub", true, [9], false⟩,
   ⟨"JSUint8Array", false, [4], false⟩, ⟨"JSArrayBuffer", true, [8], false⟩]

/-- The text of the example: the object itself and the object of the subclass are `...`. -/
example : (alone (pyRepr exampleHeap 6 20 0) []).1 =
    .ok (.shown "JSObject" [.fill, .shown "list" [.scalar 9], .fill,
      .own "JSUint8Array" [.shown "JSArrayBuffer" [.scalar 8]]]) := rfl

/-- The hypotheses of `C89_ends` hold for it. -/
example : ∀ nd ∈ exampleHeap, nd.js = false → ∀ y ∈ nd.parts, ∀ nd', exampleHeap[y]? = some nd' → nd'.js = true := by
  decide +kernel

/-- The hypotheses of `C89_subclass` hold for the object of the subclass. -/
example : exampleHeap[2]? = some ⟨"Sub", true, [9], false⟩ ∧ "Sub" ∉ known := by decide +kernel

/-- Two threads show two objects that hold each other, and a third one shows an object that fails.  Thread 1 ends with its
full text although thread 0 is showing the same objects all the time. -/
def exampleCross : Heap :=
  [⟨"JSMap", true, [1], false⟩, ⟨"JSSet", true, [0, 2], false⟩, ⟨"Bad", false, [], true⟩]

def exampleProcess : Process (Except Exc Text) :=
  ⟨[], fun t => if t = 0 then pyRepr exampleCross 6 20 0 else if t = 1 then pyRepr exampleCross 6 20 1 else .done (.ok .fill)⟩

example : Finished (exampleProcess.run [0, 0, 0, 1, 0, 1, 1, 1, 1, 1, 1, 1, 1, 1, 1, 1]) 1
    (.ok (.shown "JSSet" [.shown "JSMap" [.fill], .broken "Bad"])) := rfl

example : Running (exampleProcess.run [0, 0, 0, 1, 0, 1, 1, 1, 1, 1, 1, 1, 1, 1, 1, 1]) 0 0 := by
  unfold Running; decide +kernel

/-- The classes of `exampleCross` without `Bad` meet the hypothesis of `C89_shows_partial`. -/
example : ∀ nd ∈ exampleCross.take 2, nd.typename ∈ known := by decide +kernel

end V8.Props
