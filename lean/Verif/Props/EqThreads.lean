import Verif.Proofs.EqThreads
import Verif.Props.RecursiveEq

/-!
# C72: comparisons in different threads do not affect each other
-/

namespace V8.Props

/-- C72: whatever comparisons the threads make (also of the same objects) and however their steps are
interleaved, the results of a thread that has come to its end are those of its comparisons made one after
the other by themselves. -/
theorem C72_isolated (jobs : Thread → List EqJob) (schedule : List Thread) (t : Thread)
    (results : List (Except EqErr Bool))
    (h : ((EqSys.start jobs).run schedule).prog t = .ret results) :
    results = (jobs t).map (fun j => (pyEqTop j.env j.left j.right).1) := by
  have hi := isolated_run schedule (isolated_start jobs)
  have hd := hi.due t
  rw [h] at hd
  exact hd

/-- C72: no thread waits for another: there is a number of own steps after which it has come to its end,
whatever the others do. -/
theorem C72_finishes (jobs : Thread → List EqJob) (t : Thread) :
    ∃ N, ∀ schedule : List Thread, N ≤ schedule.count t →
      ∃ results, ((EqSys.start jobs).run schedule).prog t = .ret results := by
  refine ⟨((EqSys.start jobs).prog t).size, fun schedule h => size_zero ?_⟩
  have := size_run t schedule (EqSys.start jobs)
  omega

/-- C72: a thread that has come to its end has left no key in the set (so that a new thread with the same
identifier starts afresh), and when all have the set is empty. -/
theorem C72_clean (jobs : Thread → List EqJob) (schedule : List Thread) :
    (∀ t results, ((EqSys.start jobs).run schedule).prog t = .ret results →
      ∀ k ∈ ((EqSys.start jobs).run schedule).keys, k.2 ≠ t) ∧
    ((∀ t, ∃ results, ((EqSys.start jobs).run schedule).prog t = .ret results) →
      ((EqSys.start jobs).run schedule).keys = []) := by
  have hi := isolated_run schedule (isolated_start jobs)
  have key : ∀ t results, ((EqSys.start jobs).run schedule).prog t = .ret results →
      ∀ k ∈ ((EqSys.start jobs).run schedule).keys, k.2 ≠ t := by
    intro t results h k hk e
    have hc := hi.clean t
    rw [h] at hc
    have : k.1 ∈ proj t ((EqSys.start jobs).run schedule).keys := by
      rw [mem_proj, ← e]
      exact hk
    have hc' : proj t ((EqSys.start jobs).run schedule).keys = [] := hc
    rw [hc'] at this
    cases this
  refine ⟨key, fun h => ?_⟩
  cases hk : ((EqSys.start jobs).run schedule).keys with
  | nil => rfl
  | cons k ks =>
    obtain ⟨results, hr⟩ := h k.2
    exact absurd rfl (key k.2 results hr k (by rw [hk]; simp))

/-- Thread 0 compares two cyclic graphs, thread 1 the same objects the other way round, twice. -/
def twoThreads : Thread → List EqJob
  | 0 => [⟨eqCyclic, .obj 0, .obj 4⟩]
  | 1 => [⟨eqCyclic, .obj 4, .obj 0⟩, ⟨eqCyclic, .obj 0, .obj 1⟩]
  | _ => []

/-- The results of a program that has come to its end. -/
def resultsOf {α : Type} : Prog α → Option α
  | .ret a => some a
  | _ => none

/- With the threads taking turns both are in the middle of a comparison of the same objects after 8
steps, and come to the end with the right results. -/
example : ((EqSys.start twoThreads).run ((List.replicate 4 [0, 1]).flatten)).keys =
    [(0, 1), (4, 0), (4, 1), (0, 0)] := by decide +kernel
example : (resultsOf (((EqSys.start twoThreads).run ((List.replicate 40 [0, 1]).flatten)).prog 0),
    resultsOf (((EqSys.start twoThreads).run ((List.replicate 40 [0, 1]).flatten)).prog 1)) =
    (some [.ok true], some [.ok true, .ok false]) := by decide +kernel

end V8.Props
