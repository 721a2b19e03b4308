import Verif.Proofs.EncodeSimMain
import Verif.Props.EncodeGlobal

/-!
# C49: the result of dumps depends only on the form of the graph
-/

namespace V8.Props
open V8 V8.Spec

theorem simSt_headed {e e' : EEnv} {R : Val → Val → Prop} (H : SameForm e e' R) : SimSt e e' R WS.headed WS.headed where
  data := rfl
  allowed := rfl
  skew := rfl
  bad := rfl
  log := ⟨fun _ => rfl, rfl, fun _ => Iff.rfl⟩
  memo := by
    refine ⟨fun {a b} h => ?_, rfl, fun {w} h => by simp [WS.headed, WS.new, Dict.get] at h⟩
    have h1 : ∀ (e : EEnv) v, rep e WS.headed.memo v = v := by
      intro e v
      unfold rep
      cases dkey e v with
      | none => rfl
      | some k => rfl
    rw [h1, h1]
    exact h
  only := fun v => by simp [WS.headed, WS.new, ObjLog.empty, ObjLog.contains, Dict.get]

/-- C49: two graphs of the same form (whatever the identities of their objects, their order in memory, and
which of them are not part of the graph) are written as the same bytes, or rejected with the same
exception. -/
theorem C49_same_form_same_result {e e' : EEnv} {R : Val → Val → Prop} (H : SameForm e e' R) (hf : e.feats = e'.feats)
    (ht : WellTyped e) (ht' : WellTyped e') {v w : Val} (h : SameFormVal R v w) : dumps e v = dumps e' w := by
  have hd : ∀ (env : EEnv), WellTyped env → ∀ u, env.heap.length ≤ max e.heap.length e'.heap.length →
      dumpsState env u = encodeObject env (max e.heap.length e'.heap.length + 2) u WS.headed := by
    intro env hw u hl
    rw [← C14_depth_bound hw u (depth := max e.heap.length e'.heap.length + 2) (by omega), dumpsWith_eq]
  have hs := step_encode H hf ht ht' (max e.heap.length e'.heap.length + 2) v w h _ _ (simSt_headed H)
  rw [← hd e ht v (le_max_left _ _), ← hd e' ht' w (le_max_right _ _)] at hs
  unfold dumps
  cases h1 : dumpsState e v with
  | error x =>
    cases h2 : dumpsState e' w with
    | error y => rw [h1, h2] at hs; rw [show x = y from hs]
    | ok b => rw [h1, h2] at hs; exact hs.elim
  | ok a =>
    cases h2 : dumpsState e' w with
    | error y => rw [h1, h2] at hs; exact hs.elim
    | ok b => rw [h1, h2] at hs; rw [show Except.map WS.data (.ok a) = .ok a.data from rfl, hs.data]; rfl

/-- A list that contains itself and, twice, a map that leads back to the list and to a view, and the same
graph elsewhere in memory. -/
def moved : Heap :=
  [.other,
   .abuf ⟨[1, 2, 3, 4], 4, false⟩,
   .view (.obj 1) ⟨.uint8, 1, some 2⟩,
   .jsmap [(.int 1, .obj 4), (.str [107], .obj 2)],
   .pylist [.obj 4, .obj 3, .obj 3, .hole, .float 0x4270000000000000, .str [97, 8364]]]

def movedPairs (a b : Val) : Prop := (a, b) ∈ [(Val.obj 0, Val.obj 4), (.obj 1, .obj 3), (.obj 2, .obj 2), (.obj 3, .obj 1)]

theorem wellTyped_example {h : Heap} (hv : ∀ (i : Id) (b : Val) (v : View), h[i]? = some (.view b v) → IsBuffer h b)
    (ho : ∀ (i : Id) (o : JSObj Val), h[i]? = some (.jsobj o) ∨ h[i]? = some (.jsarr o) → o.Inv) : WellTyped (exampleEnc h) where
  views := hv
  buffers := fun i j hij hb => by rw [← exampleEnc_same hij]; exact hb
  objects := ho

theorem moved_alike : SameForm (exampleEnc exampleGraph) (exampleEnc moved) movedPairs where
  one := by
    intro a a' b b' h h'
    simp only [movedPairs, List.mem_cons, Prod.mk.injEq, List.not_mem_nil, or_false] at h h'
    rcases h with ⟨rfl, rfl⟩ | ⟨rfl, rfl⟩ | ⟨rfl, rfl⟩ | ⟨rfl, rfl⟩ <;>
      rcases h' with ⟨rfl, rfl⟩ | ⟨rfl, rfl⟩ | ⟨rfl, rfl⟩ | ⟨rfl, rfl⟩ <;> decide
  content := by
    intro a b h
    simp only [movedPairs, List.mem_cons, Prod.mk.injEq, List.not_mem_nil, or_false] at h
    have m0 : movedPairs (.obj 0) (.obj 4) := by simp [movedPairs]
    have m1 : movedPairs (.obj 1) (.obj 3) := by simp [movedPairs]
    have m2 : movedPairs (.obj 2) (.obj 2) := by simp [movedPairs]
    have m3 : movedPairs (.obj 3) (.obj 1) := by simp [movedPairs]
    rcases h with ⟨rfl, rfl⟩ | ⟨rfl, rfl⟩ | ⟨rfl, rfl⟩ | ⟨rfl, rfl⟩
    · refine ⟨_, _, rfl, rfl, ?_⟩
      refine .cons m0 (.cons m1 (.cons m1 (.cons rfl (.cons ?_ (.cons rfl .nil)))))
      exact ⟨by decide, by decide, by decide +kernel⟩
    · exact ⟨_, _, rfl, rfl, .cons ⟨rfl, m0⟩ (.cons ⟨rfl, m2⟩ .nil)⟩
    · exact ⟨_, _, rfl, rfl, m3, by unfold SameFormView; decide +kernel⟩
    · exact ⟨_, _, rfl, rfl, _, rfl, rfl⟩
  twins := by
    intro a a' b b' h h'
    have key : ∀ (hp : Heap) (x y : Val), OneObject (exampleEnc hp) x y ↔ x = y := by
      intro hp x y
      refine ⟨?_, Or.inl⟩
      rintro (h | ⟨i, j, rfl, rfl, hij⟩)
      · exact h
      · rw [exampleEnc_same hij]
    rw [key, key]
    simp only [movedPairs, List.mem_cons, Prod.mk.injEq, List.not_mem_nil, or_false] at h h'
    rcases h with ⟨rfl, rfl⟩ | ⟨rfl, rfl⟩ | ⟨rfl, rfl⟩ | ⟨rfl, rfl⟩ <;>
      rcases h' with ⟨rfl, rfl⟩ | ⟨rfl, rfl⟩ | ⟨rfl, rfl⟩ | ⟨rfl, rfl⟩ <;> decide

example : dumps (exampleEnc exampleGraph) (.obj 0) = dumps (exampleEnc moved) (.obj 4) := by
  refine C49_same_form_same_result moved_alike rfl (Encodable.wellTyped exampleGraph_ok) ?_ (by simp [SameFormVal, movedPairs])
  refine wellTyped_example ?_ ?_
  · intro i b v hi
    simp only [moved] at hi
    rcases i with _ | _ | _ | _ | _ | i <;> cases hi
    trivial
  · intro i o hi
    simp only [moved] at hi
    rcases i with _ | _ | _ | _ | _ | i <;> rcases hi with hi | hi <;> cases hi

end V8.Props
