import Verif.Proofs.RoundTripRoot

/-! Helper lemmas: allowing deeper nesting does not change a result. -/

namespace V8

/-- Where the first does not run out of nesting, the second does the same. -/
def Agree (w w' : Wr) : Prop := ∀ ws, w ws ≠ .error .fuel → w' ws = w ws

section
variable {rec rec' : Val → Wr}

theorem Agree.rfl' {w : Wr} : Agree w w := fun _ _ => rfl

theorem Agree.bind {f f' : Wr} {g g' : WS → Except EErr WS} (hf : Agree f f') (hg : Agree g g') :
    Agree (fun ws => f ws >>= g) (fun ws => f' ws >>= g') := by
  intro ws h
  cases hx : f ws with
  | error e =>
    have : f' ws = f ws := hf ws (fun he => h (by show f ws >>= g = _; rw [he]; rfl))
    simp only [this, hx]
    rfl
  | ok w1 =>
    have h1 : f' ws = f ws := hf ws (fun he => by rw [he] at hx; cases hx)
    simp only [hx] at h
    have h2 : g' w1 = g w1 := hg w1 h
    simp only [h1, hx]
    exact h2

theorem Agree.same {f : Wr} {g g' : WS → Except EErr WS} (hg : Agree g g') :
    Agree (fun ws => f ws >>= g) (fun ws => f ws >>= g') := Agree.bind .rfl' hg

theorem Agree.andSame {f f' : Wr} {g : WS → Except EErr WS} (hf : Agree f f') :
    Agree (fun ws => f ws >>= g) (fun ws => f' ws >>= g) := Agree.bind hf .rfl'

variable (hr : ∀ v, Agree (rec v) (rec' v))
include hr

theorem agree_vals : ∀ l, Agree (writeVals rec l) (writeVals rec' l)
  | [] => .rfl'
  | v :: t => (hr v).bind (agree_vals t)

theorem agree_entries : ∀ l, Agree (writeEntries rec l) (writeEntries rec' l)
  | [] => .rfl'
  | (k, v) :: t => (hr k).bind ((hr v).bind (agree_entries t))

theorem agree_key (k : Val) : Agree (writeKey rec k) (writeKey rec' k) := by
  refine Agree.andSame (f := fun ws => rec k { ws with allowed := some jsObjectKeyTags }) ?_
  intro ws h
  exact hr k _ h

theorem agree_props : ∀ l, Agree (writeProps rec l) (writeProps rec' l)
  | [] => .rfl'
  | (k, v) :: t => (agree_key hr k).bind ((hr v).bind (agree_props t))

theorem agree_cause (c : Bool) (x cause : Val) : Agree (writeCause c rec x cause) (writeCause c rec' x cause) := by
  refine Agree.same ?_
  intro ws h
  cases c with
  | true => exact Agree.same (f := recordRef x) (hr cause) ws h
  | false =>
    simp only [Bool.false_eq_true, if_false] at h ⊢
    cases hx : rec cause { ws with log := (ws.log.beginAcyclic x).1 } with
    | error e =>
      have hne : e ≠ .fuel := by
        rintro rfl
        rw [hx] at h
        exact h rfl
      rw [hr cause _ (by rw [hx]; simp [hne]), hx]
    | ok w => rw [hr cause _ (by rw [hx]; simp), hx]

theorem agree_error (c : Bool) (x : Val) (name : Str) (msg stack : Option Str) (cause : Val) :
    Agree (writeError c rec x name msg stack cause) (writeError c rec' x name msg stack cause) := by
  intro ws h
  unfold V8.writeError at *
  by_cases hc : cause = .null
  · simp only [if_pos hc] at h ⊢
  · simp only [if_neg hc] at h ⊢
    exact Agree.same (Agree.same (Agree.same (Agree.same (Agree.same (Agree.andSame (agree_cause hr c x cause)))))) ws h

theorem agree_node (env : EEnv) (x : Val) (n : Node) :
    Agree (serializeNode env rec unhandledValue x n) (serializeNode env rec' unhandledValue x n) := by
  have sp : ∀ items, Agree (writeObjectProps rec items .kEndSparseJSArray) (writeObjectProps rec' items .kEndSparseJSArray) :=
    fun items => Agree.andSame (agree_props hr items)
  have dn : ∀ els props, Agree (writeDenseArray rec els props x) (writeDenseArray rec' els props x) := fun els props =>
    Agree.same (Agree.same (Agree.same (Agree.bind (agree_vals hr els) (Agree.andSame (agree_props hr props)))))
  cases n with
  | jsmap es => exact Agree.same (Agree.same (Agree.andSame (agree_entries hr es)))
  | jsset ms => exact Agree.same (Agree.same (Agree.andSame (agree_vals hr ms)))
  | jsobj o => exact Agree.same (Agree.same (Agree.andSame (agree_props hr _)))
  | jsarr o =>
    intro ws h
    simp only [V8.serializeNode, serializeJSArray] at h ⊢
    split
    · rename_i hs
      rw [if_pos hs] at h
      unfold writeSparseArray at h ⊢
      split
      · rfl
      · rename_i hl
        rw [if_neg hl] at h
        exact Agree.same (Agree.same (Agree.same (Agree.andSame (sp _)))) ws h
    · rename_i hs
      rw [if_neg hs] at h
      exact dn _ _ ws h
  | pylist els => exact dn _ _
  | error name msg stack cause => exact agree_error hr _ _ _ _ _ _
  | view b v =>
    intro ws h
    simp only [V8.serializeNode] at h ⊢
    split
    · rfl
    · rename_i hc
      rw [if_neg hc] at h
      exact Agree.andSame (hr b) ws h
  | _ => exact .rfl'

theorem agree_tagWriter (env : EEnv) (x : Val) :
    Agree (tagWriter env rec x unhandledValue) (tagWriter env rec' x unhandledValue) := by
  cases x with
  | obj i =>
    intro ws h
    cases hi : env.heap[i]? with
    | none => simp only [tagWriter, hi]
    | some n =>
      simp only [tagWriter, hi] at h ⊢
      exact agree_node hr env _ n ws h
  | bool b => cases b <;> exact .rfl'
  | _ => exact .rfl'

end

theorem encode_agree (env : EEnv) (f : Nat) : ∀ g, f ≤ g → ∀ v, Agree (encodeObject env f v) (encodeObject env g v) := by
  induction f with
  | zero => intro g _ v ws h; exact absurd rfl h
  | succ f ih =>
    intro g hg v
    obtain ⟨g, rfl⟩ : ∃ g', g = g' + 1 := ⟨g - 1, by omega⟩
    intro ws h
    rw [encodeObject_succ] at h ⊢
    rw [encodeObject_succ]
    unfold refsStep at h ⊢
    simp only at h ⊢
    split
    · rfl
    · rename_i hc
      rw [if_neg hc] at h
      exact agree_tagWriter (ih g (by omega)) env _ _ h

end V8
