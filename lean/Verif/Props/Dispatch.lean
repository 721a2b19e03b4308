import Verif.Proofs.Dispatch
import Verif.Spec.ClassesExample

/-!
# C70: a value is written by the method of the most specific registered class

For any classes, with any `issubclass()` that behaves as `Spec/Classes.lean` says.
-/

namespace V8.Props
open V8.Dispatch

variable {κ : Type} [DecidableEq κ] {W : Classes κ} {registry : List κ} {born : κ → Nat}

/-- A registered class has its own method: `bool` is not written as `int`, nor `JSArray` as `JSObject`. -/
theorem C70_exact (fuel : Nat) (c : κ) (h : c ∈ registry) : W.dispatch fuel registry c = .ok c := by
  unfold Classes.dispatch
  rw [if_pos (by simpa using h)]

example : World.world.dispatch 30 World.registry .jsArray = .ok .jsArray := C70_exact 30 _ (by decide +kernel)

/-- The method called is one registered for a class that the value is an instance of. -/
theorem C70_sound (w : PyClasses W registry born) (fuel : Nat) (c T : κ) (h : W.dispatch fuel registry c = .ok T) :
    T ∈ registry ∧ W.sub c T = true := by
  rcases dispatch_ok h with ⟨hc, rfl⟩ | ⟨_, r, hr, hp⟩
  · exact ⟨hc, w.sub_mro T T (w.self_mem T)⟩
  · obtain ⟨hT, pre, post, rfl, _⟩ := pick_ok hp
    exact ⟨hT, composeMro_sub w hr hT (by simp)⟩

example : ∃ T, World.world.dispatch 30 World.registry .orderedDict = .ok T ∧ T = .mapping := ⟨_, by decide +kernel, rfl⟩

/-- No registered class `S` that the value is an instance of is passed over for a class that `S` inherits from, nor one that
the value's class inherits from for an abstract class that `S` belongs to.  Missing: `S` that the value's class does not
inherit from and that belongs to the chosen class without inheriting, see `C70_passed_over`. -/
theorem C70_specific_partial (w : PyClasses W registry born) (fuel : Nat) (c T S : κ)
    (h : W.dispatch fuel registry c = .ok T) (hS : S ∈ registry) (hsub : W.sub c S = true) (hne : S ≠ T) :
    T ∉ W.mro S ∧ (S ∈ W.mro c → T ∉ W.mro c → W.sub S T = false) := by
  rcases dispatch_ok h with ⟨hc, rfl⟩ | ⟨_, r, hr, hp⟩
  · refine ⟨fun hm => hne (w.acyclic T S hS hsub hm).symm, fun _ hT => absurd (w.self_mem T) hT⟩
  · have hn := composeMro_nodup hr
    have first : ∀ S ∈ registry, W.sub c S = true → S ≠ T → T ∉ W.mro S := by
      intro S hS hsub hne hm
      exact pick_before hp hn hS (composeMro_before w hr (composeMro_mem w hr hS hsub) hm hne)
    refine ⟨first S hS hsub hne, ?_⟩
    intro hSc hTc
    cases hs : W.sub S T with
    | false => rfl
    | true =>
      exfalso
      obtain ⟨hT, hcT⟩ := C70_sound w fuel c T h
      obtain ⟨o, ho, hTo⟩ := related_cover w c T hT hTc hcT
      by_cases hoT : o = T
      · subst hoT
        exact pick_before hp hn hS (composeMro_virtual w hr hSc ho hs)
      · obtain ⟨ho1, _, ho3, _⟩ := mem_related ho
        exact first o ho1 ho3 hoT hTo

/-- A `JSMap` is an instance of `Mapping` and `Collection`; `Collection` is not chosen. -/
example : World.world.dispatch 30 World.registry .jsMap = .ok .mapping ∧
    World.world.sub .jsMap .mapping = true ∧ World.Cls.collection ∈ World.world.mro .mapping := by decide +kernel

/-- A class derived from a registered one is written as that one, unless it belongs to some registered class that the other
does not, or no order of its classes exists. -/
theorem C70_subclass (w : PyClasses W registry born) (fuel : Nat) (c S T : κ) (hS : S ∈ registry) (hm : S ∈ W.mro c)
    (hall : ∀ R ∈ registry, W.sub c R = true → R ∈ W.mro S ∨ (R ∉ W.mro c ∧ W.sub S R = true))
    (h : W.dispatch fuel registry c = .ok T) : T = S := by
  by_contra hne
  obtain ⟨hT, hcT⟩ := C70_sound w fuel c T h
  obtain ⟨h1, h2⟩ := C70_specific_partial w fuel c T S h hS (w.sub_mro c S hm) (fun h => hne h.symm)
  rcases hall T hT hcT with h3 | ⟨h3, h4⟩
  · exact h1 h3
  · rw [h2 hm h3] at h4
    cases h4

/-- An exception class of the library's is written as an exception. -/
example : World.Cls.baseException ∈ World.registry ∧ World.Cls.baseException ∈ World.world.mro .v8SerializeError ∧
    (∀ R ∈ World.registry, World.world.sub .v8SerializeError R = true → R ∈ World.world.mro .baseException) ∧
    World.world.dispatch 30 World.registry .v8SerializeError = .ok .baseException := by decide +kernel

/-- A method is found for every class, or it is an error of two kinds: no order of its classes exists, or it belongs, without
inheriting, to two registered classes of which the first is no subclass of the second. -/
theorem C70_total (w : PyClasses W registry born) (c obj : κ) (hobj : obj ∈ registry) (hc : obj ∈ W.mro c) :
    ∃ n, ∀ fuel, n ≤ fuel →
      (∃ T, W.dispatch fuel registry c = .ok T) ∨ W.dispatch fuel registry c = .error .inconsistent ∨
      (W.dispatch fuel registry c = .error .ambiguous ∧ ∃ T ∈ registry, ∃ U ∈ registry, W.sub c T = true ∧ W.sub c U = true ∧
        T ∉ W.mro c ∧ U ∉ W.mro c ∧ W.sub T U = false) := by
  refine ⟨(W.order c (W.related c registry)).length * ((registry.map born).sum + 1) + born c + 1, ?_⟩
  intro fuel hf
  have hdeep := c3Mro_deep w (registry.map born).sum (fun a ha => le_sum_map born registry a ha) fuel c
    (W.order c (W.related c registry)) (pending_order w c).registered (by omega)
  unfold Classes.dispatch
  by_cases hreg : registry.contains c = true
  · rw [if_pos hreg]; exact .inl ⟨c, rfl⟩
  · rw [if_neg hreg]
    cases hm : W.composeMro fuel c registry with
    | error e =>
      right; left
      have : e = .inconsistent := by
        have hne : e ≠ .tooDeep := by
          rintro rfl
          exact hdeep hm
        exact c3Mro_error hm hne
      subst this; rfl
    | ok r =>
      simp only
      cases hp : W.pick c registry r with
      | ok T => exact .inl ⟨T, rfl⟩
      | error e =>
        right; right
        rcases pick_error hp with ⟨_, hnone⟩ | ⟨rfl, T, U, hT, hU, hTr, hUr, hTc, hUc, hTU⟩
        · exact absurd hobj (hnone obj (composeMro_mem w hm hobj (w.sub_mro c obj hc)))
        · exact ⟨rfl, T, hTr, U, hUr, composeMro_sub w hm hTr hT, composeMro_sub w hm hUr hU, hTc, hUc, hTU⟩

example : World.Cls.object ∈ World.registry ∧ World.Cls.object ∈ World.world.mro .both ∧
    World.world.dispatch 30 World.registry .list = .ok .collection := by decide +kernel

/-- `JSError` is an exception, declared as a virtual subclass of `JSErrorData` (jserror.py:130-132).  A class that inherits
from it, and not from `JSErrorData`, is never written by the method of a class that `JSError` inherits from, so never as a
Python exception: `BaseException` is among those.  If it belongs to no other registered class, it is written as a JS error. -/
theorem C70_jserror (w : PyClasses W registry born) (fuel : Nat) (jsError anyJSError v8Error jsErrorData c T : κ)
    (hbases : W.bases jsError = [anyJSError, v8Error]) (hP : W.abstract anyJSError = true) (hV : W.abstract v8Error = false)
    (hD : jsErrorData ∈ registry) (hED : W.sub jsError jsErrorData = true) (hE : jsError ∉ registry)
    (honly : ∀ a ∈ registry, W.sub jsError a = true → a = jsErrorData ∨ a ∈ W.mro jsError)
    (hnP : ∀ a ∈ registry, W.sub anyJSError a = true → a ∈ W.mro anyJSError)
    (hnV : ∀ a ∈ registry, W.sub v8Error a = true → a ∈ W.mro v8Error)
    (hPD : anyJSError ∈ W.mro jsErrorData)
    (hleaf : ∀ a ∈ registry, jsErrorData ∈ W.mro a → a = jsErrorData)
    (hc : jsError ∈ W.mro c) (hcD : jsErrorData ∉ W.mro c) (h : W.dispatch fuel registry c = .ok T) :
    T ∉ W.mro jsError ∧
    ((∀ a ∈ registry, W.sub c a = true → a = jsErrorData ∨ a ∈ W.mro jsError) → T = jsErrorData) := by
  have hsubD : W.sub c jsErrorData = true := w.sub_of_mro hc hD hED
  obtain ⟨hT, hcT⟩ := C70_sound w fuel c T h
  have main : T ∉ W.mro jsError := by
    intro hTE
    have hTne : T ≠ jsError := fun e => hE (e ▸ hT)
    have hTc : T ∈ W.mro c := w.mro_trans (born c) c (Nat.le_refl _) jsError hc T hTE
    have hTD : jsErrorData ≠ T := fun e => hcD (e ▸ hTc)
    by_cases hTP : T ∈ W.mro anyJSError
    · have := w.mro_trans (born jsErrorData) jsErrorData (Nat.le_refl _) anyJSError hPD T hTP
      exact (C70_specific_partial w fuel c T jsErrorData h hD hsubD hTD).1 this
    · rcases dispatch_ok h with ⟨_, rfl⟩ | ⟨_, r, hr, hp⟩
      · have h1 := w.born_mro (born jsError) jsError (Nat.le_refl _) T hTE hTne
        have h2 := w.born_mro (born T) T (Nat.le_refl _) jsError hc hTne.symm
        omega
      · obtain ⟨o, ho, hDo⟩ := related_cover w c jsErrorData hD hcD hsubD
        have := hleaf o (mem_related ho).1 hDo
        subst this
        obtain ⟨f', abcs', r', p', h', hs, _, hall⟩ := c3Mro_mro w fuel c _ r (pending_order w c) hr jsError hc
        have hpre := c3Mro_registered w p' h' (hall o ((mem_order w c _ o).2 ho) hED) hbases hP hV hED honly hnP hnV
          hTE hTP hTne
        exact pick_before hp (composeMro_nodup hr) hD (hpre.trans hs)
  exact ⟨main, fun hall => (hall T hT hcT).resolve_right main⟩

/-- The library's `JSError` and a class derived from it meet all of this. -/
example : World.world.dispatch 30 World.registry .myJSError = .ok .jsErrorData ∧
    World.Cls.baseException ∈ World.world.mro .jsError := by
  refine ⟨?_, by decide +kernel⟩
  cases h : World.world.dispatch 30 World.registry .myJSError with
  | error e => exact absurd h (by cases e <;> decide +kernel)
  | ok T =>
    rw [(C70_jserror World.world_ok 30 .jsError .anyJSError .v8SerializeError .jsErrorData .myJSError T rfl
      (by decide +kernel) (by decide +kernel) (by decide +kernel) (by decide +kernel) (by decide +kernel)
      (by decide +kernel) (by decide +kernel) (by decide +kernel) (by decide +kernel) (by decide +kernel)
      (by decide +kernel) (by decide +kernel) h).2 (by decide +kernel)]

/-- The choice can fail: a class registered with `Mapping` and with `Set` is not written, nor passed on. -/
theorem C70_ambiguous : World.world.dispatch 30 World.registry .both = .error .ambiguous := by decide +kernel

/-- Four classes over `object`: `x`; `a`, derived from `x`; `b`, registered with `a`; and `c`, registered with both. -/
inductive Five where
  | object | x | a | b | c
  deriving DecidableEq, Repr

def fiveMro : Five → List Five
  | .object => [.object]
  | .x => [.x, .object]
  | .a => [.a, .x, .object]
  | .b => [.b, .object]
  | .c => [.c, .object]

def five : Classes Five where
  bases
    | .object => []
    | .a => [.x]
    | _ => [.object]
  mro := fiveMro
  sub s t := (fiveMro s).contains t || (s = .b && (t = .a || t = .x)) || (s = .c && (t = .a || t = .b || t = .x))
  abstract s := s = .x || s = .a || s = .b
  children
    | .object => [.x, .b, .c]
    | .x => [.a]
    | _ => []

def fiveBorn : Five → Nat
  | .object => 0
  | .x => 1
  | .a => 2
  | .b => 3
  | .c => 4

/-- These classes are as Python's are. -/
theorem five_ok : PyClasses five [.object, .a, .b] fiveBorn := by
  refine ⟨?_, ?_, ?_, ?_, ?_, ?_, ?_, ?_, ?_⟩
  · intro s; cases s <;> decide
  · intro s t; cases s <;> cases t <;> decide
  · intro s t; cases s <;> cases t <;> decide
  · intro s t; cases s <;> cases t <;> decide
  · intro s t; cases s <;> cases t <;> decide
  · intro s t; cases s <;> cases t <;> decide
  · intro s t u; cases s <;> cases t <;> cases u <;> decide
  · intro s t u; cases s <;> cases t <;> cases u <;> decide
  · intro s t; cases s <;> cases t <;> decide

/-- A more specific class can be passed over, if nothing inherits: `b` is a subclass of `a`, and not chosen. -/
theorem C70_passed_over :
    five.dispatch 30 [.object, .a, .b] .c = .ok .a ∧ five.sub .c .b = true ∧ five.sub .b .a = true ∧ five.sub .a .b = false := by
  decide +kernel

end V8.Props
