import Verif.Proofs.ReEncode
import Verif.Props.Decoded
import Verif.Props.SameForm

/-!
# C50: writing again what was read gives the same bytes
-/

namespace V8.Props
open V8 V8.Spec

theorem again_wellTyped {denv : DEnv} (hpy : FloatNames denv.py) {data : Bytes} {v : Val} {ds : DS}
    (h : loads denv data = .ok (v, ds)) {feats : Features} {hkey : Id → Option Nat}
    (ht : NoTwins (again ds denv feats hkey)) : WellTyped (again ds denv feats hkey) := by
  obtain ⟨_, hn⟩ := C51_well_formed hpy h
  refine ⟨fun i b w hi => isBuffer_iff (hn i _ hi).1, fun i j hij hb => ?_, fun i o hi => ?_⟩
  · rw [← ht i j hij]; exact hb
  · rcases hi with hi | hi <;> exact (hn i _ hi).inv

/-- C50: data that was written and read is written again as the same bytes.  Missing: objects that the two
sides do not number alike, objects that compare equal, and the forms that `Restorable` leaves out. -/
theorem C50_same_bytes_partial {env : EEnv} {v : Val} (he : Encodable env) (hr : Restorable env v) (hn : NumberedAlike env)
    (hfl : FloatNames env.py) {denv : DEnv} (hpy : denv.py = env.py) {bytes : Bytes} (h : dumps env v = .ok bytes) :
    ∃ w ds, loads denv bytes = .ok (w, ds) ∧
      ∀ hkey, NoTwins (again ds denv env.feats hkey) → dumps (again ds denv env.feats hkey) w = .ok bytes := by
  obtain ⟨z, P, w, ds, h1, h2⟩ := C11_round_trip_partial he hpy v (Or.inl hn) bytes h
  refine ⟨w, ds, h1, fun hkey ht => ?_⟩
  obtain ⟨h3, h4⟩ := sameGraph_form (e' := again ds denv env.feats hkey) hpy rfl he hr hn ht h2
  rw [← h]
  exact (C49_same_form_same_result h3 rfl (Encodable.wellTyped he) (again_wellTyped (hpy ▸ hfl) h1 ht) h4).symm

/-- C50, for whatever data: what was read is written as a message that does not change any more when it is
read and written again. -/
theorem C50_stable_after_one_pass_partial {denv : DEnv} (hpy : FloatNames denv.py) {data : Bytes} {v : Val} {ds : DS}
    (h : loads denv data = .ok (v, ds)) {feats : Features} {hkey : Id → Option Nat}
    (ht : NoTwins (again ds denv feats hkey)) (hd : DatesExact (again ds denv feats hkey))
    (hr : ResizableWritten (again ds denv feats hkey)) (hn : NumberedAlike (again ds denv feats hkey))
    (hz : OneZero (again ds denv feats hkey) v) {bytes : Bytes} (hb : dumps (again ds denv feats hkey) v = .ok bytes) :
    ∃ w ds', loads denv bytes = .ok (w, ds') ∧
      ∀ hkey', NoTwins (again ds' denv feats hkey') → dumps (again ds' denv feats hkey') w = .ok bytes := by
  have tm : TwinsMatch (again ds denv feats hkey) := by
    refine ⟨?_, ?_, ?_⟩
    · intro i j hij h; rw [← ht i j hij]; exact h
    · intro i j hij _; rw [ht i j hij]
    · intro i j p hij h; rw [ht i j hij]; exact ⟨p, h⟩
  have he := C52_encodable hpy h tm hd hr
  have hv := (C51_well_formed hpy h).1
  have hm := (C51_well_formed hpy h).2
  have un : ∀ {c}, Known data.length ds.heap c → Unwrapped (again ds denv feats hkey) c := by
    intro c hc
    cases c with
    | obj i =>
      obtain ⟨n, hi, hp⟩ := hc
      intro p hi'
      exact hp p (Option.some.inj (hi.symm.trans hi'))
    | _ => trivial
  refine C50_same_bytes_partial he ⟨?_, un hv, fun i n hi c hc => un (known_members hpy h hi hc), hz, ht⟩ hn hpy rfl hb
  intro i n hi
  have hi' := hm i n hi
  cases n with
  | jsmap es => exact hi'.2
  | jsset ms => exact hi'.2
  | pylist l => exact hi'.elim
  | error name msg stack cause => exact hi'.2.1
  | view b w =>
    intro hres
    have hb := hi'.1
    cases b with
    | obj j =>
      cases hj : ds.heap[j]? with
      | none => rw [isBuffer, hj] at hb; cases hb
      | some m =>
        have hres : backingResizable ds.heap (.obj j) = true := hres
        rw [backingResizable, hj] at hres
        cases m with
        | abuf c => exact ⟨j, c, rfl, hj, hr j c hj hres⟩
        | rawBuf _ _ => rw [isBuffer, hj] at hb; cases hb
        | _ => cases hres
    | _ => cases hb
  | _ => trivial

/-! ## A concrete case -/

/-- A list with a Set, twice, and a resizable buffer with a view that follows its length. -/
def restorableGraph : Heap :=
  [.pylist [.obj 1, .obj 1, .float 0x8000000000000000, .int (2 ^ 40), .obj 2],
   .jsset [.int 1, .str [107], .obj 0],
   .view (.obj 3) ⟨.uint8, 1, none⟩,
   .abuf ⟨[1, 2, 3, 4], 8, true⟩]

theorem restorableGraph_ok : Encodable (exampleEnc restorableGraph) where
  nodes := by
    intro i n hi
    simp only [exampleEnc, restorableGraph] at hi
    rcases i with _ | _ | _ | _ | i
    · cases hi; simp [NodeOK]
    · cases hi
      intro e he
      simp only [List.mem_cons, List.not_mem_nil, or_false] at he
      rcases he with rfl | rfl | rfl
      · exact ⟨by decide +kernel, by simp⟩
      · exact ⟨by decide +kernel, by simp⟩
      · refine ⟨by decide +kernel, fun i j n hi hij hj => ?_⟩
        cases hi
        rw [← exampleEnc_same hij] at hj
        cases hj
    · cases hi
      refine ⟨trivial, fun mv hmv => ?_⟩
      cases hmv
      exact ⟨by decide +kernel, fun _ _ => .inl ⟨3, _, rfl, rfl, rfl⟩⟩
    · cases hi; trivial
    · cases hi
  buffers := fun i j hij _ => by rw [exampleEnc_same hij]

theorem restorableGraph_restorable : Restorable (exampleEnc restorableGraph) (.obj 0) where
  nodes := by
    intro i n hi
    simp only [exampleEnc, restorableGraph] at hi
    rcases i with _ | _ | _ | _ | i
    · cases hi; simp [NodeRestorable]
    · cases hi
      show List.Pairwise _ _
      decide +kernel
    · cases hi
      exact fun _ => ⟨3, _, rfl, rfl, rfl⟩
    · cases hi; trivial
    · cases hi
  root := fun p h => by cases h
  inside := by
    intro i n hi c hc
    cases c with
    | obj j =>
      intro p hp
      simp only [exampleEnc, restorableGraph] at hp
      rcases j with _ | _ | _ | _ | j <;> cases hp
    | _ => trivial
  zeros := by
    have key : ∀ x, (Val.float x = .obj 0 ∨ ∃ (i : Id) (n : Node), (exampleEnc restorableGraph).heap[i]? = some n ∧ .float x ∈ members n) →
        x = 0x8000000000000000 := by
      rintro x (h | ⟨i, n, hi, hm⟩)
      · cases h
      · simp only [exampleEnc, restorableGraph] at hi
        rcases i with _ | _ | _ | _ | i <;> cases hi <;> simpa [members] using hm
    intro x y hx hy _ _
    rw [key x hx, key y hy]
  twins := fun i j h => exampleEnc_same h

example : ∃ bytes w ds, dumps (exampleEnc restorableGraph) (.obj 0) = .ok bytes ∧ loads exampleDec bytes = .ok (w, ds) ∧
    dumps (exampleEnc ds.heap) w = .ok bytes := by
  have h : (dumps (exampleEnc restorableGraph) (.obj 0)).toOption.isSome = true := by decide +kernel
  cases hd : dumps (exampleEnc restorableGraph) (.obj 0) with
  | error e => rw [hd] at h; cases h
  | ok bytes =>
    have hn : NumberedAlike (exampleEnc restorableGraph) := by
      intro i n hi
      simp only [exampleEnc, restorableGraph] at hi
      rcases i with _ | _ | _ | _ | i <;> cases hi <;> trivial
    obtain ⟨w, ds, h1, h2⟩ := C50_same_bytes_partial restorableGraph_ok restorableGraph_restorable hn floatNames_example
      (denv := exampleDec) rfl hd
    exact ⟨bytes, w, ds, rfl, h1, h2 _ fun i j h => exampleEnc_same h⟩

/-- The data of `C51` is stable after one pass. -/
example : ∃ v ds bytes w ds', loads exampleDec wellFormedData = .ok (v, ds) ∧ dumps (exampleEnc ds.heap) v = .ok bytes ∧
    loads exampleDec bytes = .ok (w, ds') ∧ dumps (exampleEnc ds'.heap) w = .ok bytes := by
  have hr : result (loads exampleDec wellFormedData) = some (.obj 0,
      [.jsarr ⟨.dense ⟨[none, some (.int 7), none, none, none, some (.bool true)], 2⟩, [([120], .obj 2)]⟩,
       .abuf ⟨[1, 2], 2, false⟩, .view (.obj 1) ⟨.uint8, 1, some 1⟩], 25) := by decide +kernel
  cases hl : loads exampleDec wellFormedData with
  | error e => rw [hl] at hr; cases hr
  | ok r =>
    obtain ⟨v, ds⟩ := r
    rw [hl] at hr
    simp only [result, Option.some.injEq, Prod.mk.injEq] at hr
    obtain ⟨rfl, hh, _⟩ := hr
    have hd : (dumps (exampleEnc ds.heap) (.obj 0)).toOption.isSome = true := by rw [hh]; decide +kernel
    cases hb : dumps (exampleEnc ds.heap) (.obj 0) with
    | error e => rw [hb] at hd; cases hd
    | ok bytes =>
      refine (C50_stable_after_one_pass_partial floatNames_example hl
        (feats := ⟨true, true, true, true⟩) (hkey := fun _ => none) (fun i j h => exampleEnc_same h) ?_ ?_ ?_ ?_ hb).elim
        fun w ⟨ds', h1, h2⟩ => ⟨_, ds, bytes, w, ds', rfl, hb, h1, h2 _ fun i j h => exampleEnc_same h⟩
      · intro i d hi
        simp only [again, hh] at hi
        rcases i with _ | _ | _ | i <;> cases hi
      · intro i b hi hb
        rfl
      · intro i n hi
        simp only [again, hh] at hi
        rcases i with _ | _ | _ | i <;> cases hi <;> trivial
      · have key : ∀ x, ¬ (Val.float x = .obj 0 ∨ ∃ (i : Id) (n : Node), ds.heap[i]? = some n ∧ .float x ∈ members n) := by
          rintro x (h | ⟨i, n, hi, hm⟩)
          · cases h
          · rw [hh] at hi
            rcases i with _ | _ | _ | i <;> cases hi
            · have e : members (.jsarr ⟨.dense ⟨[none, some (.int 7), none, none, none, some (.bool true)], 2⟩, [([120], .obj 2)]⟩) =
                  [.int 7, .bool true, .obj 2] := by decide +kernel
              rw [e] at hm
              simp at hm
            · simp [members] at hm
            · simp [members] at hm
        intro x y hx
        exact absurd hx (key x)

/-! ## What is left out -/

/-- The first message and the second one. -/
def bothMessages (h : Heap) (v : Val) : Option (Bytes × Bytes) :=
  match dumps (exampleEnc h) v with
  | .error _ => none
  | .ok b =>
    match loads exampleDec b with
    | .error _ => none
    | .ok (w, ds) =>
      match dumps (exampleEnc ds.heap) w with
      | .error _ => none
      | .ok b' => some (b, b')

/-- Each condition is needed.  Written differently the second time: the wrapper of a primitive, a list with
many holes, an Error without message, a view that follows the length of a bytearray, a RegExp before an
object that is mentioned twice. -/
theorem C50_not_without : ∀ h ∈ ([[.primObj (.bool true)], [.pylist [.hole, .hole, .hole, .hole, .hole, .hole, .int 1]],
      [.error (str "Error") none none (.int 1)], [.view (.obj 1) ⟨.uint8, 0, none⟩, .rawBuf true [1]],
      [.pylist [.obj 1, .obj 2, .obj 2], .regexp ⟨[97], 0⟩, .jsset []]] : List Heap),
    ∃ b b', bothMessages h (.obj 0) = some (b, b') ∧ b ≠ b' := by
  have key : ∀ {o : Option (Bytes × Bytes)}, (o.any fun r => r.1 ≠ r.2) = true → ∃ b b', o = some (b, b') ∧ b ≠ b' := by
    rintro (_ | ⟨b, b'⟩) h
    · cases h
    · exact ⟨b, b', rfl, by simpa using h⟩
  intro h hh
  refine key ?_
  simp only [List.mem_cons, List.not_mem_nil, or_false] at hh
  rcases hh with rfl | rfl | rfl | rfl | rfl <;> decide +kernel

end V8.Props
