import Verif.Proofs.EncodeAccept
import Verif.Props.RoundTrip
import Verif.Props.EncodeGlobal

/-!
# C53: the values that dumps accepts
-/

namespace V8.Props
open V8 V8.Spec

/-- C53: if all that can be reached from the value can be written, `dumps` succeeds, but for an Error that is
in its own cause when the feature for that is off. -/
theorem C53_accepts {env : EEnv} (ht : WellTyped env) (hz : ArraysSized env) {v : Val}
    (hw : ∀ u, Reaches env v u → Writable env u) :
    (∃ bytes, dumps env v = .ok bytes) ∨
    (dumps env v = .error .illegalCyclic ∧ env.feats.circularErrorCause = false ∧
      ∃ i, Reaches env v (.obj i) ∧ InOwnCause env i) := by
  have hg := encode_goes ht hz (encodeFuel env) v hw WS.headed
    ⟨rfl, by simp [MemoOK, WS.headed, WS.new, Dict.get], by simp [WS.headed, WS.new, ObjLog.empty, Dict.get]⟩
  unfold dumps
  cases h : dumpsState env v with
  | ok ws => exact Or.inl ⟨ws.data, rfl⟩
  | error e =>
    have hp : ¬ e.plain := hg.1 e h
    cases e with
    | illegalCyclic =>
      refine Or.inr ⟨rfl, ?_, C22_raises_only_for_cycles ht h⟩
      cases hf : env.feats.circularErrorCause with
      | false => rfl
      | true => exact absurd h (C22_feature_allows ht hf v)
    | forwardRef k => exact absurd h (C22_no_forward_reference_error ht v k)
    | fuel => exact absurd h (C14_terminates ht v (by unfold encodeFuel; omega))
    | _ => exact absurd trivial hp

theorem NoTwins.alike {env : EEnv} (h : NoTwins env) : TwinsAlike env := by
  intro i j hij
  obtain rfl := h i j hij
  refine ⟨id, fun n m h1 h2 c hc => ⟨c, ?_, Or.inl rfl⟩⟩
  cases h1.symm.trans h2
  exact hc

/-- C53 (partial): and only then.  Missing: views that compare equal and whose buffers are not alike
(`C53_equal_view_hides`). -/
theorem C53_only_writable_partial {env : EEnv} (ht : WellTyped env) (hn : TwinsAlike env) {v : Val} {bytes : Bytes}
    (h : dumps env v = .ok bytes) {u : Val} (hu : Reaches env v u) : Writable env u := by
  unfold dumps at h
  cases hs : dumpsState env v with
  | error e => rw [hs] at h; cases h
  | ok ws => exact dumps_puts ht hn hs u hu

/-- C53 (partial, as above): with the feature for cyclic causes, `dumps` succeeds exactly for the values that consist of writable
ones. -/
theorem C53_accept_set_partial {env : EEnv} (ht : WellTyped env) (hz : ArraysSized env) (hn : TwinsAlike env)
    (hf : env.feats.circularErrorCause = true) (v : Val) :
    (∃ bytes, dumps env v = .ok bytes) ↔ ∀ u, Reaches env v u → Writable env u := by
  refine ⟨fun ⟨_, h⟩ _ hu => C53_only_writable_partial ht hn h hu, fun hw => ?_⟩
  rcases C53_accepts ht hz hw with h | ⟨_, h, _⟩
  · exact h
  · rw [hf] at h; cases h

/-- C53 (partial, as above): without cyclic causes, the feature does not matter. -/
theorem C53_accept_set_acyclic_partial {env : EEnv} (ht : WellTyped env) (hz : ArraysSized env) (hn : TwinsAlike env)
    {v : Val} (hc : ∀ i, Reaches env v (.obj i) → ¬ InOwnCause env i) :
    (∃ bytes, dumps env v = .ok bytes) ↔ ∀ u, Reaches env v u → Writable env u := by
  refine ⟨fun ⟨_, h⟩ _ hu => C53_only_writable_partial ht hn h hu, fun hw => ?_⟩
  rcases C53_accepts ht hz hw with h | ⟨_, _, i, h1, h2⟩
  · exact h
  · exact absurd h2 (hc i h1)

/-- A list of two empty Uint8Arrays, on a buffer of one byte and on one of 4 GiB. -/
def hugeBehind : Heap := [.pylist [.obj 1, .obj 2], .view (.obj 3) ⟨.uint8, 0, some 0⟩, .view (.obj 4) ⟨.uint8, 0, some 0⟩,
  .abuf (fixedBuf [0]), .abuf (fixedBuf (List.replicate (2 ^ 32) 0))]

/-- The views are of the same type and have the same contents, so they are equal and have the same hash. -/
def hugeEnv : EEnv := { exampleEnc hugeBehind with hkey := fun i => if i = 1 ∨ i = 2 then some 0 else none }

/-- C53 disagreement: a view that equals one written before is written as a reference to that one, so its own buffer is
not looked at, and may be one that cannot be written. -/
theorem C53_equal_view_hides : ∃ env v bytes u, WellTyped env ∧ ArraysSized env ∧ dumps env v = .ok bytes ∧
    Reaches env v u ∧ ¬ Writable env u := by
  have h : ∃ bytes, dumps hugeEnv (.obj 0) = .ok bytes := by
    have h : (dumps hugeEnv (.obj 0)).toOption.isSome = true := by decide +kernel
    cases hd : dumps hugeEnv (.obj 0) with
    | ok b => exact ⟨b, rfl⟩
    | error e => rw [hd] at h; cases h
  obtain ⟨bytes, h⟩ := h
  refine ⟨hugeEnv, .obj 0, bytes, .obj 4, ⟨?_, ?_, ?_⟩, ?_, h,
    .inside (i := 0) (c := .obj 2) (Or.inl rfl) rfl (by simp [members])
      (.inside (i := 2) (c := .obj 4) (Or.inl rfl) rfl (by simp [members]) (.here (Or.inl rfl))), ?_⟩
  · intro i b v hi
    simp only [hugeEnv, exampleEnc, hugeBehind] at hi
    rcases i with _ | _ | _ | _ | _ | i <;> cases hi
    · trivial
    · trivial
  · intro i j hij hb
    rcases hij with rfl | ⟨c, h1, _⟩
    · exact hb
    · simp only [hugeEnv] at h1
      split at h1
      · rename_i hi
        rcases hi with rfl | rfl <;> exact hb.elim
      · cases h1
  · intro i o hi
    simp only [hugeEnv, exampleEnc, hugeBehind] at hi
    rcases i with _ | _ | _ | _ | _ | i <;> rcases hi with hi | hi <;> cases hi
  · intro i o hi
    simp only [hugeEnv, exampleEnc, hugeBehind] at hi
    rcases i with _ | _ | _ | _ | _ | i <;> rcases hi with hi | hi <;> cases hi
  · rintro ⟨n, hn, hw⟩
    cases hn
    have e : (ABuf.exposed (fixedBuf (List.replicate (2 ^ 32) 0))).length = 2 ^ 32 := by
      rw [ABuf.exposed, fixedBuf, List.length_take, Nat.min_self, List.length_replicate]
    exact absurd hw.1 (by rw [e]; exact Nat.lt_irrefl _)

/-! ### Examples -/

theorem exampleGraph_sized : ArraysSized (exampleEnc exampleGraph) := by
  intro i o hi
  simp only [exampleEnc, exampleGraph] at hi
  rcases i with _ | _ | _ | _ | i <;> rcases hi with hi | hi <;> cases hi

/-- What the example reaches. -/
def exampleValues : List Val :=
  [.obj 0, .obj 1, .obj 2, .obj 3, .hole, .int (2 ^ 40), .int 1, .str [97, 8364], .str [107]]

theorem exampleGraph_values {u : Val} (h : Reaches (exampleEnc exampleGraph) (.obj 0) u) : u ∈ exampleValues := by
  have key : ∀ a u, Reaches (exampleEnc exampleGraph) a u → a ∈ exampleValues → u ∈ exampleValues := by
    intro a u h
    induction h with
    | here h1 =>
      rcases h1 with rfl | ⟨i, j, rfl, rfl, h⟩
      · exact id
      · rw [exampleEnc_same h]; exact id
    | @inside a c z i n h1 hi hc _ ih =>
      intro _
      apply ih
      simp only [exampleEnc, exampleGraph] at hi
      rcases i with _ | _ | _ | _ | i <;> cases hi <;> simp [members] at hc <;> simp [exampleValues, hc]
      · rcases hc with rfl | rfl | rfl | rfl | rfl <;> simp
      · rcases hc with rfl | rfl | rfl | rfl <;> simp
  exact key _ u h (by simp [exampleValues])

/-- The cyclic graph of the round trip is accepted. -/
example : ∃ bytes, dumps (exampleEnc exampleGraph) (.obj 0) = .ok bytes := by
  refine (C53_accept_set_partial (Encodable.wellTyped exampleGraph_ok) exampleGraph_sized (NoTwins.alike (exampleEnc_noTwins _)) rfl _).2 fun u hu => ?_
  have hm := exampleGraph_values hu
  simp only [exampleValues, List.mem_cons, List.not_mem_nil, or_false] at hm
  have small : ∀ n : Int, n.natAbs < 2 ^ 41 → n.natAbs < 2 ^ mostBits := fun n h =>
    lt_of_lt_of_le h (Nat.pow_le_pow_right (by decide) (by unfold mostBits; decide))
  rcases hm with rfl | rfl | rfl | rfl | rfl | rfl | rfl | rfl | rfl
  · exact ⟨_, rfl, trivial⟩
  · exact ⟨_, rfl, trivial⟩
  · exact ⟨_, rfl, fun h => by cases h⟩
  · exact ⟨_, rfl, by decide +kernel, fun h => by cases h⟩
  · trivial
  · exact small _ (by decide +kernel)
  · exact small _ (by decide +kernel)
  · unfold Writable PlainText; decide +kernel
  · unfold Writable PlainText; decide +kernel

/-- Two equal RegExps, which stand for each other. -/
example (r : RegExp) : TwinsAlike { exampleEnc [.pylist [.obj 1, .obj 2], .regexp r, .regexp r] with
    hkey := fun i => if i = 1 ∨ i = 2 then some 0 else none } := by
  intro i j hij
  have same : ({ exampleEnc [.pylist [.obj 1, .obj 2], .regexp r, .regexp r] with
      hkey := fun i => if i = 1 ∨ i = 2 then some 0 else none } : EEnv).heap[i]? =
      ({ exampleEnc [.pylist [.obj 1, .obj 2], .regexp r, .regexp r] with
      hkey := fun i => if i = 1 ∨ i = 2 then some 0 else none } : EEnv).heap[j]? := by
    rcases hij with rfl | ⟨c, h1, h2⟩
    · rfl
    · dsimp only at h1 h2
      split at h1
      · split at h2
        · rename_i a b
          rcases a with rfl | rfl <;> rcases b with rfl | rfl <;> rfl
        · cases h2
      · cases h1
  refine ⟨fun ⟨n, h1, h2⟩ => ⟨n, same ▸ h1, h2⟩, fun n m h1 h2 c hc => ⟨c, ?_, Or.inl rfl⟩⟩
  cases (h1.symm.trans same).trans h2
  exact hc

/-- A list of a map to an object with a surrogate in a name. -/
def surrogateName : Heap := [.pylist [.obj 1], .jsmap [(.int 1, .obj 2)], .jsobj ⟨JSObj.empty.array, [([0xD800], .int 1)]⟩]

theorem surrogateName_ok : WellTyped (exampleEnc surrogateName) where
  views := by
    intro i b v hi
    simp only [exampleEnc, surrogateName] at hi
    rcases i with _ | _ | _ | i <;> cases hi
  buffers := fun i j hij h => by rw [← exampleEnc_same hij]; exact h
  objects := by
    intro i o hi
    simp only [exampleEnc, surrogateName] at hi
    rcases i with _ | _ | _ | i <;> rcases hi with hi | hi <;> cases hi
    all_goals exact ⟨(JSObj.empty_inv (α := Val)).1, by simp [Dict.keys]⟩

/-- It is refused. -/
example (bytes : Bytes) : dumps (exampleEnc surrogateName) (.obj 0) ≠ .ok bytes := by
  intro h
  obtain ⟨n, hn, hw⟩ := C53_only_writable_partial surrogateName_ok (NoTwins.alike (exampleEnc_noTwins _)) h (u := .obj 2)
    (.inside (i := 0) (c := .obj 1) (Or.inl rfl) rfl (by simp [members])
      (.inside (i := 1) (c := .obj 2) (Or.inl rfl) rfl (by simp [members]) (.here (Or.inl rfl))))
  cases hn
  exact (hw _ (List.mem_singleton.mpr rfl) _ (List.mem_singleton.mpr rfl)).2 (by decide)

/-- An Error that is in its own cause is accepted with the feature and refused without. -/
example : (dumps (exampleEnc cyclicCause) (.obj 0)).toOption.isSome = true ∧
    dumps ((exampleEnc cyclicCause).withCircular false) (.obj 0) = .error .illegalCyclic := by decide +kernel

end V8.Props
