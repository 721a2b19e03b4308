import Verif.Model.PrimObject
import Verif.Props.RoundTrip

/-!
# C55: wrapper objects of primitives
-/

namespace V8.Props
open V8 V8.Spec

/-- The values JavaScript can wrap, and the wrapper: String, Boolean (a tag for each value), Number for
floats and for the integers a double holds exactly, BigInt for any integer. -/
def Suits : Val → Tag → Prop
  | .str _, .kStringObject => True
  | .bool true, .kTrueObject => True
  | .bool false, .kFalseObject => True
  | .float _, .kNumberObject => True
  | .int n, .kNumberObject => n.natAbs ≤ 2 ^ 53 - 1
  | .int _, .kBigIntObject => True
  | _, _ => False

/-- Whether a value has a primitive type that can be wrapped. -/
def Wrappable : Val → Prop
  | .str _ | .bool _ | .float _ | .int _ => True
  | _ => False

theorem inSafeInt_iff (n : Int) : inSafeInt n = true ↔ n.natAbs ≤ 2 ^ 53 - 1 := by
  unfold inSafeInt
  simp only [Bool.and_eq_true, decide_eq_true_eq]
  omega

/-- C55: with a tag given, exactly the values it suits are accepted, and value and tag are kept.  A wrong
tag is a ValueError, a value of another type a TypeError. -/
theorem C55_given_tag (value : Val) (t : Tag) :
    (Suits value t → mkPrimObject value (some t) = .ok (value, t)) ∧
    (Wrappable value → ¬ Suits value t → mkPrimObject value (some t) = .error .valueError) ∧
    (¬ Wrappable value → mkPrimObject value (some t) = .error .typeError) := by
  refine ⟨fun h => ?_, fun hw h => ?_, fun h => ?_⟩
  · cases value with
    | bool b => cases b <;> cases t <;> simp_all [Suits, mkPrimObject, expectedTags]
    | int n =>
      by_cases hs : inSafeInt n = true
      · cases t <;> simp_all [Suits, mkPrimObject, expectedTags]
      · have hb := (not_congr (inSafeInt_iff n)).1 hs
        cases t <;> simp only [Suits] at h <;> first | exact absurd h hb | (simp [mkPrimObject, expectedTags, hs])
    | _ => cases t <;> simp_all [Suits, mkPrimObject, expectedTags]
  · cases value with
    | bool b => cases b <;> cases t <;> simp_all [Suits, mkPrimObject, expectedTags]
    | int n =>
      by_cases hs : inSafeInt n = true
      · have hb := (inSafeInt_iff n).1 hs
        cases t <;> simp only [Suits, not_true_eq_false] at h <;>
          first | exact absurd hb h | (simp [mkPrimObject, expectedTags, hs])
      · cases t <;> simp only [Suits, not_true_eq_false] at h <;> simp [mkPrimObject, expectedTags, hs]
    | _ => cases t <;> simp_all [Suits, mkPrimObject, expectedTags, Wrappable]
  · cases value <;> simp_all [mkPrimObject, expectedTags, Wrappable]

/-- C55: without a tag, the tag is one that suits the value, and Number for an integer exactly if a double
holds it. -/
theorem C55_default_tag (value : Val) :
    (Wrappable value → ∃ t, mkPrimObject value none = .ok (value, t) ∧ Suits value t ∧
      ((∃ n, value = .int n ∧ n.natAbs ≤ 2 ^ 53 - 1) → t = .kNumberObject)) ∧
    (¬ Wrappable value → mkPrimObject value none = .error .typeError) := by
  refine ⟨fun h => ?_, fun h => ?_⟩
  · cases value with
    | bool b =>
      cases b
      · exact ⟨_, rfl, trivial, by simp⟩
      · exact ⟨_, rfl, trivial, by simp⟩
    | int n =>
      by_cases hs : inSafeInt n = true
      · exact ⟨.kNumberObject, by simp [mkPrimObject, expectedTags, hs], (inSafeInt_iff n).1 hs, fun _ => rfl⟩
      · have hb := (not_congr (inSafeInt_iff n)).1 hs
        refine ⟨.kBigIntObject, by simp [mkPrimObject, expectedTags, hs], trivial, ?_⟩
        rintro ⟨m, hm, hm'⟩
        cases hm
        exact absurd hm' hb
    | str s => exact ⟨_, rfl, trivial, by simp⟩
    | float x => exact ⟨_, rfl, trivial, by simp⟩
    | _ => exact h.elim
  · cases value <;> simp_all [mkPrimObject, expectedTags, Wrappable]

/-- C55: every object the constructor makes is one of the wrapper objects of the encoder's model, which
therefore leaves none out. -/
theorem C55_modelled (value : Val) (tag : Option Tag) (v : Val) (t : Tag) (h : mkPrimObject value tag = .ok (v, t)) :
    ∃ p : PrimObj, p.value = v ∧ p.tag = t ∧ ∀ env, NodeOK env (.primObj p) := by
  have hs : Suits v t := by
    cases tag with
    | none =>
      by_cases hw : Wrappable value
      · obtain ⟨t', ht, hs, _⟩ := (C55_default_tag value).1 hw
        rw [ht] at h
        cases h
        exact hs
      · rw [(C55_default_tag value).2 hw] at h
        cases h
    | some t0 =>
      by_cases hs : Suits value t0
      · rw [(C55_given_tag value t0).1 hs] at h
        cases h
        exact hs
      · by_cases hw : Wrappable value
        · rw [(C55_given_tag value t0).2.1 hw hs] at h
          cases h
        · rw [(C55_given_tag value t0).2.2 hw] at h
          cases h
  cases v with
  | str s => cases t <;> first | exact hs.elim | exact ⟨.str s, rfl, rfl, fun _ => trivial⟩
  | bool b => cases b <;> cases t <;> first | exact hs.elim | exact ⟨.bool _, rfl, rfl, fun _ => trivial⟩
  | float x => cases t <;> first | exact hs.elim | exact ⟨.float x, rfl, rfl, fun _ => trivial⟩
  | int n =>
    cases t <;> first
    | exact hs.elim
    | exact ⟨.safeInt n, rfl, rfl, fun _ => hs⟩
    | exact ⟨.bigint n, rfl, rfl, fun _ => trivial⟩
  | _ => cases t <;> exact hs.elim

/-- What comes back for the primitive `v` wrapped with tag `t`: the value itself, or for an integer
wrapped as Number the double with exactly its value. -/
def Unwrapped : Val → Tag → Val → Prop
  | .int n, .kNumberObject, w => ∃ y, w = .float y ∧ fval y = .fin (n * 2 ^ 1074)
  | v, _, w => w = v

/-- C55: what is written after the tag reads back, wherever it stands in a message, as a wrapper of the same
value. -/
theorem C55_payload_reads_back (value : Val) (tag : Option Tag) (v : Val) (t : Tag)
    (h : mkPrimObject value tag = .ok (v, t)) :
    ∃ p : PrimObj, p.value = v ∧ p.tag = t ∧ ∀ bs pre suf, primObjPayload p = .ok bs →
      ∃ p', readPrimObj t (pre ++ bs ++ suf) pre.length = .ok (p', pre.length + bs.length) ∧
        Unwrapped v t p'.value := by
  obtain ⟨p, hv, ht, hn⟩ := C55_modelled value tag v t h
  refine ⟨p, hv, ht, fun bs pre suf hb => ?_⟩
  subst hv ht
  have hr : ∃ p', Reads (readPrimObj p.tag) bs p' ∧ Unwrapped p.value p.tag p'.value := by
    cases p with
    | str s => exact ⟨.str s, Reads.map (g := PrimObj.str) (readStringUtf8_reads hb), rfl⟩
    | bool b =>
      cases hb
      cases b
      · exact ⟨.bool false, Reads.pure _, rfl⟩
      · exact ⟨.bool true, Reads.pure _, rfl⟩
    | float x =>
      cases hb
      exact ⟨.float x, Reads.map (g := PrimObj.float) (readDouble_reads x), rfl⟩
    | safeInt n =>
      cases hb
      exact ⟨.float (doubleOfInt n), Reads.map (g := PrimObj.float) (readDouble_reads _), _, rfl,
        fval_doubleOfInt n (hn ⟨[], ⟨true, true, true, true⟩, examplePy, fun _ => none⟩)⟩
    | bigint n => exact ⟨.bigint n, Reads.map (g := PrimObj.bigint) (readBigint_reads hb), rfl⟩
  obtain ⟨p', hr, hu⟩ := hr
  exact ⟨p', hr pre suf, hu⟩

/-- C55: a wrapper object passed to `dumps` comes back as its value. -/
theorem C55_through_dumps (value : Val) (tag : Option Tag) (v : Val) (t : Tag) (h : mkPrimObject value tag = .ok (v, t)) :
    ∃ p : PrimObj, p.value = v ∧ p.tag = t ∧ ∀ (env : EEnv) (denv : DEnv) (bytes : Bytes), env.heap = [.primObj p] →
      denv.py = env.py → dumps env (.obj 0) = .ok bytes → ∃ w ds, loads denv bytes = .ok (w, ds) ∧ SameScalar v w := by
  obtain ⟨p, hv, ht, hn⟩ := C55_modelled value tag v t h
  refine ⟨p, hv, ht, fun env denv bytes hh hpy hd => ?_⟩
  have only : ∀ (i : Id) (n : Node), env.heap[i]? = some n → n = .primObj p := by
    intro i n hi
    rw [hh] at hi
    cases i with
    | zero => cases hi; rfl
    | succ i => simp at hi
  have he : Encodable env := by
    refine ⟨fun i n hi => by rw [only i n hi]; exact hn env, fun i j hij hb => ?_⟩
    exfalso
    unfold IsBuffer at hb
    simp only at hb
    split at hb <;> first | exact hb | (rename_i hi; cases only _ _ hi)
  have hna : NumberedAlike env := by
    intro i n hi
    rw [only i n hi]
    trivial
  obtain ⟨z, P, w, ds, hl, hg⟩ := C11_round_trip_partial he hpy (.obj 0) (.inl hna) bytes hd
  obtain ⟨j, _, hp⟩ := hg.root
  obtain ⟨n, hj, hs⟩ := hg.objects _ _ hp
  rw [only j n hj] at hs
  exact ⟨w, ds, hl, hv ▸ hs⟩

example : mkPrimObject (.int 5) none = .ok (.int 5, .kNumberObject) := by decide
example : mkPrimObject (.int 5) (some .kBigIntObject) = .ok (.int 5, .kBigIntObject) := by decide
example : mkPrimObject (.int (2 ^ 53)) (some .kNumberObject) = .error .valueError := by decide
example : mkPrimObject (.bool true) (some .kNumberObject) = .error .valueError := by decide
example : mkPrimObject .null none = .error .typeError := by decide
/-- Concrete: the BigInt 2^53 goes through. -/
example : (match dumps (exampleEnc [.primObj (.bigint (2 ^ 53))]) (.obj 0) with
    | .ok b => (loads exampleDec b).toOption.map (·.1)
    | .error _ => none) = some (.int (2 ^ 53)) := by decide +kernel

end V8.Props
