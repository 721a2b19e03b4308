import Verif.Proofs.TypedArray
import Verif.Proofs.RecursiveEq
import Verif.Spec.TypedArray

/-!
# C63: elements of typed arrays
-/

namespace V8.Props
open V8.Spec

theorem kind_elem {tag : ViewTag} {kind : ElementKind} (h : kindOf tag = some kind) :
    ∃ t, tag.elem = some t ∧ t.size = kind.size ∧
      (∀ p, p < 256 ^ kind.size → meaning (dvUnpack cpythonConv t p) = kind.value p ∧ FitsKind kind (dvUnpack cpythonConv t p)) := by
  have hs : ∀ (k : Nat), 0 < k → ∀ p, p < 256 ^ k → meaning (.int (unpackSigned k p)) = (ElementKind.signed k).value p := by
    intro k hk p hp
    have h256 : (256 : Nat) ^ k = 2 ^ (8 * k) := by rw [show (256 : Nat) = 2 ^ 8 by decide, ← Nat.pow_mul]
    rw [h256] at hp
    unfold meaning unpackSigned ElementKind.value
    by_cases hc : 2 ^ (8 * k - 1) ≤ p
    · have hneg : ¬ p < 2 ^ (8 * k - 1) := by omega
      have hlt : (p : Int) - 2 ^ (8 * k) < 0 := by
        have : (p : Int) < ((2 ^ (8 * k) : Nat) : Int) := by exact_mod_cast hp
        push_cast at this
        omega
      simp only [hc, hneg, if_true, if_false, decide_true, hlt]
      push_cast
      rfl
    · have hneg : p < 2 ^ (8 * k - 1) := by omega
      have hlt : ¬ (p : Int) < 0 := by omega
      simp only [hc, hneg, if_true, if_false, decide_false, hlt]
      push_cast
      rfl
  have hu : ∀ p : Nat, meaning (.int (p : Int)) = .number false (p : ℚ) := by
    intro p
    unfold meaning
    have hlt : ¬ (p : Int) < 0 := by omega
    simp only [hlt, decide_false]
    push_cast
    rfl
  cases tag <;> cases h
  · exact ⟨.int8, rfl, rfl, fun p hp => ⟨hs 1 (by decide) p hp, trivial⟩⟩
  · exact ⟨.uint8, rfl, rfl, fun p hp => ⟨hu p, trivial⟩⟩
  · exact ⟨.uint8, rfl, rfl, fun p hp => ⟨hu p, trivial⟩⟩
  · exact ⟨.int16, rfl, rfl, fun p hp => ⟨hs 2 (by decide) p hp, trivial⟩⟩
  · exact ⟨.uint16, rfl, rfl, fun p hp => ⟨hu p, trivial⟩⟩
  · exact ⟨.int32, rfl, rfl, fun p hp => ⟨hs 4 (by decide) p hp, trivial⟩⟩
  · exact ⟨.uint32, rfl, rfl, fun p hp => ⟨hu p, trivial⟩⟩
  · exact ⟨.float16, rfl, rfl, fun p hp =>
      ⟨Fmt.unpack_meaning Fmt.b16_is (by decide) (by decide) false p (by exact hp), trivial⟩⟩
  · exact ⟨.float32, rfl, rfl, fun p hp =>
      ⟨Fmt.unpack_meaning Fmt.b32_is (by decide) (by decide) true p (by exact hp), trivial⟩⟩
  · refine ⟨.float64, rfl, rfl, fun p hp => ⟨?_, trivial⟩⟩
    show ieee 11 52 (UInt64.ofNat p).toNat = ieee 11 52 p
    rw [UInt64.toNat_ofNat', Nat.mod_eq_of_lt (by exact hp)]
  · exact ⟨.bigint64, rfl, rfl, fun p hp => ⟨hs 8 (by decide) p hp, trivial⟩⟩
  · exact ⟨.biguint64, rfl, rfl, fun p hp => ⟨hu p, trivial⟩⟩

theorem numbers_eq {tag : ViewTag} {kind : ElementKind} {t : DVType} (h : kindOf tag = some kind) (ht : tag.elem = some t)
    (r : Bytes) : kind.numbers r = (elements cpythonConv t r).map meaning := by
  obtain ⟨t', e1, e2, e3⟩ := kind_elem h
  rw [ht] at e1
  cases e1
  unfold ElementKind.numbers elements elemCount
  rw [List.map_map, e2]
  apply List.map_congr_left
  intro j hj
  rw [List.mem_range] at hj
  have hbd := elem_bound t r j (by unfold elemCount; rw [e2]; exact hj)
  show _ = meaning (elemAt cpythonConv t r j)
  unfold elemAt bytesAt
  rw [pattern_eq, Int.toNat_natCast, e2]
  have hl : ((r.drop (j * kind.size)).take kind.size).length = kind.size := by
    rw [List.length_take, List.length_drop]; rw [e2] at hbd; omega
  have hlt := fromLE_lt ((r.drop (j * kind.size)).take kind.size)
  rw [hl] at hlt
  rw [(e3 _ hlt).1]
  rfl

theorem numbers_length (kind : ElementKind) (r : Bytes) : (kind.numbers r).length = r.length / kind.size := by
  simp [ElementKind.numbers]

/-- Every typed array class has the elements of the table. -/
theorem C63_kinds (tag : ViewTag) : (kindOf tag).isSome = tag.elem.isSome ∧
    ∀ kind t, kindOf tag = some kind → tag.elem = some t → t.size = kind.size ∧ tag.size = kind.size := by
  cases tag <;> refine ⟨rfl, ?_⟩ <;> intro kind t h1 h2 <;> cases h1 <;> cases h2 <;> exact ⟨rfl, rfl⟩

/-- C63: `array[i]` is the `i`-th number in the view's region, counted from the end if `i` is negative, as an int
for integer arrays and a float for float arrays; other indexes raise IndexError. -/
theorem C63_get {kind : ElementKind} {t : DVType} (v : View) (hk : kindOf v.tag = some kind) (ht : v.tag.elem = some t)
    (mv : Bytes) (i : Int) :
    (∀ j, Position (kind.numbers (v.bytes mv)).length i j → ∃ x, typedGet cpythonConv t v mv i = .ok x ∧ FitsKind kind x ∧
      (kind.numbers (v.bytes mv))[j]? = some (meaning x)) ∧
    ((¬ ∃ j, Position (kind.numbers (v.bytes mv)).length i j) → typedGet cpythonConv t v mv i = .error .indexError) := by
  obtain ⟨t', e1, e2, e3⟩ := kind_elem hk
  rw [ht] at e1
  cases e1
  have hn : (kind.numbers (v.bytes mv)).length = elemCount t (v.bytes mv) := by
    rw [numbers_length, elemCount, e2]
  constructor
  · rintro j ⟨hj, hij⟩
    rw [hn] at hj hij
    have hm : mvIndex (elemCount t (v.bytes mv)) i = some j := mvIndex_some.2 ⟨hj, by omega⟩
    refine ⟨elemAt cpythonConv t (v.bytes mv) j, by simp [typedGet, hm], ?_, ?_⟩
    · unfold elemAt
      refine (e3 _ ?_).2
      have := fromLE_lt (((v.bytes mv).drop (j * t.size)).take t.size)
      have hbd := elem_bound t _ j hj
      rw [List.length_take, List.length_drop, Nat.min_eq_left (by omega), e2] at this
      rw [e2]
      exact this
    · rw [numbers_eq hk ht, List.getElem?_map, elements_get _ _ _ _ hj]
      rfl
  · intro hno
    have hm : mvIndex (elemCount t (v.bytes mv)) i = none := by
      cases hm : mvIndex (elemCount t (v.bytes mv)) i with
      | none => rfl
      | some j =>
        have := mvIndex_some.1 hm
        exact absurd ⟨j, by rw [hn]; exact ⟨this.1, by omega⟩⟩ hno
    simp [typedGet, hm]

/-- `JSInt16Array(b'\x01\x00\xfe\xff\x07\x00', item_offset=1)`: -2 and 7. -/
example : (⟨.int16, 1, none⟩ : View).bytes [1, 0, 0xfe, 0xff, 7, 0] = [0xfe, 0xff, 7, 0] ∧
    typedGet cpythonConv .int16 ⟨.int16, 1, none⟩ [1, 0, 0xfe, 0xff, 7, 0] 0 = .ok (.int (-2)) ∧
    typedGet cpythonConv .int16 ⟨.int16, 1, none⟩ [1, 0, 0xfe, 0xff, 7, 0] (-1) = .ok (.int 7) ∧
    typedGet cpythonConv .int16 ⟨.int16, 1, none⟩ [1, 0, 0xfe, 0xff, 7, 0] 2 = .error .indexError := by decide +kernel

/-! ### Assignment -/

/-- What an assignment that succeeds does. -/
theorem set_stored {kind : ElementKind} {t : DVType} {v : View} (hk : kindOf v.tag = some kind) (ht : v.tag.elem = some t)
    (mv : Bytes) (i : Int) (x : DVVal) (j p : Nat) (hj : Position (kind.numbers (v.bytes mv)).length i j)
    (hp : mvPack cpythonConv t x = .ok p) (hb : p < 256 ^ kind.size) :
    ∃ mv', typedSet cpythonConv t false v mv i x = (mv', none) ∧
      Stored mv mv' (v.byteOffset mv + j * kind.size) kind.size p ∧
      kind.numbers (v.bytes mv') = (kind.numbers (v.bytes mv)).set j (kind.value p) := by
  obtain ⟨t', e1, e2, e3⟩ := kind_elem hk
  rw [ht] at e1
  cases e1
  have hn : (kind.numbers (v.bytes mv)).length = elemCount t (v.bytes mv) := by
    rw [numbers_length, elemCount, e2]
  rw [hn] at hj
  obtain ⟨hj1, hj2⟩ := hj
  have hm : mvIndex (elemCount t (v.bytes mv)) i = some j := mvIndex_some.2 ⟨hj1, by omega⟩
  rw [← e2] at hb
  obtain ⟨mv', m1, m2, m3, m4, m5, m6⟩ := typedSet_ok cpythonConv t v mv i x j p hm hp hb
  have hbd := elem_bound t _ j hj1
  obtain ⟨o1, _, _⟩ := region_overwrite v mv (j * t.size) (toLE t.size p) (by simpa using hbd)
  refine ⟨mv', m1, ⟨by rw [← e2]; omega, m2, ?_, by rw [← e2]; exact m6⟩, ?_⟩
  · have h1 := overwrite_inside mv (v.byteOffset mv + j * t.size) (toLE t.size p) (by rw [toLE_length]; omega)
    have h2 : mv' = overwrite mv (v.byteOffset mv + j * t.size) (toLE t.size p) := by
      have := m1
      simp only [typedSet, hm, hp, Bool.false_eq_true, if_false, Prod.mk.injEq, and_true] at this
      exact this.symm
    rw [toLE_length, ← h2] at h1
    unfold bytesAt
    rw [Int.toNat_natCast, ← e2, h1, pattern_eq]
    exact fromLE_toLE _ _ hb
  · rw [numbers_eq hk ht, numbers_eq hk ht, m5, List.map_set, (e3 p (by rw [← e2]; exact hb)).1]

theorem set_refused {t : DVType} {v : View} (mv : Bytes) (i : Int) (x : DVVal) (e : PyExc)
    (hi : ∃ j, mvIndex (elemCount t (v.bytes mv)) i = some j) (hp : mvPack cpythonConv t x = .error e) :
    typedSet cpythonConv t false v mv i x = (mv, some e) := by
  obtain ⟨j, hj⟩ := hi
  simp [typedSet, hj, hp]

/-- C63: an assignment that raises changes nothing; one to a read-only buffer raises TypeError, one to an index that
does not exist IndexError. -/
theorem C63_set_raises {kind : ElementKind} {t : DVType} (v : View) (hk : kindOf v.tag = some kind) (ht : v.tag.elem = some t)
    (c : FloatConv) (readonly : Bool) (mv : Bytes) (i : Int) (x : DVVal) :
    ((typedSet c t readonly v mv i x).2 ≠ none → (typedSet c t readonly v mv i x).1 = mv) ∧
    (readonly = true → typedSet c t readonly v mv i x = (mv, some .typeError)) ∧
    (readonly = false → (¬ ∃ j, Position (kind.numbers (v.bytes mv)).length i j) →
      typedSet c t readonly v mv i x = (mv, some .indexError)) := by
  obtain ⟨t', e1, e2, e3⟩ := kind_elem hk
  rw [ht] at e1
  cases e1
  have hn : (kind.numbers (v.bytes mv)).length = elemCount t (v.bytes mv) := by
    rw [numbers_length, elemCount, e2]
  rw [hn]
  refine ⟨?_, fun h => by simp [typedSet, h], fun h hno => ?_⟩
  · unfold typedSet
    cases readonly with
    | true => intro _; rfl
    | false =>
      simp only [Bool.false_eq_true, if_false]
      cases mvIndex (elemCount t (v.bytes mv)) i with
      | none => intro _; rfl
      | some j =>
        simp only
        cases mvPack c t x with
        | error e => intro _; rfl
        | ok b => intro h; exact absurd rfl h
  · have hm : mvIndex (elemCount t (v.bytes mv)) i = none := by
      cases hm : mvIndex (elemCount t (v.bytes mv)) i with
      | none => rfl
      | some j =>
        have := mvIndex_some.1 hm
        exact absurd ⟨j, this.1, by omega⟩ hno
    simp [typedSet, h, hm]

theorem int_elem {tag : ViewTag} {kind : ElementKind} {t : DVType} (h : kindOf tag = some kind) (ht : tag.elem = some t)
    (hint : ∀ k e f, kind ≠ .float k e f) :
    (t ≠ .float16 ∧ t ≠ .float32 ∧ t ≠ .float64) ∧ ∀ n, DVType.Accepts t n ↔ InRange kind n := by
  cases tag <;> cases h <;> cases ht <;>
    first
    | exact absurd rfl (hint _ _ _)
    | exact ⟨by decide, fun n => Iff.rfl⟩

/-- C63: an int within the range of an integer array is stored as the number it is, and nothing else changes;
other ints raise ValueError, floats TypeError. (JavaScript wraps them around, or clamps them for Uint8ClampedArray.) -/
theorem C63_set_int {kind : ElementKind} {t : DVType} (v : View) (hk : kindOf v.tag = some kind) (ht : v.tag.elem = some t)
    (hint : ∀ k e f, kind ≠ .float k e f) (mv : Bytes) (i : Int) (j : Nat)
    (hj : Position (kind.numbers (v.bytes mv)).length i j) :
    (∀ n, InRange kind n → ∃ mv' p, typedSet cpythonConv t false v mv i (.int n) = (mv', none) ∧
      Stored mv mv' (v.byteOffset mv + j * kind.size) kind.size p ∧ kind.value p = meaning (.int n) ∧
      kind.numbers (v.bytes mv') = (kind.numbers (v.bytes mv)).set j (meaning (.int n))) ∧
    (∀ n, ¬ InRange kind n → typedSet cpythonConv t false v mv i (.int n) = (mv, some .valueError)) ∧
    (∀ x, typedSet cpythonConv t false v mv i (.float x) = (mv, some .typeError)) := by
  obtain ⟨hf, hacc⟩ := int_elem hk ht hint
  obtain ⟨t', e1, e2, e3⟩ := kind_elem hk
  rw [ht] at e1
  cases e1
  have hn : (kind.numbers (v.bytes mv)).length = elemCount t (v.bytes mv) := by
    rw [numbers_length, elemCount, e2]
  have hm : mvIndex (elemCount t (v.bytes mv)) i = some j := by
    obtain ⟨h1, h2⟩ := hj
    rw [hn] at h1 h2
    exact mvIndex_some.2 ⟨h1, by omega⟩
  have hpack : ∀ n, mvPack cpythonConv t (.int n) =
      match dvPack cpythonConv t (.int n) with | .ok b => .ok b | .error _ => .error .valueError := by
    intro n
    cases t <;> first | rfl | exact absurd rfl hf.1 | exact absurd rfl hf.2.1 | exact absurd rfl hf.2.2
  refine ⟨fun n hr => ?_, fun n hr => ?_, fun x => ?_⟩
  · obtain ⟨p, hp⟩ := accepts_pack cpythonConv t n ((hacc n).2 hr)
    obtain ⟨u1, u2, _⟩ := dvPack_int cpythonConv t n p hf hp
    rw [e2] at u2
    obtain ⟨u3, _⟩ := e3 p u2
    rw [u1] at u3
    obtain ⟨mv', m1, m2, m3⟩ := set_stored hk ht mv i (.int n) j p hj (by rw [hpack, hp]) u2
    exact ⟨mv', p, m1, m2, u3.symm, by rw [m3, u3]⟩
  · refine set_refused mv i _ _ ⟨j, hm⟩ ?_
    rw [hpack]
    cases hp : dvPack cpythonConv t (.int n) with
    | error e => rfl
    | ok b => exact absurd ((hacc n).1 (dvPack_int cpythonConv t n b hf hp).2.2) hr
  · refine set_refused mv i _ _ ⟨j, hm⟩ ?_
    cases t <;> first | rfl | exact absurd rfl hf.1 | exact absurd rfl hf.2.1 | exact absurd rfl hf.2.2

/-- -2 stored into the second element of a JSInt16Array; 40000 is refused. -/
example : typedSet cpythonConv .int16 false ⟨.int16, 1, none⟩ [1, 0, 0, 0, 7, 0] (-1) (.int (-2)) =
      ([1, 0, 0, 0, 0xfe, 0xff], none) ∧
    typedSet cpythonConv .int16 false ⟨.int16, 1, none⟩ [1, 0, 0, 0, 7, 0] (-1) (.int 40000) =
      ([1, 0, 0, 0, 7, 0], some .valueError) := by decide +kernel

/-- Uint8ClampedArray in JavaScript stores 255 for 300; here it is an error. -/
theorem C63_clamped_not_clamping :
    typedSet cpythonConv .uint8 false ⟨.uint8Clamped, 0, none⟩ [1, 2] 0 (.int 300) = ([1, 2], some .valueError) := by
  decide +kernel

/-- C63: a float is stored in a JSFloat64Array as it is. -/
theorem C63_set_float64 (v : View) (hv : v.tag = .float64) (mv : Bytes) (i : Int) (j : Nat)
    (hj : Position ((ElementKind.float 8 11 52).numbers (v.bytes mv)).length i j) (x : F64) :
    ∃ mv', typedSet cpythonConv .float64 false v mv i (.float x) = (mv', none) ∧
      Stored mv mv' (v.byteOffset mv + j * 8) 8 x.toNat ∧
      (ElementKind.float 8 11 52).numbers (v.bytes mv') =
        ((ElementKind.float 8 11 52).numbers (v.bytes mv)).set j (binary64 x) := by
  have hk : kindOf v.tag = some (.float 8 11 52) := by rw [hv]; rfl
  have ht : v.tag.elem = some .float64 := by rw [hv]; rfl
  exact set_stored hk ht mv i (.float x) j x.toNat hj rfl x.toNat_lt

theorem inf32 (s : Bool) : binary32 ((if s then 2 ^ 31 else 0) + b32.inf) = .infinity s := Fmt.b32_is.ieee_inf s

/-- C63: in a JSFloat32Array a float is stored as the nearest single precision number with its sign, numbers too big as
infinity (as JavaScript does); infinity and NaN are stored as such. Nothing else changes. -/
theorem C63_set_float32 (v : View) (hv : v.tag = .float32) (mv : Bytes) (i : Int) (j : Nat)
    (hj : Position ((ElementKind.float 4 8 23).numbers (v.bytes mv)).length i j) (x : F64) :
    ∃ mv' p, typedSet cpythonConv .float32 false v mv i (.float x) = (mv', none) ∧
      Stored mv mv' (v.byteOffset mv + j * 4) 4 p ∧
      (ElementKind.float 4 8 23).numbers (v.bytes mv') =
        ((ElementKind.float 4 8 23).numbers (v.bytes mv)).set j (binary32 p) ∧
      match binary64 x with
      | .nan => binary32 p = .nan
      | .infinity s => binary32 p = .infinity s
      | .number s q => (|q| < 2 ^ 128 - 2 ^ 103 → IsNearest binary32 32 s q p) ∧
          (2 ^ 128 - 2 ^ 103 ≤ |q| → binary32 p = .infinity s) := by
  have hk : kindOf v.tag = some (.float 4 8 23) := by rw [hv]; rfl
  have ht : v.tag.elem = some .float32 := by rw [hv]; rfl
  have hc := pack_cases .float32 x
  have hd : dvPack cpythonConv .float32 (.float x) = packFloat (cpythonConv.pack32 x) := rfl
  have hm : mvPack cpythonConv .float32 (.float x) = .ok (mvPack.packOrInf cpythonConv x) := rfl
  have hok : ∀ b, dvPack cpythonConv .float32 (.float x) = .ok b → mvPack cpythonConv .float32 (.float x) = .ok b := by
    intro b hb
    rw [hd] at hb
    rw [hm, mvPack.packOrInf]
    cases hp : cpythonConv.pack32 x with
    | none => rw [hp] at hb; cases hb
    | some b' => rw [hp] at hb; cases hb; rfl
  have herr : ∀ e, dvPack cpythonConv .float32 (.float x) = .error e →
      mvPack cpythonConv .float32 (.float x) = .ok ((if fSign x.toNat then 2 ^ 31 else 0) + b32.inf) := by
    intro e hb
    rw [hd] at hb
    rw [hm, mvPack.packOrInf]
    cases hp : cpythonConv.pack32 x with
    | none => rfl
    | some b' => rw [hp] at hb; cases hb
  cases hb : binary64 x with
  | nan =>
    rw [hb] at hc
    obtain ⟨p, p1, p2, p3⟩ := hc
    obtain ⟨mv', m1, m2, m3⟩ := set_stored hk ht mv i (.float x) j p hj (hok _ p2) p1
    exact ⟨mv', p, m1, m2, m3, p3⟩
  | infinity s =>
    rw [hb] at hc
    obtain ⟨p, p1, p2, p3⟩ := hc
    obtain ⟨mv', m1, m2, m3⟩ := set_stored hk ht mv i (.float x) j p hj (hok _ p2) p1
    exact ⟨mv', p, m1, m2, m3, p3⟩
  | number s q =>
    rw [hb] at hc
    by_cases hq : |q| < 2 ^ 128 - 2 ^ 103
    · obtain ⟨p, p2, p3⟩ := hc.1 hq
      obtain ⟨mv', m1, m2, m3⟩ := set_stored hk ht mv i (.float x) j p hj (hok _ p2) p3.1
      exact ⟨mv', p, m1, m2, m3, fun _ => p3, fun h => absurd hq (not_lt.2 h)⟩
    · have hs : fSign x.toNat = s := by
        rw [Fmt.binary64_eq] at hb
        split at hb
        · split at hb <;> cases hb
        · injection hb
      have hp := herr _ (hc.2 (not_lt.1 hq))
      rw [hs] at hp
      obtain ⟨mv', m1, m2, m3⟩ := set_stored hk ht mv i (.float x) j _ hj hp (by cases s <;> decide)
      exact ⟨mv', _, m1, m2, m3, fun h => absurd h hq, fun _ => inf32 s⟩

/-- C63: in a JSFloat16Array a float is stored as the nearest half precision number with its sign; infinity and NaN are
stored as such. Nothing else changes. Numbers too big raise ValueError. Missing: JavaScript stores those as
infinity. -/
theorem C63_set_float16_partial (v : View) (hv : v.tag = .float16) (mv : Bytes) (i : Int) (j : Nat)
    (hj : Position ((ElementKind.float 2 5 10).numbers (v.bytes mv)).length i j) (x : F64) :
    (∃ s q, binary64 x = .number s q ∧ 65520 ≤ |q| ∧
      typedSet cpythonConv .float16 false v mv i (.float x) = (mv, some .valueError)) ∨
    ∃ mv' p, typedSet cpythonConv .float16 false v mv i (.float x) = (mv', none) ∧
      Stored mv mv' (v.byteOffset mv + j * 2) 2 p ∧
      (ElementKind.float 2 5 10).numbers (v.bytes mv') =
        ((ElementKind.float 2 5 10).numbers (v.bytes mv)).set j (binary16 p) ∧
      match binary64 x with
      | .nan => binary16 p = .nan
      | .infinity s => binary16 p = .infinity s
      | .number s q => |q| < 65520 ∧ IsNearest binary16 16 s q p := by
  have hk : kindOf v.tag = some (.float 2 5 10) := by rw [hv]; rfl
  have ht : v.tag.elem = some .float16 := by rw [hv]; rfl
  have hc := pack_cases .float16 x
  have hd : dvPack cpythonConv .float16 (.float x) = packFloat (cpythonConv.pack16 x) := rfl
  have hok : ∀ b, dvPack cpythonConv .float16 (.float x) = .ok b → mvPack cpythonConv .float16 (.float x) = .ok b := by
    intro b hb
    rw [hd] at hb
    simp only [mvPack]
    cases hp : cpythonConv.pack16 x with
    | none => rw [hp] at hb; cases hb
    | some b' => rw [hp] at hb; cases hb; rfl
  have herr : ∀ e, dvPack cpythonConv .float16 (.float x) = .error e →
      mvPack cpythonConv .float16 (.float x) = .error .valueError := by
    intro e hb
    rw [hd] at hb
    simp only [mvPack]
    cases hp : cpythonConv.pack16 x with
    | none => rfl
    | some b' => rw [hp] at hb; cases hb
  cases hb : binary64 x with
  | nan =>
    rw [hb] at hc
    obtain ⟨p, p1, p2, p3⟩ := hc
    obtain ⟨mv', m1, m2, m3⟩ := set_stored hk ht mv i (.float x) j p hj (hok _ p2) p1
    exact .inr ⟨mv', p, m1, m2, m3, p3⟩
  | infinity s =>
    rw [hb] at hc
    obtain ⟨p, p1, p2, p3⟩ := hc
    obtain ⟨mv', m1, m2, m3⟩ := set_stored hk ht mv i (.float x) j p hj (hok _ p2) p1
    exact .inr ⟨mv', p, m1, m2, m3, p3⟩
  | number s q =>
    rw [hb] at hc
    by_cases hq : |q| < 65520
    · obtain ⟨p, p2, p3⟩ := hc.1 hq
      obtain ⟨mv', m1, m2, m3⟩ := set_stored hk ht mv i (.float x) j p hj (hok _ p2) p3.1
      exact .inr ⟨mv', p, m1, m2, m3, hq, p3⟩
    · refine .inl ⟨s, q, rfl, not_lt.1 hq, set_refused mv i _ _ ⟨j, ?_⟩ (herr _ (hc.2 (not_lt.1 hq)))⟩
      obtain ⟨h1, h2⟩ := hj
      rw [numbers_length] at h1 h2
      have hn : (ElementKind.float 2 5 10).size = DVType.float16.size := rfl
      rw [hn] at h1 h2
      exact mvIndex_some.2 ⟨h1, by unfold elemCount; omega⟩

/-- 0.1 in single precision, 1e39 as infinity, and 70000.0 in half precision. -/
example : typedSet cpythonConv .float32 false ⟨.float32, 0, none⟩ [0, 0, 0, 0] 0 (.float 0x3fb999999999999a) =
      ([0xcd, 0xcc, 0xcc, 0x3d], none) ∧
    typedSet cpythonConv .float32 false ⟨.float32, 0, none⟩ [0, 0, 0, 0] 0 (.float 0x48078287f49c4a1d) =
      ([0, 0, 0x80, 0x7f], none) ∧
    typedSet cpythonConv .float16 false ⟨.float16, 0, none⟩ [0, 0] 0 (.float 0x40f1170000000000) =
      ([0, 0], some .valueError) := by decide +kernel

theorem typedSet_int (c : FloatConv) (t : DVType) (ht : t = .float16 ∨ t = .float32 ∨ t = .float64) (v : View) (mv : Bytes)
    (i : Int) (n : Int) :
    (∀ x, c.ofInt n = some x → typedSet c t false v mv i (.int n) = typedSet c t false v mv i (.float x)) ∧
    (c.ofInt n = none → (∃ j, Position (elemCount t (v.bytes mv)) i j) →
      typedSet c t false v mv i (.int n) = (mv, some .valueError)) := by
  constructor
  · intro x hx
    have : mvPack c t (.int n) = mvPack c t (.float x) := by
      rcases ht with rfl | rfl | rfl <;> simp only [mvPack, hx]
    simp only [typedSet, this]
  · rintro hx ⟨j, hj1, hj2⟩
    have hm : mvIndex (elemCount t (v.bytes mv)) i = some j := mvIndex_some.2 ⟨hj1, by omega⟩
    have : mvPack c t (.int n) = .error .valueError := by
      rcases ht with rfl | rfl | rfl <;> simp only [mvPack, hx]
    simp [typedSet, this, hm]

/-- C63: an int given to a float array is first turned into the nearest double; ints too big for a double raise
ValueError. -/
theorem C63_set_float_int (t : DVType) (ht : t = .float16 ∨ t = .float32 ∨ t = .float64) (v : View) (mv : Bytes) (i : Int)
    (hi : ∃ j, Position ((v.bytes mv).length / t.size) i j) (n : Int) :
    ((n.natAbs : ℚ) < 2 ^ 1024 - 2 ^ 970 → ∃ x : F64, IsNearest (ieee 11 52) 64 (decide (n < 0)) n x.toNat ∧
      typedSet cpythonConv t false v mv i (.int n) = typedSet cpythonConv t false v mv i (.float x)) ∧
    (2 ^ 1024 - 2 ^ 970 ≤ (n.natAbs : ℚ) → typedSet cpythonConv t false v mv i (.int n) = (mv, some .valueError)) := by
  have ho : cpythonConv.ofInt = floatOfInt := rfl
  obtain ⟨h2, h3⟩ := floatOfInt_nearest n
  obtain ⟨g1, g2⟩ := typedSet_int cpythonConv t ht v mv i n
  refine ⟨fun hn => ?_, fun hn => g2 (by rw [ho]; exact h3 hn) hi⟩
  obtain ⟨x, hx, hnear⟩ := h2 hn
  exact ⟨x, hnear, g1 x (by rw [ho]; exact hx)⟩

example : ∃ j, Position (((⟨.float32, 0, none⟩ : View).bytes [0, 0, 0, 0]).length / DVType.float32.size) (-1) j :=
  ⟨0, by decide, .inr rfl⟩

/-! ### Equality and hash -/

theorem numOf_toVal (x : DVVal) : ∃ f, numOf x.toVal = some f ∧
    (f = .nan ∧ meaning x = .nan ∨ (∃ s, f = .inf s ∧ meaning x = .infinity s) ∨
      ∃ (n : Int) (s : Bool), f = .fin n ∧ meaning x = .number s ((n : ℚ) / 2 ^ 1074)) := by
  cases x with
  | int n =>
    refine ⟨.fin (n * 2 ^ 1074), rfl, .inr (.inr ⟨n * 2 ^ 1074, decide (n < 0), rfl, ?_⟩)⟩
    unfold meaning
    congr 1
    have hk : ((n * 2 ^ 1074 : Int) : ℚ) = (n : ℚ) * (2 : ℚ) ^ 1074 := by rw [Int.cast_mul, Int.cast_pow]; rfl
    rw [hk]
    have hp : (2 : ℚ) ^ 1074 ≠ 0 := pow_ne_zero _ (by norm_num)
    generalize (2 : ℚ) ^ 1074 = K at hp
    field_simp
  | float x =>
    refine ⟨fval x, rfl, ?_⟩
    show _ ∨ (∃ s, _ ∧ binary64 x = _) ∨ ∃ n s, _ ∧ binary64 x = _
    rw [show meaning (.float x) = binary64 x from rfl, Fmt.binary64_eq]
    unfold fval
    by_cases he : fExp x.toNat = 2047
    · rw [if_pos he, if_pos he]
      by_cases hf : fFrac x.toNat = 0
      · rw [if_pos hf, if_pos hf]; exact .inr (.inl ⟨_, rfl, rfl⟩)
      · rw [if_neg hf, if_neg hf]; exact .inl ⟨rfl, rfl⟩
    · rw [if_neg he, if_neg he]
      refine .inr (.inr ⟨_, fSign x.toNat, rfl, ?_⟩)
      congr 1
      unfold Fmt.signed
      generalize (2 : ℚ) ^ 1074 = K
      cases fSign x.toNat <;> simp [neg_div]

theorem numOf_same (x y : DVVal) : scalarEq x.toVal y.toVal = true ↔ SameNumber (meaning x) (meaning y) := by
  obtain ⟨f, f1, f2⟩ := numOf_toVal x
  obtain ⟨g, g1, g2⟩ := numOf_toVal y
  have hp : (2 : ℚ) ^ 1074 ≠ 0 := pow_ne_zero _ (by norm_num)
  generalize (2 : ℚ) ^ 1074 = K at hp f2 g2
  unfold scalarEq
  rw [f1, g1]
  simp only [decide_eq_true_eq]
  rcases f2 with ⟨rfl, h⟩ | ⟨s, rfl, h⟩ | ⟨n, s, rfl, h⟩ <;> rw [h] <;>
    rcases g2 with ⟨rfl, h'⟩ | ⟨s', rfl, h'⟩ | ⟨n', s', rfl, h'⟩ <;> rw [h'] <;>
    simp only [ne_eq, not_true, false_and, reduceCtorEq, not_false_eq_true, true_and, FVal.inf.injEq, FVal.fin.injEq,
      false_iff, and_false]
  all_goals first
    | (intro h; cases h)
    | skip
  · exact ⟨fun h => by subst h; exact .infinity, fun h => by cases h; rfl⟩
  · refine ⟨fun h => by subst h; exact .number, fun h => ?_⟩
    generalize hq : (n : ℚ) / K = q at h
    generalize hq' : (n' : ℚ) / K = q' at h
    cases h
    rw [← hq', div_left_inj' hp] at hq
    exact_mod_cast hq

theorem mvEq_iff (a b : List DVVal) : mvEq a b = true ↔ List.Forall₂ SameNumber (a.map meaning) (b.map meaning) := by
  induction a generalizing b with
  | nil => cases b <;> simp [mvEq]
  | cons x a ih =>
    cases b with
    | nil => simp [mvEq]
    | cons y b =>
      rw [List.map_cons, List.map_cons, List.forall₂_cons, ← ih, ← numOf_same]
      unfold mvEq
      simp only [List.length_cons, List.zip_cons_cons, List.all_cons, Bool.and_eq_true, beq_iff_eq, Nat.add_right_cancel_iff]
      tauto

/-- C63: two typed arrays, of whatever classes, are equal if they have the same number of elements, and these are pairwise
the same numbers. An array whose buffer is not accessible counts as empty. -/
theorem C63_eq {k₁ k₂ : ElementKind} {t₁ t₂ : DVType} (v w : View) (hk₁ : kindOf v.tag = some k₁) (ht₁ : v.tag.elem = some t₁)
    (hk₂ : kindOf w.tag = some k₂) (ht₂ : w.tag.elem = some t₂) (mv nv : Option Bytes) :
    typedEq cpythonConv t₁ t₂ v w mv nv = true ↔
      List.Forall₂ SameNumber (k₁.numbers (v.bytes (mv.getD []))) (k₂.numbers (w.bytes (nv.getD []))) := by
  rw [numbers_eq hk₁ ht₁, numbers_eq hk₂ ht₂, ← mvEq_iff]
  cases mv <;> cases nv <;> rfl

/-- `JSUint8Array(b'\x01\x02') == JSInt16Array(b'\x01\x00\x02\x00')`, and 0.0 equals -0.0; NaN does not equal itself. -/
example : typedEq cpythonConv .uint8 .int16 ⟨.uint8, 0, none⟩ ⟨.int16, 0, none⟩ (some [1, 2]) (some [1, 0, 2, 0]) = true ∧
    typedEq cpythonConv .float16 .float16 ⟨.float16, 0, none⟩ ⟨.float16, 0, none⟩ (some [0, 0]) (some [0, 0x80]) = true ∧
    typedEq cpythonConv .float16 .float16 ⟨.float16, 0, none⟩ ⟨.float16, 0, none⟩ (some [0, 0x7e]) (some [0, 0x7e]) = false := by
  decide +kernel

/-- C63: arrays whose buffers are shared with another process, and so not accessible, are all equal to each other, although
nothing is known of their contents. -/
theorem C63_inaccessible_equal (c : FloatConv) (t u : DVType) (v w : View) : typedEq c t u v w none none = true := by
  have h : ∀ v : View, v.bytes [] = [] := by
    intro v
    have := (region_window v []).choose_spec.choose_spec.1
    exact (List.append_eq_nil_iff.1 (List.append_eq_nil_iff.1 this.symm).1).2
  simp only [typedEq, View.dataOf, h]
  have he : ∀ t : DVType, elements c t [] = [] := by intro t; simp [elements, elemCount]
  rw [he, he]
  rfl

/-- C63: a view equal to another one can have other bytes, hence another hash. -/
theorem C63_equal_not_same_hash (h : Bytes → Int) (hh : Function.Injective h) :
    (typedEq cpythonConv .uint8 .uint16 ⟨.uint8, 0, none⟩ ⟨.uint16, 0, none⟩ (some [1]) (some [1, 0]) = true ∧
      viewHash h ⟨.uint8, 0, none⟩ (some [1]) true ≠ viewHash h ⟨.uint16, 0, none⟩ (some [1, 0]) true) ∧
    (typedEq cpythonConv .float16 .float16 ⟨.float16, 0, none⟩ ⟨.float16, 0, none⟩ (some [0, 0]) (some [0, 0x80]) = true ∧
      viewHash h ⟨.float16, 0, none⟩ (some [0, 0]) true ≠ viewHash h ⟨.float16, 0, none⟩ (some [0, 0x80]) true) := by
  refine ⟨⟨by decide +kernel, fun he => ?_⟩, by decide +kernel, fun he => ?_⟩ <;>
  · injection he with he
    exact absurd (hh he) (by decide)

theorem sameNumber_number {s s' : Bool} {q q' : ℚ} (h : SameNumber (.number s q) (.number s' q')) : q = q' := by
  cases h; rfl

theorem value_inj {tag : ViewTag} {kind : ElementKind} (h : kindOf tag = some kind) (hint : ∀ k e f, kind ≠ .float k e f)
    {p q : Nat} (hp : p < 256 ^ kind.size) (hq : q < 256 ^ kind.size) (heq : SameNumber (kind.value p) (kind.value q)) : p = q := by
  have hs : ∀ k, 0 < k → p < 256 ^ k → q < 256 ^ k → SameNumber ((ElementKind.signed k).value p) ((ElementKind.signed k).value q) → p = q := by
    intro k hk hp hq heq
    have h256 : (256 : Nat) ^ k = 2 ^ (8 * k) := by rw [show (256 : Nat) = 2 ^ 8 by decide, ← Nat.pow_mul]
    rw [h256] at hp hq
    have hp' : (p : ℚ) < 2 ^ (8 * k) := by exact_mod_cast hp
    have hq' : (q : ℚ) < 2 ^ (8 * k) := by exact_mod_cast hq
    have hp0 : (0 : ℚ) ≤ p := by positivity
    have hq0 : (0 : ℚ) ≤ q := by positivity
    have hx := sameNumber_number heq
    have : (p : ℚ) = q := by
      split at hx <;> split at hx <;> linarith
    exact_mod_cast this
  have hu : ∀ k, SameNumber ((ElementKind.unsigned k).value p) ((ElementKind.unsigned k).value q) → p = q := by
    intro k heq
    have hx := sameNumber_number heq
    exact_mod_cast hx
  cases tag <;> cases h <;>
    first
    | exact absurd rfl (hint _ _ _)
    | exact hu _ heq
    | exact hs _ (by decide) hp hq heq

theorem region_multiple {kind : ElementKind} (v : View) (hk : kindOf v.tag = some kind) (mv : Bytes) :
    kind.size ∣ (v.bytes mv).length := by
  have hs : v.tag.size = kind.size := by
    revert hk
    cases v.tag <;> intro h <;> cases h <;> rfl
  unfold View.bytes View.region
  rw [hs]
  cases v.itemLength with
  | some n =>
    simp only
    by_cases h : v.itemOffset * kind.size + n * kind.size > mv.length
    · simp only [if_pos h]; simp
    · simp only [if_neg h]
      rw [List.length_take, List.length_drop, Nat.min_eq_left (by omega)]
      exact Dvd.intro_left _ rfl
  | none =>
    simp only
    rw [List.length_take, List.length_drop]
    by_cases h : v.itemOffset * kind.size ≤ mv.length
    · rw [Nat.min_eq_left (by exact Nat.div_mul_le_self _ _)]
      exact Dvd.intro_left _ rfl
    · rw [Nat.sub_eq_zero_of_le (by omega)]
      simp

/-- C63: equal arrays with the same kind of integers have the same bytes, hence the same hash. Missing: arrays of
different kinds, and floats, where it is false (`C63_equal_not_same_hash`). -/
theorem C63_equal_same_hash_partial {kind : ElementKind} {t : DVType} (v w : View) (hk₁ : kindOf v.tag = some kind)
    (ht₁ : v.tag.elem = some t) (hk₂ : kindOf w.tag = some kind) (ht₂ : w.tag.elem = some t)
    (hint : ∀ k e f, kind ≠ .float k e f) (mv nv : Option Bytes) (h : Bytes → Int) (hashable : Bool)
    (heq : typedEq cpythonConv t t v w mv nv = true) :
    v.bytes (mv.getD []) = w.bytes (nv.getD []) ∧ viewHash h v mv hashable = viewHash h w nv hashable := by
  have key : v.bytes (mv.getD []) = w.bytes (nv.getD []) := by
    rw [C63_eq v w hk₁ ht₁ hk₂ ht₂] at heq
    have d1 := region_multiple v hk₁ (mv.getD [])
    have d2 := region_multiple w hk₂ (nv.getD [])
    generalize v.bytes (mv.getD []) = r at heq d1
    generalize w.bytes (nv.getD []) = r' at heq d2
    have hl := heq.length_eq
    rw [numbers_length, numbers_length] at hl
    have hlen : r.length = r'.length := by
      rw [← Nat.div_mul_cancel d1, hl, Nat.div_mul_cancel d2]
    have hpos : 0 < kind.size := by
      have := DVType.size_pos t
      obtain ⟨t', e1, e2, -⟩ := kind_elem hk₁
      rw [ht₁] at e1
      cases e1
      omega
    have hsame : ∀ j, j < r.length / kind.size →
        bytesAt r (j * kind.size : Nat) kind.size = bytesAt r' (j * kind.size : Nat) kind.size := by
      intro j hj
      have hb : ∀ r : Bytes, j < r.length / kind.size → (bytesAt r (j * kind.size : Nat) kind.size).length = kind.size := by
        intro r hj
        have h1 : (j + 1) * kind.size ≤ r.length / kind.size * kind.size := Nat.mul_le_mul_right _ hj
        have h2 := Nat.div_mul_le_self r.length kind.size
        have h3 : (j + 1) * kind.size = j * kind.size + kind.size := Nat.succ_mul _ _
        unfold bytesAt
        rw [Int.toNat_natCast, List.length_take, List.length_drop]
        omega
      have b1 := hb r hj
      have b2 := hb r' (by rw [← hlen]; exact hj)
      have g := heq.get (i := j) (by rw [numbers_length]; exact hj) (by rw [numbers_length, ← hlen]; exact hj)
      simp only [ElementKind.numbers, List.get_eq_getElem, List.getElem_map, List.getElem_range] at g
      have l1 := pattern_lt true (bytesAt r (j * kind.size : Nat) kind.size)
      have l2 := pattern_lt true (bytesAt r' (j * kind.size : Nat) kind.size)
      rw [b1] at l1
      rw [b2] at l2
      have := value_inj hk₁ hint l1 l2 g
      rw [pattern_eq, pattern_eq] at this
      have a1 := toLE_fromLE (bytesAt r (j * kind.size : Nat) kind.size)
      have a2 := toLE_fromLE (bytesAt r' (j * kind.size : Nat) kind.size)
      rw [b1] at a1
      rw [b2] at a2
      rw [← a1, ← a2]
      exact congrArg _ this
    apply List.ext_getElem?
    intro k
    by_cases hk : k < r.length
    · have hj : k / kind.size < r.length / kind.size := by
        rw [Nat.div_lt_iff_lt_mul hpos, Nat.div_mul_cancel d1]; exact hk
      have hm := Nat.mod_lt k hpos
      have hdm : k / kind.size * kind.size + k % kind.size = k := Nat.div_add_mod' k kind.size
      have := congrArg (·[k % kind.size]?) (hsame _ hj)
      simp only [bytesAt, Int.toNat_natCast, List.getElem?_take_of_lt hm, List.getElem?_drop, hdm] at this
      exact this
    · rw [List.getElem?_eq_none (by omega), List.getElem?_eq_none (by omega)]
  refine ⟨key, ?_⟩
  have hd : ∀ (v : View) (mv : Option Bytes), v.dataOf mv = v.bytes (mv.getD []) := by
    intro v mv; cases mv <;> rfl
  unfold viewHash
  rw [hd, hd, key]

example : typedEq cpythonConv .int16 .int16 ⟨.int16, 1, none⟩ ⟨.int16, 0, some 1⟩ (some [9, 9, 0xfe, 0xff]) (some [0xfe, 0xff, 7, 7]) = true := by
  decide +kernel

/-! ### Float16 arrays before Python 3.12 -/

theorem halves_numbers (r : Bytes) : (ElementKind.float 2 5 10).numbers r = (halves r).map binary16 := by
  unfold ElementKind.numbers halves
  rw [List.map_map]
  apply List.map_congr_left
  intro j _
  show binary16 (pattern true _) = binary16 _
  rw [pattern_eq]
  rfl

theorem enter_halves (r : Bytes) : backportEnter cpythonConv r =
    (halves r).map (fun b => mvPack.packOrInf cpythonConv (b16.unpack false b)) := by
  unfold backportEnter
  rw [(halves_elements r).2, List.map_map]
  rfl

/-- C63: in the block of a BackportJSFloat16Array the elements are the same numbers as in the array, now in single
precision. -/
theorem C63_backport_read (v : View) (mv : Bytes) :
    (backportEnter cpythonConv (v.bytes mv)).map binary32 = (ElementKind.float 2 5 10).numbers (v.bytes mv) := by
  rw [enter_halves, halves_numbers, List.map_map]
  apply List.map_congr_left
  intro b hb
  have hb := halves_lt _ b hb
  show binary32 (mvPack.packOrInf cpythonConv (b16.unpack false b)) = binary16 b
  have m2 : binary64 (b16.unpack false b) = binary16 b :=
    Fmt.unpack_meaning Fmt.b16_is (by decide) (by decide) false b hb
  by_cases hnan : binary16 b = .nan
  · have hc := Fmt.pack_meaning Fmt.b32_is (by decide) (by decide) (by decide) true (b16.unpack false b)
    rw [m2, hnan] at hc
    obtain ⟨p, _, p2, p3⟩ := hc
    rw [hnan]
    unfold mvPack.packOrInf
    rw [show cpythonConv.pack32 = b32.pack true from rfl, p2]
    exact p3
  · obtain ⟨B, hB, hm⟩ := Fmt.half_single b hb hnan
    have hn' : ieee 8 23 B ≠ .nan := by show binary32 B ≠ _; rw [hm]; exact hnan
    have m1 := Fmt.unpack_meaning Fmt.b32_is (by decide) (by decide) true B hB
    have hx : b32.unpack true B = b16.unpack false b := binary64_inj _ _ (by rw [m1, m2]; exact hm) (by rw [m1]; exact hn')
    have hp := Fmt.pack_unpack Fmt.b32_is (by decide) (by decide) true B hB hn'
    have hq : mvPack.packOrInf cpythonConv (b16.unpack false b) = B := by
      unfold mvPack.packOrInf
      rw [← hx, show cpythonConv.pack32 = b32.pack true from rfl, hp]
    rw [hq, hm]

/-- C63: a block of assignments to a BackportJSFloat16Array leaves the buffer as the same block on the JSFloat16Array of
Python 3.12 does, if no element is NaN, the indexes exist, and the values are half precision numbers. Missing: NaNs
(`C63_backport_changes_nan`), values that have to be rounded (`C63_backport_rounds_twice`), and blocks that
raise (`C63_backport_overflow`, `C63_backport_loses_edits`). -/
theorem C63_backport_native_partial (v : View) (hv : v.tag = .float16) (mv : Bytes) (edits : List (Int × DVVal))
    (hnan : Ieee.nan ∉ (ElementKind.float 2 5 10).numbers (v.bytes mv))
    (hi : ∀ p ∈ edits, ∃ j, Position ((ElementKind.float 2 5 10).numbers (v.bytes mv)).length p.1 j)
    (hx : ∀ p ∈ edits, ∃ x, p.2 = .float x ∧ ∃ b < 2 ^ 16, binary64 x = binary16 b ∧ binary16 b ≠ .nan) :
    backportBlock cpythonConv false v mv edits = nativeBlock cpythonConv false v mv edits := by
  have hk : kindOf v.tag = some (.float 2 5 10) := by rw [hv]; rfl
  obtain ⟨n, hn⟩ := region_multiple v hk mv
  have hn : (v.bytes mv).length = 2 * n := hn
  have hview : (backportEnter cpythonConv (v.bytes mv)).map (fun b => b16.pack false (b32.unpack true b)) =
      (halves (v.bytes mv)).map some := by
    rw [enter_halves, List.map_map]
    apply List.map_congr_left
    intro b hb
    refine (half_through b (halves_lt _ b hb) (fun h => hnan ?_)).1
    rw [halves_numbers]
    exact List.mem_map.2 ⟨b, hb, h⟩
  obtain ⟨view', mv', r1, r2, r3, r4, _⟩ := blocks_agree v hv n edits mv _ hn hview (by
    intro p hp
    obtain ⟨j, h1, h2⟩ := hi p hp
    obtain ⟨x, h3, b, h4, h5, h6⟩ := hx p hp
    have hl : ((ElementKind.float 2 5 10).numbers (v.bytes mv)).length = n := by
      rw [numbers_length, hn]; show 2 * n / 2 = n; omega
    rw [hl] at h1 h2
    refine ⟨⟨j, mvIndex_some.2 ⟨h1, by omega⟩⟩, x, h3, b, h4, h6, ?_⟩
    have m2 : binary64 (b16.unpack false b) = binary16 b :=
      Fmt.unpack_meaning Fmt.b16_is (by decide) (by decide) false b h4
    exact binary64_inj _ _ (by rw [m2, h5]) (by rw [h5]; exact h6))
  rw [r2]
  simp only [backportBlock, r1, r3, Bool.false_eq_true, if_false]
  rw [← r4]

/-- 1.5 and -2.0 stored in an array of 1.0, 0.5 and 1.0, at indexes 0 and -1. -/
example : backportBlock cpythonConv false ⟨.float16, 0, none⟩ [0, 0x3c, 0, 0x38, 0, 0x3c]
      [(0, .float 0x3ff8000000000000), (-1, .float 0xc000000000000000)] = ([0, 0x3e, 0, 0x38, 0, 0xc0], none) ∧
    nativeBlock cpythonConv false ⟨.float16, 0, none⟩ [0, 0x3c, 0, 0x38, 0, 0x3c]
      [(0, .float 0x3ff8000000000000), (-1, .float 0xc000000000000000)] = ([0, 0x3e, 0, 0x38, 0, 0xc0], none) := by
  decide +kernel

/-- C63: opening a BackportJSFloat16Array and doing nothing replaces the payload of a NaN. -/
theorem C63_backport_changes_nan :
    backportBlock cpythonConv false ⟨.float16, 0, none⟩ [1, 0x7e] [] = ([0, 0x7e], none) ∧
    nativeBlock cpythonConv false ⟨.float16, 0, none⟩ [1, 0x7e] [] = ([1, 0x7e], none) := by decide +kernel

/-- C63: 1 + 2^-11 + 2^-30 is nearest to 1 + 2^-10; the BackportJSFloat16Array rounds it to 1 + 2^-11 first, then to 1. -/
theorem C63_backport_rounds_twice :
    backportBlock cpythonConv false ⟨.float16, 0, none⟩ [0, 0] [(0, .float 0x3ff0020000400000)] = ([0, 0x3c], none) ∧
    nativeBlock cpythonConv false ⟨.float16, 0, none⟩ [0, 0] [(0, .float 0x3ff0020000400000)] = ([1, 0x3c], none) := by
  decide +kernel

/-- C63: 70000.0 assigned to the second of three elements: the JSFloat16Array refuses it with ValueError. The
BackportJSFloat16Array raises OverflowError when the block is left, when the first element has been written, and
the second is zero. -/
theorem C63_backport_overflow :
    backportBlock cpythonConv false ⟨.float16, 0, none⟩ [0, 0x3c, 0, 0x3c, 0, 0x3c]
      [(0, .float 0x3ff8000000000000), (1, .float 0x40f1170000000000), (2, .float 0x3ff8000000000000)] =
      ([0, 0x3e, 0, 0, 0, 0x3c], some .overflowError) ∧
    nativeBlock cpythonConv false ⟨.float16, 0, none⟩ [0, 0x3c, 0, 0x3c, 0, 0x3c]
      [(0, .float 0x3ff8000000000000), (1, .float 0x40f1170000000000), (2, .float 0x3ff8000000000000)] =
      ([0, 0x3e, 0, 0x3c, 0, 0x3c], some .valueError) := by decide +kernel

/-- C63: when the block raises after an assignment, the BackportJSFloat16Array does not keep the assignment. -/
theorem C63_backport_loses_edits :
    backportBlock cpythonConv false ⟨.float16, 0, none⟩ [0, 0x3c] [(0, .float 0x3ff8000000000000), (1, .float 0)] =
      ([0, 0x3c], some .indexError) ∧
    nativeBlock cpythonConv false ⟨.float16, 0, none⟩ [0, 0x3c] [(0, .float 0x3ff8000000000000), (1, .float 0)] =
      ([0, 0x3e], some .indexError) := by decide +kernel

end V8.Props
