import Verif.Model.TypedArray
import Verif.Props.FloatConv

/-! Lemmas about the elements of typed arrays. -/

namespace V8
open V8.Spec V8.Props

theorem DVType.size_pos (t : DVType) : 0 < t.size := by cases t <;> decide

theorem elem_size {tag : ViewTag} {t : DVType} (h : tag.elem = some t) : t.size = tag.size := by
  cases tag <;> cases h <;> rfl

/-- The region of a view is a window of the buffer at the view's byte offset. -/
theorem region_window (v : View) (mv : Bytes) :
    ∃ pre post, mv = pre ++ v.bytes mv ++ post ∧ pre.length = v.byteOffset mv := by
  obtain ⟨r1, r2, -⟩ := C36_region_inside v mv
  cases hir : v.isInRange mv with
  | true =>
    obtain ⟨pre, post, h1, h2⟩ := r1 hir
    exact ⟨pre, post, h1, by simp [View.byteOffset, hir, h2]⟩
  | false =>
    exact ⟨[], mv, by simp [r2 hir], by simp [View.byteOffset, hir]⟩

/-- Offset and extent of the region depend only on the length of the buffer. -/
theorem region_same (v : View) (mv m : Bytes) (hm : m.length = mv.length) :
    v.byteOffset m = v.byteOffset mv ∧
      v.bytes m = (m.drop (v.byteOffset mv)).take (v.bytes mv).length := by
  unfold View.byteOffset View.isInRange View.bytes View.region
  simp only [hm]
  cases v.itemLength with
  | some n =>
    simp only
    by_cases h : v.itemOffset * v.tag.size + n * v.tag.size > mv.length
    · simp only [if_pos h]; simp
    · simp only [if_neg h]
      have hle : v.itemOffset * v.tag.size ≤ mv.length := by omega
      simp only [decide_eq_true hle, if_true, true_and]
      rw [List.length_take, List.length_drop, Nat.min_eq_left (by omega)]
  | none =>
    simp only
    by_cases h : v.itemOffset * v.tag.size > mv.length
    · simp only [if_pos h]
      rw [Nat.sub_eq_zero_of_le (by omega)]
      simp
    · simp only [if_neg h]
      have hle : v.itemOffset * v.tag.size ≤ mv.length := by omega
      simp only [decide_eq_true hle, if_true, true_and]
      rw [List.length_take, List.length_drop, Nat.min_eq_left (Nat.div_mul_le_self _ _)]

/-- Writing inside the region. -/
theorem region_overwrite (v : View) (mv : Bytes) (a : Nat) (bs : Bytes)
    (h : a + bs.length ≤ (v.bytes mv).length) :
    v.byteOffset mv + (v.bytes mv).length ≤ mv.length ∧
    v.byteOffset (overwrite mv (v.byteOffset mv + a) bs) = v.byteOffset mv ∧
    v.bytes (overwrite mv (v.byteOffset mv + a) bs) = overwrite (v.bytes mv) a bs := by
  obtain ⟨pre, post, h1, h2⟩ := region_window v mv
  have hlen : mv.length = pre.length + (v.bytes mv).length + post.length := by
    conv => lhs; rw [h1]
    simp only [List.length_append]
  have hol := overwrite_length mv (v.byteOffset mv + a) bs (by omega)
  obtain ⟨s1, s2⟩ := region_same v mv _ hol
  refine ⟨by omega, s1, ?_⟩
  rw [s2]
  have key : overwrite mv (v.byteOffset mv + a) bs = pre ++ overwrite (v.bytes mv) a bs ++ post := by
    generalize hr : v.bytes mv = r at h1 h
    unfold overwrite
    rw [← h2, h1, List.append_assoc pre r post]
    rw [List.take_length_add_append, Nat.add_assoc, List.drop_length_add_append]
    rw [List.take_append_of_le_length (by omega), List.drop_append_of_le_length (by omega)]
    simp only [List.append_assoc]
  have hl : (overwrite (v.bytes mv) a bs).length = (v.bytes mv).length := overwrite_length _ _ _ h
  rw [key, ← h2, List.append_assoc, List.drop_left, ← hl, List.take_left]

theorem elements_length (c : FloatConv) (t : DVType) (r : Bytes) :
    (elements c t r).length = elemCount t r := by simp [elements]

theorem elements_get (c : FloatConv) (t : DVType) (r : Bytes) (j : Nat) (h : j < elemCount t r) :
    (elements c t r)[j]? = some (elemAt c t r j) := by
  simp [elements, h]

theorem elem_bound (t : DVType) (r : Bytes) (j : Nat) (h : j < elemCount t r) :
    j * t.size + t.size ≤ r.length := by
  unfold elemCount at h
  have h1 : (j + 1) * t.size ≤ r.length / t.size * t.size := Nat.mul_le_mul_right _ h
  have h2 := Nat.div_mul_le_self r.length t.size
  have h3 : (j + 1) * t.size = j * t.size + t.size := Nat.succ_mul _ _
  omega

/-- Overwriting one element. -/
theorem elements_overwrite (c : FloatConv) (t : DVType) (r : Bytes) (j bits : Nat)
    (h : j < elemCount t r) (hb : bits < 256 ^ t.size) :
    elements c t (overwrite r (j * t.size) (toLE t.size bits)) = (elements c t r).set j (dvUnpack c t bits) := by
  have hbd := elem_bound t r j h
  have hl : (overwrite r (j * t.size) (toLE t.size bits)).length = r.length :=
    overwrite_length _ _ _ (by simpa using hbd)
  have hc : elemCount t (overwrite r (j * t.size) (toLE t.size bits)) = elemCount t r := by
    unfold elemCount; rw [hl]
  apply List.ext_getElem?
  intro i
  by_cases hi : i < elemCount t r
  · rw [elements_get _ _ _ _ (by rw [hc]; exact hi)]
    rw [List.getElem?_set]
    have hbi := elem_bound t r i hi
    by_cases hij : j = i
    · subst hij
      rw [if_pos rfl, if_pos (by rw [elements_length]; exact h)]
      have := overwrite_inside r (j * t.size) (toLE t.size bits) (by simpa using hbd)
      rw [toLE_length] at this
      unfold elemAt
      rw [this, fromLE_toLE _ _ hb]
    · rw [if_neg hij, elements_get _ _ _ _ hi]
      unfold elemAt
      congr 3
      apply List.ext_getElem?
      intro k
      by_cases hk : k < t.size
      · rw [List.getElem?_take_of_lt hk, List.getElem?_take_of_lt hk, List.getElem?_drop, List.getElem?_drop]
        apply overwrite_outside _ _ _ (by simpa using hbd)
        rw [toLE_length]
        rcases Nat.lt_or_gt_of_ne hij with hlt | hgt
        · right
          have : (j + 1) * t.size ≤ i * t.size := Nat.mul_le_mul_right _ hlt
          have h3 : (j + 1) * t.size = j * t.size + t.size := Nat.succ_mul _ _
          omega
        · left
          have : (i + 1) * t.size ≤ j * t.size := Nat.mul_le_mul_right _ hgt
          have h3 : (i + 1) * t.size = i * t.size + t.size := Nat.succ_mul _ _
          omega
      · rw [List.getElem?_eq_none (by simp; omega), List.getElem?_eq_none (by simp; omega)]
  · rw [List.getElem?_eq_none (by rw [elements_length, hc]; omega),
      List.getElem?_eq_none (by rw [List.length_set, elements_length]; omega)]

theorem mvIndex_some {len : Nat} {i : Int} {j : Nat} :
    mvIndex len i = some j ↔ j < len ∧ ((j : Int) = i ∨ (j : Int) = i + len ∧ i < 0) := by
  unfold mvIndex
  simp only
  by_cases hi : i < 0
  · rw [if_pos hi]
    by_cases h : 0 ≤ i + len ∧ i + len < len
    · rw [if_pos h, Option.some.injEq]; omega
    · rw [if_neg h]; simp only [reduceCtorEq, false_iff]; omega
  · rw [if_neg hi]
    by_cases h : 0 ≤ i ∧ i < len
    · rw [if_pos h, Option.some.injEq]; omega
    · rw [if_neg h]; simp only [reduceCtorEq, false_iff]; omega

theorem mvIndex_none {len : Nat} {i : Int} : mvIndex len i = none ↔ ¬ (-(len : Int) ≤ i ∧ i < len) := by
  unfold mvIndex
  simp only
  by_cases hi : i < 0
  · rw [if_pos hi]
    by_cases h : 0 ≤ i + len ∧ i + len < len
    · rw [if_pos h]; simp only [reduceCtorEq, false_iff]; omega
    · rw [if_neg h]; simp only [true_iff]; omega
  · rw [if_neg hi]
    by_cases h : 0 ≤ i ∧ i < len
    · rw [if_pos h]; simp only [reduceCtorEq, false_iff]; omega
    · rw [if_neg h]; simp only [true_iff]; omega

/-- An assignment that succeeds. -/
theorem typedSet_ok (c : FloatConv) (t : DVType) (v : View) (mv : Bytes) (i : Int) (x : DVVal)
    (j bits : Nat) (hj : mvIndex (elemCount t (v.bytes mv)) i = some j)
    (hp : mvPack c t x = .ok bits) (hb : bits < 256 ^ t.size) :
    ∃ mv', typedSet c t false v mv i x = (mv', none) ∧ mv'.length = mv.length ∧
      v.byteOffset mv' = v.byteOffset mv ∧
      v.bytes mv' = overwrite (v.bytes mv) (j * t.size) (toLE t.size bits) ∧
      elements c t (v.bytes mv') = (elements c t (v.bytes mv)).set j (dvUnpack c t bits) ∧
      (∀ k, (k < v.byteOffset mv + j * t.size ∨ v.byteOffset mv + j * t.size + t.size ≤ k) → mv'[k]? = mv[k]?) := by
  have hjl := (mvIndex_some.1 hj).1
  have hbd := elem_bound t _ j hjl
  obtain ⟨o1, o2, o3⟩ := region_overwrite v mv (j * t.size) (toLE t.size bits) (by simpa using hbd)
  refine ⟨overwrite mv (v.byteOffset mv + j * t.size) (toLE t.size bits), ?_, ?_, o2, o3, ?_, ?_⟩
  · simp [typedSet, hj, hp]
  · exact overwrite_length _ _ _ (by rw [toLE_length]; omega)
  · rw [o3]; exact elements_overwrite c t _ j bits hjl hb
  · intro k hk
    exact overwrite_outside _ _ _ (by rw [toLE_length]; omega) k (by rw [toLE_length]; exact hk)

/-! ### Half precision numbers are single precision numbers -/

namespace Fmt

/-- Every number of few digits is in the format. -/
theorem mag_exists (F : Fmt) (s a : Nat) (ha : a < 2 ^ (F.frac + 1)) :
    ∃ n, F.mag n = a * 2 ^ s ∧ n < (s + 2) * 2 ^ F.frac := by
  have hp : 0 < 2 ^ F.frac := by positivity
  have hbig : ∀ s a, 2 ^ F.frac ≤ a → a < 2 ^ (F.frac + 1) → ∃ n, F.mag n = a * 2 ^ s ∧ n < (s + 2) * 2 ^ F.frac := by
    intro s a h1 h2
    have hr : a - 2 ^ F.frac < 2 ^ F.frac := by rw [Nat.pow_succ] at h2; omega
    have hd : ((s + 1) * 2 ^ F.frac + (a - 2 ^ F.frac)) / 2 ^ F.frac = s + 1 := by
      rw [Nat.add_comm, Nat.add_mul_div_right _ _ hp, Nat.div_eq_of_lt hr, Nat.zero_add]
    have hm : ((s + 1) * 2 ^ F.frac + (a - 2 ^ F.frac)) % 2 ^ F.frac = a - 2 ^ F.frac := by
      rw [Nat.add_comm, Nat.add_mul_mod_self_right, Nat.mod_eq_of_lt hr]
    refine ⟨(s + 1) * 2 ^ F.frac + (a - 2 ^ F.frac), ?_, ?_⟩
    · unfold mag
      rw [hd, hm, if_neg (Nat.succ_ne_zero s), Nat.add_sub_cancel' h1, Nat.add_sub_cancel]
    · have : (s + 2) * 2 ^ F.frac = (s + 1) * 2 ^ F.frac + 2 ^ F.frac := by ring
      omega
  induction s generalizing a with
  | zero =>
    by_cases h : 2 ^ F.frac ≤ a
    · exact hbig 0 a h ha
    · refine ⟨a, ?_, by omega⟩
      unfold mag
      rw [Nat.div_eq_of_lt (by omega), if_pos rfl, Nat.mod_eq_of_lt (by omega), Nat.pow_zero, Nat.mul_one]
  | succ s ih =>
    by_cases h : 2 ^ F.frac ≤ a
    · exact hbig (s + 1) a h ha
    · obtain ⟨n, h1, h2⟩ := ih (2 * a) (by rw [Nat.pow_succ]; omega)
      refine ⟨n, by rw [h1, Nat.pow_succ]; ring, ?_⟩
      have : (s + 1 + 2) * 2 ^ F.frac = (s + 2) * 2 ^ F.frac + 2 ^ F.frac := by ring
      omega

/-- Every half precision number is a single precision number. -/
theorem half_single (b : Nat) (hb : b < 2 ^ 16) (hnan : binary16 b ≠ .nan) :
    ∃ B, B < 2 ^ 32 ∧ binary32 B = binary16 b := by
  obtain ⟨h1, h2⟩ := b16_is.split_sign b hb
  generalize decide (2 ^ (5 + 10) ≤ b) = neg at h1
  generalize b % 2 ^ (5 + 10) = n at h1 h2
  subst h1
  have hi : b16.inf = 31 * 2 ^ 10 := rfl
  have hi32 : b32.inf = 255 * 2 ^ 23 := rfl
  by_cases hn : n < b16.inf
  · obtain ⟨e, m, g1, g2, g3, g4, g5⟩ := b16.split_pattern n
    have he : e < 31 := by
      have hf : b16.frac = 10 := rfl
      rw [hf] at g1
      omega
    have hf : b16.frac + 1 = 11 := rfl
    have hf' : b32.frac + 1 = 24 := rfl
    rw [hf] at g3
    obtain ⟨N, k1, k2⟩ := b32.mag_exists (e + 125) m (by rw [hf']; omega)
    have hf2 : b32.frac = 23 := rfl
    rw [hf2] at k2
    have hle : (e + 125 + 2) * 2 ^ 23 ≤ 255 * 2 ^ 23 := Nat.mul_le_mul_right _ (by omega)
    have hN : N < b32.inf := by rw [hi32]; exact lt_of_lt_of_le k2 hle
    have hq : ((m * 2 ^ (e + 125) : Nat) : ℚ) / 2 ^ b32.unit = ((m * 2 ^ e : Nat) : ℚ) / 2 ^ b16.unit := by
      have hu : b32.unit = 125 + 24 := rfl
      have hu' : b16.unit = 24 := rfl
      rw [hu, hu', Nat.pow_add, ← Nat.mul_assoc, pow_add]
      rw [Nat.cast_mul (m * 2 ^ e), Nat.cast_pow, Nat.cast_ofNat]
      rw [mul_comm ((2 : ℚ) ^ 125), mul_div_mul_right _ _ (by positivity)]
    refine ⟨(if neg then 2 ^ (8 + 23) else 0) + N, ?_, ?_⟩
    · cases neg <;> simp <;> omega
    · show ieee 8 23 _ = ieee 5 10 _
      rw [b32_is.ieee_number neg N hN, b16_is.ieee_number neg n hn, k1, g2, hq]
  · by_cases hn' : n = b16.inf
    · subst hn'
      refine ⟨(if neg then 2 ^ (8 + 23) else 0) + b32.inf, ?_, ?_⟩
      · rw [hi32]; cases neg <;> decide
      · show ieee 8 23 _ = ieee 5 10 _
        rw [b32_is.ieee_inf, b16_is.ieee_inf]
    · obtain ⟨k, rfl⟩ : ∃ k, n = b16.inf + k := ⟨n - b16.inf, by omega⟩
      exact absurd (b16_is.ieee_nan neg k (by omega) (by omega)) hnan

end Fmt

/-- A half precision number goes through single precision unchanged. -/
theorem half_through (b : Nat) (hb : b < 2 ^ 16) (hnan : binary16 b ≠ .nan) :
    b16.pack false (b32.unpack true (mvPack.packOrInf cpythonConv (b16.unpack false b))) = some b ∧
      b32.unpack true (mvPack.packOrInf cpythonConv (b16.unpack false b)) = b16.unpack false b := by
  obtain ⟨B, hB, hm⟩ := Fmt.half_single b hb hnan
  have m1 := Fmt.unpack_meaning Fmt.b32_is (by decide) (by decide) true B hB
  have m2 := Fmt.unpack_meaning Fmt.b16_is (by decide) (by decide) false b hb
  have hx : b32.unpack true B = b16.unpack false b :=
    binary64_inj _ _ (by rw [m1, m2]; exact hm) (by rw [m1]; show binary32 B ≠ _; rw [hm]; exact hnan)
  have hp := Fmt.pack_unpack Fmt.b32_is (by decide) (by decide) true B hB (by show binary32 B ≠ _; rw [hm]; exact hnan)
  have hq : mvPack.packOrInf cpythonConv (b16.unpack false b) = B := by
    unfold mvPack.packOrInf
    rw [← hx, show cpythonConv.pack32 = b32.pack true from rfl, hp]
  rw [hq, hx]
  exact ⟨Fmt.pack_unpack Fmt.b16_is (by decide) (by decide) false b hb hnan, rfl⟩

/-! ### Blocks -/

/-- The patterns of two bytes. -/
def halves (r : Bytes) : List Nat :=
  (List.range (r.length / 2)).map (fun j => fromLE ((r.drop (j * 2)).take 2))

theorem halves_elements (r : Bytes) : elements cpythonConv .uint16 r = (halves r).map (fun b : Nat => DVVal.int (b : Int)) ∧
    elements cpythonConv .float16 r = (halves r).map (fun b => DVVal.float (b16.unpack false b)) := by
  unfold elements halves
  rw [List.map_map, List.map_map]
  exact ⟨rfl, rfl⟩

theorem halves_overwrite (r : Bytes) (j p : Nat) (hj : j < r.length / 2) (hp : p < 256 ^ 2) :
    halves (overwrite r (j * 2) (toLE 2 p)) = (halves r).set j p := by
  have h := elements_overwrite cpythonConv .uint16 r j p hj hp
  rw [show DVType.uint16.size = 2 from rfl, (halves_elements _).1, (halves_elements _).1] at h
  rw [show dvUnpack cpythonConv .uint16 p = (fun b : Nat => DVVal.int (b : Int)) p from rfl, ← List.map_set] at h
  exact List.map_injective_iff.2 (fun a b h => by injection h with h; exact_mod_cast h) h

theorem halves_lt (r : Bytes) : ∀ b ∈ halves r, b < 2 ^ 16 := by
  intro b hb
  obtain ⟨j, _, rfl⟩ := List.mem_map.1 hb
  have h1 := fromLE_lt ((r.drop (j * 2)).take 2)
  have h2 : ((r.drop (j * 2)).take 2).length ≤ 2 := by simp
  have h3 : 256 ^ ((r.drop (j * 2)).take 2).length ≤ 256 ^ 2 := Nat.pow_le_pow_right (by decide) h2
  omega

theorem halves_length (r : Bytes) : (halves r).length = r.length / 2 := by simp [halves]

theorem halves_join (n : Nat) (r : Bytes) (hr : r.length = 2 * n) : (halves r).flatMap (toLE 2) = r := by
  induction n generalizing r with
  | zero => have : r = [] := List.eq_nil_of_length_eq_zero (by omega); subst this; rfl
  | succ n ih =>
    match r, hr with
    | a :: b :: r, hr =>
      have hl : r.length = 2 * n := by simp at hr; omega
      have hh : halves (a :: b :: r) = fromLE [a, b] :: halves r := by
        unfold halves
        have e1 : (a :: b :: r).length / 2 = r.length / 2 + 1 := by simp only [List.length_cons]; omega
        rw [e1, List.range_succ_eq_map, List.map_cons, List.map_map]
        congr 1
        apply List.map_congr_left
        intro j _
        show fromLE (List.take 2 (List.drop ((j + 1) * 2) (a :: b :: r))) = _
        rw [Nat.add_mul, Nat.one_mul]
        rfl
      rw [hh, List.flatMap_cons, ih r hl]
      have := toLE_fromLE [a, b]
      rw [show [a, b].length = 2 from rfl] at this
      rw [this]
      rfl

theorem leave_ok (view hs : List Nat) (h : view.map (fun b => b16.pack false (b32.unpack true b)) = hs.map some) :
    backportLeave cpythonConv view = (hs.flatMap (toLE 2), none) := by
  induction view generalizing hs with
  | nil => cases hs with
    | nil => rfl
    | cons _ _ => cases h
  | cons b view ih =>
    cases hs with
    | nil => cases h
    | cons a hs =>
      rw [List.map_cons, List.map_cons] at h
      injection h with h1 h2
      have h3 : cpythonConv.pack16 (cpythonConv.unpack32 b) = some a := h1
      simp only [backportLeave, h3, ih hs h2, List.flatMap_cons]

/-- Both blocks, when every half precision number goes through. -/
theorem blocks_agree (v : View) (hv : v.tag = .float16) (n : Nat) :
    ∀ (edits : List (Int × DVVal)) (mv : Bytes) (view : List Nat),
    (v.bytes mv).length = 2 * n →
    view.map (fun b => b16.pack false (b32.unpack true b)) = (halves (v.bytes mv)).map some →
    (∀ p ∈ edits, (∃ j, mvIndex n p.1 = some j) ∧ ∃ x, p.2 = .float x ∧ ∃ b < 2 ^ 16, binary16 b ≠ .nan ∧ x = b16.unpack false b) →
    ∃ view' mv', backportEdits cpythonConv view edits = (view', none) ∧ nativeBlock cpythonConv false v mv edits = (mv', none) ∧
      backportLeave cpythonConv view' = (v.bytes mv', none) ∧ mv' = overwrite mv (v.byteOffset mv) (v.bytes mv') ∧
      (v.bytes mv').length = 2 * n
  | [], mv, view, hl, hview, _ => by
    refine ⟨view, mv, rfl, rfl, ?_, ?_, hl⟩
    · rw [leave_ok _ _ hview, halves_join n _ hl]
    · obtain ⟨pre, post, h1, h2⟩ := region_window v mv
      generalize v.bytes mv = r at h1
      rw [← h2]
      unfold overwrite
      rw [h1, List.append_assoc, List.take_left, List.drop_length_add_append, List.drop_left, List.append_assoc]
  | (i, x) :: edits, mv, view, hl, hview, hed => by
    obtain ⟨⟨j, hj⟩, y, hy, b, hb, hnan, hx⟩ := hed (i, x) List.mem_cons_self
    simp only at hj hy
    subst hy hx
    obtain ⟨t1, t2⟩ := half_through b hb hnan
    have hpk : b16.pack false (b16.unpack false b) = some b :=
      Fmt.pack_unpack Fmt.b16_is (by decide) (by decide) false b hb hnan
    have hvl : view.length = n := by
      have := congrArg List.length hview
      rw [List.length_map, List.length_map, halves_length, hl] at this
      omega
    have hc : elemCount .float16 (v.bytes mv) = n := by
      show (v.bytes mv).length / 2 = n
      omega
    have hjn := (mvIndex_some.1 hj).1
    have hmp : mvPack cpythonConv .float16 (.float (b16.unpack false b)) = .ok b := by
      simp only [mvPack, show cpythonConv.pack16 = b16.pack false from rfl, hpk]
    obtain ⟨mv1, m1, m2, m3, m4, m5, m6⟩ := typedSet_ok cpythonConv .float16 v mv i (.float (b16.unpack false b)) j b
      (by rw [hc]; exact hj) hmp hb
    have hset : backportSet cpythonConv view i (.float (b16.unpack false b)) =
        (view.set j (mvPack.packOrInf cpythonConv (b16.unpack false b)), none) := by
      simp only [backportSet, hvl, hj, mvPack]
    have m4' : v.bytes mv1 = overwrite (v.bytes mv) (j * 2) (toLE 2 b) := m4
    have hl1 : (v.bytes mv1).length = 2 * n := by
      rw [m4', overwrite_length _ _ _ (by rw [toLE_length]; omega), hl]
    have hview1 : (view.set j (mvPack.packOrInf cpythonConv (b16.unpack false b))).map (fun b => b16.pack false (b32.unpack true b)) =
        (halves (v.bytes mv1)).map some := by
      rw [List.map_set, hview, t1, m4', halves_overwrite _ _ _ (by omega) hb, List.map_set]
    obtain ⟨view', mv', r1, r2, r3, r4, r5⟩ := blocks_agree v hv n edits mv1 _ hl1 hview1
      (fun p hp => hed p (List.mem_cons_of_mem _ hp))
    refine ⟨view', mv', ?_, ?_, r3, ?_, r5⟩
    · simp only [backportEdits, hset]; exact r1
    · simp only [nativeBlock, m1]; exact r2
    · rw [m3] at r4
      have hmv1 : mv1 = overwrite mv (v.byteOffset mv + j * 2) (toLE 2 b) := by
        have := m1
        simp only [typedSet, hc, hj, hmp, Bool.false_eq_true, if_false, Prod.mk.injEq, and_true] at this
        exact this.symm
      obtain ⟨pre, post, h1, h2⟩ := region_window v mv
      have hml : mv.length = pre.length + (v.bytes mv).length + post.length := by
        conv => lhs; rw [h1]
        simp only [List.length_append]
      conv_lhs => rw [r4]
      unfold overwrite
      congr 1
      · congr 1
        rw [hmv1]
        unfold overwrite
        rw [List.append_assoc, List.take_append_of_le_length (by rw [List.length_take]; omega), List.take_take,
          Nat.min_eq_left (by omega)]
      · apply List.ext_getElem?
        intro k
        rw [List.getElem?_drop, List.getElem?_drop]
        refine m6 _ (.inr ?_)
        rw [r5]
        show _ + j * 2 + 2 ≤ _
        omega

end V8
