import Verif.Proofs.FloatConv
import Verif.Props.Buffers

/-!
# C61: floats of DataView
-/

namespace V8.Props
open V8.Spec

/-! ### Byte order -/

theorem foldl_fromLE (l : Bytes) : l.foldr (fun b n => 256 * n + b.toNat) 0 = fromLE l := by
  induction l with
  | nil => rfl
  | cons b l ih => simp only [List.foldr_cons, fromLE, ih]; omega

theorem pattern_eq (little : Bool) (l : Bytes) : pattern little l = dvBits little l := by
  unfold pattern dvBits
  cases little with
  | true => simp only [if_true, List.foldl_reverse, foldl_fromLE]
  | false =>
    simp only [Bool.false_eq_true, if_false]
    rw [← List.reverse_reverse l, List.foldl_reverse, foldl_fromLE, List.reverse_reverse]

theorem pattern_lt (little : Bool) (l : Bytes) : pattern little l < 256 ^ l.length := by
  rw [pattern_eq]
  unfold dvBits
  cases little with
  | true => exact fromLE_lt l
  | false => simpa using fromLE_lt l.reverse

theorem set_ok (c : FloatConv) (t : DVType) (buf : Bytes) (off : Int) (v : DVVal) (little : Bool)
    (h0 : 0 ≤ off) (h1 : off + t.size ≤ buf.length) (b : Nat) (hb : b < 256 ^ t.size) (hp : dvPack c t v = .ok b) :
    ∃ buf', dvSet c t false buf off v little = (buf', none) ∧ pattern little (bytesAt buf' off t.size) = b ∧
      dvGet c t buf' off little = .ok (dvUnpack c t b) := by
  have hset := (dvSet_cases c t false buf off v little).2.2.1 (by omega) rfl b hp
  refine ⟨_, hset, ?_, ?_⟩
  · have hl := dvBytes_length little t.size b
    have hin := overwrite_inside buf off.toNat (dvBytes little t.size b) (by omega)
    rw [hl] at hin
    unfold bytesAt
    rw [hin, pattern_eq, dvBits_bytes little _ _ hb]
  · obtain ⟨bits, hp', hg⟩ := set_get c t buf off v little _ hset
    rw [hp] at hp'
    cases hp'
    exact hg hb

/-! ### The theorems -/

/-- The accessor, its number of bytes, its format, and the magnitude from which on `struct` refuses a number: the
greatest number of the format plus half of its last digit. -/
inductive NarrowFloat : DVType → Nat → (Nat → Ieee) → ℚ → Prop
  | float32 : NarrowFloat .float32 4 binary32 (2 ^ 128 - 2 ^ 103)
  | float16 : NarrowFloat .float16 2 binary16 65520

/-- C61: `get_float32` and `get_float16` give the number in the buffer exactly, with its sign; infinity and NaN stay
what they are. -/
theorem C61_get_exact {t : DVType} {k : Nat} {format : Nat → Ieee} {limit : ℚ} (ht : NarrowFloat t k format limit)
    (buf : Bytes) (off : Int) (little : Bool) (h0 : 0 ≤ off) (h1 : off + k ≤ buf.length) :
    ∃ x, dvGet cpythonConv t buf off little = .ok (.float x) ∧
      binary64 x = format (pattern little (bytesAt buf off k)) := by
  have hlen : (bytesAt buf off k).length = k := by unfold bytesAt; simp; omega
  have hlt := pattern_lt little (bytesAt buf off k)
  rw [hlen] at hlt
  cases ht with
  | float32 =>
    refine ⟨b32.unpack true (pattern little (bytesAt buf off 4)), ?_, ?_⟩
    · unfold dvGet
      rw [if_neg (by simp only [DVType.size]; omega), pattern_eq]
      rfl
    · exact Fmt.unpack_meaning Fmt.b32_is (by decide) (by decide) true _ hlt
  | float16 =>
    refine ⟨b16.unpack false (pattern little (bytesAt buf off 2)), ?_, ?_⟩
    · unfold dvGet
      rw [if_neg (by simp only [DVType.size]; omega), pattern_eq]
      rfl
    · exact Fmt.unpack_meaning Fmt.b16_is (by decide) (by decide) false _ hlt

/-- -0.0000305 as half precision number that is not normalised, big-endian, at offset 1. -/
example : dvGet cpythonConv .float16 [0, 0x82, 0x00, 7] 1 false = .ok (.float 0xbf00000000000000) := by decide +kernel

theorem pack_cases {t : DVType} {k : Nat} {format : Nat → Ieee} {limit : ℚ} (ht : NarrowFloat t k format limit) (x : F64) :
    match binary64 x with
    | .nan => ∃ b < 256 ^ k, dvPack cpythonConv t (.float x) = .ok b ∧ format b = .nan
    | .infinity s => ∃ b < 256 ^ k, dvPack cpythonConv t (.float x) = .ok b ∧ format b = .infinity s
    | .number s q =>
      (|q| < limit → ∃ b, dvPack cpythonConv t (.float x) = .ok b ∧ IsNearest format (8 * k) s q b) ∧
      (limit ≤ |q| → dvPack cpythonConv t (.float x) = .error .overflowError) := by
  cases ht with
  | float32 =>
    have h := Fmt.pack_meaning Fmt.b32_is (by decide) (by decide) (by decide) true x
    have hl : (((2 ^ (b32.frac + 2) - 1 : Nat) : ℚ) * 2 ^ (b32.top - 3)) / 2 ^ b32.unit = 2 ^ 128 - 2 ^ 103 := by
      show (((2 ^ 25 - 1 : Nat) : ℚ) * 2 ^ 252) / 2 ^ 149 = _
      norm_num
    rw [hl] at h
    have hd : dvPack cpythonConv .float32 (.float x) = packFloat (b32.pack true x) := rfl
    rw [hd]
    cases hb : binary64 x with
    | nan => rw [hb] at h; obtain ⟨b, h1, h2, h3⟩ := h; exact ⟨b, h1, by rw [h2]; rfl, h3⟩
    | infinity s => rw [hb] at h; obtain ⟨b, h1, h2, h3⟩ := h; exact ⟨b, h1, by rw [h2]; rfl, h3⟩
    | number s q =>
      rw [hb] at h
      exact ⟨fun hq => let ⟨b, h1, h2⟩ := h.1 hq; ⟨b, by rw [h1]; rfl, h2⟩, fun hq => by rw [h.2 hq]; rfl⟩
  | float16 =>
    have h := Fmt.pack_meaning Fmt.b16_is (by decide) (by decide) (by decide) false x
    have hl : (((2 ^ (b16.frac + 2) - 1 : Nat) : ℚ) * 2 ^ (b16.top - 3)) / 2 ^ b16.unit = 65520 := by
      show (((2 ^ 12 - 1 : Nat) : ℚ) * 2 ^ 28) / 2 ^ 24 = _
      norm_num
    rw [hl] at h
    have hd : dvPack cpythonConv .float16 (.float x) = packFloat (b16.pack false x) := rfl
    rw [hd]
    cases hb : binary64 x with
    | nan => rw [hb] at h; obtain ⟨b, h1, h2, h3⟩ := h; exact ⟨b, h1, by rw [h2]; rfl, h3⟩
    | infinity s => rw [hb] at h; obtain ⟨b, h1, h2, h3⟩ := h; exact ⟨b, h1, by rw [h2]; rfl, h3⟩
    | number s q =>
      rw [hb] at h
      exact ⟨fun hq => let ⟨b, h1, h2⟩ := h.1 hq; ⟨b, by rw [h1]; rfl, h2⟩, fun hq => by rw [h.2 hq]; rfl⟩

theorem size_eq {t : DVType} {k : Nat} {format : Nat → Ieee} {limit : ℚ} (ht : NarrowFloat t k format limit) :
    t.size = k ∧ 256 ^ k = 2 ^ (8 * k) := by
  cases ht <;> exact ⟨rfl, rfl⟩

/-- C61: `set_float32` and `set_float16` store the nearest number of the format, of two equally near ones the even
one, with the sign of the argument; infinity and NaN are stored as such. Missing: numbers from `limit` on, which
JavaScript stores as infinity. -/
theorem C61_set_nearest_partial {t : DVType} {k : Nat} {format : Nat → Ieee} {limit : ℚ}
    (ht : NarrowFloat t k format limit) (buf : Bytes) (off : Int) (little : Bool) (h0 : 0 ≤ off)
    (h1 : off + k ≤ buf.length) (x : F64) :
    match binary64 x with
    | .nan => ∃ buf', dvSet cpythonConv t false buf off (.float x) little = (buf', none) ∧
        format (pattern little (bytesAt buf' off k)) = .nan
    | .infinity s => ∃ buf', dvSet cpythonConv t false buf off (.float x) little = (buf', none) ∧
        format (pattern little (bytesAt buf' off k)) = .infinity s
    | .number s q => |q| < limit → ∃ buf', dvSet cpythonConv t false buf off (.float x) little = (buf', none) ∧
        IsNearest format (8 * k) s q (pattern little (bytesAt buf' off k)) := by
  obtain ⟨e1, e2⟩ := size_eq ht
  have h := pack_cases ht x
  cases hb : binary64 x with
  | nan =>
    rw [hb] at h
    obtain ⟨b, g1, g2, g3⟩ := h
    obtain ⟨buf', s1, s2, _⟩ := set_ok cpythonConv t buf off (.float x) little h0 (by omega) b (by rw [e1]; exact g1) g2
    rw [e1] at s2
    exact ⟨buf', s1, by rw [s2]; exact g3⟩
  | infinity s =>
    rw [hb] at h
    obtain ⟨b, g1, g2, g3⟩ := h
    obtain ⟨buf', s1, s2, _⟩ := set_ok cpythonConv t buf off (.float x) little h0 (by omega) b (by rw [e1]; exact g1) g2
    rw [e1] at s2
    exact ⟨buf', s1, by rw [s2]; exact g3⟩
  | number s q =>
    rw [hb] at h
    intro hq
    obtain ⟨b, g1, g2⟩ := h.1 hq
    obtain ⟨buf', s1, s2, _⟩ := set_ok cpythonConv t buf off (.float x) little h0 (by omega) b
      (by rw [e1, e2]; exact g2.1) g1
    rw [e1] at s2
    exact ⟨buf', s1, by rw [s2]; exact g2⟩

/-- 0.1 (0x3fb999999999999a) is stored as 0x3dcccccd. -/
example : dvSet cpythonConv .float32 false [9, 9, 9, 9, 9] 1 (.float 0x3fb999999999999a) false =
    ([9, 0x3d, 0xcc, 0xcc, 0xcd], none) := by decide +kernel

/-- C61: numbers from `limit` on are refused with OverflowError, whatever their sign. -/
theorem C61_too_big_raises {t : DVType} {k : Nat} {format : Nat → Ieee} {limit : ℚ}
    (ht : NarrowFloat t k format limit) (buf : Bytes) (off : Int) (little : Bool) (h0 : 0 ≤ off)
    (h1 : off + k ≤ buf.length) (x : F64) (s : Bool) (q : ℚ) (hx : binary64 x = .number s q) (hq : limit ≤ |q|) :
    (dvSet cpythonConv t false buf off (.float x) little).2 = some .overflowError := by
  obtain ⟨e1, e2⟩ := size_eq ht
  have h := pack_cases ht x
  rw [hx] at h
  rw [(dvSet_cases cpythonConv t false buf off (.float x) little).2.2.2 (by omega) rfl _ (h.2 hq)]

/-- The full C61 is false: JavaScript stores 1e39 (0x48078287f49c4a1d) as infinity; here it is refused, and the four
bytes that were there are lost. -/
theorem C61_overflow_differs :
    dvSet cpythonConv .float32 false [1, 2, 3, 4] 0 (.float 0x48078287f49c4a1d) true = ([0, 0, 0, 0], some .overflowError) := by
  decide +kernel

/-- C61: a number (or infinity) that the format has is read back as it was stored. -/
theorem C61_set_get_exact {t : DVType} {k : Nat} {format : Nat → Ieee} {limit : ℚ}
    (ht : NarrowFloat t k format limit) (buf : Bytes) (off : Int) (little : Bool) (h0 : 0 ≤ off)
    (h1 : off + k ≤ buf.length) (x : F64) (b : Nat) (hb : b < 2 ^ (8 * k)) (hx : format b = binary64 x)
    (hnan : binary64 x ≠ .nan) :
    ∃ buf', dvSet cpythonConv t false buf off (.float x) little = (buf', none) ∧
      dvGet cpythonConv t buf' off little = .ok (.float x) ∧ pattern little (bytesAt buf' off k) = b := by
  obtain ⟨e1, e2⟩ := size_eq ht
  have hp : dvPack cpythonConv t (.float x) = .ok b ∧ dvUnpack cpythonConv t b = .float x := by
    cases ht with
    | float32 =>
      have hu : b32.unpack true b = x := binary64_inj _ _
        ((Fmt.unpack_meaning Fmt.b32_is (by decide) (by decide) true b hb).trans hx)
        (by rw [Fmt.unpack_meaning Fmt.b32_is (by decide) (by decide) true b hb]; exact fun hc => hnan (hx.symm.trans hc))
      have hpk := Fmt.pack_unpack Fmt.b32_is (by decide) (by decide) true b hb (fun hc => hnan (hx.symm.trans hc))
      rw [hu] at hpk
      refine ⟨?_, congrArg DVVal.float hu⟩
      show packFloat (b32.pack true x) = _
      rw [hpk]; rfl
    | float16 =>
      have hu : b16.unpack false b = x := binary64_inj _ _
        ((Fmt.unpack_meaning Fmt.b16_is (by decide) (by decide) false b hb).trans hx)
        (by rw [Fmt.unpack_meaning Fmt.b16_is (by decide) (by decide) false b hb]; exact fun hc => hnan (hx.symm.trans hc))
      have hpk := Fmt.pack_unpack Fmt.b16_is (by decide) (by decide) false b hb (fun hc => hnan (hx.symm.trans hc))
      rw [hu] at hpk
      refine ⟨?_, congrArg DVVal.float hu⟩
      show packFloat (b16.pack false x) = _
      rw [hpk]; rfl
  obtain ⟨buf', s1, s2, s3⟩ := set_ok cpythonConv t buf off (.float x) little h0 (by omega) b
    (by rw [e1, e2]; exact hb) hp.1
  rw [e1] at s2
  exact ⟨buf', s1, by rw [s3, hp.2], s2⟩

/-- 1.5 is 0x3e00 in half precision. -/
example : (∃ s q, binary64 0x3ff8000000000000 = .number s q) ∧ binary16 0x3e00 = binary64 0x3ff8000000000000 := by
  have h1 : binary64 0x3ff8000000000000 = .number false (3 / 2) := by
    unfold binary64 ieee
    have : (0x3ff8000000000000 : F64).toNat = 0x3ff8000000000000 := by decide
    rw [this]; norm_num
  refine ⟨⟨_, _, h1⟩, ?_⟩
  rw [h1]
  unfold binary16 ieee
  norm_num

theorem set_int_some (c : FloatConv) (t : DVType) (ht : t = .float16 ∨ t = .float32 ∨ t = .float64) (buf : Bytes) (off : Int)
    (little : Bool) (h0 : 0 ≤ off) (h1 : off + t.size ≤ buf.length) (n : Int) (x : F64) (hx : c.ofInt n = some x) :
    dvSet c t false buf off (.int n) little = ((dvSet c t false buf off (.float x) little).1,
      if (dvSet c t false buf off (.float x) little).2 = none then none else some .structError) := by
  have hcase : (∃ b, dvPack c t (.float x) = .ok b ∧ dvPack c t (.int n) = .ok b) ∨
      (∃ e, dvPack c t (.float x) = .error e ∧ dvPack c t (.int n) = .error .structError) := by
    rcases ht with rfl | rfl | rfl <;> simp only [dvPack, hx, packIntAsFloat, packFloat]
    · cases c.pack16 x with
      | none => exact .inr ⟨_, rfl, rfl⟩
      | some b => exact .inl ⟨_, rfl, rfl⟩
    · cases c.pack32 x with
      | none => exact .inr ⟨_, rfl, rfl⟩
      | some b => exact .inl ⟨_, rfl, rfl⟩
    · exact .inl ⟨_, rfl, rfl⟩
  obtain ⟨_, _, c3, c4⟩ := dvSet_cases c t false buf off (.float x) little
  obtain ⟨_, _, d3, d4⟩ := dvSet_cases c t false buf off (.int n) little
  rcases hcase with ⟨b, hb, hb'⟩ | ⟨e, hb, hb'⟩
  · rw [c3 (by omega) rfl b hb, d3 (by omega) rfl b hb', if_pos rfl]
  · rw [c4 (by omega) rfl e hb, d4 (by omega) rfl _ hb', if_neg (by simp)]

theorem set_int_none (c : FloatConv) (t : DVType) (ht : t = .float16 ∨ t = .float32 ∨ t = .float64) (buf : Bytes) (off : Int)
    (little : Bool) (h0 : 0 ≤ off) (h1 : off + t.size ≤ buf.length) (n : Int) (hx : c.ofInt n = none) :
    (dvSet c t false buf off (.int n) little).2 = some .structError := by
  have hp : dvPack c t (.int n) = .error .structError := by
    rcases ht with rfl | rfl | rfl <;> simp only [dvPack, hx, packIntAsFloat]
  rw [(dvSet_cases c t false buf off (.int n) little).2.2.2 (by omega) rfl _ hp]

/-- C61: an integer given to an accessor for floats is first turned into the nearest double. Then it is stored as that
double is; if that is refused, as struct.error. Integers too big for a double are refused. -/
theorem C61_set_int (t : DVType) (ht : t = .float16 ∨ t = .float32 ∨ t = .float64) (buf : Bytes) (off : Int) (little : Bool)
    (h0 : 0 ≤ off) (h1 : off + t.size ≤ buf.length) (n : Int) :
    ((n.natAbs : ℚ) < 2 ^ 1024 - 2 ^ 970 → ∃ x : F64, IsNearest (ieee 11 52) 64 (decide (n < 0)) n x.toNat ∧
      dvSet cpythonConv t false buf off (.int n) little =
        ((dvSet cpythonConv t false buf off (.float x) little).1,
          if (dvSet cpythonConv t false buf off (.float x) little).2 = none then none else some .structError)) ∧
    (2 ^ 1024 - 2 ^ 970 ≤ (n.natAbs : ℚ) → (dvSet cpythonConv t false buf off (.int n) little).2 = some .structError) := by
  have ho : cpythonConv.ofInt = floatOfInt := rfl
  obtain ⟨h2, h3⟩ := floatOfInt_nearest n
  refine ⟨fun hn => ?_, fun hn => set_int_none cpythonConv t ht buf off little h0 h1 n (by rw [ho]; exact h3 hn)⟩
  obtain ⟨x, hx, hnear⟩ := h2 hn
  exact ⟨x, hnear, set_int_some cpythonConv t ht buf off little h0 h1 n x (by rw [ho]; exact hx)⟩

/-- 2^53 + 1 is stored as 2^53. -/
example : dvSet cpythonConv .float64 false (List.replicate 8 1) 0 (.int (2 ^ 53 + 1)) false =
    ([0x43, 0x40, 0, 0, 0, 0, 0, 0], none) := by decide +kernel

end V8.Props
