import Verif.Proofs.DateTime
import Verif.Spec.Float
import Verif.Spec.Graph
import Verif.Spec.Examples
import Verif.Props.RoundTrip

/-!
# C60: dates
-/

namespace V8.Props
open V8.Spec

/-- From 1901-12-13 20:45:52 UTC to 2038-01-19 03:14:08 UTC, exclusive. -/
def Near1970 (us : Int) : Prop := -(2 ^ 31 * 10 ^ 6) < us ∧ us < 2 ^ 31 * 10 ^ 6

theorem timestamp_err (us : Int) (h : Near1970 us) :
    fExp (timestamp us).toNat ≠ 2047 ∧ fSign (timestamp us).toNat = decide (us < 0) ∧
    |magQ (timestamp us) - us.natAbs / 10 ^ 6| ≤ 1 / 2 ^ 23 := by
  have hb : ((us.natAbs : Nat) : ℚ) / ((10 ^ 6 : Nat) : ℚ) < 2 ^ 31 := by
    rw [div_lt_iff₀ (by norm_num)]
    have : us.natAbs < 2 ^ 31 * 10 ^ 6 := by unfold Near1970 at h; omega
    exact_mod_cast this
  obtain ⟨h1, h2, h3⟩ := doubleOf_spec (decide (us < 0)) us.natAbs (10 ^ 6) 31 (by norm_num) (by omega) hb
  refine ⟨h1, h2, ?_⟩
  push_cast at h3
  refine le_trans h3 (le_of_eq (by norm_num))

theorem natAbs_us (us : Int) (h : Near1970 us) : ((us.natAbs : Nat) : ℚ) / 10 ^ 6 ≤ 2 ^ 31 - 1 / 10 ^ 6 := by
  rw [div_le_iff₀ (by norm_num)]
  have : us.natAbs + 1 ≤ 2 ^ 31 * 10 ^ 6 := by unfold Near1970 at h; omega
  have : ((us.natAbs : Nat) : ℚ) + 1 ≤ 2 ^ 31 * 10 ^ 6 := by exact_mod_cast this
  linarith

/-- C60: an aware datetime between 1901-12-13 and 2038-01-19 comes back to the microsecond. -/
theorem C60_round_trip_partial (us : Int) (h : Near1970 us) : msToDate (dateToMs us) = .ok us := by
  obtain ⟨a1, a2, a3⟩ := timestamp_err us h
  have hn := natAbs_us us h
  have ha0 := magQ_nonneg (timestamp us)
  obtain ⟨t, ht⟩ : ∃ t : ℚ, ((us.natAbs : Nat) : ℚ) / 10 ^ 6 = t := ⟨_, rfl⟩
  rw [ht] at a3 hn
  rw [abs_le] at a3
  have hb1 : magQ (timestamp us) * (1000 : Nat) < 2 ^ 41 := by
    push_cast
    norm_num at a3 hn ⊢
    linarith [a3.2]
  obtain ⟨b1, b2, b3⟩ := fmulNat_spec (timestamp us) 1000 41 a1 (by omega) hb1
  push_cast at b3
  rw [abs_le] at b3
  have hc1 : magQ (fmulNat (timestamp us) 1000) / (1000 : Nat) < 2 ^ 31 := by
    push_cast
    rw [div_lt_iff₀ (by norm_num)]
    norm_num at a3 b3 hn ⊢
    linarith [a3.2, b3.2]
  obtain ⟨c1, c2, c3⟩ := fdivNat_spec (fmulNat (timestamp us) 1000) 1000 31 (by omega) b1 (by omega) hc1
  push_cast at c3
  rw [abs_le] at c3
  unfold msToDate dateToMs
  rw [fromTimestamp_near _ us.natAbs c1 (by unfold Near1970 at h; omega) ?_, c2, b2, a2]
  · congr 1
    by_cases hu : us < 0
    · simp only [hu, decide_true, if_true]; omega
    · simp only [hu, decide_false, Bool.false_eq_true, if_false]; omega
  · have hu : ((us.natAbs : Nat) : ℚ) = t * 10 ^ 6 := by rw [← ht]; field_simp
    rw [hu, abs_lt]
    norm_num at a3 b3 c3 ⊢
    constructor <;> linarith [a3.1, a3.2, b3.1, b3.2, c3.1, c3.2]

/-- 1900-01-01 to 2100-01-01 does not fit, but every date of the years 1902 to 2037 does. -/
example : Near1970 1700000000123456 ∧ Near1970 (-2000000000999999) := by unfold Near1970; decide

/-- C60: what is written for a datetime with whole milliseconds, from 2004-11-03 to 2038-01-19 (or as long before
1970), is that number of milliseconds. -/
theorem C60_written_ms_partial (k : Int) (h1 : 2 ^ 40 < k.natAbs) (h2 : k.natAbs < 2 ^ 31 * 1000) :
    fval (dateToMs (k * 1000)) = .fin (k * 2 ^ 1074) := by
  have hnear : Near1970 (k * 1000) := by unfold Near1970; omega
  obtain ⟨a1, a2, a3⟩ := timestamp_err (k * 1000) hnear
  have hk : (((k * 1000).natAbs : Nat) : ℚ) / 10 ^ 6 = (k.natAbs : ℚ) / 1000 := by
    rw [Int.natAbs_mul]
    push_cast
    norm_num
    ring
  rw [hk, abs_le] at a3
  have hk1 : (2 : ℚ) ^ 40 + 1 ≤ (k.natAbs : ℚ) := by exact_mod_cast h1
  have hk2 : (k.natAbs : ℚ) < 2 ^ 31 * 1000 := by exact_mod_cast h2
  have hlo : (2 : ℚ) ^ 40 ≤ magQ (timestamp (k * 1000)) * (1000 : Nat) := by
    push_cast; norm_num at a3 hk1 hk2 ⊢; linarith [a3.1]
  have hhi : magQ (timestamp (k * 1000)) * (1000 : Nat) < 2 ^ 41 := by
    push_cast; norm_num at a3 hk1 hk2 ⊢; linarith [a3.2]
  obtain ⟨b1, b2, b3⟩ := fmulNat_spec (timestamp (k * 1000)) 1000 41 a1 (by omega) hhi
  obtain ⟨m, hm⟩ := fmulNat_multiple (timestamp (k * 1000)) 1000 40 41 a1 (by omega) (by omega) hlo hhi
  push_cast at b3
  rw [hm, abs_le] at b3
  have hd1 : (m : ℚ) < k.natAbs * 2 ^ 12 + 1 := by norm_num at a3 b3 ⊢; linarith [a3.2, b3.2]
  have hd2 : (k.natAbs : ℚ) * 2 ^ 12 < m + 1 := by norm_num at a3 b3 ⊢; linarith [a3.1, b3.1]
  have hd1' : m < k.natAbs * 2 ^ 12 + 1 := by exact_mod_cast hd1
  have hd2' : k.natAbs * 2 ^ 12 < m + 1 := by exact_mod_cast hd2
  have hmk : m = k.natAbs * 2 ^ 12 := by omega
  have hmag : fMag (fmulNat (timestamp (k * 1000)) 1000).toNat = k.natAbs * 2 ^ 1074 := by
    unfold magQ at hm
    rw [div_eq_div_iff (by positivity) (by positivity), hmk] at hm
    have hm' : fMag (fmulNat (timestamp (k * 1000)) 1000).toNat * 2 ^ 12 = k.natAbs * 2 ^ 12 * 2 ^ 1074 := by
      exact_mod_cast hm
    rw [Nat.mul_right_comm] at hm'
    exact Nat.eq_of_mul_eq_mul_right (by norm_num) hm'
  unfold dateToMs fval
  rw [if_neg b1, hmag, b2, a2]
  congr 1
  by_cases hu : k < 0
  · have : k * 1000 < 0 := by omega
    simp only [this, decide_true, if_true]
    have : (k.natAbs : Int) = -k := by omega
    push_cast
    rw [abs_of_neg hu]
    ring
  · have : ¬ k * 1000 < 0 := by omega
    simp only [this, decide_false, Bool.false_eq_true, if_false]
    push_cast
    rw [abs_of_nonneg (by omega)]

example : (2 : Nat) ^ 40 < (1700000000123 : Int).natAbs ∧ (1700000000123 : Int).natAbs < 2 ^ 31 * 1000 := by decide

/-- C60: a whole number of milliseconds before the year 2242 is read as exactly that date. -/
theorem C60_read_ms_partial (k : Int) (ms : F64) (hms : fval ms = .fin (k * 2 ^ 1074)) (hk : k.natAbs < 2 ^ 33 * 1000) :
    msToDate ms = .ok (k * 1000) := by
  have hx : fExp ms.toNat ≠ 2047 := by
    intro hc
    unfold fval at hms
    rw [if_pos hc] at hms
    split at hms <;> cases hms
  have hf : (if fSign ms.toNat then -(fMag ms.toNat : Int) else fMag ms.toNat) = k * 2 ^ 1074 := by
    unfold fval at hms
    rw [if_neg hx] at hms
    exact FVal.fin.inj hms
  have hM : fMag ms.toNat = k.natAbs * 2 ^ 1074 := by
    have := congrArg Int.natAbs hf
    rw [Int.natAbs_mul] at this
    have e : ((2 : Int) ^ 1074).natAbs = 2 ^ 1074 := by rw [Int.natAbs_pow]; rfl
    rw [e] at this
    rw [← this]
    split <;> simp
  have hq : magQ ms = k.natAbs := by
    unfold magQ
    rw [hM, Nat.cast_mul, Nat.cast_pow, Nat.cast_ofNat]
    field_simp
  have hk' : (k.natAbs : ℚ) < 2 ^ 33 * 1000 := by exact_mod_cast hk
  have hb : magQ ms / (1000 : Nat) < 2 ^ 33 := by
    rw [hq, div_lt_iff₀ (by norm_num)]; push_cast; linarith
  obtain ⟨c1, c2, c3⟩ := fdivNat_spec ms 1000 33 (by omega) hx (by omega) hb
  push_cast at c3
  rw [hq, abs_le] at c3
  unfold msToDate
  rw [fromTimestamp_near _ (k.natAbs * 1000) c1 (by omega) ?_, c2]
  · congr 1
    by_cases h0 : k = 0
    · subst h0; simp
    · have hp : (0 : Int) < 2 ^ 1074 := by positivity
      by_cases hu : fSign ms.toNat
      · simp only [hu, if_true] at hf ⊢
        have : k < 0 := by
          by_contra hc
          have : 0 < k * 2 ^ 1074 := Int.mul_pos (by omega) hp
          generalize k * 2 ^ 1074 = z at *
          omega
        push_cast
        rw [abs_of_neg this]
        ring
      · rw [Bool.not_eq_true] at hu
        simp only [hu, Bool.false_eq_true, if_false] at hf ⊢
        have : 0 < k := by
          by_contra hc
          have : k * 2 ^ 1074 < 0 := Int.mul_neg_of_neg_of_pos (by omega) hp
          generalize k * 2 ^ 1074 = z at *
          omega
        push_cast
        rw [abs_of_pos this]
  · rw [abs_lt]
    push_cast
    norm_num at c3 ⊢
    constructor <;> linarith [c3.1, c3.2]

example : fval (doubleOfInt 4102444800123) = .fin (4102444800123 * 2 ^ 1074) ∧ (4102444800123 : Int).natAbs < 2 ^ 33 * 1000 := by
  decide +kernel

/-- C60, all dates: up to 47 microseconds from either end of the years 1 to 9999, every aware datetime comes back
within 47 microseconds. -/
theorem C60_error_bound (us : Int) (h1 : minDate + 48 ≤ us) (h2 : us < endDate - 48) :
    ∃ us', msToDate (dateToMs us) = .ok us' ∧ |us' - us| ≤ 47 := by
  unfold minDate at h1
  unfold endDate at h2
  have hm : us.natAbs ≤ 253402300800000000 - 49 := by omega
  have hmq : ((us.natAbs : Nat) : ℚ) ≤ 253402300800000000 - 49 := by
    have : ((us.natAbs : Nat) : ℚ) ≤ ((253402300800000000 - 49 : Nat) : ℚ) := by exact_mod_cast hm
    norm_num at this ⊢; linarith
  have hneg : us < 0 → ((us.natAbs : Nat) : ℚ) ≤ 62135596800000000 - 48 := by
    intro hu
    have hm : us.natAbs ≤ 62135596800000000 - 48 := by omega
    have : ((us.natAbs : Nat) : ℚ) ≤ ((62135596800000000 - 48 : Nat) : ℚ) := by exact_mod_cast hm
    norm_num at this ⊢; linarith
  have hb : ((us.natAbs : Nat) : ℚ) / ((10 ^ 6 : Nat) : ℚ) < 2 ^ 38 := by
    rw [div_lt_iff₀ (by norm_num)]
    norm_num at hmq ⊢; linarith
  obtain ⟨a1, a2, a3⟩ := doubleOf_spec (decide (us < 0)) us.natAbs (10 ^ 6) 38 (by norm_num) (by omega) hb
  change fExp (timestamp us).toNat ≠ 2047 at a1
  change fSign (timestamp us).toNat = _ at a2
  change |magQ (timestamp us) - _| ≤ _ at a3
  obtain ⟨t, ht⟩ : ∃ t : ℚ, ((us.natAbs : Nat) : ℚ) / ((10 ^ 6 : Nat) : ℚ) = t := ⟨_, rfl⟩
  have htu : ((us.natAbs : Nat) : ℚ) = t * 10 ^ 6 := by rw [← ht]; push_cast; field_simp; norm_num
  rw [ht, abs_le] at a3
  rw [htu] at hmq hneg
  have hb1 : magQ (timestamp us) * (1000 : Nat) < 2 ^ 48 := by
    push_cast; norm_num at a3 hmq ⊢; linarith [a3.2]
  obtain ⟨b1, b2, b3⟩ := fmulNat_spec (timestamp us) 1000 48 a1 (by omega) hb1
  push_cast at b3
  rw [abs_le] at b3
  have hc1 : magQ (fmulNat (timestamp us) 1000) / (1000 : Nat) < 2 ^ 38 := by
    push_cast
    rw [div_lt_iff₀ (by norm_num)]
    norm_num at a3 b3 hmq ⊢
    linarith [a3.2, b3.2]
  obtain ⟨c1, c2, c3⟩ := fdivNat_spec (fmulNat (timestamp us) 1000) 1000 38 (by omega) b1 (by omega) hc1
  push_cast at c3
  rw [abs_le] at c3
  have hsgn : fSign (fdivNat (fmulNat (timestamp us) 1000) 1000).toNat = decide (us < 0) := by rw [c2, b2, a2]
  obtain ⟨n, d1, d2⟩ := fromTimestamp_err _ c1 (by
    rw [hsgn]
    by_cases hu : us < 0
    · have := hneg hu
      simp only [hu, decide_true, if_true]
      norm_num at a3 b3 c3 this ⊢
      linarith [a3.2, b3.2, c3.2]
    · simp only [hu, decide_false, Bool.false_eq_true, if_false]
      norm_num at a3 b3 c3 hmq ⊢
      linarith [a3.2, b3.2, c3.2])
  refine ⟨_, d1, ?_⟩
  rw [hsgn]
  rw [abs_le] at d2
  have e1 : (n : ℚ) < us.natAbs + 48 := by
    rw [htu]; norm_num at a3 b3 c3 d2 ⊢; linarith [a3.2, b3.2, c3.2, d2.2]
  have e2 : (us.natAbs : ℚ) < n + 48 := by
    rw [htu]; norm_num at a3 b3 c3 d2 ⊢; linarith [a3.1, b3.1, c3.1, d2.1]
  have e1' : n < us.natAbs + 48 := by exact_mod_cast e1
  have e2' : us.natAbs < n + 48 := by exact_mod_cast e2
  rw [abs_le]
  by_cases hu : us < 0
  · simp only [hu, decide_true, if_true]; omega
  · simp only [hu, decide_false, Bool.false_eq_true, if_false]; omega

/-- 9999-06-01. -/
example : minDate + 48 ≤ 253383465600123456 ∧ 253383465600123456 < endDate - 48 ∧
    msToDate (dateToMs 253383465600123456) = .ok 253383465600123444 := by decide +kernel

theorem read_err (ms : F64) (hx : fExp ms.toNat ≠ 2047)
    (hr : if fSign ms.toNat then magQ ms ≤ 62135596800000 - 1 else magQ ms ≤ 253402300800000 - 1) :
    ∃ n : Nat, msToDate ms = .ok (if fSign ms.toNat then -(n : Int) else n) ∧ |(n : ℚ) - magQ ms * 1000| ≤ 16 := by
  have hr' : magQ ms ≤ 253402300800000 - 1 := by
    cases hs : fSign ms.toNat with
    | true => rw [hs] at hr; simp only [if_true] at hr; linarith
    | false => rw [hs] at hr; simpa using hr
  have hb : magQ ms / (1000 : Nat) < 2 ^ 38 := by
    push_cast; rw [div_lt_iff₀ (by norm_num)]; norm_num at hr' ⊢; linarith
  obtain ⟨c1, c2, c3⟩ := fdivNat_spec ms 1000 38 (by omega) hx (by omega) hb
  push_cast at c3
  rw [abs_le] at c3
  obtain ⟨n, d1, d2⟩ := fromTimestamp_err _ c1 (by
    rw [c2]
    cases hs : fSign ms.toNat with
    | true => rw [hs] at hr; simp only [if_true] at hr ⊢; norm_num at c3 hr ⊢; linarith [c3.2]
    | false => simp only [Bool.false_eq_true, if_false]; norm_num at c3 hr' ⊢; linarith [c3.2])
  rw [c2] at d1
  refine ⟨n, d1, ?_⟩
  rw [abs_le] at d2 ⊢
  norm_num at c3 d2 ⊢
  constructor <;> linarith [c3.1, c3.2, d2.1, d2.2]

/-- C60, all doubles: a number `q` of milliseconds inside the years 1 to 9999 (but for one at either end) is read as a
date within 16 microseconds of it. -/
theorem C60_read_error_bound (ms : F64) (s : Bool) (q : ℚ) (hms : binary64 ms = .number s q)
    (h1 : -62135596800000 + 1 ≤ q) (h2 : q ≤ 253402300800000 - 1) : ∃ us : Int, msToDate ms = .ok us ∧ |(us : ℚ) - q * 1000| ≤ 16 := by
  rw [Fmt.binary64_eq] at hms
  by_cases hx : fExp ms.toNat = 2047
  · rw [if_pos hx] at hms
    split at hms <;> cases hms
  · rw [if_neg hx] at hms
    injection hms with _ hq
    change Fmt.signed _ (magQ ms) = q at hq
    obtain ⟨n, e1, e2⟩ := read_err ms hx (by
      unfold Fmt.signed at hq
      cases hs : fSign ms.toNat with
      | true => rw [hs] at hq; simp only [if_true] at hq ⊢; linarith
      | false => rw [hs] at hq; simp only [Bool.false_eq_true, if_false] at hq ⊢; linarith)
    refine ⟨_, e1, ?_⟩
    unfold Fmt.signed at hq
    cases hs : fSign ms.toNat with
    | true =>
      rw [hs] at hq; simp only [if_true] at hq ⊢
      rw [← hq, ← abs_neg]
      refine le_trans (le_of_eq ?_) e2
      push_cast
      congr 1; ring
    | false =>
      rw [hs] at hq; simp only [Bool.false_eq_true, if_false] at hq ⊢
      rw [← hq]
      exact_mod_cast e2

/-- 2267-01-30, the second disagreement below. -/
example : ∃ s q, binary64 (doubleOfInt 9375085475196) = .number s q ∧ -62135596800000 + 1 ≤ q ∧ q ≤ 253402300800000 - 1 := by
  rw [Fmt.binary64_eq, if_neg (by decide +kernel)]
  have hm : fMag (doubleOfInt 9375085475196).toNat = 9375085475196 * 2 ^ 1074 := by decide +kernel
  have hs : fSign (doubleOfInt 9375085475196).toNat = false := by decide +kernel
  refine ⟨_, 9375085475196, congrArg _ ?_, by norm_num, by norm_num⟩
  unfold Fmt.signed
  rw [hs, if_neg (by simp), hm, Nat.cast_mul, unit_cast]
  rw [mul_div_assoc, div_self (by positivity)]
  norm_num

/-- The full C60 is false, first: a microsecond in the year 2092 comes back as the one before it. -/
theorem C60_far_date_changes : ∃ us, minDate ≤ us ∧ us < endDate ∧ ∃ us', msToDate (dateToMs us) = .ok us' ∧ us' ≠ us :=
  ⟨3880873678813263, by decide, by decide, 3880873678813262, by decide +kernel, by decide⟩

/-- The full C60 is false, second: 1.001 s after 1970 is written as 1000.9999999999999 ms, of which JavaScript,
whose dates are whole milliseconds, keeps 1000. -/
theorem C60_written_ms_not_whole : dateToMs (1001 * 1000) = 0x408f47ffffffffff ∧
    fval (0x408f47ffffffffff : F64) ≠ .fin (1001 * 2 ^ 1074) := by decide +kernel

/-- The full C60 is false, third: a whole number of milliseconds in the year 2267 is read as another date. -/
theorem C60_read_far_ms : ∃ (k : Int) (ms : F64), fval ms = .fin (k * 2 ^ 1074) ∧ minDate ≤ k * 1000 ∧ k * 1000 < endDate ∧
    ∃ us, msToDate ms = .ok us ∧ us ≠ k * 1000 :=
  ⟨9375085475196, doubleOfInt 9375085475196, by decide +kernel, by decide, by decide, 9375085475195999,
    by decide +kernel, by decide⟩

/-- The full C60 is false, fourth: JavaScript's Invalid Date (NaN) and dates after the year 9999 cannot be read: `loads`
raises ValueError, which is no V8SerializeError. -/
theorem C60_invalid_date_raises :
    (loads ⟨withDates fun _ => [], true⟩ [0xFF, 0x0F, 0x44, 0, 0, 0, 0, 0, 0, 0xF8, 0x7F]).map Prod.fst = .error (.py .valueError) ∧
    (loads ⟨withDates fun _ => [], true⟩ ([0xFF, 0x0F, 0x44] ++ toLE 8 (doubleOfInt 253402300800000).toNat)).map Prod.fst =
      .error (.py .valueError) := by decide +kernel

/-! ### Inside object graphs -/

/-- C60: with dates between 1901-12-13 and 2038-01-19 anywhere in it, a graph of objects comes back with the same
dates (C11, whose condition on dates is met). -/
theorem C60_in_graphs_partial {env : EEnv} {denv : DEnv} (hpy : env.py = withDates env.py.floatStr) (hpy' : denv.py = env.py)
    (hd : ∀ (i : Id) us, env.heap[i]? = some (.date us) → Near1970 us)
    (ho : ∀ (i : Id) n, env.heap[i]? = some n → (∀ us, n ≠ .date us) → NodeOK env n)
    (hb : ∀ (i j : Id), Interchangeable env i j → IsBuffer env.heap (.obj i) → env.heap[j]? = env.heap[i]?)
    (v : Val) (hn : NumbersAgree env v) (bytes : Bytes) (h : dumps env v = .ok bytes) :
    ∃ z P w ds, loads denv bytes = .ok (w, ds) ∧ SameGraph env z P v w ds.heap := by
  refine C11_round_trip_partial ⟨fun i n hi => ?_, hb⟩ hpy' v hn bytes h
  cases n with
  | date us =>
    intro ms hms
    rw [hpy] at hms ⊢
    simp only [withDates] at hms ⊢
    cases hms
    exact C60_round_trip_partial us (hd i us hi)
  | _ => exact ho i _ hi (fun us => by simp)

/-- A list of two dates, one of them twice, and `None`. -/
def exampleDates : Heap := [.pylist [.obj 1, .obj 2, .obj 1, .null], .date 1700000000123456, .date (-1)]

def exampleDatesEnc : EEnv := ⟨exampleDates, ⟨true, true, true, true⟩, withDates fun _ => [], fun _ => none⟩

example : ∃ bytes, dumps exampleDatesEnc (.obj 0) = .ok bytes ∧
    ∃ z P w ds, loads ⟨withDates fun _ => [], true⟩ bytes = .ok (w, ds) ∧ SameGraph exampleDatesEnc z P (.obj 0) w ds.heap := by
  have h : (dumps exampleDatesEnc (.obj 0)).toOption.isSome = true := by decide +kernel
  have hij : ∀ {i j : Id}, Interchangeable exampleDatesEnc i j → i = j := by
    rintro i j (h | ⟨c, h, _⟩)
    · exact h
    · cases h
  cases hd : dumps exampleDatesEnc (.obj 0) with
  | error e => rw [hd] at h; cases h
  | ok b =>
    refine ⟨b, rfl, C60_in_graphs_partial rfl rfl (fun i us hi => ?_) (fun i n hi hne => ?_)
      (fun i j hij' _ => by rw [hij hij']) _ (Or.inl fun i n hi => ?_) b hd⟩
    · simp only [exampleDatesEnc, exampleDates] at hi
      rcases i with _ | _ | _ | i <;> cases hi <;> (unfold Near1970; decide)
    · simp only [exampleDatesEnc, exampleDates] at hi
      rcases i with _ | _ | _ | i
      · cases hi; simp [NodeOK]
      · cases hi; exact absurd rfl (hne _)
      · cases hi; exact absurd rfl (hne _)
      · cases hi
    · simp only [exampleDatesEnc, exampleDates] at hi
      rcases i with _ | _ | _ | i <;> cases hi <;> trivial

end V8.Props
