import Verif.Proofs.LocalFloat
import Verif.Props.DateTime

/-!
# C77: dates without a time zone

`d.wall / 10 ^ 6` is the local time of `d` in whole seconds and `d.wall % 10 ^ 6` its microsecond.  `msToDate` (C60) gives
the point in time that a number of milliseconds stands for.
-/

namespace V8.Props
open V8.Spec

/-- C77: without a time zone, a Date is read as the datetime with the numbers that the local clock shows at that point in
time; its `fold` is 1 just if the clock has shown them before. -/
theorem C77_reads_clock {loc : Clock} (hr : Regular loc) {ms : F64} {us : Int} (hms : msToDate ms = .ok us)
    (hi : Inside (loc (us / 10 ^ 6))) :
    ∃ d, msToNaive loc ms = .ok d ∧ d.wall / 10 ^ 6 = loc (us / 10 ^ 6) ∧ d.wall % 10 ^ 6 = us % 10 ^ 6 ∧
      (d.fold = true ↔ ∃ v, v < us / 10 ^ 6 ∧ loc v = loc (us / 10 ^ 6)) := by
  obtain ⟨fold, h1, h2⟩ := localDate_eq hr hi
  unfold msToDate at hms
  unfold msToNaive
  rw [fromTimestampLocal_of hms, h1]
  refine ⟨_, rfl, ?_, ?_, h2⟩
  · simp only; omega
  · simp only; omega

/-- Around 1970, with three days left for the difference between local time and UTC: 1901-12-17 to 2038-01-16. -/
def WallNear (d : NaiveDate) : Prop := -((2 ^ 31 - 86400 * 3) * 10 ^ 6) ≤ d.wall ∧ d.wall < (2 ^ 31 - 86400 * 3) * 10 ^ 6

theorem WallNear.inside {d : NaiveDate} (h : WallNear d) : Inside (d.wall / 10 ^ 6) := by
  unfold WallNear at h
  unfold Inside minSec endSec
  omega

/-- The bytes written for a datetime whose local time stands for the point in time `u`. -/
theorem written_of {loc : Clock} {d : NaiveDate} {u : Int} (hm : mktime loc (d.wall / 10 ^ 6) d.fold = .ok u)
    (hu : u.natAbs < 2 ^ 31 - 1) :
    ∃ ms, naiveToMs loc d = .ok ms ∧ msToDate ms = .ok (u * 10 ^ 6 + d.wall % 10 ^ 6) := by
  have hmod : d.wall % 10 ^ 6 = ((d.wall % 10 ^ 6).toNat : Int) := by omega
  have hlt : (d.wall % 10 ^ 6).toNat < 10 ^ 6 := by omega
  obtain ⟨x, e, x1, x2, x3⟩ := faddInt_near (s := u) hlt (by omega)
  refine ⟨fmulNat x 1000, ?_, ?_⟩
  · unfold naiveToMs naiveTimestamp
    rw [hm]
    simp only [e]
  · unfold msToDate
    rw [hmod]
    exact near_back (by omega) x1 x2 x3

/-- C77: a datetime that the clock shows is written as the point in time at which it shows it: the first one if `fold`
is 0, the last one if it is 1. -/
theorem C77_writes_clock_partial {loc : Clock} (hr : Regular loc) {d : NaiveDate} (hd : WallNear d)
    (hs : ¬ Skipped loc (d.wall / 10 ^ 6)) :
    ∃ u ms, (if d.fold then LastTime loc (d.wall / 10 ^ 6) u else FirstTime loc (d.wall / 10 ^ 6) u) ∧
      naiveToMs loc d = .ok ms ∧ msToDate ms = .ok (u * 10 ^ 6 + d.wall % 10 ^ 6) := by
  have hi := hd.inside
  unfold Skipped at hs
  rw [not_forall] at hs
  obtain ⟨v, hv⟩ := hs
  rw [not_not] at hv
  obtain ⟨u, h1, h2, _⟩ := mktime_shown hr hi d.fold hv
  have hn := loc_near hr u
  unfold WallNear at hd
  obtain ⟨ms, h3, h4⟩ := written_of h1 (by omega)
  refine ⟨u, ms, ?_, h3, h4⟩
  have hall : ∀ w, loc w = d.wall / 10 ^ 6 → if d.fold then w ≤ u else u ≤ w := by
    intro w hw
    obtain ⟨u', k1, _, k3⟩ := mktime_shown hr hi d.fold hw
    rw [h1] at k1
    cases k1
    exact k3
  cases hf : d.fold with
  | true => rw [hf] at hall; simp only [if_true] at hall ⊢; exact ⟨h2, hall⟩
  | false => rw [hf] at hall; simp only [Bool.false_eq_true, if_false] at hall ⊢; exact ⟨h2, hall⟩

/-- C77: a datetime that the clock shows comes back with the same numbers; with the same `fold` too if that is 0, or if
the clock shows the time twice. -/
theorem C77_comes_back_partial {loc : Clock} (hr : Regular loc) {d : NaiveDate} (hd : WallNear d)
    (hs : ¬ Skipped loc (d.wall / 10 ^ 6)) :
    ∃ ms d', naiveToMs loc d = .ok ms ∧ msToNaive loc ms = .ok d' ∧ d'.wall = d.wall ∧
      ((d.fold = true → ∃ v w, v < w ∧ loc v = d.wall / 10 ^ 6 ∧ loc w = d.wall / 10 ^ 6) → d' = d) := by
  obtain ⟨u, ms, h1, h2, h3⟩ := C77_writes_clock_partial hr hd hs
  have hu : loc u = d.wall / 10 ^ 6 := by
    cases hf : d.fold with
    | true => rw [hf] at h1; exact h1.1
    | false => rw [hf] at h1; exact h1.1
  have hdiv : (u * 10 ^ 6 + d.wall % 10 ^ 6) / 10 ^ 6 = u := by omega
  obtain ⟨d', k1, k2, k3, k4⟩ := C77_reads_clock hr h3 (by rw [hdiv, hu]; exact hd.inside)
  rw [hdiv] at k2 k4
  have hw : d'.wall = d.wall := by rw [hu] at k2; omega
  refine ⟨ms, d', h2, k1, hw, fun hf => ?_⟩
  have : d'.fold = d.fold := by
    cases hf' : d.fold with
    | true =>
      rw [hf'] at h1
      simp only [if_true] at h1
      obtain ⟨v, w, hvw, hv, hw⟩ := hf hf'
      exact k4.2 ⟨v, by have := h1.2 w hw; omega, by rw [hv, hu]⟩
    | false =>
      rw [hf'] at h1
      simp only [Bool.false_eq_true, if_false] at h1
      cases hc : d'.fold with
      | false => rfl
      | true =>
        obtain ⟨v, hv, hv'⟩ := k4.1 hc
        have := h1.2 v (by rw [hv', hu])
        omega
  cases d; cases d'
  simp only at hw this
  rw [hw, this]

/-- C77: what is read as a datetime without time zone and written again is the same point in time, also in the hour that
the clock shows twice. -/
theorem C77_same_instant_partial {loc : Clock} (hr : Regular loc) {ms : F64} {us : Int} (hms : msToDate ms = .ok us)
    (hn : us.natAbs < (2 ^ 31 - 86400 * 4) * 10 ^ 6) :
    ∃ d ms', msToNaive loc ms = .ok d ∧ naiveToMs loc d = .ok ms' ∧ msToDate ms' = .ok us := by
  have hl := loc_near hr (us / 10 ^ 6)
  have hi : Inside (loc (us / 10 ^ 6)) := by unfold Inside minSec endSec; omega
  obtain ⟨d, k1, k2, k3, k4⟩ := C77_reads_clock hr hms hi
  have hm := mktime_localDate hr hi k4
  rw [← k2] at hm
  have hub : (us / 10 ^ 6).natAbs < 2 ^ 31 - 1 := by
    clear k1 k2 k3 k4 hm hi hl
    omega
  obtain ⟨ms', h3, h4⟩ := written_of hm hub
  refine ⟨d, ms', k1, h3, ?_⟩
  rw [h4, k3]
  congr 1
  omega

/-- C77: a datetime that the clock skips comes back moved by what the clock was moved by: to a later time if `fold` is 0,
to an earlier one if it is 1. -/
theorem C77_skipped_partial {loc : Clock} (hr : Regular loc) {d : NaiveDate} (hd : WallNear d)
    (hs : Skipped loc (d.wall / 10 ^ 6)) :
    ∃ c ms d', loc (c - 1) < d.wall / 10 ^ 6 ∧ d.wall / 10 ^ 6 < loc c ∧ naiveToMs loc d = .ok ms ∧ msToNaive loc ms = .ok d' ∧
      d'.wall = if d.fold then d.wall - (loc c - loc (c - 1) - 1) * 10 ^ 6 else d.wall + (loc c - loc (c - 1) - 1) * 10 ^ 6 := by
  have hi := hd.inside
  obtain ⟨u, c, h1, h2, h3, h4⟩ := mktime_skipped hr hi d.fold hs
  have hn := loc_near hr u
  have hc := loc_near hr c
  have hc' := loc_near hr (c - 1)
  have hj : loc c - loc (c - 1) - 1 ≤ 86400 := by
    obtain ⟨c', p, q, hp, hq, hpq, hw⟩ := hr (c - 1)
    have w1 := hw (c - 1) (by omega) (by omega)
    have w2 := hw c (by omega) (by omega)
    split at w1 <;> split at w2 <;> omega
  unfold WallNear at hd
  have hub : -(2 ^ 31 - 1) < u ∧ u < 2 ^ 31 - 1 ∧ Inside (loc u) := by
    unfold Inside minSec endSec
    split at h4 <;> omega
  obtain ⟨ms, h5, h6⟩ := written_of h1 (by omega)
  have hdiv : (u * 10 ^ 6 + d.wall % 10 ^ 6) / 10 ^ 6 = u := by omega
  obtain ⟨d', k1, k2, k3, _⟩ := C77_reads_clock hr h6 (by rw [hdiv]; exact hub.2.2)
  rw [hdiv] at k2
  refine ⟨c, ms, d', h2, h3, h5, k1, ?_⟩
  split
  · rename_i hf; rw [if_pos hf] at h4; omega
  · rename_i hf; rw [if_neg hf] at h4; omega

/-! ### Whole seconds, in all years -/

/-- C60, all years: an aware datetime with whole seconds is written as exactly that number of milliseconds and comes
back. -/
theorem C60_whole_seconds (s : Int) (h1 : minSec < s) (h2 : s < endSec) :
    fval (dateToMs (s * 10 ^ 6)) = .fin (s * 1000 * 2 ^ 1074) ∧ msToDate (dateToMs (s * 10 ^ 6)) = .ok (s * 10 ^ 6) := by
  have hb : s.natAbs < 2 ^ 53 := by unfold minSec at h1; unfold endSec at h2; omega
  obtain ⟨a1, a2, a3⟩ := doubleOf_exact (decide (s * 10 ^ 6 < 0)) (s * 10 ^ 6).natAbs (10 ^ 6) s.natAbs (by norm_num) hb
    (by rw [Int.natAbs_mul]; rfl)
  exact whole_seconds h1 h2 a1 (a2.trans (sec_sign s)) a3

/-- 9999-06-01, which is written as 253383465600000. -/
example : minSec < 253383465600 ∧ (253383465600 : Int) < endSec ∧
    dateToMs (253383465600 * 10 ^ 6) = doubleOfInt 253383465600000 := by decide +kernel

/-- C77, all years but the first and last four days: a datetime with whole seconds that the clock shows comes back, and
is written as exactly the number of milliseconds of the point in time at which the clock shows it. -/
theorem C77_whole_seconds {loc : Clock} (hr : Regular loc) (t : Int) (fold : Bool)
    (h1 : minSec + 4 * 86400 ≤ t) (h2 : t < endSec - 4 * 86400) (hs : ¬ Skipped loc t) :
    ∃ u ms d', (if fold then LastTime loc t u else FirstTime loc t u) ∧ naiveToMs loc ⟨t * 10 ^ 6, fold⟩ = .ok ms ∧
      fval ms = .fin (u * 1000 * 2 ^ 1074) ∧ msToNaive loc ms = .ok d' ∧ d'.wall = t * 10 ^ 6 := by
  have hi : Inside t := by unfold Inside; omega
  unfold Skipped at hs
  rw [not_forall] at hs
  obtain ⟨v, hv⟩ := hs
  rw [not_not] at hv
  obtain ⟨u, k1, k2, _⟩ := mktime_shown hr hi fold hv
  have hn := loc_near hr u
  have hu : minSec < u ∧ u < endSec := by omega
  have hb : u.natAbs < 2 ^ 53 := by unfold minSec endSec at hu; omega
  obtain ⟨x, e, x1, x2, x3⟩ := faddInt_whole hb
  obtain ⟨y1, y2⟩ := whole_seconds hu.1 hu.2 x1 x2 x3
  have hdiv : u * 10 ^ 6 / 10 ^ 6 = u := by omega
  obtain ⟨d', z1, z2, z3, _⟩ := C77_reads_clock (ms := fmulNat x 1000) hr y2 (by rw [hdiv, k2]; exact hi)
  refine ⟨u, fmulNat x 1000, d', ?_, ?_, y1, z1, ?_⟩
  · have hall : ∀ w, loc w = t → if fold then w ≤ u else u ≤ w := by
      intro w hw
      obtain ⟨u', j1, _, j3⟩ := mktime_shown hr hi fold hw
      rw [k1] at j1
      cases j1
      exact j3
    cases fold with
    | true => simp only [if_true] at hall ⊢; exact ⟨k2, hall⟩
    | false => simp only [Bool.false_eq_true, if_false] at hall ⊢; exact ⟨k2, hall⟩
  · unfold naiveToMs naiveTimestamp
    have e0 : (t * 10 ^ 6 % 10 ^ 6 : Int).toNat = 0 := by omega
    have e1 : (t * 10 ^ 6 / 10 ^ 6 : Int) = t := by omega
    simp only
    rw [e1, e0, k1]
    simp only [e]
  · rw [hdiv, k2] at z2
    omega

/-! ### Clocks that are set -/

/-- A clock that is set once, from `p` to `q` seconds before UTC, at the moment `c`. -/
def onceSet (c p q : Int) : Clock := fun u => u + if u < c then p else q

theorem onceSet_regular (c p q : Int) (hp : -86400 < p ∧ p < 86400) (hq : -86400 < q ∧ q < 86400)
    (h : q - p ≤ 86400 ∧ p - q ≤ 86400) : Regular (onceSet c p q) :=
  fun _ => ⟨c, p, q, hp, hq, h, fun _ _ _ => rfl⟩

/-- Berlin at the end of summer time, 2023-10-29 01:00 UTC: 03:00 becomes 02:00. -/
def berlinAutumn : Clock := onceSet 1698541200 7200 3600
/-- Berlin at the beginning of summer time, 2024-03-31 01:00 UTC: 02:00 becomes 03:00. -/
def berlinSpring : Clock := onceSet 1711846800 3600 7200

theorem berlinAutumn_regular : Regular berlinAutumn := onceSet_regular _ _ _ (by decide) (by decide) (by decide)
theorem berlinSpring_regular : Regular berlinSpring := onceSet_regular _ _ _ (by decide) (by decide) (by decide)

/-- Hypotheses of `C77_writes_clock_partial`, `C77_comes_back_partial`, `C77_same_instant_partial`: 02:30:00.123456, which
the clock shows at 00:30 and 01:30 UTC. -/
example : Regular berlinAutumn ∧ WallNear ⟨1698546600123456, true⟩ ∧ ¬ Skipped berlinAutumn (1698546600123456 / 10 ^ 6) ∧
    berlinAutumn 1698539400 = 1698546600 ∧ berlinAutumn 1698543000 = 1698546600 ∧
    Inside (berlinAutumn 1698543000) ∧ msToDate (doubleOfInt 1698543000123) = .ok 1698543000123000 ∧
    (1698543000123000 : Int).natAbs < (2 ^ 31 - 86400 * 4) * 10 ^ 6 :=
  ⟨berlinAutumn_regular, by unfold WallNear; decide, fun h => h 1698539400 (by decide), by decide, by decide,
    by unfold Inside; decide, by decide +kernel, by decide⟩

/-- Hypotheses of `C77_skipped_partial`: 02:30 in spring. -/
example : WallNear ⟨1711852200000000, false⟩ ∧ Skipped berlinSpring (1711852200000000 / 10 ^ 6) := by
  refine ⟨by unfold WallNear; decide, fun v h => ?_⟩
  unfold berlinSpring onceSet at h
  split at h <;> omega

/-- Hypotheses of `C77_whole_seconds`: 9999-06-01. -/
example : minSec + 4 * 86400 ≤ 253383465600 ∧ (253383465600 : Int) < endSec - 4 * 86400 ∧
    ¬ Skipped berlinAutumn 253383465600 := ⟨by decide, by decide, fun h => h 253383462000 (by decide)⟩

/-! ### The full statement is false -/

/-- The full C77 is false, first: a local time that the clock skips does not come back.  02:30 becomes 03:30. -/
theorem C77_skipped_changes :
    (match naiveToMs berlinSpring ⟨1711852200000000, false⟩ with
      | .ok ms => msToNaive berlinSpring ms
      | .error e => .error e) = .ok ⟨1711855800000000, false⟩ := by decide +kernel

/-- The full C77 is false, second: two Dates an hour apart are read as equal datetimes (`==` ignores `fold`). -/
theorem C77_equal_for_an_hour :
    msToNaive berlinAutumn (doubleOfInt 1698539400000) = .ok ⟨1698546600000000, false⟩ ∧
    msToNaive berlinAutumn (doubleOfInt 1698543000000) = .ok ⟨1698546600000000, true⟩ := by decide +kernel

/-- The full C77 is false, third: on the first day of the year 1 neither reading nor writing works, even if the local
time is UTC and the clock is never set, while the same Date can be read with a time zone. -/
theorem C77_first_day_raises :
    msToDate (doubleOfInt (-62135553600000)) = .ok (-62135553600000000) ∧
    msToNaive id (doubleOfInt (-62135553600000)) = .error .valueError ∧
    naiveToMs id ⟨-62135553600000000, false⟩ = .error .valueError := by decide +kernel

/-- The full C77 is false, fourth: a microsecond in the year 2092 comes back as the one before it, as with a time zone
(C60). -/
theorem C77_far_date_changes :
    (match naiveToMs id ⟨3880873678813263, false⟩ with
      | .ok ms => msToNaive id ms
      | .error e => .error e) = .ok ⟨3880873678813262, false⟩ := by decide +kernel

/-! ### Inside object graphs -/

/-- C77: a graph of objects that has datetimes without time zone in it, of the years 1902 to 2037, that the clock shows
(with `fold` 1 only if it shows them twice), comes back with the same datetimes. -/
theorem C77_in_graphs_partial {loc : Clock} (hr : Regular loc) {env : EEnv} {denv : DEnv}
    (hpy : env.py = withLocalDates loc env.py.floatStr) (hpy' : denv.py = env.py)
    (hd : ∀ (i : Id) n, env.heap[i]? = some (.date n) → ∃ d : NaiveDate, n = d.code ∧ WallNear d ∧
      ¬ Skipped loc (d.wall / 10 ^ 6) ∧
      (d.fold = true → ∃ v w, v < w ∧ loc v = d.wall / 10 ^ 6 ∧ loc w = d.wall / 10 ^ 6))
    (ho : ∀ (i : Id) n, env.heap[i]? = some n → (∀ us, n ≠ .date us) → NodeOK env n)
    (hb : ∀ (i j : Id), Interchangeable env i j → IsBuffer env.heap (.obj i) → env.heap[j]? = env.heap[i]?)
    (v : Val) (hn : NumbersAgree env v) (bytes : Bytes) (h : dumps env v = .ok bytes) :
    ∃ z P w ds, loads denv bytes = .ok (w, ds) ∧ SameGraph env z P v w ds.heap := by
  refine C11_round_trip_partial ⟨fun i n hi => ?_, hb⟩ hpy' v hn bytes h
  cases n with
  | date us =>
    intro ms hms
    obtain ⟨d, e, h1, h2, h3⟩ := hd i us hi
    obtain ⟨ms', d', k1, k2, _, k4⟩ := C77_comes_back_partial hr h1 h2
    rw [hpy] at hms ⊢
    simp only [withLocalDates] at hms ⊢
    rw [e, NaiveDate.ofCode_code, k1] at hms
    cases hms
    rw [k2, k4 h3, e]
    rfl
  | _ => exact ho i _ hi (fun us => by simp)

/-- A list of three datetimes: 02:30 in autumn, once for the first and once for the second time, and 1969-12-31
23:59:59.999999. -/
def exampleLocal : Heap :=
  [.pylist [.obj 1, .obj 2, .obj 1, .obj 3], .date (NaiveDate.code ⟨1698546600000000, false⟩),
    .date (NaiveDate.code ⟨1698546600000000, true⟩), .date (NaiveDate.code ⟨-1, false⟩)]

def exampleLocalEnc : EEnv := ⟨exampleLocal, ⟨true, true, true, true⟩, withLocalDates berlinAutumn fun _ => [], fun _ => none⟩

example : ∃ bytes, dumps exampleLocalEnc (.obj 0) = .ok bytes ∧ ∃ z P w ds,
    loads ⟨withLocalDates berlinAutumn fun _ => [], true⟩ bytes = .ok (w, ds) ∧ SameGraph exampleLocalEnc z P (.obj 0) w ds.heap := by
  have h : (dumps exampleLocalEnc (.obj 0)).toOption.isSome = true := by decide +kernel
  have hij : ∀ {i j : Id}, Interchangeable exampleLocalEnc i j → i = j := by
    rintro i j (h | ⟨c, h, _⟩)
    · exact h
    · cases h
  cases hd : dumps exampleLocalEnc (.obj 0) with
  | error e => rw [hd] at h; cases h
  | ok b =>
    refine ⟨b, rfl, C77_in_graphs_partial berlinAutumn_regular rfl rfl (fun i n hi => ?_) (fun i n hi hne => ?_)
      (fun i j hij' _ => by rw [hij hij']) _ (Or.inl fun i n hi => ?_) b hd⟩
    · simp only [exampleLocalEnc, exampleLocal] at hi
      rcases i with _ | _ | _ | _ | i
      · cases hi
      · cases hi
        exact ⟨_, rfl, by unfold WallNear; decide, fun h => h 1698539400 (by decide), by simp⟩
      · cases hi
        exact ⟨_, rfl, by unfold WallNear; decide, fun h => h 1698539400 (by decide),
          fun _ => ⟨1698539400, 1698543000, by decide, by decide, by decide⟩⟩
      · cases hi
        exact ⟨_, rfl, by unfold WallNear; decide, fun h => h (-7201) (by decide), by simp⟩
      · cases hi
    · simp only [exampleLocalEnc, exampleLocal] at hi
      rcases i with _ | _ | _ | _ | i
      · cases hi; simp [NodeOK]
      · cases hi; exact absurd rfl (hne _)
      · cases hi; exact absurd rfl (hne _)
      · cases hi; exact absurd rfl (hne _)
      · cases hi
    · simp only [exampleLocalEnc, exampleLocal] at hi
      rcases i with _ | _ | _ | _ | i <;> cases hi <;> trivial

end V8.Props
