import Verif.Spec.Clock

/-!
# Lemmas on local clocks
-/

namespace V8
open V8.Spec

/-- Local times at least three days inside the years 1 to 9999. -/
def Inside (t : Int) : Prop := minSec + 3 * 86400 ≤ t ∧ t < endSec - 3 * 86400

theorem loc_near {loc : Clock} (h : Regular loc) (u : Int) : u - 86400 < loc u ∧ loc u < u + 86400 := by
  obtain ⟨c, p, q, hp, hq, _, hw⟩ := h u
  have := hw u (by omega) (by omega)
  split at this <;> omega

theorem localSec_ok {loc : Clock} (h : Regular loc) {u : Int} (h1 : minSec + 86400 ≤ u) (h2 : u ≤ endSec - 86400) :
    localSec loc u = .ok (loc u) := by
  have := loc_near h u
  unfold localSec
  rw [if_pos (by omega)]

/-- The clock around the local time `t`: every point in time that matters is within two days. -/
theorem window {loc : Clock} (h : Regular loc) (t : Int) :
    ∃ c p q : Int, (-86400 < p ∧ p < 86400) ∧ (-86400 < q ∧ q < 86400) ∧ (q - p ≤ 86400 ∧ p - q ≤ 86400) ∧
      ∀ y, t - 172800 ≤ y → y ≤ t + 172800 → (y < c ∧ loc y = y + p ∨ c ≤ y ∧ loc y = y + q) := by
  obtain ⟨c, p, q, hp, hq, hpq, hw⟩ := h (t - 172800)
  refine ⟨c, p, q, hp, hq, hpq, fun y h1 h2 => ?_⟩
  have := hw y (by omega) (by omega)
  split at this
  · exact .inl ⟨by assumption, this⟩
  · exact .inr ⟨by omega, this⟩

theorem mktimeOther_eq {loc : Clock} (h : Regular loc) {t : Int} (ht : Inside t) (fold : Bool) (u1 t1 b : Int)
    (hb : -86400 < b ∧ b < 86400) :
    mktimeOther loc t fold u1 t1 b =
      .ok (if loc (t - b) = t then t - b else if t1 = t then u1 else if fold then min u1 (t - b) else max u1 (t - b)) := by
  unfold mktimeOther
  unfold Inside at ht
  rw [localSec_ok h (by omega) (by omega)]
  simp only
  split
  · rfl
  · split <;> rfl

theorem mktime_eq {loc : Clock} (h : Regular loc) {t : Int} (ht : Inside t) (fold : Bool) :
    ∃ u1, u1 = t - (loc t - t) ∧ mktime loc t fold = .ok (
      if loc u1 = t then
        let u2 := if fold then u1 + 86400 else u1 - 86400
        if loc t - t = loc u2 - u2 then u1
        else if loc (t - (loc u2 - u2)) = t then t - (loc u2 - u2) else u1
      else
        let b := loc u1 - u1
        if loc (t - b) = t then t - b else if fold then min u1 (t - b) else max u1 (t - b)) := by
  refine ⟨_, rfl, ?_⟩
  have ht' := ht
  unfold Inside at ht
  have h0 := loc_near h t
  unfold mktime
  rw [localSec_ok h (by omega) (by omega)]
  simp only
  have h1 := loc_near h (t - (loc t - t))
  rw [localSec_ok h (by omega) (by omega)]
  simp only
  by_cases e : loc (t - (loc t - t)) = t
  · rw [if_pos e, if_pos e]
    unfold maxFold
    cases fold with
    | false =>
      simp only [Bool.false_eq_true, if_false]
      have h2 := loc_near h (t - (loc t - t) - 86400)
      rw [localSec_ok h (by omega) (by omega)]
      simp only
      split
      · rfl
      · rw [mktimeOther_eq h ht' _ _ _ _ (by omega), if_pos e]
    | true =>
      simp only [if_true]
      have h2 := loc_near h (t - (loc t - t) + 86400)
      rw [localSec_ok h (by omega) (by omega)]
      simp only
      split
      · rfl
      · rw [mktimeOther_eq h ht' _ _ _ _ (by omega), if_pos e]
  · rw [if_neg e, if_neg e, mktimeOther_eq h ht' _ _ _ _ (by omega), if_neg e]

/-- A local time that the clock shows. -/
theorem mktime_shown {loc : Clock} (h : Regular loc) {t : Int} (ht : Inside t) (fold : Bool) {v : Int} (hv : loc v = t) :
    ∃ u, mktime loc t fold = .ok u ∧ loc u = t ∧ (if fold then v ≤ u else u ≤ v) := by
  obtain ⟨u1, hu1, hm⟩ := mktime_eq h ht fold
  refine ⟨_, hm, ?_⟩
  obtain ⟨c, p, q, hp, hq, hpq, hw⟩ := window h t
  have hv1 := loc_near h v
  have w0 := hw t (by omega) (by omega)
  have wv := hw v (by omega) (by omega)
  have w1 := hw u1 (by omega) (by omega)
  cases fold with
  | false =>
    simp only [Bool.false_eq_true, if_false]
    have w2 := hw (u1 - 86400) (by omega) (by omega)
    have w3 := hw (t - (loc (u1 - 86400) - (u1 - 86400))) (by omega) (by omega)
    have w4 := hw (t - (loc u1 - u1)) (by omega) (by omega)
    split
    · split
      · omega
      · split <;> omega
    · split <;> omega
  | true =>
    simp only [if_true]
    have w2 := hw (u1 + 86400) (by omega) (by omega)
    have w3 := hw (t - (loc (u1 + 86400) - (u1 + 86400))) (by omega) (by omega)
    have w4 := hw (t - (loc u1 - u1)) (by omega) (by omega)
    split
    · split
      · omega
      · split <;> omega
    · split <;> omega

/-- A local time that the clock skips: there is a moment `c` at which the clock jumps over it. -/
theorem mktime_skipped {loc : Clock} (h : Regular loc) {t : Int} (ht : Inside t) (fold : Bool) (hs : Skipped loc t) :
    ∃ u c, mktime loc t fold = .ok u ∧ loc (c - 1) < t ∧ t < loc c ∧
      loc u = if fold then t - (loc c - loc (c - 1) - 1) else t + (loc c - loc (c - 1) - 1) := by
  obtain ⟨u1, hu1, hm⟩ := mktime_eq h ht fold
  obtain ⟨c, p, q, hp, hq, hpq, hw⟩ := window h t
  refine ⟨_, c, hm, ?_⟩
  have h0 := hs (t - p)
  have h1 := hs (t - q)
  have h2 := hs u1
  have h3 := hs (t - (loc u1 - u1))
  have w0 := hw t (by omega) (by omega)
  have wp := hw (t - p) (by omega) (by omega)
  have wq := hw (t - q) (by omega) (by omega)
  have wc := hw (c - 1) (by omega) (by omega)
  have wc' := hw c (by omega) (by omega)
  have w1 := hw u1 (by omega) (by omega)
  have w4 := hw (t - (loc u1 - u1)) (by omega) (by omega)
  simp only
  rw [if_neg h2, if_neg h3]
  cases fold with
  | false =>
    simp only [Bool.false_eq_true, if_false]
    have wm := hw (max u1 (t - (loc u1 - u1))) (by omega) (by omega)
    omega
  | true =>
    simp only [if_true]
    have wm := hw (min u1 (t - (loc u1 - u1))) (by omega) (by omega)
    omega

theorem localDate_eq {loc : Clock} (h : Regular loc) {us : Int} (hi : Inside (loc (us / 10 ^ 6))) :
    ∃ fold, localDate loc us = .ok ⟨loc (us / 10 ^ 6) * 10 ^ 6 + us % 10 ^ 6, fold⟩ ∧
      (fold = true ↔ ∃ v, v < us / 10 ^ 6 ∧ loc v = loc (us / 10 ^ 6)) := by
  obtain ⟨u, hu⟩ : ∃ u, us / 10 ^ 6 = u := ⟨_, rfl⟩
  unfold localDate
  rw [hu] at hi ⊢
  have hn := loc_near h u
  unfold Inside at hi
  have hn2 := loc_near h (u - maxFold)
  unfold maxFold at *
  simp only
  rw [localSec_ok h (by omega) (by omega)]
  simp only
  rw [localSec_ok h (by omega) (by omega)]
  simp only
  obtain ⟨c, p, q, hp, hq, hpq, hw⟩ := window h (loc u)
  have wu := hw u (by omega) (by omega)
  have w1 := hw (u - 86400) (by omega) (by omega)
  split
  · rw [localSec_ok h (by omega) (by omega)]
    refine ⟨_, rfl, ?_⟩
    rw [decide_eq_true_eq]
    constructor
    · intro e
      exact ⟨_, by omega, e⟩
    · rintro ⟨v, hv, e⟩
      have := loc_near h v
      have wv := hw v (by omega) (by omega)
      have w2 := hw (u + (loc u - loc (u - 86400) - 86400)) (by omega) (by omega)
      omega
  · refine ⟨_, rfl, by simp, ?_⟩
    rintro ⟨v, hv, e⟩
    have := loc_near h v
    have wv := hw v (by omega) (by omega)
    omega

/-- At most two points in time have the same local time. -/
theorem at_most_two {loc : Clock} (h : Regular loc) {u v w : Int} (hv : loc v = loc u) (hw' : loc w = loc u) (h1 : v < u) :
    w ≤ u := by
  obtain ⟨c, p, q, hp, hq, hpq, hw⟩ := window h (loc u)
  have a1 := loc_near h u
  have a2 := loc_near h v
  have a3 := loc_near h w
  have wu := hw u (by omega) (by omega)
  have wv := hw v (by omega) (by omega)
  have ww := hw w (by omega) (by omega)
  omega

/-- From a point in time to its datetime and back. -/
theorem mktime_localDate {loc : Clock} (h : Regular loc) {u : Int} (hi : Inside (loc u)) {fold : Bool}
    (hf : fold = true ↔ ∃ v, v < u ∧ loc v = loc u) : mktime loc (loc u) fold = .ok u := by
  obtain ⟨u', e, h1, h2⟩ := mktime_shown h hi fold (v := u) rfl
  rw [e]
  cases fold with
  | true =>
    obtain ⟨v, hv, hl⟩ := hf.1 rfl
    simp only [if_true] at h2
    have := at_most_two h hl h1 hv
    rw [show u' = u by omega]
  | false =>
    simp only [Bool.false_eq_true, if_false] at h2
    by_cases hlt : u' < u
    · exact absurd (hf.2 ⟨u', hlt, h1⟩) (by simp)
    · rw [show u' = u by omega]

end V8
