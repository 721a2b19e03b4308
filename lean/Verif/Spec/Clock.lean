import Verif.Model.LocalTime

/-!
# Local clocks

What is assumed of a time zone, and what a local time means in it; used to state C77.
-/

namespace V8.Spec

/-- A clock as local time zones have them: it differs from UTC by less than a day, is set at most once in any four days,
and then by at most a day.  (`c` is the moment of the change, `p` and `q` are the differences from UTC before and
after it.) -/
def Regular (loc : Int → Int) : Prop :=
  ∀ x, ∃ c p q : Int, (-86400 < p ∧ p < 86400) ∧ (-86400 < q ∧ q < 86400) ∧ (q - p ≤ 86400 ∧ p - q ≤ 86400) ∧
    ∀ y, x ≤ y → y ≤ x + 4 * 86400 → loc y = y + if y < c then p else q

/-- The clock shows `t` at `u`, and not before. -/
def FirstTime (loc : Int → Int) (t u : Int) : Prop := loc u = t ∧ ∀ v, loc v = t → u ≤ v

/-- The clock shows `t` at `u`, and not later. -/
def LastTime (loc : Int → Int) (t u : Int) : Prop := loc u = t ∧ ∀ v, loc v = t → v ≤ u

/-- The clock never shows `t`. -/
def Skipped (loc : Int → Int) (t : Int) : Prop := ∀ v, loc v ≠ t

end V8.Spec
