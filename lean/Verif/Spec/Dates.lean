import Mathlib.Data.Nat.Notation
import Mathlib.Algebra.BigOperators.Group.Finset.Basic

/-!
The Gregorian calendar, independently of the code: years from 1, leap years, the lengths of the months, and the number of a day counted
from the first day of year 1.
-/

namespace Gdx.Spec

/-- every fourth year, but not the full centuries that are not multiples of 400 -/
def LeapYear (y : ℕ) : Prop := 4 ∣ y ∧ (100 ∣ y → 400 ∣ y)

instance (y : ℕ) : Decidable (LeapYear y) := inferInstanceAs (Decidable (_ ∧ _))

/-- the number of days of month `m` -/
def monthDays (y m : ℕ) : ℕ :=
  if m = 2 then (if LeapYear y then 29 else 28) else if m = 4 ∨ m = 6 ∨ m = 9 ∨ m = 11 then 30 else 31

/-- the number of days of a year -/
def yearDays (y : ℕ) : ℕ := if LeapYear y then 366 else 365

/-- the day exists -/
def IsDate (y m d : ℕ) : Prop := 1 ≤ y ∧ 1 ≤ m ∧ m ≤ 12 ∧ 1 ≤ d ∧ d ≤ monthDays y m

instance (y m d : ℕ) : Decidable (IsDate y m d) := inferInstanceAs (Decidable (_ ∧ _))

/-- the days of all years before, of all months before, and of this month: the first of January of year 1 has number 1 -/
def dayNumber (y m d : ℕ) : ℕ :=
  ((List.range (y - 1)).map fun k => yearDays (k + 1)).sum + ((List.range (m - 1)).map fun k => monthDays y (k + 1)).sum + d

/-- 30 December 1899 is day 0 of a TDateTime -/
def dayZero : ℕ := dayNumber 1899 12 30

end Gdx.Spec
