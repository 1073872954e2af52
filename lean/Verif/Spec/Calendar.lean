import Mathlib.Data.List.Range

/-!
# Specification vocabulary: the Gregorian calendar
-/

namespace Pace
namespace Spec

/-- Leap years of the Gregorian calendar. -/
def leapYear (y : Nat) : Prop := 4 ∣ y ∧ (¬ 100 ∣ y ∨ 400 ∣ y)

instance (y : Nat) : Decidable (leapYear y) := by unfold leapYear; infer_instance

/-- The number of days of a year. -/
def yearDays (y : Nat) : Nat := if leapYear y then 366 else 365

/-- The number of days from 1 January 1970 to 1 January of the year `1970 + n`: the lengths of the years between, added up. -/
def daysTo (n : Nat) : Nat := ((List.range n).map fun k => yearDays (1970 + k)).sum

/-- Midnight (UTC) of 1 January of year `y`, in milliseconds since 1970; for `y` from 1970 on. -/
def newYear (y : Nat) : Nat := daysTo (y - 1970) * 24 * 60 * 60 * 1000

end Spec
end Pace
