import Verif.Model.Context

/-!
# The date of a bar

`Bar::datetime` (core/context.rs:36-40) hands the bar's time to `chrono::NaiveDateTime::from_timestamp_millis`, and the Cobra metrics
take the year of the result (strategy/metrics/cobra_metrics.rs:273).  chrono is a library, not part of the repository; this file
models its published algorithm (chrono 0.4, `NaiveDate::from_num_days_from_ce_opt` and `cycle_to_yo`): days since 1 January of year 0,
split into cycles of 400 years, then the year of the cycle guessed as `day / 365` and corrected by the number of leap days.
-/

namespace Pace
namespace Calendar

/-- chrono's table `YEAR_DELTAS`: the number of leap years among the years `0 .. y-1` of a 400-year cycle. -/
def yearDelta (y : Nat) : Nat := (y + 3) / 4 + (y + 399) / 400 - (y + 99) / 100

/-- chrono's `cycle_to_yo`: the year within the 400-year cycle of a day `0 ≤ cycle < 146097`. -/
def cycleYear (cycle : Nat) : Nat :=
  let y := cycle / 365
  if cycle % 365 < yearDelta y then y - 1 else y

/-- chrono's `NaiveDate::from_num_days_from_ce_opt(days + 719163).year()`, for `days` since 1 January 1970: 719163 + 365 = 719528 is the
number of days from 1 January of year 0 to 1 January 1970. -/
def yearOfDays (days : Int) : Int :=
  let d := days + 719528
  d / 146097 * 400 + (cycleYear (d % 146097).toNat : Int)

/-- `as i64` of a `u128`: the low 64 bits, as a signed number. -/
def toI64 (n : Nat) : Int := ((n : Int) + 2 ^ 63) % 2 ^ 64 - 2 ^ 63

/-- `NaiveDateTime::from_timestamp_millis(ms as i64).map(|d| d.year())`: `None` outside chrono's range of years. -/
def yearOfMillis (ms : Nat) : Option Int :=
  let y := yearOfDays (toI64 ms / 86400000)
  if -262144 ≤ y ∧ y ≤ 262143 then some y else none

end Calendar

/-- The year of `Bar::datetime`, core/context.rs:36-40: `none` where the code has no date to give (no time, or a time out of chrono's
range), so that `datetime().unwrap().year()` panics. -/
def Ctx.barYear {α : Type} (c : Ctx α) : Option Int :=
  match c.barTime with
  | .ok (some ms) => Calendar.yearOfMillis ms
  | _ => none

end Pace
