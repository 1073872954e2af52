import Verif.Num
import Verif.Spec.Series
import Verif.Spec.Stats
import Mathlib.Data.List.ReduceOption

/-!
# Specification vocabulary: technical analysis

Textbook definitions on lists and series; nothing here refers to the model.
-/

namespace Pace

/-- A series of exact numbers as floats. -/
abbrev flo {K : Type} [RootOps K] (x : Nat → Option K) : Nat → Option (Ex K) := fun t => (x t).map fin

end Pace

namespace Pace.Spec
variable {K : Type} [Field K]

/-- The values of the last `len` ticks, oldest first, if there were `len` ticks and none of the values is missing. -/
def fullWindow {β : Type} (x : Nat → Option β) (len t : Nat) : Option (List β) :=
  if len ≤ t + 1 then allSome (win x len t) else none

/-- Tick `s` is the first at which the last `len` inputs exist and are all present. -/
def FirstFull {β : Type} (len : Nat) (x : Nat → Option β) (s : Nat) : Prop :=
  (fullWindow x len s).isSome ∧ ∀ r, r < s → fullWindow x len r = none

/-- Exponential smoothing with factor `a`: started at `m`, then fed the values `u 0, u 1, ..., u (n-1)`, in closed form. -/
def smoothed (a m : K) (u : Nat → K) (n : Nat) : K :=
  (1 - a) ^ n * m + ((List.range n).map fun i => a * (1 - a) ^ (n - 1 - i) * u i).sum

/-- Linearly weighted mean of a list: weight 1 for the oldest (first), weight `n` for the newest (last),
divided by `1 + 2 + ... + n = n(n+1)/2`. -/
def weightedMean (v : List K) : K :=
  ((List.range v.length).zipWith (fun (i : Nat) w => ((i : K) + 1) * w) v).sum / ((v.length : K) * (v.length + 1) / 2)

/-- Mean absolute deviation of a list from its mean. -/
def meanAbsDev [LinearOrder K] (v : List K) : K := (v.map fun w => |w - mean v|).sum / v.length

/-- A deviation as `Stdev` sees it: below 1e-10 in absolute value it counts as 0. -/
def cutDev [LinearOrder K] (w : K) : K := if |w| < 1 / 10000000000 then 0 else w

/-- Sum of squared (cut) deviations from the mean. -/
def cutSqDev [LinearOrder K] (v : List K) : K := (v.map fun w => cutDev (w - mean v) ^ 2).sum

/-- Greatest / least of the present values of a window; missing if there is none. -/
def highest [LinearOrder K] (x : Nat → Option K) (len t : Nat) : Option K :=
  if len ≤ t + 1 then (win x len t).reduceOption.max? else none
def lowest [LinearOrder K] (x : Nat → Option K) (len t : Nat) : Option K :=
  if len ≤ t + 1 then (win x len t).reduceOption.min? else none

end Pace.Spec
