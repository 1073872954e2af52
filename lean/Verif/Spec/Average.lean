import Verif.Spec.Content
import Verif.Spec.Ta
import Verif.Spec.Warmup

/-!
# Specification vocabulary: moving averages by kind and price sources, in exact arithmetic
-/

namespace Pace.Spec
variable {K : Type} [Field K]

/-- The moving average of the given kind and length, at tick `t`, of a series whose first value is at tick `s`:
* simple: the mean of the last `len` values;
* exponential: the mean of the first `len` values smoothed with factor `2 / (len + 1)` by all later ones;
* Wilder's (`rma`): the running mean;
* symmetrically weighted (fixed length 4): weights 1, 2, 2, 1 over 6. -/
def average (kind : MaKind) (len s : Nat) (u : Nat → K) (t : Nat) : K :=
  match kind with
  | .sma => mean (win u len t)
  | .ema => smoothed (2 / ((len : K) + 1)) (mean (win u len (s + len - 1))) (fun i => u (s + len + i)) (t + 1 - (s + len))
  | .rma => runningMean len s u (t + 1 - (s + len))
  | .swma => (u (t - 3) + 2 * u (t - 2) + 2 * u (t - 1) + u t) / 6

/-- The value of a price source on bar `t`. -/
def sourceValue (kind : SrcKind) (o h l c v : Nat → K) (t : Nat) : K :=
  match kind with
  | .open_ => o t
  | .high => h t
  | .low => l t
  | .close => c t
  | .volume => v t
  | .ohlc4 => (o t + h t + l t + c t) / 4
  | .hlc3 => (h t + l t + c t) / 3
  | .hl2 => (h t + l t) / 2

end Pace.Spec
