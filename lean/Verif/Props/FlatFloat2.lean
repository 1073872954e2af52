import Verif.Props.FlatFloat
import Verif.Props.FloatRange

/-!
# A market that does not move, in binary64: what the averages make of it (C84)

The indicators that `Props/FlatFloat.lean` leaves out subtract an average from a price or from another average. In binary64 an average of
equal prices need not be that price, and the following concrete runs show what comes of it.
-/

namespace Pace
open Spec

/-- A market that does not move: every price of its `N` bars is `p`, rounded to binary64. -/
def stillAt (p : ℚ) (N : Nat) : DataProvider (Sf (Rounding.binary64 ℚ)) :=
  .ofSeries N (fun _ => some (q64 p)) (fun _ => some (q64 p)) (fun _ => some (q64 p)) (fun _ => some (q64 p)) (fun _ => some (q64 1))

/-- **C84, binary64.** The average of equal prices is not that price: the three-bar average of 0.1, 0.1, 0.1 is greater than 0.1, and
stays so. -/
theorem C84_binary64_average : (outputs (fun t => Sma.next ⟨stillAt (1 / 10) 9, t⟩) (fun _ => some (q64 (1 / 10))) 9 (Sma.new 3)).toOption.map
    (List.map (Option.map fun v => F64.lt (q64 (1 / 10)) v)) = some ([none, none] ++ List.replicate 7 (some true)) := by
  decide +kernel

/-- **C84, binary64.** The commodity channel index of a market at 0.1 that does not move, with the default length, is not missing (as it is
in exact arithmetic) but below -66 from its first value on: the rounding error of the average, divided by itself. -/
theorem C84_binary64_cci : (outputs (noInput fun t => CommodityChannelIndex.defaultNext ⟨stillAt (1 / 10) 24, t⟩) unit 24
      CommodityChannelIndex.default).toOption.map (List.map (Option.map fun v => F64.lt v (q64 (-66)))) =
    some (List.replicate 19 none ++ List.replicate 5 (some true)) := by
  decide +kernel

/-- **C84, binary64.** The default MACD strategy trades in a market that does not move: with every price 0.49, the MACD line is negative
on tick 25, 0 on tick 26 and positive from tick 27 on, the strategy signals long on tick 27, and the default runner is long after tick 28. In exact
arithmetic it never trades. -/
theorem C84_binary64_macd : (outputs (noInput fun t => Program.next Macd.defaultNext (fun q y => ThresholdStrategy.next q y.1)
      ⟨stillAt (49 / 100) 30, t⟩) unit 30 (Program.new Macd.default MacdStrategy.new .default (lit 0))).toOption.map
        (List.map fun y => (y.1.1.map fun v => (F64.feq v (q64 0), F64.lt (q64 0) v), y.2.1, y.2.2.1.trades.length)) =
    some (List.replicate 25 (none, none, 0) ++ [(some (false, false), none, 0), (some (true, false), none, 0),
      (some (false, true), some .long, 0), (some (false, true), none, 1), (some (false, true), none, 1)]) := by
  decide +kernel

end Pace
