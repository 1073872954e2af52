import Verif.Spec.Units
import Verif.Model.Strategy

/-!
# Specification vocabulary: prices measured from another level
-/

namespace Pace
variable {K : Type} [Field K] [LinearOrder K] [RootOps K]

/-- `k` more. Infinities and NaN stay. -/
def raise (k : K) (a : Ex K) : Ex K := a + fin k

/-- The same trade at prices `k` higher, with the same profit. -/
def Trade.raise (k : K) (x : Trade (Ex K)) : Trade (Ex K) :=
  { x with entryPrice := x.entryPrice.map (Pace.raise k), exitPrice := x.exitPrice.map (Pace.raise k) }

/-- The same books with the trades at prices `k` higher: the same configuration, the same pending order, the same metrics. -/
def Strategy.raise (k : K) (s : Strategy (Ex K)) : Strategy (Ex K) :=
  { s with trades := s.trades.map (Trade.raise k),
           events := ⟨s.events.onTradeEntry.map (Trade.raise k), s.events.onTradeExit.map (Trade.raise k)⟩ }

end Pace
