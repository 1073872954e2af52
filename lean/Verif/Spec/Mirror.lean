import Verif.Float.Signed
import Verif.Spec.Strategy
import Verif.Spec.UnitsStrategy

/-!
# Specification vocabulary: opposite strategies, mirrored markets

Two runs compared tick by tick.  Numbers are compared by value (`V.val`), so up to the sign of zero.
-/

namespace Pace
namespace Spec

/-- Two runs that end the same way: both panic, with the same panic, or both succeed with results related by `P`. -/
def Alike {A B : Type} (P : A → B → Prop) : Res A → Res B → Prop
  | .error e, .error e' => e = e'
  | .ok a, .ok b => P a b
  | _, _ => False

/-- The bars seen in a mirror: every price is negated, so the high becomes the low.  Volumes stay. -/
def _root_.Pace.DataProvider.mirror {α : Type} [Neg α] (d : DataProvider α) : DataProvider α :=
  { d with
    open_ := d.open_.map (Option.map Neg.neg)
    high := d.low.map (Option.map Neg.neg)
    low := d.high.map (Option.map Neg.neg)
    close := d.close.map (Option.map Neg.neg) }

variable {K : Type} [Field K] [LinearOrder K] {R : Rounding K} {α : Type} [F64 α]

/-- The same trade taken on the other side: the same ticks, prices and size, the opposite profit. -/
structure OppositeTrade (V : Valued R α) (x x' : Trade α) : Prop where
  direction : x'.direction = opposite x.direction
  isClosed : x'.isClosed = x.isClosed
  entryTick : x'.entryTick = x.entryTick
  entryPrice : x'.entryPrice = x.entryPrice
  exitTick : x'.exitTick = x.exitTick
  exitPrice : x'.exitPrice = x.exitPrice
  fillSize : x'.fillSize = x.fillSize
  pnl : V.val x'.pnlField = -V.val x.pnlField

/-- The books of the strategy that trades the other side: what one wins the other loses. -/
structure OppositeBooks (V : Valued R α) (s s' : Strategy α) : Prop where
  config : s'.config = s.config
  trades : List.Forall₂ (OppositeTrade V) s.trades s'.trades
  unfilled : s'.unfilled = s.unfilled.map opposite
  entry : Option.Rel (OppositeTrade V) s.events.onTradeEntry s'.events.onTradeEntry
  exit : Option.Rel (OppositeTrade V) s.events.onTradeExit s'.events.onTradeExit
  netProfit : V.val s'.metrics.netProfit = -V.val s.metrics.netProfit
  openProfit : V.val s'.metrics.openProfit = -V.val s.metrics.openProfit
  grossProfit : V.val s'.metrics.grossProfit = V.val s.metrics.grossLoss
  grossLoss : V.val s'.metrics.grossLoss = V.val s.metrics.grossProfit
  closedTrades : s'.metrics.closedTrades = s.metrics.closedTrades
  winningTrades : s'.metrics.winningTrades = s.metrics.losingTrades
  losingTrades : s'.metrics.losingTrades = s.metrics.winningTrades
  longNetProfit : V.val s'.metrics.longNetProfit = -V.val s.metrics.shortNetProfit
  shortNetProfit : V.val s'.metrics.shortNetProfit = -V.val s.metrics.longNetProfit
  equity : V.val s'.metrics.equity = V.val s.config.initialCapital - V.val s.metrics.netProfit - V.val s.metrics.openProfit

/-- A trade seen in the mirror: the other direction at negated prices, for the same profit. -/
structure MirroredTrade (V : Valued R α) (x x' : Trade α) : Prop where
  direction : x'.direction = opposite x.direction
  isClosed : x'.isClosed = x.isClosed
  entryTick : x'.entryTick = x.entryTick
  entryPrice : x'.entryPrice = x.entryPrice.map Neg.neg
  exitTick : x'.exitTick = x.exitTick
  exitPrice : x'.exitPrice = x.exitPrice.map Neg.neg
  fillSize : x'.fillSize = x.fillSize
  pnl : V.val x'.pnlField = V.val x.pnlField

/-- The books of a strategy that trades the mirrored market: the same money, long and short exchanged. -/
structure MirroredBooks (V : Valued R α) (s s' : Strategy α) : Prop where
  config : s'.config = s.config
  trades : List.Forall₂ (MirroredTrade V) s.trades s'.trades
  unfilled : s'.unfilled = s.unfilled.map opposite
  entry : Option.Rel (MirroredTrade V) s.events.onTradeEntry s'.events.onTradeEntry
  exit : Option.Rel (MirroredTrade V) s.events.onTradeExit s'.events.onTradeExit
  equity : V.val s'.metrics.equity = V.val s.metrics.equity
  netProfit : V.val s'.metrics.netProfit = V.val s.metrics.netProfit
  openProfit : V.val s'.metrics.openProfit = V.val s.metrics.openProfit
  grossProfit : V.val s'.metrics.grossProfit = V.val s.metrics.grossProfit
  grossLoss : V.val s'.metrics.grossLoss = V.val s.metrics.grossLoss
  closedTrades : s'.metrics.closedTrades = s.metrics.closedTrades
  winningTrades : s'.metrics.winningTrades = s.metrics.winningTrades
  losingTrades : s'.metrics.losingTrades = s.metrics.losingTrades
  longNetProfit : V.val s'.metrics.longNetProfit = V.val s.metrics.shortNetProfit
  shortNetProfit : V.val s'.metrics.shortNetProfit = V.val s.metrics.longNetProfit

/-- The same books with another capital: everything is equal except the equity, which is counted from the other capital. -/
structure SameBooks (cap cap' : α) (s s' : Strategy α) : Prop where
  trades : s'.trades = s.trades
  unfilled : s'.unfilled = s.unfilled
  events : s'.events = s.events
  metrics : s'.metrics = { s.metrics with equity := cap' + s.metrics.netProfit + s.metrics.openProfit }
  equity : s.metrics.equity = cap + s.metrics.netProfit + s.metrics.openProfit

end Spec
end Pace
