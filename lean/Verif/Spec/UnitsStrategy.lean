import Verif.Spec.Units
import Verif.Model.Metrics

/-!
# Specification vocabulary: a strategy and its metrics written in other units

For every published field: prices in `U.price`, quantities in `U.size`, amounts of money in `U.money`; ratios, percentages, counts,
directions and ticks are pure numbers.
-/

namespace Pace
variable {α : Type} [F64 α]

def Trade.rescale (U : Units α) (t : Trade α) : Trade α :=
  { t with
    entryPrice := t.entryPrice.map U.price.f
    exitPrice := t.exitPrice.map U.price.f
    fillSize := t.fillSize.map U.size.f
    pnlField := U.money.f t.pnlField }

def StrategyConfig.rescale (U : Units α) (c : StrategyConfig α) : StrategyConfig α :=
  { c with initialCapital := U.money.f c.initialCapital }

def StrategyMetrics.rescale (U : Units α) (m : StrategyMetrics α) : StrategyMetrics α :=
  { m with
    equity := U.money.f m.equity
    netProfit := U.money.f m.netProfit
    openProfit := U.money.f m.openProfit
    grossProfit := U.money.f m.grossProfit
    grossLoss := U.money.f m.grossLoss
    longNetProfit := U.money.f m.longNetProfit
    shortNetProfit := U.money.f m.shortNetProfit }

def Strategy.rescale (U : Units α) (s : Strategy α) : Strategy α where
  config := s.config.rescale U
  trades := s.trades.map (Trade.rescale U)
  unfilled := s.unfilled
  events := ⟨s.events.onTradeEntry.map (Trade.rescale U), s.events.onTradeExit.map (Trade.rescale U)⟩
  metrics := s.metrics.rescale U

def EquityMetrics.rescale (U : Units α) (e : EquityMetrics α) : EquityMetrics α where
  equity := U.money.f e.equity
  equityMin := U.money.f e.equityMin
  equityMax := U.money.f e.equityMax
  netEquity := U.money.f e.netEquity
  netEquityMin := U.money.f e.netEquityMin
  netEquityMax := U.money.f e.netEquityMax
  barOpenProfitMin := U.money.f e.barOpenProfitMin
  barOpenProfitMax := U.money.f e.barOpenProfitMax
  barEquityMin := U.money.f e.barEquityMin
  barEquityMax := U.money.f e.barEquityMax

/-- The amounts change, the percentages and ratios do not. -/
def TvData.rescale (U : Units α) (d : TvData α) : TvData α :=
  { d with
    netProfit := U.money.f d.netProfit
    grossProfit := U.money.f d.grossProfit
    grossLoss := U.money.f d.grossLoss
    maxRunUp := U.money.f d.maxRunUp
    maxDrawdown := U.money.f d.maxDrawdown
    openPl := U.money.f d.openPl
    avgTrade := U.money.f d.avgTrade
    avgWinningTrade := U.money.f d.avgWinningTrade
    avgLosingTrade := U.money.f d.avgLosingTrade
    netEquityHistory := d.netEquityHistory.map U.money.f
    maxDrawdownHistory := d.maxDrawdownHistory.map U.money.f
    equityHistory := d.equityHistory.map U.money.f }

/-- Every figure is a pure number except the intra-trade drawdown, which is an amount of money per entry price, so a quantity. -/
def CobraData.rescale (U : Units α) (d : CobraData α) : CobraData α :=
  { d with intraTradeMaxDd := U.size.f d.intraTradeMaxDd }

end Pace
