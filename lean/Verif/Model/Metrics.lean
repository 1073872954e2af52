import Verif.Model.Strategy

/-!
# strategy/metrics
-/

namespace Pace
variable {α : Type} [F64 α]

/-! ## common.rs -/
namespace Metrics
/-- strategy/metrics/common.rs:1-6 -/
def profitFactor (grossProfit grossLoss : α) : Option α :=
  if F64.feq grossLoss (lit 0) then none else some (grossProfit / grossLoss)
/-- strategy/metrics/common.rs:8-13 -/
def longNetProfitRatio (longNetProfit shortNetProfit : α) : Option α :=
  if F64.feq shortNetProfit (lit 0) then none
  else some (longNetProfit / shortNetProfit * -(lit 1))
/-- strategy/metrics/common.rs:15-20 -/
def percentProfitable (profitable total : Nat) : Option α :=
  if total = 0 then none else some (lit (profitable : ℚ) / lit (total : ℚ))
/-- strategy/metrics/common.rs:22-27 -/
def avgTrade (netProfit : α) (closedTrades : Nat) : Option α :=
  if closedTrades = 0 then none else some (netProfit / lit (closedTrades : ℚ))
/-- strategy/metrics/common.rs:29-34 -/
def avgWinningTrade (grossProfit : α) (winningTrades : Nat) : Option α :=
  if winningTrades = 0 then none else some (grossProfit / lit (winningTrades : ℚ))
/-- strategy/metrics/common.rs:36-41 -/
def avgLosingTrade (grossLoss : α) (losingTrades : Nat) : Option α :=
  if losingTrades = 0 then none else some (grossLoss / lit (losingTrades : ℚ))
/-- strategy/metrics/common.rs:43-48 -/
def avgWinLossRatio (avgWinning avgLosing : α) : Option α :=
  if F64.feq avgLosing (lit 0) then none else some (avgWinning / avgLosing)
/-- strategy/metrics/common.rs:50-59 -/
def omegaRatio (pos neg rfr : α) : α :=
  if F64.feq neg (lit 0) then lit 0 else (pos - rfr) / neg
/-- strategy/metrics/common.rs:61-66 -/
def sharpeRatio (mean std rfr : α) : α :=
  if F64.feq std (lit 0) then lit 0 else (mean - rfr) / std
/-- strategy/metrics/common.rs:68-73 -/
def sortinoRatio (mean negStd rfr : α) : α :=
  if F64.feq negStd (lit 0) then lit 0 else (mean - rfr) / negStd
/-- strategy/metrics/common.rs:75-77 -/
def netProfitPercent (netProfit initialCapital : α) : α := netProfit / initialCapital
/-- strategy/metrics/common.rs:79-81 -/
def grossProfitPercent (grossProfit initialCapital : α) : α := grossProfit / initialCapital
/-- strategy/metrics/common.rs:83-85 -/
def grossLossPercent (grossLoss initialCapital : α) : α := grossLoss / initialCapital
/-- strategy/metrics/common.rs:87-89 -/
def longNetProfitPercent (p initialCapital : α) : α := p / initialCapital
/-- strategy/metrics/common.rs:91-93 -/
def shortNetProfitPercent (p initialCapital : α) : α := p / initialCapital
/-- strategy/metrics/common.rs:95-97 -/
def maxDrawdownPercent (maxDd netEquityMax : α) : α := maxDd / netEquityMax
/-- strategy/metrics/common.rs:99-101 -/
def maxRunUpPercent (maxRunUp barEquityMax : α) : α := maxRunUp / barEquityMax
/-- strategy/metrics/common.rs:103-108 -/
def returns (current previous : α) : α :=
  if F64.feq previous (lit 0) || F64.feq current (lit 0) then lit 0
  else current / previous - lit 1
end Metrics

/-! ## equity_metrics.rs -/

/-- `struct EquityMetricsData`, strategy/metrics/equity_metrics.rs:9-25 (`EquityMetrics` is just this data and
the context, :45-48) -/
structure EquityMetrics (α : Type) where
  equity : α
  equityMin : α
  equityMax : α
  netEquity : α
  netEquityMin : α
  netEquityMax : α
  barOpenProfitMin : α
  barOpenProfitMax : α
  barEquityMin : α
  barEquityMax : α
  deriving DecidableEq, Repr

/-- strategy/metrics/equity_metrics.rs:28-41, 51-56 -/
def EquityMetrics.new (initialCapital : α) : EquityMetrics α :=
  { equity := initialCapital, equityMin := initialCapital, equityMax := initialCapital,
    netEquity := initialCapital, netEquityMin := initialCapital, netEquityMax := initialCapital,
    barOpenProfitMin := lit 0, barOpenProfitMax := lit 0, barEquityMin := initialCapital,
    barEquityMax := initialCapital }

/-- strategy/metrics/equity_metrics.rs:60-92 -/
def EquityMetrics.next (c : Ctx α) (s : EquityMetrics α) (st : Strategy α) :
    Res (EquityMetrics α) := do
  let s :=
    match st.events.onTradeExit with
    | some _ =>
      let ne := st.config.initialCapital + st.metrics.netProfit
      { s with netEquity := ne, netEquityMin := F64.fmin s.netEquityMin ne,
               netEquityMax := F64.fmax s.netEquityMax ne }
    | none => s
  let s ←
    match st.trades.getLast? with
    | some last =>
      if !last.isClosed then do
        let lowestPrice ← unwrap (← c.barLow)
        let highestPrice ← unwrap (← c.barHigh)
        let (lowestPrice, highestPrice) :=
          if last.direction = .short then (highestPrice, lowestPrice)
          else (lowestPrice, highestPrice)
        let mn ← last.pnl lowestPrice
        let mx ← last.pnl highestPrice
        pure { s with barOpenProfitMin := mn, barOpenProfitMax := mx }
      else pure s
    | none => pure s
  let eq := st.metrics.equity
  return { s with
    equity := eq
    equityMin := F64.fmin s.equityMin eq
    equityMax := F64.fmax s.equityMax eq
    barEquityMin := s.netEquity + s.barOpenProfitMin
    barEquityMax := s.netEquity + s.barOpenProfitMax }

/-! ## returns.rs -/

/-- `struct Returns` with `ReturnsData`, strategy/metrics/returns.rs:6-28 -/
structure Returns (α : Type) where
  delta : α
  stdevV : α
  meanV : α
  prevValue : α
  stdev : StatStdev α
  mean : Mean α

/-- `Returns::build`, strategy/metrics/returns.rs:35-43 (`new` = `build false`) -/
def Returns.build (initialValue : α) (fast : Bool) : Returns α :=
  { delta := lit 0, stdevV := lit 0, meanV := lit 0, prevValue := initialValue,
    stdev := .build fast, mean := .new }

/-- strategy/metrics/returns.rs:47-51 -/
def Returns.next (s : Returns α) (value : α) : Returns α :=
  let delta := value - s.prevValue
  let (sv, stdev) := s.stdev.next delta
  let (mv, mean) := s.mean.next delta
  { s with delta := delta, stdevV := sv, meanV := mv, stdev := stdev, mean := mean }

/-! ## tradingview_metrics.rs -/

/-- `struct TradingViewMetricsData`, strategy/metrics/tradingview_metrics.rs:22-48 -/
structure TvData (α : Type) where
  netProfit : α
  netProfitPercent : α
  grossProfit : α
  grossProfitPercent : α
  grossLoss : α
  grossLossPercent : α
  maxRunUp : α
  maxRunUpPercent : α
  maxDrawdown : α
  maxDrawdownPercent : α
  sharpeRatio : α
  sortinoRatio : α
  profitFactor : α
  openPl : α
  totalClosedTrades : Nat
  numberWinningTrades : Nat
  numberLosingTrades : Nat
  percentProfitable : α
  avgTrade : α
  avgWinningTrade : α
  avgLosingTrade : α
  ratioAvgWinAvgLoss : α
  netEquityHistory : List α
  maxDrawdownHistory : List α
  equityHistory : List α

/-- strategy/metrics/tradingview_metrics.rs:51-79 -/
def TvData.default (initialCapital : α) : TvData α :=
  { netProfit := lit 0, netProfitPercent := lit 0, grossProfit := lit 0,
    grossProfitPercent := lit 0, grossLoss := lit 0, grossLossPercent := lit 0,
    maxRunUp := lit 0, maxRunUpPercent := lit 0, maxDrawdown := lit 0,
    maxDrawdownPercent := lit 0, sharpeRatio := lit 0, sortinoRatio := lit 0,
    profitFactor := lit 0, openPl := lit 0, totalClosedTrades := 0, numberWinningTrades := 0,
    numberLosingTrades := 0, percentProfitable := lit 0, avgTrade := lit 0,
    avgWinningTrade := lit 0, avgLosingTrade := lit 0, ratioAvgWinAvgLoss := lit 0,
    netEquityHistory := [initialCapital], maxDrawdownHistory := [lit 0],
    equityHistory := [initialCapital] }

/-- `struct TradingViewMetrics`, strategy/metrics/tradingview_metrics.rs:247-254 -/
structure TvMetrics (α : Type) where
  data : TvData α
  riskFreeRate : α
  returns : Returns α
  negReturnsStdev : StatStdev α
  equityMetrics : EquityMetrics α

/-- strategy/metrics/tradingview_metrics.rs:257-267 -/
def TvMetrics.new (st : Strategy α) (riskFreeRate : α) : TvMetrics α :=
  { data := .default st.config.initialCapital,
    returns := .build st.config.initialCapital false, riskFreeRate,
    negReturnsStdev := .build false, equityMetrics := .new st.config.initialCapital }

/-- strategy/metrics/tradingview_metrics.rs:271-349 -/
def TvMetrics.next (c : Ctx α) (s : TvMetrics α) (st : Strategy α) : Res (TvMetrics α) := do
  let ic := st.config.initialCapital
  let em ← s.equityMetrics.next c st
  let d := s.data
  let maxDrawdown := F64.fmax (em.netEquityMax - em.barEquityMin) d.maxDrawdown
  let maxRunUp := F64.fmax (em.barEquityMax - em.netEquityMin) d.maxRunUp
  let m := st.metrics
  let avgWinningTrade := (Metrics.avgWinningTrade m.grossProfit m.winningTrades).getD (lit 0)
  let avgLosingTrade := (Metrics.avgLosingTrade m.grossLoss m.losingTrades).getD (lit 0)
  let returns := s.returns.next em.netEquity
  let (negStdev, nrs) := s.negReturnsStdev.next (F64.abs (F64.fmin (lit 0) returns.delta))
  let exited := st.events.onTradeExit.isSome
  return { s with
    equityMetrics := em
    returns := returns
    negReturnsStdev := nrs
    data := {
      maxDrawdown := maxDrawdown
      maxDrawdownPercent := Metrics.maxDrawdownPercent maxDrawdown em.netEquityMax
      maxRunUp := maxRunUp
      maxRunUpPercent := Metrics.maxRunUpPercent maxRunUp em.barEquityMax
      netProfit := m.netProfit
      netProfitPercent := Metrics.netProfitPercent m.netProfit ic
      grossProfit := m.grossProfit
      grossProfitPercent := Metrics.grossProfitPercent m.grossProfit ic
      grossLoss := m.grossLoss
      grossLossPercent := Metrics.grossLossPercent m.grossLoss ic
      profitFactor := (Metrics.profitFactor m.grossProfit m.grossLoss).getD (lit 0)
      openPl := m.openProfit
      totalClosedTrades := m.closedTrades
      numberWinningTrades := m.winningTrades
      numberLosingTrades := m.losingTrades
      percentProfitable := (Metrics.percentProfitable m.winningTrades m.closedTrades).getD (lit 0)
      avgTrade := (Metrics.avgTrade m.netProfit m.closedTrades).getD (lit 0)
      avgWinningTrade := avgWinningTrade
      avgLosingTrade := avgLosingTrade
      ratioAvgWinAvgLoss := (Metrics.avgWinLossRatio avgWinningTrade avgLosingTrade).getD (lit 0)
      sharpeRatio := Metrics.sharpeRatio returns.meanV returns.stdevV s.riskFreeRate
      sortinoRatio := Metrics.sortinoRatio returns.meanV negStdev s.riskFreeRate
      netEquityHistory :=
        if exited then d.netEquityHistory ++ [em.netEquity] else d.netEquityHistory
      maxDrawdownHistory :=
        if exited then d.maxDrawdownHistory ++ [maxDrawdown] else d.maxDrawdownHistory
      equityHistory := d.equityHistory ++ [em.equity] } }

/-! ## cobra_metrics.rs -/

/-- `struct CobraMetricsData`, strategy/metrics/cobra_metrics.rs:20-30 -/
structure CobraData (α : Type) where
  equityCurveMaxDd : α
  intraTradeMaxDd : α
  sortino : α
  sharpe : α
  profitFactor : α
  profitable : α
  trades : Nat
  omega : α
  netProfitLSRatio : α

/-- strategy/metrics/cobra_metrics.rs:33-45 -/
def CobraData.default : CobraData α :=
  { equityCurveMaxDd := lit 0, intraTradeMaxDd := lit 0, sortino := lit 0, sharpe := lit 0,
    profitFactor := lit 0, profitable := lit 0, trades := 0, omega := lit 0,
    netProfitLSRatio := lit 0 }

/-- `struct CobraMetrics`, strategy/metrics/cobra_metrics.rs:188-202 -/
structure CobraMetrics (α : Type) where
  returnsStartYear : Option Int
  data : CobraData α
  currentTradeMaxDrawdown : α
  annualized : α
  returnsMean : Mean α
  returnsStdev : StatStdev α
  positiveReturnsSum : α
  negativeReturnsStdev : StatStdev α
  negativeReturnsSum : α
  prevEquity : α
  riskFreeRate : α
  equityMetrics : EquityMetrics α

/-- strategy/metrics/cobra_metrics.rs:205-223 -/
def CobraMetrics.new (st : Strategy α) (estimated : Bool) (returnsStartYear : Option Int) :
    CobraMetrics α :=
  { data := .default, currentTradeMaxDrawdown := lit 0, riskFreeRate := lit 0,
    annualized := F64.sqrt (lit 365), returnsMean := .new, returnsStdev := .build estimated,
    negativeReturnsSum := lit 0, negativeReturnsStdev := .build estimated,
    positiveReturnsSum := lit 0, prevEquity := st.config.initialCapital,
    equityMetrics := .new st.config.initialCapital, returnsStartYear }

/-- The trade-exit block, strategy/metrics/cobra_metrics.rs:228-254 -/
def CobraMetrics.onExit (s : CobraMetrics α) (st : Strategy α) (e : Trade α) :
    Res (CobraMetrics α) := do
  let m := st.metrics
  let ep ← unwrap e.entryPrice
  let pct := s.currentTradeMaxDrawdown / ep
  return { s with
    currentTradeMaxDrawdown := lit 0
    data := { s.data with
      profitable := (Metrics.percentProfitable m.winningTrades m.closedTrades).getD (lit 0)
      profitFactor := (Metrics.profitFactor m.grossProfit m.grossLoss).getD (lit 0)
      trades := m.closedTrades
      intraTradeMaxDd := F64.fmax pct s.data.intraTradeMaxDd
      netProfitLSRatio :=
        (Metrics.longNetProfitRatio m.longNetProfit m.shortNetProfit).getD (lit 0) } }

/-- The returns block, strategy/metrics/cobra_metrics.rs:279-300 -/
def CobraMetrics.onReturns (s : CobraMetrics α) (equityReturns : α) : CobraMetrics α :=
  let (mean, rm) := s.returnsMean.next equityReturns
  let (stdev, rs) := s.returnsStdev.next equityReturns
  let positive := F64.fmax (lit 0) equityReturns
  let negative := F64.abs (F64.fmin (lit 0) equityReturns)
  let (negStdev, nrs) := s.negativeReturnsStdev.next negative
  let pos := s.positiveReturnsSum + positive
  let neg := s.negativeReturnsSum + negative
  { s with
    returnsMean := rm, returnsStdev := rs, negativeReturnsStdev := nrs
    positiveReturnsSum := pos, negativeReturnsSum := neg
    data := { s.data with
      omega := Metrics.omegaRatio pos neg s.riskFreeRate * s.annualized
      sharpe := Metrics.sharpeRatio mean stdev s.riskFreeRate * s.annualized
      sortino := Metrics.sortinoRatio mean negStdev s.riskFreeRate * s.annualized } }

/-- strategy/metrics/cobra_metrics.rs:227-301.  `barYear` is the year of the bar's datetime; `none` if the bar has no
time (a parameter here; `Ctx.barYear` in Model/Calendar.lean is the year chrono gives). -/
def CobraMetrics.next (c : Ctx α) (barYear : Option Int) (s : CobraMetrics α) (st : Strategy α) :
    Res (CobraMetrics α) := do
  let s ←
    match st.events.onTradeExit with
    | some e => s.onExit st e
    | none => pure s
  let em ← s.equityMetrics.next c st
  let s := { s with
    equityMetrics := em
    data := { s.data with
      equityCurveMaxDd := F64.fmin (em.equity / em.equityMax - lit 1) s.data.equityCurveMaxDd }
    currentTradeMaxDrawdown :=
      F64.fmax (em.netEquity - em.barEquityMin) s.currentTradeMaxDrawdown }
  let equityReturns := Metrics.returns em.equity s.prevEquity
  let s := { s with prevEquity := em.equity }
  match s.returnsStartYear with
  | some y => do
    let by_ ← unwrap barYear
    if by_ < y then return s
    return s.onReturns equityReturns
  | none => return s.onReturns equityReturns

end Pace
