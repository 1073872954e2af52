import Verif.Model.Metrics

/-!
# The printed tables of the metrics

strategy/metrics/tradingview_metrics.rs:81-205 (`print_overview`, `print_summary`) and strategy/metrics/cobra_metrics.rs:47-164
(`print`).  A table is modelled as its list of cells: the label, what is printed (the number handed to the formatter, the number of
decimals and the suffix; the decimal digits themselves are Rust's `format!`), and the colour (`theme`).  The terminal table library
(borders, `printstd`) is not modelled.
-/

namespace Pace
variable {α : Type} [F64 α]

/-- What `format!` is asked to print. -/
inductive Shown (α : Type) where
  /-- `with_suffix(suffix)(x)`: two decimals and the suffix, utils/string.rs:1-4 -/
  | suffixed (x : α) (suffix : String)
  /-- `format!("{:0.2}")` (`decimals = 2`) or `format!("{:0.3}")` (`decimals = 3`) -/
  | number (x : α) (decimals : Nat)
  /-- an amount and a percentage, `f(price, percent)` -/
  | both (x : α) (currency : String) (percent : α)
  /-- a count -/
  | count (n : Nat)

/-- A value with its label and its colour: 1 green, -1 red, 0 neutral. -/
structure ReportCell (α : Type) where
  label : String
  shown : Shown α
  theme : Int

/-- `match x { x if x > good => 1, x if x < bad => -1, _ => 0 }`: the pattern of all the rows where more is better. -/
def theme (x good bad : α) : Int := if fgt x good then 1 else if F64.lt x bad then -1 else 0

/-- `match x { x if x < limit => 1, x if x > limit => -1, _ => 0 }`, strategy/metrics/tradingview_metrics.rs:141-145 -/
def themeBelow (x limit : α) : Int := if F64.lt x limit then 1 else if fgt x limit then -1 else 0

/-- strategy/metrics/cobra_metrics.rs:145-149 -/
def themeTrades (n : Nat) : Int := if n ≥ 20 ∧ n ≤ 80 then 1 else if n < 15 ∨ n > 80 then -1 else 0

/-- `CobraMetricsData::print`, strategy/metrics/cobra_metrics.rs:47-164 -/
def CobraData.print (d : CobraData α) : List (ReportCell α) :=
  [⟨"Equity Curve Max DD", .suffixed (d.equityCurveMaxDd * lit 100) "%", theme d.equityCurveMaxDd (-(lit (1 / 4))) (-(lit (2 / 5)))⟩,
   ⟨"Intra-trade Max DD", .suffixed (d.intraTradeMaxDd * lit 100) "%", theme d.intraTradeMaxDd (-(lit (1 / 4))) (-(lit (2 / 5)))⟩,
   ⟨"Sortino", .number d.sortino 2, theme d.sortino (lit 3) (lit 2)⟩,
   ⟨"Sharpe", .number d.sharpe 2, theme d.sharpe (lit (3 / 2)) (lit 1)⟩,
   ⟨"Profit Factor", .number d.profitFactor 2, theme d.profitFactor (lit 4) (lit 2)⟩,
   ⟨"Profitable %", .suffixed (d.profitable * lit 100) "%", theme d.profitable (lit (1 / 2)) (lit (7 / 20))⟩,
   ⟨"Trades", .number (lit (d.trades : ℚ)) 2, themeTrades d.trades⟩,
   ⟨"Omega", .number d.omega 2, 0⟩,
   ⟨"Net Profit L/S Ratio", .number d.netProfitLSRatio 2, 0⟩]

/-- `TradingViewMetricsData::print_overview`, strategy/metrics/tradingview_metrics.rs:81-152 -/
def TvData.printOverview (d : TvData α) (currency : String) : List (ReportCell α) :=
  [⟨"Net Profit", .both d.netProfit currency (d.netProfitPercent * lit 100), theme d.netProfit (lit 0) (lit 0)⟩,
   ⟨"Total Closed Trades", .count d.totalClosedTrades, 0⟩,
   ⟨"Percent Profitable", .suffixed (d.percentProfitable * lit 100) "%", theme d.percentProfitable (lit (1 / 2)) (lit (1 / 2))⟩,
   ⟨"Profit Factor", .number d.profitFactor 3, theme d.profitFactor (lit 1) (lit 1)⟩,
   ⟨"Max Drawdown", .both d.maxDrawdown currency (d.maxDrawdownPercent * lit 100), themeBelow d.maxDrawdown (lit (1 / 5))⟩,
   ⟨"Avg Trade", .suffixed d.avgTrade (" " ++ currency), 0⟩]

/-- `TradingViewMetricsData::print_summary`, strategy/metrics/tradingview_metrics.rs:154-205; no colours. -/
def TvData.printSummary (d : TvData α) (currency : String) : List (ReportCell α) :=
  [⟨"Net Profit", .both d.netProfit currency (d.netProfitPercent * lit 100), 0⟩,
   ⟨"Gross Profit", .both d.grossProfit currency (d.grossProfitPercent * lit 100), 0⟩,
   ⟨"Gross Loss", .both d.grossLoss currency (d.grossLossPercent * lit 100), 0⟩,
   ⟨"Max Run Up", .both d.maxRunUp currency (d.maxRunUpPercent * lit 100), 0⟩,
   ⟨"Max Drawdown", .both d.maxDrawdown currency (d.maxDrawdownPercent * lit 100), 0⟩,
   ⟨"Sharpe Ratio", .number d.sharpeRatio 3, 0⟩,
   ⟨"Sortino Ratio", .number d.sortinoRatio 3, 0⟩,
   ⟨"Profit Factor", .number d.profitFactor 3, 0⟩,
   ⟨"Open P/L", .suffixed d.openPl (" " ++ currency), 0⟩,
   ⟨"Total Closed Trades", .count d.totalClosedTrades, 0⟩,
   ⟨"Number Winning Trades", .count d.numberWinningTrades, 0⟩,
   ⟨"Number Losing Trades", .count d.numberLosingTrades, 0⟩,
   ⟨"Percent Profitable", .suffixed (d.percentProfitable * lit 100) "%", 0⟩,
   ⟨"Avg Trade", .suffixed d.avgTrade (" " ++ currency), 0⟩,
   ⟨"Avg Winning Trade", .suffixed d.avgWinningTrade (" " ++ currency), 0⟩,
   ⟨"Avg Losing Trade", .suffixed d.avgLosingTrade (" " ++ currency), 0⟩,
   ⟨"Ratio Avg Win / Avg Loss", .number d.ratioAvgWinAvgLoss 2, 0⟩]

end Pace
