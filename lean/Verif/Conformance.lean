import Verif.Model.Defaults
import Verif.Model.Io
import Verif.Model.Metrics
import Verif.Model.Content
import Verif.Model.Statistics

/-!
# Conformance: the model run on the project's own fixtures

Not a proof and not used by any theorem.  The definitions of `Verif/Model` are executable for every instance of `F64`;
here they are run on hardware floats (`Float`) over the CSV fixtures of /repo/fixtures/tests, with the expected outputs the
Rust tests of the project compare against (recorded from TradingView), and with the comparison the Rust tests use
(pace/src/testing/comparison.rs:12, pace/src/testing/array_snapshot.rs: absolute difference below 0.00001, missing only with
missing).  A disagreement is evidence that the model misreads the code.  `tools/conformance.sh` runs it; the last report is
/verif/conformance/report.txt.
-/

namespace Pace.Conformance

/-- Hardware binary64.  `max`/`min` ignore a NaN operand, as Rust's do. -/
instance : F64 Float where
  abs := Float.abs
  sqrt := Float.sqrt
  log10 := Float.log10
  fmax a b := if a.isNaN then b else if b.isNaN then a else if a < b then b else a
  fmin a b := if a.isNaN then b else if b.isNaN then a else if b < a then b else a
  lt a b := decide (a < b)
  le a b := decide (a ≤ b)
  feq a b := a == b
  ofRat q := Float.ofInt q.num / Float.ofNat q.den

/-- A decimal number; `NaN` and the empty cell are missing. -/
def parseNum (s : String) : Option Float := Id.run do
  let s := s.trimAscii.toString
  if s.isEmpty then return none
  let mut neg := false
  let mut mant : Nat := 0
  let mut dec : Nat := 0
  let mut seenDot := false
  let mut ex : Nat := 0
  let mut exNeg := false
  let mut inEx := false
  for c in s.toList do
    if c == '-' then
      if inEx then exNeg := true else neg := true
    else if c == '+' then pure ()
    else if c == '.' then seenDot := true
    else if c == 'e' || c == 'E' then inEx := true
    else if c.isDigit then
      if inEx then ex := ex * 10 + (c.toNat - '0'.toNat)
      else
        mant := mant * 10 + (c.toNat - '0'.toNat)
        if seenDot then dec := dec + 1
    else return none
  let e : Int := (if exNeg then -(ex : Int) else ex) - dec
  let v := if e < 0 then Float.ofScientific mant true e.natAbs else Float.ofScientific mant false e.natAbs
  return some (if neg then -v else v)

/-- The first `rows` rows of a CSV file as a frame; later columns of the same name are dropped by the lookup. -/
def readCsv (path : String) (rows : Nat) : IO (Frame Float) := do
  let lines ← IO.FS.lines path
  let header := (lines[0]!).splitOn ","
  let body := ((lines.toList.drop 1).filter (fun l => !l.trimAscii.isEmpty)).take rows
  let cells := (body.map fun l => ((l.splitOn ",").map parseNum).toArray).toArray
  let cols := header.zipIdx.map fun (n, i) => (n.trimAscii.toString, (cells.toList.map fun r => (r[i]?).getD none))
  return ⟨cols⟩

/-- `Duration::from_secs`, in milliseconds (only whole seconds occur). -/
def secs (x : Float) : Res Nat := .ok (x.toUInt64.toNat * 1000)

/-- pace/src/testing/comparison.rs:12, pace/src/testing/array_snapshot.rs:100-106. -/
def same : Option Float → Option Float → Bool
  | some a, some b => compareWithPrecision a b 0.00001
  | none, none => true
  | _, _ => false

abbrev Out := List (Option Float)

/-- Run `step` over the bars; report the first row that differs from the target columns (from row `skip` on). -/
def check (root rel : String) (rows : Nat) {S : Type} (init : Res S) (step : Ctx Float → S → Res (Out × S))
    (targets : List String) (conv : Option Float → Option Float := id) (skip : Nat := 0) : IO Bool := do
  let df ← readCsv (root ++ "/" ++ rel) rows
  match DataProvider.fromDf secs df, init with
  | .ok d, .ok s0 =>
    let want := targets.map fun t => ((df.columns.lookup t).getD []).toArray.map conv
    let mut s := s0
    let n := d.close.length
    for t in [0:n] do
      match step ⟨d, t⟩ s with
      | .error e =>
        IO.println s!"FAIL {rel}: panic {repr e} at row {t}"
        return false
      | .ok (o, s') =>
        s := s'
        let w := want.map fun c => (c[t]?).getD none
        if t ≥ skip && !(o.length == w.length && (o.zip w).all fun (a, b) => same a b) then
          IO.println s!"FAIL {rel}: row {t}: model {o} fixture {w}"
          return false
    IO.println s!"ok   {rel}: {n} rows"
    return true
  | _, _ =>
    IO.println s!"FAIL {rel}: construction panics"
    return false

def one {S : Type} (r : Res (Option Float × S)) : Res (Out × S) := r.map fun p => ([p.1], p.2)
def two {S : Type} (r : Res ((Option Float × Option Float) × S)) : Res (Out × S) := r.map fun p => ([p.1.1, p.1.2], p.2)

/-- A component fed with the close price. -/
def onClose {S : Type} (next : Ctx Float → S → Option Float → Res (Option Float × S)) (c : Ctx Float) (s : S) :
    Res (Out × S) := do
  one (next c s (← c.barClose))

/-- `b` fed with the output of `a`. -/
def chain {S T : Type} (a : Ctx Float → S → Res (Option Float × S)) (b : Ctx Float → T → Option Float → Res (Option Float × T))
    (c : Ctx Float) (s : S × T) : Res (Out × (S × T)) := do
  let (x, s1) ← a c s.1
  let (y, s2) ← b c s.2 x
  return ([y], (s1, s2))

def pair {S T : Type} (a : Res S) (b : Res T) : Res (S × T) := do return (← a, ← b)

def dirFloat : Option TradeDirection → Option Float
  | some .long => some 1
  | some .short => some (-1)
  | none => none

/-- The state of strategy/metrics/tests/strategy_metrics_test.rs. -/
structure MetricsState where
  st : Strategy Float
  em : EquityMetrics Float
  tv : TvMetrics Float
  cobra : CobraMetrics Float

def longs : List Nat := [2, 18, 44, 60, 120, 180, 400, 700, 1000, 1600]
def shorts : List Nat := [10, 24, 48, 64, 155, 190, 420, 900, 1250]

def nat (n : Nat) : Option Float := some (Float.ofNat n)

/-- strategy/metrics/tests/strategy_metrics_test.rs:269-366, 379-480 -/
def metricsStep (c : Ctx Float) (s : MetricsState) : Res (Out × MetricsState) := do
  let sig := if longs.contains c.index then some TradeDirection.long
    else if shorts.contains c.index then some TradeDirection.short else none
  let st ← s.st.next c sig
  let em ← s.em.next c st
  let tv ← s.tv.next c st
  let cobra ← s.cobra.next c none st
  let d := tv.data
  let ic := st.config.initialCapital
  let o : Out := [some em.equity, some d.netProfit, some d.openPl, some d.grossProfit, some d.grossLoss,
    nat d.totalClosedTrades, nat d.numberWinningTrades, nat d.numberLosingTrades,
    some em.netEquity, some st.metrics.longNetProfit, some st.metrics.shortNetProfit, some d.maxDrawdown, some d.maxRunUp,
    some d.avgWinningTrade, some d.avgLosingTrade, some d.avgTrade,
    some ((Metrics.avgWinLossRatio d.avgWinningTrade d.avgLosingTrade).getD 0), some d.profitFactor, some d.percentProfitable,
    some cobra.data.equityCurveMaxDd, some cobra.data.intraTradeMaxDd, some cobra.data.profitFactor,
    some cobra.data.profitable, nat cobra.data.trades, some cobra.data.netProfitLSRatio,
    some (Metrics.grossLossPercent d.grossLoss ic), some (Metrics.grossProfitPercent d.grossProfit ic),
    some (Metrics.longNetProfitPercent st.metrics.longNetProfit ic), some (Metrics.netProfitPercent st.metrics.netProfit ic),
    some (Metrics.shortNetProfitPercent st.metrics.shortNetProfit ic),
    some (Metrics.maxDrawdownPercent d.maxDrawdown em.netEquityMax), some em.netEquityMin, some em.netEquityMax]
  return (o, ⟨st, em, tv, cobra⟩)

def metricsTargets : List String := ["_target_equity_", "_target_net_profit_", "_target_open_profit_",
  "_target_gross_profit_", "_target_gross_loss_", "_target_closed_trades_", "_target_winning_trades_",
  "_target_losing_trades_", "_target_net_equity_", "_target_long_net_profit_", "_target_short_net_profit_",
  "_target_max_drawdown_", "_target_max_run_up_", "_target_avg_winning_trade_", "_target_avg_losing_trade_",
  "_target_avg_trade_", "_target_avg_win_loss_ratio_", "_target_profit_factor_", "_target_percent_profitable_",
  "_target_equity_max_drawdown_percent_", "_target_intra_trade_max_drawdown_percent_", "_target_profit_factor_",
  "_target_percent_profitable_", "_target_closed_trades_", "_target_long_short_net_profit_ratio_",
  "_target_gross_loss_percent_", "_target_gross_profit_percent_", "_target_long_net_profit_percent_",
  "_target_net_profit_percent_", "_target_short_net_profit_percent_", "_target_max_drawdown_percent_",
  "_target_net_equity_min_", "_target_net_equity_max_"]

def bool (b : Bool) : Option Float := some (if b then 1 else 0)

/-- All fixture tests, one per CSV file used by the Rust tests. -/
def all (root : String) (rows : Nat) : IO (Nat × Nat) := do
  let pass ← IO.mkRef 0
  let fail ← IO.mkRef 0
  let tally (b : IO Bool) : IO Unit := do
    if ← b then pass.modify (· + 1) else fail.modify (· + 1)
  let T := ["_target_"]
  let run (rel : String) {S : Type} (init : Res S) (step : Ctx Float → S → Res (Out × S)) : IO Unit :=
    tally (check root rel rows init step T)
  -- ta
  for n in [1, 2, 3, 7, 14, 350] do
    run s!"ta/sma/length_{n}_close.csv" (Sma.new n) (onClose Sma.next)
    run s!"ta/ema/length_{n}_close.csv" (Ema.new n) (onClose Ema.next)
    run s!"ta/rma/length_{n}_close.csv" (Rma.new n) (onClose Rma.next)
    if n ≠ 1 then run s!"ta/rsi/length_{n}_close.csv" (Rsi.new n) (onClose Rsi.next)
  for n in [1, 2, 3, 14, 365] do
    run s!"ta/wma/length_{n}_close.csv" (Wma.new n) (onClose Wma.next)
    run s!"ta/sum/length_{n}_close.csv" (Sum.new n) (onClose Sum.next)
    run s!"ta/dev/length_{n}_close.csv" (Dev.new n) (onClose Dev.next)
    run s!"ta/stdev/length_{n}_biased.csv" (Stdev.new n true) (onClose Stdev.next)
    run s!"ta/stdev/length_{n}_unbiased.csv" (Stdev.new n false) (onClose Stdev.next)
    run s!"ta/prank/length_{n}_close.csv" (Prank.new n) (onClose Prank.next)
    if n ≠ 14 then
      run s!"ta/change/length_{n}_close.csv" (Change.new n) (onClose fun _ => Change.next)
      run s!"ta/roc/length_{n}_close.csv" (Roc.new n) (onClose fun _ => Roc.next)
  run "ta/prank/length_100_close.csv" (Prank.new 100) (onClose Prank.next)
  for (n, r) in [(14, 7), (100, 7), (100, 2), (100, 1)] do
    run s!"ta/prank/roc/length_{n}_with_roc_length_{r}_close.csv" (pair (Roc.new r) (Prank.new n))
      (chain (fun c s => do Roc.next s (← c.barClose)) Prank.next)
  for (n, r) in [(1, 14), (14, 14), (1, 1), (14, 1)] do
    run s!"ta/sum/atr/length_{n}_with_atr_length_{r}.csv" (pair (Atr.new r) (Sum.new n)) (chain Atr.next Sum.next)
  for (n, r) in [(2, 14), (14, 2), (14, 14)] do
    run s!"ta/rsi/sma/length_{n}_with_sma_length_{r}_close.csv" (pair (Sma.new r) (Rsi.new n))
      (chain (fun c s => do Sma.next c s (← c.barClose)) Rsi.next)
  run "ta/swma/close.csv" Swma.new (onClose Swma.next)
  for n in [1, 2, 14] do
    run s!"ta/atr/length_{n}.csv" (Atr.new n) (fun c s => one (Atr.next c s))
  run "ta/tr/with_handle.csv" (.ok ()) (fun c s => do return ([← Tr.next c true], s))
  run "ta/tr/without_handle.csv" (.ok ()) (fun c s => do return ([← Tr.next c false], s))
  run "ta/bars/highest/length_14_high.csv" (Highest.new 14) (fun c s => do one (Highest.next c s (← c.barHigh)))
  run "ta/bars/lowest/length_14_low.csv" (Lowest.new 14) (fun c s => do one (Lowest.next c s (← c.barLow)))
  run "ta/bars/highest_bars/length_14.csv" (HighestBars.new 14)
    (fun c s => do let (o, s) ← HighestBars.next c s; return ([o.map Float.ofInt], s))
  run "ta/bars/lowest_bars/length_14.csv" (LowestBars.new 14)
    (fun c s => do let (o, s) ← LowestBars.next c s; return ([o.map Float.ofInt], s))
  for n in [1, 2, 3, 14] do
    run s!"ta/stoch/length_{n}_close_high_low.csv" (Stoch.new n)
      (fun c s => do one (Stoch.next c s (← c.barClose, ← c.barHigh, ← c.barLow)))
    run s!"ta/stoch/length_{n}_close_close_close.csv" (Stoch.new n)
      (fun c s => do one (Stoch.next c s (← c.barClose, ← c.barClose, ← c.barClose)))
  let rsiThen {Q : Type} (q : Q) (f : Q → Option Float → Bool × Q) (rel : String) : IO Unit :=
    run rel (pair (Rsi.new 14) (.ok q)) (fun c (s : Rsi Float × Q) => do
      let (x, r) ← Rsi.next c s.1 (← c.barClose)
      let (b, q) := f s.2 x
      return ([bool b], (r, q)))
  rsiThen (.new : CrossState Float) (fun s x => let (o, s) := Cross.next s (x, some 30); (decide (o = some .over), s))
    "ta/cross/over/rsi/length_14_close.csv"
  rsiThen (.new : CrossState Float) (fun s x => let (o, s) := Cross.next s (x, some 70); (decide (o = some .under), s))
    "ta/cross/under/rsi/length_14_close.csv"
  rsiThen (.new : CrossState Float) (fun s x => CrossOver.next s (x, some 30)) "ta/cross/over/rsi/length_14_close.csv"
  rsiThen (.new : CrossState Float) (fun s x => CrossUnder.next s (x, some 70)) "ta/cross/under/rsi/length_14_close.csv"
  -- content
  tally (check root "content/aroon/indicator/length_14.csv" rows (Aroon.new 14) (fun c s => two (Aroon.next c s))
    ["_target_up_", "_target_down_"])
  run "content/awesome_oscillator/indicator/short_length_5_long_length_34_hl2.csv"
    (do return AwesomeOscillator.new (← Ma.new .sma 5) (← Ma.new .sma 34))
    (fun c s => one (withSrc2 .hl2 .hl2 AwesomeOscillator.next c s))
  run "content/balance_of_power/indicator/default.csv" (.ok ()) (fun c s => do return ([← BalanceOfPower.next c], s))
  run "content/bollinger_bands_pb/indicator/length_20_sma_mult_2_close.csv" (BollingerBands.new 20 2)
    (fun c s => one (withSrc .close BollingerBandsPercentB.next c s))
  run "content/bollinger_bands_width/indicator/length_20_sma_mult_2_close.csv" (BollingerBands.new 20 2)
    (fun c s => one (withSrc .close BollingerBandsWidth.next c s))
  run "content/chaikin_money_flow/indicator/length_14.csv" (ChaikinMoneyFlow.new 14)
    (fun c s => one (ChaikinMoneyFlow.next c s))
  tally (check root "content/chande_kroll_stop/indicator/p_10_x_1_q_9.csv" rows (ChandeKrollStop.new 10 9 1)
    (fun c s => do
      let (o, s) ← ChandeKrollStop.next c s
      return ([o.firstHighStop, o.firstLowStop, o.stopShort, o.stopLong], s))
    ["_target_first_high_stop_", "_target_first_low_stop_", "_target_stop_short_", "_target_stop_long_"])
  for n in [14, 2] do
    run s!"content/chande_momentum_oscillator/indicator/length_{n}_close.csv" (ChandeMomentumOscillator.new n)
      (fun c s => one (withSrc .close ChandeMomentumOscillator.next c s))
    run s!"content/choppiness_index/indicator/length_{n}.csv" (ChoppinessIndex.new n)
      (fun c s => one (ChoppinessIndex.next c s))
    tally (check root s!"content/vortex/indicator/length_{n}.csv" rows (Vortex.new n) (fun c s => two (Vortex.next c s))
      ["_target_plus_", "_target_minus_"])
  run "content/commodity_channel_index/indicator/length_14_hlc3_sma.csv" (CommodityChannelIndex.new 14)
    (fun c s => one (withSrc .hlc3 CommodityChannelIndex.next c s))
  run "content/connors_relative_strength_index/indicator/length_3_up_down_len_2_roc_length_100_close.csv"
    (ConnorsRsi.new 3 2 100) (fun c s => one (withSrc .close ConnorsRsi.next c s))
  run "content/coppock_curve/indicator/long_roc_length_14_short_roc_length_11_ma_length_10_close.csv"
    (CoppockCurve.new 10 14 11) (fun c s => one (withSrc .close CoppockCurve.next c s))
  for (n, m) in [(14, 14), (3, 3), (14, 3), (3, 14)] do
    tally (check root s!"content/directional_movement_index/indicator/length_{n}_lensig_{m}.csv" rows (Dmi.new n m)
      (fun c s => do let (o, s) ← Dmi.next c s; return ([o.plus, o.minus, o.adx], s))
      ["_target_plus_", "_target_minus_", "_target_adx_"])
  tally (check root "content/donchian_channels/indicator/length_14.csv" rows (DonchianChannels.new 14)
    (fun c s => do let (o, s) ← DonchianChannels.next c s; return ([o.upper, o.basis, o.lower], s))
    ["_target_upper_", "_target_basis_", "_target_lower_"])
  run "content/macd/indicator/short_length_12_long_length_26_ema_close.csv"
    (do return (⟨← Ma.new .ema 12, ← Ma.new .ema 26, ← Ma.new .ema 9⟩ : Macd Float))
    (fun c s => do let (o, s) ← withSrc2 .close .close Macd.next c s; return ([o.1], s))
  run "content/price_oscillator/indicator/long_length_21_short_length_10_long_ma_sma_short_ma_sma_close.csv"
    (do return (⟨← Ma.new .sma 10, ← Ma.new .sma 21⟩ : MaPair Float))
    (fun c s => one (withSrc .close PriceOscillator.next c s))
  run "content/relative_strength_index/indicator/length_14_open.csv" (Rsi.new 14)
    (fun c s => one (withSrc .open_ RelativeStrengthIndex.next c s))
  tally (check root "content/relative_strength_index/strategy/length_14_close.csv" rows
    (pair (Rsi.new 14) (.ok (RelativeStrengthIndexStrategy.new (Thresholds.rsi : Thresholds Float))))
    (fun c s => do
      let (x, r) ← withSrc .close RelativeStrengthIndex.next c s.1
      let (o, q) := ThresholdStrategy.next s.2 x
      return ([dirFloat o], (r, q))) T (conv := fun x => dirFloat ((toTradeDir [x]).head?.join)))
  for n in [14, 1, 2, 3, 365] do
    tally (check root s!"content/relative_vigor_index/indicator/length_{n}.csv" rows (RelativeVigorIndex.new n)
      (fun c s => two (RelativeVigorIndex.next c s)) ["_target_rvi_", "_target_sig_"])
  tally (check root "content/relative_volatility_index/indicator/length_14_ma_14_ema_close.csv" rows
    (RelativeVolatilityIndex.new 14 14) (fun c s => one (withSrc .close RelativeVolatilityIndex.next c s)) T (skip := 250))
  for (a, b) in [((14, 14), (3, 3)), ((2, 2), (3, 3)), ((2, 2), (14, 14))] do
    tally (check root
      s!"content/stoch_relative_strength_index/indicator/length_{a.1}_stoch_length_{a.2}_k_{b.1}_d_{b.2}_close.csv" rows
      (StochRsi.new a.1 a.2 b.1 b.2) (fun c s => two (withSrc .close StochRsi.next c s)) ["_target_k_", "_target_d_"])
  for (a, b, e) in [(7, 14, 28), (1, 1, 1), (30, 15, 7)] do
    run s!"content/ultimate_oscillator/indicator/short_length_{a}_mid_length_{b}_long_length_{e}.csv"
      (UltimateOscillator.new a b e) (fun c s => one (UltimateOscillator.next c s))
  for (a, b) in [(5, 10), (1, 1)] do
    run s!"content/volume_oscillator/indicator/short_length_{a}_long_length_{b}_ema.csv"
      (do return (⟨← Ma.new .ema a, ← Ma.new .ema b⟩ : MaPair Float)) (fun c s => one (VolumeOscillator.next c s))
  for n in [14, 1, 2] do
    run s!"content/williams_percent_range/indicator/length_{n}_close.csv" (WilliamsPercentRank.new n)
      (fun c s => one (withSrc .close WilliamsPercentRank.next c s))
  -- strategy and metrics
  let cfg : StrategyConfig Float := { continous := true, onBarClose := false, initialCapital := 1000, buyWithEquity := false }
  let st0 := Strategy.new cfg
  tally (check root "strategy/metrics/next_bar_continous.csv" rows
    (.ok ⟨st0, .new 1000, .new st0 0, .new st0 true none⟩) metricsStep metricsTargets (conv := fun x => some (x.getD 0)))
  return (← pass.get, ← fail.get)

/-! ## The hand-written unit tests

`tools/rust_tests.py` translates the literals of the Rust unit tests of `strategy`, `common` and `statistics` into
/verif/conformance/unit_tests.txt; each block is run on the model. -/

def words (s : String) : List String := (s.splitOn " ").filter (· ≠ "")

def dirOf : String → Option TradeDirection
  | "L" => some .long
  | "S" => some .short
  | _ => none

/-- The public fields of a trade compared by the Rust tests (strategy/tests/strategy_test.rs:29-40). -/
def showTrade (t : Trade Float) : String :=
  let num (x : Option Float) : String := match x with | some v => toString v | none => "-"
  let nat (x : Option Nat) : String := match x with | some v => toString v | none => "-"
  let dir := match t.direction with | .long => "L" | .short => "S"
  let closed := if t.isClosed then "T" else "F"
  " ".intercalate [dir, closed, nat t.entryTick, num t.entryPrice, nat t.exitTick, num t.exitPrice]

/-- A trade as written in the test. -/
def showWant (s : String) : String :=
  match words s with
  | [d, c, et, ep, xt, xp] =>
    let num (x : String) : String := match parseNum x with | some v => if x == "-" then "-" else toString v | none => "-"
    " ".intercalate [d, c, et, num ep, xt, num xp]
  | _ => s

def parseCell (s : String) : Option Float :=
  if s == "-" then none else if s == "T" then some 1 else if s == "F" then some 0 else parseNum s

def unitCase (kind : String) (params : List String) (vals : List (Option Float)) (sigs : List (Option TradeDirection))
    (want : List String) : Res Bool := do
  let d ← DataProvider.fromValues vals
  let n := vals.length
  let flag (i : Nat) : Bool := params[i]? == some "T"
  let ticks := List.range n
  match kind with
  | "trades" | "equity" => do
    let cap := ((params[2]?).bind parseNum).getD 0
    let cfg : StrategyConfig Float := ⟨flag 1, flag 0, cap, flag 3⟩
    let mut s := Strategy.new cfg
    let mut ok := want.length == n && sigs.length == n
    for t in ticks do
      s ← s.next ⟨d, t⟩ ((sigs[t]?).getD none)
      let w := (want[t]?).getD ""
      if kind == "trades" then
        let ws := ((w.splitOn ";").filter fun x => !(words x).isEmpty).map showWant
        ok := ok && decide (s.trades.map showTrade = ws)
      else
        ok := ok && (((words w).map parseNum).zip [some s.metrics.equity, some s.metrics.openProfit]).all fun (a, b) => same b a
    return ok
  | _ => do
    let cells := want.map fun w => parseCell ((words w).headD "-")
    let len := ((params[0]?).bind String.toNat?).getD 0
    let mut ok := want.length == n
    let mut fx : FixNan Float := .new
    let mut mean : Mean Float := .new
    let mut ws : WelfordsStdev Float := .new
    let mut wv : WelfordsVar Float := .new
    let mut val ← WindowValidator.new (if kind == "validator" then len else 1)
    for t in ticks do
      let v := (vals[t]?).getD none
      let mut o : Option Float := none
      if kind == "validator" then
        let (b, s) ← WindowValidator.next (⟨d, t⟩ : Ctx Float) val v
        val := s; o := bool b
      else if kind == "fixnan" then
        let (b, s) := FixNan.next fx v
        fx := s; o := b
      else if kind == "mean" then
        let (b, s) := Mean.next mean (← unwrap v)
        mean := s; o := some b
      else if kind == "welfords_stdev" then
        let (b, s) := WelfordsStdev.next ws (← unwrap v)
        ws := s; o := some b
      else if kind == "welfords_var" then
        let (b, s) := WelfordsVar.next wv (← unwrap v)
        wv := s; o := some b
      else ok := false
      ok := ok && same o ((cells[t]?).getD none)
    return ok

def normCase (f : String) (a : List Float) : Option Float :=
  match f, a with
  | "clip_value", [x, y, z] => some (clipValue x y z)
  | "scale_value_up", [x, y, z] => some (scaleValueUp x y z)
  | "scale_value_down", [x, y, z] => some (scaleValueDown x y z)
  | "scale_value_centered", [x, y, z, w] => some (scaleValueCentered x y z w)
  | "scale_value_min_max", [x, y, z] => some (scaleValueMinMax x y z)
  | _, _ => none

/-- All unit tests of the file; each `T` block has its `V`, `S` and `E` lines below it. -/
def units (path : String) : IO (Nat × Nat) := do
  let lines := (← IO.FS.lines path).toList
  let mut pass := 0
  let mut fail := 0
  let mut kind := ""
  let mut name := ""
  let mut params : List String := []
  let mut vals : List (Option Float) := []
  let mut sigs : List (Option TradeDirection) := []
  for l in lines do
    let body := (l.drop 2).toString
    if l.startsWith "T " then
      let w := words body
      kind := w.headD ""; name := (w.drop 1).headD ""; params := w.drop 2; vals := []; sigs := []
    else if l.startsWith "V " then vals := (words body).map parseCell
    else if l.startsWith "S " then sigs := (words body).map dirOf
    else if l.startsWith "E " then
      match unitCase kind params vals sigs (body.splitOn "|") with
      | .ok true =>
        IO.println s!"ok   {name}"
        pass := pass + 1
      | .ok false =>
        IO.println s!"FAIL {name}"
        fail := fail + 1
      | .error e =>
        IO.println s!"FAIL {name}: panic {repr e}"
        fail := fail + 1
    else if l.startsWith "N " then
      match body.splitOn "=" with
      | [lhs, rhs] =>
        let w := words lhs
        let o := normCase (w.headD "") ((w.drop 1).filterMap parseNum)
        match o, (words rhs).map parseNum with
        | some o, [some e, some eps] =>
          if o == e || compareWithPrecision o e eps then pass := pass + 1
          else
            IO.println s!"FAIL {l}: {o}"
            fail := fail + 1
        | _, _ => fail := fail + 1
      | _ => fail := fail + 1
  return (pass, fail)

end Pace.Conformance

/-- `lake env lean --run Verif/Conformance.lean <fixtures> <rows> <unit tests>` -/
def main (args : List String) : IO UInt32 := do
  let root := args[0]?.getD "/repo/fixtures/tests"
  let rows := (args[1]?.bind String.toNat?).getD 1500
  let (p', f') ← Pace.Conformance.units (args[2]?.getD "/verif/conformance/unit_tests.txt")
  IO.println s!"{p'} unit tests agree, {f'} disagree"
  let (p, f) ← Pace.Conformance.all root rows
  IO.println s!"{p} fixtures agree, {f} disagree"
  return if f == 0 && f' == 0 then 0 else 1
