import Verif.Model.Content
import Verif.Model.Metrics

/-!
# Default configurations and the backtest loop

Each `X.default` builds the indicator from the project's default configuration and each `X.defaultNext` drives it on one
tick the way its `next(())` does: first the configured source(s), then the indicator.
-/

namespace Pace
variable {α : Type} [F64 α]

/-- Two sources evaluated in order (`short_src`, then `long_src`): content/awesome_oscillator.rs:55-56, content/macd.rs:57-58. -/
def withSrc2 {S O : Type} (short long : SrcKind) (next : Ctx α → S → Option α × Option α → Res (O × S))
    (c : Ctx α) (s : S) : Res (O × S) := do
  let a ← Src.next c short
  let b ← Src.next c long
  next c s (a, b)

/-! ## Indicators -/

/-- content/aroon.rs:19-23 -/
def Aroon.default : Res Aroon := Aroon.new 14

/-- content/awesome_oscillator.rs:26-33 -/
def AwesomeOscillator.default : Res (AwesomeOscillator α) := do
  let longMa ← Ma.new .sma 34
  let shortMa ← Ma.new .sma 5
  return .new shortMa longMa
/-- content/awesome_oscillator.rs:30-31, 54-74 -/
def AwesomeOscillator.defaultNext (c : Ctx α) (s : AwesomeOscillator α) := withSrc2 .hl2 .hl2 AwesomeOscillator.next c s

/-- content/bollinger_bands_pb.rs:20, 29-35 -/
def BollingerBandsPercentB.default : Res (BollingerBands α) := BollingerBands.new 20 (lit 2)
/-- content/bollinger_bands_pb.rs:32, 58-81 -/
def BollingerBandsPercentB.defaultNext (c : Ctx α) (s : BollingerBands α) := withSrc .close BollingerBandsPercentB.next c s

/-- content/bollinger_bands_width.rs:20, 29-35 -/
def BollingerBandsWidth.default : Res (BollingerBands α) := BollingerBands.new 20 (lit 2)
/-- content/bollinger_bands_width.rs:32, 58-79 -/
def BollingerBandsWidth.defaultNext (c : Ctx α) (s : BollingerBands α) := withSrc .close BollingerBandsWidth.next c s

/-- content/chaikin_money_flow.rs:25-27 -/
def ChaikinMoneyFlow.default : Res (ChaikinMoneyFlow α) := ChaikinMoneyFlow.new 20

/-- content/chande_kroll_stop.rs:28-34 -/
def ChandeKrollStop.default : Res (ChandeKrollStop α) := ChandeKrollStop.new 10 9 (lit 1)

/-- content/chande_momentum_oscillator.rs:28-33 -/
def ChandeMomentumOscillator.default : Res (ChandeMomentumOscillator α) := ChandeMomentumOscillator.new 9
/-- content/chande_momentum_oscillator.rs:31, 62-86 -/
def ChandeMomentumOscillator.defaultNext (c : Ctx α) (s : ChandeMomentumOscillator α) :=
  withSrc .close ChandeMomentumOscillator.next c s

/-- content/choppiness_index.rs:27-29 -/
def ChoppinessIndex.default : Res (ChoppinessIndex α) := ChoppinessIndex.new 14

/-- content/commodity_channel_index.rs:27-32 -/
def CommodityChannelIndex.default : Res (CommodityChannelIndex α) := CommodityChannelIndex.new 20
/-- content/commodity_channel_index.rs:30, 55-63 -/
def CommodityChannelIndex.defaultNext (c : Ctx α) (s : CommodityChannelIndex α) := withSrc .hlc3 CommodityChannelIndex.next c s

/-- content/connors_relative_strength_index.rs:33-40 -/
def ConnorsRsi.default : Res (ConnorsRsi α) := ConnorsRsi.new 3 2 100
/-- content/connors_relative_strength_index.rs:38, 93-115 -/
def ConnorsRsi.defaultNext (c : Ctx α) (s : ConnorsRsi α) := withSrc .close ConnorsRsi.next c s

/-- content/coppock_curve.rs:28-35 -/
def CoppockCurve.default : Res (CoppockCurve α) := CoppockCurve.new 10 14 11
/-- content/coppock_curve.rs:33, 60-72 -/
def CoppockCurve.defaultNext (c : Ctx α) (s : CoppockCurve α) := withSrc .close CoppockCurve.next c s

/-- content/directional_movement_index.rs:33-38 -/
def Dmi.default : Res (Dmi α) := Dmi.new 14 14

/-- content/donchian_channels.rs:26-28 -/
def DonchianChannels.default : Res (DonchianChannels α) := DonchianChannels.new 20

/-- content/macd.rs:27-35 -/
def Macd.default : Res (Macd α) := do
  let shortMa ← Ma.new .ema 12
  let longMa ← Ma.new .ema 26
  let signalMa ← Ma.new .ema 9
  return ⟨shortMa, longMa, signalMa⟩
/-- content/macd.rs:31-32, 56-71 -/
def Macd.defaultNext (c : Ctx α) (s : Macd α) := withSrc2 .close .close Macd.next c s

/-- content/price_oscillator.rs:27, 50-62 (the default averages are in `PriceOscillator.default`) -/
def PriceOscillator.defaultNext (c : Ctx α) (s : MaPair α) := withSrc .close PriceOscillator.next c s

/-- content/relative_strength_index.rs:28-33 -/
def RelativeStrengthIndex.default : Res (Rsi α) := Rsi.new 14
/-- content/relative_strength_index.rs:31, 54-57 -/
def RelativeStrengthIndex.defaultNext (c : Ctx α) (s : Rsi α) := withSrc .close RelativeStrengthIndex.next c s

/-- content/relative_vigor_index.rs:29-31 -/
def RelativeVigorIndex.default : Res (RelativeVigorIndex α) := RelativeVigorIndex.new 10

/-- content/relative_volatility_index.rs:30-36 -/
def RelativeVolatilityIndex.default : Res (RelativeVolatilityIndex α) := RelativeVolatilityIndex.new 10 14
/-- content/relative_volatility_index.rs:34, 63-97 -/
def RelativeVolatilityIndex.defaultNext (c : Ctx α) (s : RelativeVolatilityIndex α) := withSrc .close RelativeVolatilityIndex.next c s

/-- content/stoch_relative_strength_index.rs:33-41 -/
def StochRsi.default : Res (StochRsi α) := StochRsi.new 14 14 3 3
/-- content/stoch_relative_strength_index.rs:39, 72-81 -/
def StochRsi.defaultNext (c : Ctx α) (s : StochRsi α) := withSrc .close StochRsi.next c s

/-- content/ultimate_oscillator.rs:30-36 -/
def UltimateOscillator.default : Res (UltimateOscillator α) := UltimateOscillator.new 7 14 28

/-- content/volume_oscillator.rs:28-33 -/
def VolumeOscillator.default : Res (MaPair α) := do
  let shortMa ← Ma.new .ema 5
  let longMa ← Ma.new .ema 10
  return ⟨shortMa, longMa⟩

/-- content/vortex.rs:26-28 -/
def Vortex.default : Res (Vortex α) := Vortex.new 14

/-- content/williams_percent_range.rs:30-35 -/
def WilliamsPercentRank.default : Res (WilliamsPercentRank α) := WilliamsPercentRank.new 14
/-- content/williams_percent_range.rs:33, 58-66 -/
def WilliamsPercentRank.defaultNext (c : Ctx α) (s : WilliamsPercentRank α) := withSrc .close WilliamsPercentRank.next c s

/-! ## Thresholds of the strategies -/

/-- content/awesome_oscillator.rs:77-78, 86-91; content/balance_of_power.rs:56-57, 65-70; content/chaikin_money_flow.rs:77-78,
86-91; content/coppock_curve.rs:75-76, 84-89; content/price_oscillator.rs:65-66, 74-79; content/volume_oscillator.rs:64-65,
73-78: both thresholds 0 -/
def Thresholds.zero : Thresholds α := ⟨lit 0, lit 0⟩
/-- content/bollinger_bands_pb.rs:84-85, 93-98 -/
def Thresholds.percentB : Thresholds α := ⟨lit 0, lit 1⟩
/-- content/chande_momentum_oscillator.rs:89-90, 98-103 -/
def Thresholds.cmo : Thresholds α := ⟨-(lit 50), lit 50⟩
/-- content/commodity_channel_index.rs:66-67, 75-80 -/
def Thresholds.cci : Thresholds α := ⟨-(lit 200), lit 200⟩
/-- content/connors_relative_strength_index.rs:118-119, 127-132; content/relative_volatility_index.rs:100-101, 109-114;
content/stoch_relative_strength_index.rs:84-85, 93-98 -/
def Thresholds.eighty : Thresholds α := ⟨lit 20, lit 80⟩
/-- content/relative_strength_index.rs:60-61, 69-74 -/
def Thresholds.rsi : Thresholds α := ⟨lit 30, lit 70⟩
/-- content/williams_percent_range.rs:69-70, 78-83 -/
def Thresholds.williams : Thresholds α := ⟨-(lit 80), -(lit 20)⟩
/-- content/directional_movement_index.rs:132, 141-146 -/
def DmiStrategy.default : DmiStrategy α := DmiStrategy.new (lit 25)

/-! ## The backtest loop -/

/-- The components of a backtest program (example/src/main.rs:35-62): an indicator, the strategy that turns its output into
signals, the runner and the TradingView metrics. -/
structure Program (S Q α : Type) where
  indicator : S
  signals : Q
  runner : Strategy α
  metrics : TvMetrics α

/-- One round of the loop, example/src/main.rs:67-71: indicator, signal, runner, metrics, in this order.  The value returned is
what an observer can read after the round: the indicator's output, the signal, the runner and the metrics. -/
def Program.next {S Q O : Type} (ind : Ctx α → S → Res (O × S)) (sgn : Q → O → Option TradeDirection × Q)
    (c : Ctx α) (p : Program S Q α) : Res ((O × Option TradeDirection × Strategy α × TvMetrics α) × Program S Q α) := do
  let (o, indicator) ← ind c p.indicator
  let (dir, signals) := sgn p.signals o
  let runner ← p.runner.next c dir
  let metrics ← p.metrics.next c runner
  return ((o, dir, runner, metrics), ⟨indicator, signals, runner, metrics⟩)

/-- Construction of the components, example/src/main.rs:35-62. -/
def Program.new {S Q : Type} (ind : Res S) (sgn : Q) (cfg : StrategyConfig α) (rfr : α) : Res (Program S Q α) := do
  let runner := Strategy.new cfg
  let metrics := TvMetrics.new runner rfr
  let indicator ← ind
  return ⟨indicator, sgn, runner, metrics⟩

/-- The configuration of the runner in example/src/main.rs:35-41. -/
def exampleConfig : StrategyConfig α := { (StrategyConfig.default : StrategyConfig α) with initialCapital := lit 1000 }
/-- The RSI strategy of example/src/main.rs:56-62: both thresholds 50. -/
def exampleThresholds : Thresholds α := ⟨lit 50, lit 50⟩

end Pace
