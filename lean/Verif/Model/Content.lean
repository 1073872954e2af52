import Verif.Model.Ta
import Verif.Model.Strategy

/-!
# content: indicators and their strategies

A configured `AnySrc` (`Box<dyn Incremental<(), Option<f64>>>`) is modelled by the value `src` it returns on the tick,
passed to `next`; `withSrc` below supplies the project's own `Src`.  `AnyMa` is modelled by `Ma`.
-/

namespace Pace
variable {α : Type} [F64 α]

/-- Drive a component that takes a source value with the project's `Src` of the given kind, evaluated on the same
tick (`self.config.src.next(())` at the beginning of each content `next`). -/
def withSrc {S O : Type} (kind : SrcKind) (next : Ctx α → S → Option α → Res (O × S))
    (c : Ctx α) (s : S) : Res (O × S) := do
  let v ← Src.next c kind
  next c s v

/-! ## Threshold strategies -/

/-- The state shared by the threshold strategies: two threshold-cross detectors (e.g. content/relative_strength_index.rs:77-82). -/
structure ThresholdStrategy (α : Type) where
  crossOver : CrossThresholdState α
  crossUnder : CrossThresholdState α

/-- A strategy whose upward detector watches `over` and whose downward detector watches `under`. -/
def ThresholdStrategy.mk' (over under : α) : ThresholdStrategy α :=
  ⟨.new over, .new under⟩

/-- The common body of the threshold strategies: content/relative_strength_index.rs:96-109 and the eleven bodies
cited at the constructors below, which are textually the same. -/
def ThresholdStrategy.next (s : ThresholdStrategy α) (v : Option α) :
    Option TradeDirection × ThresholdStrategy α :=
  let (isOver, o) := CrossOverThreshold.next s.crossOver v
  let (isUnder, u) := CrossUnderThreshold.next s.crossUnder v
  let result := if isOver then some TradeDirection.long
    else if isUnder then some TradeDirection.short else none
  (result, ⟨o, u⟩)

/-- Thresholds of a strategy config (`threshold_oversold`, `threshold_overbought`). -/
structure Thresholds (α : Type) where
  oversold : α
  overbought : α

/-- content/awesome_oscillator.rs:102-128 -/
def AwesomeOscillatorStrategy.new (c : Thresholds α) := ThresholdStrategy.mk' c.oversold c.overbought
/-- content/balance_of_power.rs:81-107 -/
def BalanceOfPowerStrategy.new (c : Thresholds α) := ThresholdStrategy.mk' c.oversold c.overbought
/-- content/bollinger_bands_pb.rs:111-137 -/
def BollingerBandsPercentBStrategy.new (c : Thresholds α) := ThresholdStrategy.mk' c.oversold c.overbought
/-- content/chaikin_money_flow.rs:102-128 -/
def ChaikinMoneyFlowStrategy.new (c : Thresholds α) := ThresholdStrategy.mk' c.oversold c.overbought
/-- content/chande_momentum_oscillator.rs:114-140 -/
def ChandeMomentumOscillatorStrategy.new (c : Thresholds α) := ThresholdStrategy.mk' c.oversold c.overbought
/-- content/commodity_channel_index.rs:91-117 -/
def CommodityChannelIndexStrategy.new (c : Thresholds α) := ThresholdStrategy.mk' c.oversold c.overbought
/-- content/connors_relative_strength_index.rs:143-169 -/
def ConnorsRelativeStrengthIndexStrategy.new (c : Thresholds α) := ThresholdStrategy.mk' c.oversold c.overbought
/-- content/coppock_curve.rs:100-126 -/
def CoppockCurveStrategy.new (c : Thresholds α) := ThresholdStrategy.mk' c.oversold c.overbought
/-- content/macd.rs:80-103: both thresholds 0 -/
def MacdStrategy.new : ThresholdStrategy α := ThresholdStrategy.mk' (lit 0) (lit 0)
/-- content/price_oscillator.rs:90-116 -/
def PriceOscillatorStrategy.new (c : Thresholds α) := ThresholdStrategy.mk' c.oversold c.overbought
/-- content/relative_strength_index.rs:84-110 -/
def RelativeStrengthIndexStrategy.new (c : Thresholds α) := ThresholdStrategy.mk' c.oversold c.overbought
/-- content/relative_volatility_index.rs:125-151 -/
def RelativeVolatilityIndexStrategy.new (c : Thresholds α) := ThresholdStrategy.mk' c.oversold c.overbought
/-- content/stoch_relative_strength_index.rs:109-137 -/
def StochRelativeStrengthIndexStrategy.new (c : Thresholds α) := ThresholdStrategy.mk' c.oversold c.overbought
/-- content/volume_oscillator.rs:88-113 -/
def VolumeOscillatorStrategy.new (c : Thresholds α) := ThresholdStrategy.mk' c.oversold c.overbought
/-- content/williams_percent_range.rs:94-120: the thresholds are passed the other way round -/
def WilliamsPercentRankStrategy.new (c : Thresholds α) := ThresholdStrategy.mk' c.overbought c.oversold

/-! ## Aroon -/

/-- content/aroon.rs:26-31 -/
structure Aroon where
  length : Nat
  highestBars : HighestBars
  lowestBars : LowestBars
/-- content/aroon.rs:34-41 -/
def Aroon.new (length : Nat) : Res Aroon := do
  let h ← HighestBars.new length
  let l ← LowestBars.new length
  return ⟨length, h, l⟩
/-- content/aroon.rs:45-62; output `(up, down)` -/
def Aroon.next (c : Ctx α) (s : Aroon) : Res ((Option α × Option α) × Aroon) := do
  if !(← c.atLength s.length) then
    return ((none, none), s)
  let (high, hb) ← s.highestBars.next c
  let (low, lb) ← s.lowestBars.next c
  let length : α := lit (s.length : ℚ)
  let up := high.map fun (h : Int) => (lit (h : ℚ) + length) / length * lit 100
  let down := low.map fun (l : Int) => (lit (l : ℚ) + length) / length * lit 100
  return ((up, down), { s with highestBars := hb, lowestBars := lb })

/-- content/aroon.rs:65-78 (the two unused confirmation fields are omitted) -/
structure AroonStrategy (α : Type) where
  upTrendStrength : α
  downTrendStrength : α
  crossMode : Bool
  cross : CrossState α
/-- content/aroon.rs:81-93 -/
def AroonStrategy.new : AroonStrategy α := ⟨lit 0, lit 0, false, .new⟩
/-- content/aroon.rs:98-107, 109-118: strength of `a` against `b` -/
def AroonStrategy.strength (a b : Option α) : α :=
  match a, b with
  | some a, some b =>
    if fgt a (lit 50) && F64.lt b (lit 50) then lit 1 - (lit 100 - a) / lit 50 else lit 0
  | _, _ => lit 0
/-- content/aroon.rs:97-148; input `(up, down)` -/
def AroonStrategy.next (s : AroonStrategy α) (i : Option α × Option α) :
    Option TradeDirection × AroonStrategy α :=
  let (up, down) := i
  let us := AroonStrategy.strength up down
  let ds := AroonStrategy.strength down up
  let (cr, cross) := Cross.next s.cross (down, up)
  let crossMode := if cr.isSome then true else s.crossMode
  let (u, d, crossMode) :=
    if crossMode then
      if fge us (lit 1) then (true, false, false)
      else if fge ds (lit 1) then (false, true, false)
      else (false, false, crossMode)
    else (false, false, crossMode)
  let result := if u then some TradeDirection.long
    else if d then some TradeDirection.short else none
  (result, ⟨us, ds, crossMode, cross⟩)

/-! ## Awesome oscillator -/

/-- `AnyMa`, ta/moving_average.rs:17: the boxed averages of a configuration may be any components from `Option<f64>` to
`Option<f64>`.  `A` is the state of such a component and an `AnyMa α A` its `next`. -/
abbrev AnyMa (α A : Type) := Ctx α → A → Option α → Res (Option α × A)

/-- content/awesome_oscillator.rs:37-41, over averages with states `A` and `B` -/
structure AwesomeOscillatorOf (α A B : Type) where
  shortMa : A
  longMa : B
  prevAo : Option α
/-- content/awesome_oscillator.rs:54-74, over any two averages; input `(short_src, long_src)` -/
def AwesomeOscillatorOf.next {A B : Type} (short : AnyMa α A) (long : AnyMa α B) (c : Ctx α) (s : AwesomeOscillatorOf α A B)
    (src : Option α × Option α) : Res (Option α × AwesomeOscillatorOf α A B) := do
  let (sm, shortMa) ← short c s.shortMa src.1
  let (lm, longMa) ← long c s.longMa src.2
  let ao := match sm, lm with
    | some a, some b => some (a - b)
    | _, _ => none
  let osc := match ao, s.prevAo with
    | some a, some p => some (a - p)
    | _, _ => none
  return (osc, ⟨shortMa, longMa, ao⟩)
/-- The awesome oscillator with the crate's own averages (`Ma`, as in the default configuration). -/
abbrev AwesomeOscillator (α : Type) := AwesomeOscillatorOf α (Ma α) (Ma α)
/-- content/awesome_oscillator.rs:43-50 -/
def AwesomeOscillator.new (shortMa longMa : Ma α) : AwesomeOscillator α := ⟨shortMa, longMa, none⟩
/-- content/awesome_oscillator.rs:54-74 with the crate's own averages -/
def AwesomeOscillator.next : Ctx α → AwesomeOscillator α → Option α × Option α → Res (Option α × AwesomeOscillator α) :=
  AwesomeOscillatorOf.next Ma.next Ma.next

/-! ## Balance of power -/

/-- content/balance_of_power.rs:35-53 (no state) -/
def BalanceOfPower.next (c : Ctx α) : Res (Option α) := do
  let close ← c.barClose
  let open_ ← c.barOpen
  let high ← c.barHigh
  let low ← c.barLow
  match close, open_, high, low with
  | some cl, some op, some hi, some lo =>
    if F64.feq hi lo then return none
    return some ((cl - op) / (hi - lo))
  | _, _, _, _ => return none

/-! ## Bollinger bands -/

/-- content/bollinger_bands_pb.rs:39-44, content/bollinger_bands_width.rs:39-44 -/
structure BollingerBands (α : Type) where
  mult : α
  basis : Sma α
  stdev : Stdev α
/-- content/bollinger_bands_pb.rs:47-54, content/bollinger_bands_width.rs:47-54 -/
def BollingerBands.new (length : Nat) (mult : α) : Res (BollingerBands α) := do
  let basis ← Sma.new length
  let stdev ← Stdev.new length true
  return ⟨mult, basis, stdev⟩
/-- content/bollinger_bands_pb.rs:58-81 -/
def BollingerBandsPercentB.next (c : Ctx α) (s : BollingerBands α) (src : Option α) :
    Res (Option α × BollingerBands α) := do
  let (basis, b) ← s.basis.next c src
  let (dev, d) ← s.stdev.next c src
  let s := { s with basis := b, stdev := d }
  match src, basis, dev with
  | some src, some basis, some dev =>
    let dev := dev * s.mult
    let upper := basis + dev
    let lower := basis - dev
    let diff := upper - lower
    if F64.feq diff (lit 0) then return (none, s)
    return (some ((src - lower) / diff), s)
  | _, _, _ => return (none, s)
/-- content/bollinger_bands_width.rs:58-79 -/
def BollingerBandsWidth.next (c : Ctx α) (s : BollingerBands α) (src : Option α) :
    Res (Option α × BollingerBands α) := do
  let (basis, b) ← s.basis.next c src
  let (dev, d) ← s.stdev.next c src
  let s := { s with basis := b, stdev := d }
  match src, basis, dev with
  | some _, some basis, some dev =>
    if F64.feq basis (lit 0) then return (none, s)
    let dev := dev * s.mult
    let upper := basis + dev
    let lower := basis - dev
    return (some ((upper - lower) / basis), s)
  | _, _, _ => return (none, s)

/-! ## Chaikin money flow -/

/-- content/chaikin_money_flow.rs:30-35 -/
structure ChaikinMoneyFlow (α : Type) where
  volumeSum : Sum α
  adSum : Sum α
/-- content/chaikin_money_flow.rs:39-46 -/
def ChaikinMoneyFlow.new (length : Nat) : Res (ChaikinMoneyFlow α) := do
  let v ← Sum.new length
  let a ← Sum.new length
  return ⟨v, a⟩
/-- content/chaikin_money_flow.rs:58-67 -/
def ChaikinMoneyFlow.ad (close high low volume : Option α) : Option α :=
  match close, high, low, volume with
  | some cl, some hi, some lo, some vo =>
    if (F64.feq cl hi && F64.feq cl lo) || F64.feq hi lo then some (lit 0)
    else some (((lit 2 * cl - lo - hi) / (hi - lo)) * vo)
  | _, _, _, _ => none
/-- content/chaikin_money_flow.rs:50-74 -/
def ChaikinMoneyFlow.next (c : Ctx α) (s : ChaikinMoneyFlow α) :
    Res (Option α × ChaikinMoneyFlow α) := do
  let close ← c.barClose
  let high ← c.barHigh
  let low ← c.barLow
  let volume ← c.barVolume
  let (vs, volumeSum) ← s.volumeSum.next c volume
  let (as, adSum) ← s.adSum.next c (ChaikinMoneyFlow.ad close high low volume)
  return (psDiv as vs, ⟨volumeSum, adSum⟩)

/-! ## Chande Kroll stop -/

/-- content/chande_kroll_stop.rs:45-53 -/
structure ChandeKrollStop (α : Type) where
  x : α
  atr : Atr α
  firstHighStopHighest : Highest α
  firstLowStopLowest : Lowest α
  stopShortHighest : Highest α
  stopLongLowest : Lowest α
/-- content/chande_kroll_stop.rs:37-42 -/
structure ChandeKrollStopData (α : Type) where
  firstHighStop : Option α
  firstLowStop : Option α
  stopLong : Option α
  stopShort : Option α
  deriving DecidableEq, Repr
/-- content/chande_kroll_stop.rs:56-66 -/
def ChandeKrollStop.new (p q : Nat) (x : α) : Res (ChandeKrollStop α) := do
  let atr ← Atr.new p
  let h ← Highest.new p
  let l ← Lowest.new p
  let sh ← Highest.new q
  let ll ← Lowest.new q
  return ⟨x, atr, h, l, sh, ll⟩
/-- content/chande_kroll_stop.rs:70-94 -/
def ChandeKrollStop.next (c : Ctx α) (s : ChandeKrollStop α) :
    Res (ChandeKrollStopData α × ChandeKrollStop α) := do
  let (atrV, atr) ← s.atr.next c
  let (h, fh) ← s.firstHighStopHighest.next c (← c.barHigh)
  let (l, fl) ← s.firstLowStopLowest.next c (← c.barLow)
  let (firstHighStop, firstLowStop) : Option α × Option α :=
    match h, l, atrV with
    | some h, some l, some a => (some (h - s.x * a), some (l + s.x * a))
    | _, _, _ => (none, none)
  let (stopShort, sh) ← s.stopShortHighest.next c firstHighStop
  let (stopLong, ll) ← s.stopLongLowest.next c firstLowStop
  return (⟨firstHighStop, firstLowStop, stopLong, stopShort⟩, ⟨s.x, atr, fh, fl, sh, ll⟩)

/-! ## Chande momentum oscillator -/

/-- content/chande_momentum_oscillator.rs:37-43 -/
structure ChandeMomentumOscillator (α : Type) where
  prevSrc : Option α
  sm1 : Sum α
  sm2 : Sum α
/-- content/chande_momentum_oscillator.rs:46-58 -/
def ChandeMomentumOscillator.new (length : Nat) : Res (ChandeMomentumOscillator α) := do
  assert (decide (1 < length))
  let a ← Sum.new length
  let b ← Sum.new length
  return ⟨none, a, b⟩
/-- content/chande_momentum_oscillator.rs:62-86 -/
def ChandeMomentumOscillator.next (c : Ctx α) (s : ChandeMomentumOscillator α) (src : Option α) :
    Res (Option α × ChandeMomentumOscillator α) := do
  let momm := psDiff src s.prevSrc
  let m1 := psMax (some (lit 0)) momm
  let m2 := psAbs (psMin (some (lit 0)) momm)
  let (v1, sm1) ← s.sm1.next c m1
  let (v2, sm2) ← s.sm2.next c m2
  let out := match v1, v2 with
    | some a, some b =>
      if F64.feq a (-b) then none else some (lit 100 * (a - b) / (a + b))
    | _, _ => none
  return (out, ⟨src, sm1, sm2⟩)

/-! ## Choppiness index -/

/-- content/choppiness_index.rs:35-43 -/
structure ChoppinessIndex (α : Type) where
  atr : Atr α
  atrSum : Sum α
  log10Length : α
  highest : Highest α
  lowest : Lowest α
/-- content/choppiness_index.rs:46-56 -/
def ChoppinessIndex.new (length : Nat) : Res (ChoppinessIndex α) := do
  let atr ← Atr.new 1
  let sum ← Sum.new length
  let h ← Highest.new length
  let l ← Lowest.new length
  return ⟨atr, sum, F64.log10 (lit (length : ℚ)), h, l⟩
/-- content/choppiness_index.rs:60-80 -/
def ChoppinessIndex.next (c : Ctx α) (s : ChoppinessIndex α) :
    Res (Option α × ChoppinessIndex α) := do
  let (a, atr) ← s.atr.next c
  let (as, atrSum) ← s.atrSum.next c a
  let (h, highest) ← s.highest.next c (← c.barHigh)
  let (l, lowest) ← s.lowest.next c (← c.barLow)
  let out := match as, h, l with
    | some as, some h, some l =>
      let diff := h - l
      if F64.feq diff (lit 0) then none
      else some (lit 100 * F64.log10 (as / diff) / s.log10Length)
    | _, _, _ => none
  return (out, ⟨atr, atrSum, s.log10Length, highest, lowest⟩)

/-! ## Commodity channel index -/

/-- content/commodity_channel_index.rs:36-41 -/
structure CommodityChannelIndex (α : Type) where
  sma : Sma α
  dev : Dev α
/-- content/commodity_channel_index.rs:44-51 -/
def CommodityChannelIndex.new (length : Nat) : Res (CommodityChannelIndex α) := do
  let a ← Sma.new length
  let b ← Dev.new length
  return ⟨a, b⟩
/-- content/commodity_channel_index.rs:55-63 -/
def CommodityChannelIndex.next (c : Ctx α) (s : CommodityChannelIndex α) (src : Option α) :
    Res (Option α × CommodityChannelIndex α) := do
  let (ma, sma) ← s.sma.next c src
  let (dv, dev) ← s.dev.next c src
  let cci := psDiv (psDiff src ma) (dv.map fun x => x * lit (15 / 1000))
  return (cci, ⟨sma, dev⟩)

/-! ## Connors RSI -/

/-- content/connors_relative_strength_index.rs:44-53 -/
structure ConnorsRsi (α : Type) where
  prevSrc : Option α
  prevUd : Option α
  rsi : Rsi α
  upDownRsi : Rsi α
  percentRank : Prank α
  roc : Roc α
/-- content/connors_relative_strength_index.rs:56-67 -/
def ConnorsRsi.new (lengthRsi lengthUpDown lengthRoc : Nat) : Res (ConnorsRsi α) := do
  let a ← Rsi.new lengthRsi
  let b ← Rsi.new lengthUpDown
  let p ← Prank.new lengthRoc
  let r ← Roc.new 1
  return ⟨none, none, a, b, p, r⟩
/-- `PartialEq` on `Option<f64>`, used at content/connors_relative_strength_index.rs:74 -/
def optFeq (a b : Option α) : Bool :=
  match a, b with
  | some a, some b => F64.feq a b
  | none, none => true
  | _, _ => false
/-- content/connors_relative_strength_index.rs:69-89 -/
def ConnorsRsi.computeUpDown (src prevSrc prevUd : Option α) : Option α :=
  if optFeq prevSrc src then some (lit 0)
  else
    let ud := psNz prevUd
    let up := match src, prevSrc with
      | some a, some b => fgt a b
      | _, _ => false
    if up then
      if F64.le ud (lit 0) then some (lit 1) else some (ud + lit 1)
    else if fge ud (lit 0) then some (-(lit 1))
    else some (ud - lit 1)
/-- content/connors_relative_strength_index.rs:93-115 -/
def ConnorsRsi.next (c : Ctx α) (s : ConnorsRsi α) (src : Option α) :
    Res (Option α × ConnorsRsi α) := do
  let (r, rsi) ← s.rsi.next c src
  let ud := ConnorsRsi.computeUpDown src s.prevSrc s.prevUd
  let (ur, upDownRsi) ← s.upDownRsi.next c ud
  let (rc, roc) ← s.roc.next src
  let (pr, percentRank) ← s.percentRank.next c rc
  let crsi := match r, ur, pr with
    | some r, some u, some p => some ((r + u + p) / lit 3)
    | _, _, _ => none
  return (crsi, ⟨src, ud, rsi, upDownRsi, percentRank, roc⟩)

/-! ## Coppock curve -/

/-- content/coppock_curve.rs:39-45 -/
structure CoppockCurve (α : Type) where
  ma : Wma α
  longRoc : Roc α
  shortRoc : Roc α
/-- content/coppock_curve.rs:48-56 -/
def CoppockCurve.new (length longRoc shortRoc : Nat) : Res (CoppockCurve α) := do
  let m ← Wma.new length
  let l ← Roc.new longRoc
  let s ← Roc.new shortRoc
  return ⟨m, l, s⟩
/-- content/coppock_curve.rs:60-72 -/
def CoppockCurve.next (c : Ctx α) (s : CoppockCurve α) (src : Option α) :
    Res (Option α × CoppockCurve α) := do
  let (l, longRoc) ← s.longRoc.next src
  let (r, shortRoc) ← s.shortRoc.next src
  let roc := match l, r with
    | some l, some r => some (l + r)
    | _, _ => none
  let (o, ma) ← s.ma.next c roc
  return (o, ⟨ma, longRoc, shortRoc⟩)

/-! ## Directional movement index -/

/-- content/directional_movement_index.rs:48-58 -/
structure Dmi (α : Type) where
  trueRangeRma : Rma α
  plusDmRma : Rma α
  minusDmRma : Rma α
  plusFixNan : FixNan α
  minusFixNan : FixNan α
  adx : Rma α
/-- content/directional_movement_index.rs:41-45 -/
structure DmiData (α : Type) where
  plus : Option α
  minus : Option α
  adx : Option α
  deriving DecidableEq, Repr
/-- content/directional_movement_index.rs:61-73 -/
def Dmi.new (length lensig : Nat) : Res (Dmi α) := do
  let a ← Rma.new length
  let b ← Rma.new length
  let d ← Rma.new length
  let x ← Rma.new lensig
  return ⟨a, b, d, .new, .new, x⟩
/-- content/directional_movement_index.rs:86-95, 97-106: directional movement of `a` against `b` -/
def Dmi.dm (a b : Option α) : Option α :=
  match a, b with
  | some a, some b => if fgt a b && fgt a (lit 0) then some a else some (lit 0)
  | _, _ => none
/-- content/directional_movement_index.rs:120-125 -/
def Dmi.dx (plus minus : Option α) : Option α :=
  match plus, minus with
  | some p, some m => some (F64.abs (p - m) / (if F64.feq p (-m) then lit 0 else p + m))
  | _, _ => none
/-- content/directional_movement_index.rs:77-129 -/
def Dmi.next (c : Ctx α) (s : Dmi α) : Res (DmiData α × Dmi α) := do
  let high ← c.barHigh
  let low ← c.barLow
  let prevHigh ← c.high 1
  let prevLow ← c.low 1
  let up := psDiff high prevHigh
  let down := psDiff prevLow low
  let plusDm := Dmi.dm up down
  let minusDm := Dmi.dm down up
  let tr ← Tr.next c false
  let (trR, trueRangeRma) ← s.trueRangeRma.next c tr
  let (pR, plusDmRma) ← s.plusDmRma.next c plusDm
  let (mR, minusDmRma) ← s.minusDmRma.next c minusDm
  let plus := (psDiv pR trR).map fun x => x * lit 100
  let minus := (psDiv mR trR).map fun x => x * lit 100
  let (plus, plusFixNan) := s.plusFixNan.next plus
  let (minus, minusFixNan) := s.minusFixNan.next minus
  let (a, adx) ← s.adx.next c (Dmi.dx plus minus)
  return (⟨plus, minus, a.map fun x => x * lit 100⟩,
    ⟨trueRangeRma, plusDmRma, minusDmRma, plusFixNan, minusFixNan, adx⟩)

/-- `match cross { Over => Long, Under => Short }`, content/directional_movement_index.rs:186-189 and the Vortex and
relative vigor strategies. -/
def CrossMode.toDirection : CrossMode → TradeDirection
  | .over => .long
  | .under => .short

/-- content/directional_movement_index.rs:150-154 -/
structure DmiStrategy (α : Type) where
  thresholdStrongTrend : α
  cross : CrossState α
/-- content/directional_movement_index.rs:156-164 (the weak threshold is never used) -/
def DmiStrategy.new (strong : α) : DmiStrategy α := ⟨strong, .new⟩
/-- content/directional_movement_index.rs:169-194 -/
def DmiStrategy.next (s : DmiStrategy α) (d : DmiData α) :
    Option TradeDirection × DmiStrategy α :=
  let strong := (d.adx.map fun x => fgt x s.thresholdStrongTrend).getD false
  let (cr, cross) := Cross.next s.cross (d.plus, d.minus)
  let result := if strong then cr.map CrossMode.toDirection else none
  (result, { s with cross })

/-! ## Donchian channels -/

/-- content/donchian_channels.rs:38-43 -/
structure DonchianChannels (α : Type) where
  highest : Highest α
  lowest : Lowest α
/-- content/donchian_channels.rs:31-35 -/
structure DonchianData (α : Type) where
  upper : Option α
  basis : Option α
  lower : Option α
  deriving DecidableEq, Repr
/-- content/donchian_channels.rs:46-53 -/
def DonchianChannels.new (length : Nat) : Res (DonchianChannels α) := do
  let h ← Highest.new length
  let l ← Lowest.new length
  return ⟨h, l⟩
/-- content/donchian_channels.rs:57-68 -/
def DonchianChannels.next (c : Ctx α) (s : DonchianChannels α) :
    Res (DonchianData α × DonchianChannels α) := do
  let (upper, h) ← s.highest.next c (← c.barHigh)
  let (lower, l) ← s.lowest.next c (← c.barLow)
  let basis := (psAdd upper lower).map fun x => x / lit 2
  return (⟨upper, basis, lower⟩, ⟨h, l⟩)

/-! ## MACD -/

/-- content/macd.rs:18-24, 41-44, over averages with states `A`, `B` and `G` -/
structure MacdOf (A B G : Type) where
  shortMa : A
  longMa : B
  signalMa : G
/-- content/macd.rs:56-71, over any three averages; input `(short_src, long_src)`, output `(macd, signal)` -/
def MacdOf.next {A B G : Type} (short : AnyMa α A) (long : AnyMa α B) (signal : AnyMa α G) (c : Ctx α) (s : MacdOf A B G)
    (src : Option α × Option α) : Res ((Option α × Option α) × MacdOf A B G) := do
  let (sm, shortMa) ← short c s.shortMa src.1
  let (lm, longMa) ← long c s.longMa src.2
  let macd := match sm, lm with
    | some a, some b => some (a - b)
    | _, _ => none
  let (sig, signalMa) ← signal c s.signalMa macd
  return ((macd, sig), ⟨shortMa, longMa, signalMa⟩)
/-- MACD with the crate's own averages (`Ma`, as in the default configuration). -/
abbrev Macd (α : Type) := MacdOf (Ma α) (Ma α) (Ma α)
/-- content/macd.rs:56-71 with the crate's own averages -/
def Macd.next : Ctx α → Macd α → Option α × Option α → Res ((Option α × Option α) × Macd α) :=
  MacdOf.next Ma.next Ma.next Ma.next

/-! ## Price oscillator -/

/-- content/price_oscillator.rs:18-22, 35-38; content/volume_oscillator.rs:22-25, 37-40 -/
structure MaPairOf (A B : Type) where
  shortMa : A
  longMa : B
/-- The two averages of a price or volume oscillator with the crate's own averages. -/
abbrev MaPair (α : Type) := MaPairOf (Ma α) (Ma α)
/-- `PriceOscillatorConfig::default`, content/price_oscillator.rs:24-32 -/
def PriceOscillator.default : Res (MaPair α) := do
  let longMa ← Ma.new .sma 10
  let shortMa ← Ma.new .sma 21
  return ⟨shortMa, longMa⟩
/-- content/price_oscillator.rs:50-62, over any two averages -/
def PriceOscillator.nextOf {A B : Type} (short : AnyMa α A) (long : AnyMa α B) (c : Ctx α) (s : MaPairOf A B) (src : Option α) :
    Res (Option α × MaPairOf A B) := do
  let (sm, shortMa) ← short c s.shortMa src
  let (lm, longMa) ← long c s.longMa src
  let po := match sm, lm with
    | some a, some b => some ((a - b) / b * lit 100)
    | _, _ => none
  return (po, ⟨shortMa, longMa⟩)
/-- content/price_oscillator.rs:50-62 with the crate's own averages -/
def PriceOscillator.next : Ctx α → MaPair α → Option α → Res (Option α × MaPair α) := PriceOscillator.nextOf Ma.next Ma.next

/-! ## Relative strength index -/

/-- content/relative_strength_index.rs:54-57 -/
def RelativeStrengthIndex.next (c : Ctx α) (s : Rsi α) (src : Option α) :
    Res (Option α × Rsi α) := s.next c src

/-! ## Relative vigor index -/

/-- content/relative_vigor_index.rs:40-48 -/
structure RelativeVigorIndex (α : Type) where
  swmaCloseOpen : Swma α
  swmaHighLow : Swma α
  sumCloseOpen : Sum α
  sumHighLow : Sum α
  swmaSig : Swma α
/-- content/relative_vigor_index.rs:51-61 -/
def RelativeVigorIndex.new (length : Nat) : Res (RelativeVigorIndex α) := do
  let a ← Swma.new
  let b ← Swma.new
  let d ← Sum.new length
  let e ← Sum.new length
  let f ← Swma.new
  return ⟨a, b, d, e, f⟩
/-- content/relative_vigor_index.rs:65-92; output `(rvi, sig)` -/
def RelativeVigorIndex.next (c : Ctx α) (s : RelativeVigorIndex α) :
    Res ((Option α × Option α) × RelativeVigorIndex α) := do
  let close ← c.barClose
  let open_ ← c.barOpen
  let high ← c.barHigh
  let low ← c.barLow
  let co := match close, open_ with
    | some a, some b => some (a - b)
    | _, _ => none
  let hl := match high, low with
    | some a, some b => some (a - b)
    | _, _ => none
  let (coS, swmaCloseOpen) ← s.swmaCloseOpen.next c co
  let (hlS, swmaHighLow) ← s.swmaHighLow.next c hl
  let (coSum, sumCloseOpen) ← s.sumCloseOpen.next c coS
  let (hlSum, sumHighLow) ← s.sumHighLow.next c hlS
  let rvi := psDiv coSum hlSum
  let (sig, swmaSig) ← s.swmaSig.next c rvi
  return ((rvi, sig), ⟨swmaCloseOpen, swmaHighLow, sumCloseOpen, sumHighLow, swmaSig⟩)

/-- content/relative_vigor_index.rs:111-124 (state: a `Cross`; input `(rvi, sig)`), content/vortex.rs:102-115 (input
`(plus, minus)`) -/
def CrossStrategy.next (s : CrossState α) (i : Option α × Option α) :
    Option TradeDirection × CrossState α :=
  let (cr, cross) := Cross.next s i
  (cr.map CrossMode.toDirection, cross)

/-! ## Relative volatility index -/

/-- content/relative_volatility_index.rs:40-47 -/
structure RelativeVolatilityIndex (α : Type) where
  stdev : Stdev α
  upperEma : Ema α
  lowerEma : Ema α
  prevSrc : Option α
/-- content/relative_volatility_index.rs:50-59 -/
def RelativeVolatilityIndex.new (length maLength : Nat) : Res (RelativeVolatilityIndex α) := do
  let s ← Stdev.new length true
  let u ← Ema.new maLength
  let l ← Ema.new maLength
  return ⟨s, u, l, none⟩
/-- content/relative_volatility_index.rs:63-97 -/
def RelativeVolatilityIndex.next (c : Ctx α) (s : RelativeVolatilityIndex α) (src : Option α) :
    Res (Option α × RelativeVolatilityIndex α) := do
  let (sd, stdev) ← s.stdev.next c src
  let change := match src, s.prevSrc with
    | some a, some b => some (a - b)
    | _, _ => none
  let (upper, lower) : Option α × Option α := match change with
    | some ch =>
      (if F64.le ch (lit 0) then some (lit 0) else sd,
       if fgt ch (lit 0) then some (lit 0) else sd)
    | none => (none, none)
  let (u, upperEma) ← s.upperEma.next c upper
  let (l, lowerEma) ← s.lowerEma.next c lower
  let rvi := match u, l with
    | some u, some l =>
      if F64.feq u (-l) then none else some (u / (u + l) * lit 100)
    | _, _ => none
  return (rvi, ⟨stdev, upperEma, lowerEma, src⟩)

/-! ## Stochastic RSI -/

/-- content/stoch_relative_strength_index.rs:49-56 -/
structure StochRsi (α : Type) where
  rsi : Rsi α
  kStoch : Stoch α
  kSma : Sma α
  dSma : Sma α
/-- content/stoch_relative_strength_index.rs:59-68 -/
def StochRsi.new (lengthRsi lengthStoch smoothK smoothD : Nat) : Res (StochRsi α) := do
  let r ← Rsi.new lengthRsi
  let s ← Stoch.new lengthStoch
  let k ← Sma.new smoothK
  let d ← Sma.new smoothD
  return ⟨r, s, k, d⟩
/-- content/stoch_relative_strength_index.rs:72-81; output `(k, d)` -/
def StochRsi.next (c : Ctx α) (s : StochRsi α) (src : Option α) :
    Res ((Option α × Option α) × StochRsi α) := do
  let (r, rsi) ← s.rsi.next c src
  let (ks, kStoch) ← s.kStoch.next c (r, r, r)
  let (k, kSma) ← s.kSma.next c ks
  let (d, dSma) ← s.dSma.next c k
  return ((k, d), ⟨rsi, kStoch, kSma, dSma⟩)

/-! ## Ultimate oscillator -/

/-- content/ultimate_oscillator.rs:40-49 -/
structure UltimateOscillator (α : Type) where
  shortSumBp : Sum α
  shortSumTr : Sum α
  midSumBp : Sum α
  midSumTr : Sum α
  longSumBp : Sum α
  longSumTr : Sum α
/-- content/ultimate_oscillator.rs:52-63 -/
def UltimateOscillator.new (short mid long : Nat) : Res (UltimateOscillator α) := do
  let a ← Sum.new short
  let b ← Sum.new short
  let d ← Sum.new mid
  let e ← Sum.new mid
  let f ← Sum.new long
  let g ← Sum.new long
  return ⟨a, b, d, e, f, g⟩
/-- content/ultimate_oscillator.rs:67-105 -/
def UltimateOscillator.next (c : Ctx α) (s : UltimateOscillator α) :
    Res (Option α × UltimateOscillator α) := do
  let high ← c.barHigh
  let low ← c.barLow
  let close ← c.barClose
  let prevClose ← if 0 < c.index then c.close 1 else pure none
  let high_ := psMax high prevClose
  let low_ := psMin low prevClose
  let bp := psDiff close low_
  let tr := psDiff high_ low_
  let (fb, a) ← s.shortSumBp.next c bp
  let (ft, b) ← s.shortSumTr.next c tr
  let (mb, d) ← s.midSumBp.next c bp
  let (mt, e) ← s.midSumTr.next c tr
  let (lb, f) ← s.longSumBp.next c bp
  let (lt, g) ← s.longSumTr.next c tr
  let uo := match psDiv fb ft, psDiv mb mt, psDiv lb lt with
    | some fast, some mid, some slow =>
      some (lit 100 * (lit 4 * fast + lit 2 * mid + slow) / lit 7)
    | _, _, _ => none
  return (uo, ⟨a, b, d, e, f, g⟩)

/-! ## Volume oscillator -/

/-- content/volume_oscillator.rs:52-61, over any two averages -/
def VolumeOscillator.nextOf {A B : Type} (short : AnyMa α A) (long : AnyMa α B) (c : Ctx α) (s : MaPairOf A B) :
    Res (Option α × MaPairOf A B) := do
  let volume ← c.barVolume
  let (sm, shortMa) ← short c s.shortMa volume
  let (lm, longMa) ← long c s.longMa volume
  let osc := (psDiv (psDiff sm lm) lm).map fun x => x * lit 100
  return (osc, ⟨shortMa, longMa⟩)
/-- content/volume_oscillator.rs:52-61 with the crate's own averages -/
def VolumeOscillator.next : Ctx α → MaPair α → Res (Option α × MaPair α) := VolumeOscillator.nextOf Ma.next Ma.next

/-! ## Vortex -/

/-- content/vortex.rs:37-44 -/
structure Vortex (α : Type) where
  vmpSum : Sum α
  vmmSum : Sum α
  atrSum : Sum α
  atr : Atr α
/-- content/vortex.rs:47-56 -/
def Vortex.new (length : Nat) : Res (Vortex α) := do
  let a ← Sum.new length
  let b ← Sum.new length
  let d ← Sum.new length
  let e ← Atr.new 1
  return ⟨a, b, d, e⟩
/-- content/vortex.rs:60-83; output `(plus, minus)` -/
def Vortex.next (c : Ctx α) (s : Vortex α) : Res ((Option α × Option α) × Vortex α) := do
  let high ← c.barHigh
  let low ← c.barLow
  let prevHigh ← c.high 1
  let prevLow ← c.low 1
  let (vmp, vmpSum) ← s.vmpSum.next c (psAbs (psDiff high prevLow))
  let (vmm, vmmSum) ← s.vmmSum.next c (psAbs (psDiff low prevHigh))
  let (a, atr) ← s.atr.next c
  let (str, atrSum) ← s.atrSum.next c a
  return ((psDiv vmp str, psDiv vmm str), ⟨vmpSum, vmmSum, atrSum, atr⟩)

/-! ## Williams %R -/

/-- content/williams_percent_range.rs:39-44 -/
structure WilliamsPercentRank (α : Type) where
  highest : Highest α
  lowest : Lowest α
/-- content/williams_percent_range.rs:47-54 -/
def WilliamsPercentRank.new (length : Nat) : Res (WilliamsPercentRank α) := do
  let h ← Highest.new length
  let l ← Lowest.new length
  return ⟨h, l⟩
/-- content/williams_percent_range.rs:58-66 -/
def WilliamsPercentRank.next (c : Ctx α) (s : WilliamsPercentRank α) (src : Option α) :
    Res (Option α × WilliamsPercentRank α) := do
  let (mx, h) ← s.highest.next c (← c.barHigh)
  let (mn, l) ← s.lowest.next c (← c.barLow)
  let pr := (psDiv (psDiff src mx) (psDiff mx mn)).map fun x => x * lit 100
  return (pr, ⟨h, l⟩)

/-! ## asset/timeframe.rs -/

/-- `enum Timeframe`, asset/timeframe.rs:1-6 -/
inductive Timeframe where
  | oneDay | fourHours | oneHour
  deriving DecidableEq, Repr
/-- asset/timeframe.rs:8-19 (`none` = `Err`) -/
def Timeframe.tryFrom : Nat → Option Timeframe
  | 0 => some .oneDay
  | 1 => some .fourHours
  | 2 => some .oneHour
  | _ => none
/-- asset/timeframe.rs:21-31 -/
def Timeframe.tryInto : Timeframe → Option Nat
  | .oneDay => some 0
  | .fourHours => some 1
  | .oneHour => some 2

end Pace
