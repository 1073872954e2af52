import Verif.Lemmas.Series
import Verif.Model.Content
import Verif.Model.Metrics

/-!
# Two contexts that agree up to the current bar are indistinguishable
-/

set_option linter.unusedSectionVars false

namespace Pace
variable {α : Type}

/-- The first `n` bars of two data sets are the same in every column. -/
structure Spec.AgreeUpTo (n : Nat) (d d' : DataProvider α) : Prop where
  open_ : ∀ t, t < n → d.open_[t]? = d'.open_[t]?
  high : ∀ t, t < n → d.high[t]? = d'.high[t]?
  low : ∀ t, t < n → d.low[t]? = d'.low[t]?
  close : ∀ t, t < n → d.close[t]? = d'.close[t]?
  volume : ∀ t, t < n → d.volume[t]? = d'.volume[t]?
  time : ∀ t, t < n → d.time[t]? = d'.time[t]?

/-- Every accessor returns the same on both contexts. -/
structure SameView (c c' : Ctx α) : Prop where
  index : c.index = c'.index
  barOpen : c.barOpen = c'.barOpen
  barHigh : c.barHigh = c'.barHigh
  barLow : c.barLow = c'.barLow
  barClose : c.barClose = c'.barClose
  barVolume : c.barVolume = c'.barVolume
  barTime : c.barTime = c'.barTime
  high : ∀ n, c.high n = c'.high n
  low : ∀ n, c.low n = c'.low n
  close : ∀ n, c.close n = c'.close n
  volume : ∀ n, c.volume n = c'.volume n
  opens : ∀ n, c.opens n = c'.opens n
  highs : ∀ n, c.highs n = c'.highs n
  lows : ∀ n, c.lows n = c'.lows n
  closes : ∀ n, c.closes n = c'.closes n
  volumes : ∀ n, c.volumes n = c'.volumes n

theorem index_agree {β : Type} {l l' : List β} {n i : Nat} (h : ∀ t, t < n → l[t]? = l'[t]?) (hi : i < n) :
    index l i = index l' i := by unfold index; rw [h i hi]

theorem slice_agree {β : Type} {l l' : List β} {n b : Nat} (h : ∀ t, t < n → l[t]? = l'[t]?) (hb : b < n) (a : Nat) :
    slice l a (b + 1) = slice l' a (b + 1) := by
  have hlen : b + 1 ≤ l.length ↔ b + 1 ≤ l'.length := by
    have := h b hb
    constructor
    · intro hl
      rw [List.getElem?_eq_getElem (by omega)] at this
      have := (List.getElem?_eq_some_iff.mp this.symm).1; omega
    · intro hl
      rw [List.getElem?_eq_getElem (l := l') (by omega)] at this
      have := (List.getElem?_eq_some_iff.mp this).1; omega
  have htake : l.take (b + 1) = l'.take (b + 1) := by
    apply List.ext_getElem?
    intro i
    rw [List.getElem?_take, List.getElem?_take]
    split
    · exact h i (by omega)
    · rfl
  unfold slice
  rw [htake]
  simp only [hlen]

theorem sameView_of_agree {n t : Nat} {d d' : DataProvider α} (h : Spec.AgreeUpTo n d d') (ht : t < n) :
    SameView (⟨d, t⟩ : Ctx α) ⟨d', t⟩ := by
  have at_ {l l' : List (Option α)} (h : ∀ t, t < n → l[t]? = l'[t]?) (k : Nat) :
      (if t < k then (.ok none : Res (Option α)) else index l (t - k)) = if t < k then .ok none else index l' (t - k) := by
    split
    · rfl
    · exact index_agree h (by omega)
  have sl {l l' : List (Option α)} (h : ∀ t, t < n → l[t]? = l'[t]?) (k : Nat) :
      (do let a ← (do let m ← usub k 1; usub t m); slice l a (t + 1)) = (do let a ← (do let m ← usub k 1; usub t m); slice l' a (t + 1)) := by
    congr 1; funext a; exact slice_agree h ht a
  exact ⟨rfl, index_agree h.open_ ht, index_agree h.high ht, index_agree h.low ht, index_agree h.close ht,
    index_agree h.volume ht, index_agree h.time ht, at_ h.high, at_ h.low, at_ h.close, at_ h.volume,
    sl h.open_, sl h.high, sl h.low, sl h.close, sl h.volume⟩

/-- Runs with step functions and inputs that agree during the run give the same outputs (or the same panic). -/
theorem outputs_congr {S I O : Type} {step step' : Nat → S → I → Res (O × S)} {x x' : Nat → I} {N : Nat}
    (hs : ∀ t, t < N → step t = step' t) (hx : ∀ t, t < N → x t = x' t) (s0 : Res S) :
    outputs step x N s0 = outputs step' x' N s0 := by
  have : ∀ n t s, t + n ≤ N → runFrom step x t n s = runFrom step' x' t n s := by
    intro n
    induction n with
    | zero => intro t s _; rfl
    | succ n ih =>
      intro t s h
      simp only [runFrom]
      rw [hs t (by omega), hx t (by omega)]
      congr 1
      funext p
      rw [ih (t + 1) p.2 (by omega)]
  unfold outputs run
  cases s0 with
  | error e => rfl
  | ok s => simp only [Res.ok_bind, this N 0 s (by omega)]

namespace SameView
variable [F64 α] {c c' : Ctx α} (h : SameView c c')
include h

theorem atLength (n : Nat) : c.atLength n = c'.atLength n := by unfold Ctx.atLength; rw [h.index]
theorem src : Src.next c = Src.next c' := by
  funext k; cases k <;> simp only [Src.next, h.barOpen, h.barHigh, h.barLow, h.barClose, h.barVolume]
theorem isUp : c.isUp = c'.isUp := by unfold Ctx.isUp; rw [h.barClose, h.barOpen]
theorem validator : WindowValidator.next c = WindowValidator.next c' := by
  funext s v; unfold WindowValidator.next; rw [h.index]
theorem sma : Sma.next c = Sma.next c' := by funext s v; unfold Sma.next; rw [h.validator]
theorem sum : Sum.next c = Sum.next c' := by funext s v; unfold Sum.next; rw [h.validator]
theorem ema : Ema.next c = Ema.next c' := by funext s v; unfold Ema.next; simp only [h.atLength, h.sma]
theorem rma : Rma.next c = Rma.next c' := by funext s v; unfold Rma.next; rw [h.ema]
theorem wma : Wma.next c = Wma.next c' := by funext s v; unfold Wma.next; simp only [h.atLength, h.validator]
theorem swma : Swma.next c = Swma.next c' := by funext s v; unfold Swma.next; simp only [h.atLength, h.validator]
theorem ma : Ma.next c = Ma.next c' := by
  funext s v; unfold Ma.next; simp only [h.sma, h.ema, h.rma, h.swma]
theorem dev : Dev.next c = Dev.next c' := by funext s v; unfold Dev.next; rw [h.sma]
theorem stdev : Stdev.next c = Stdev.next c' := by funext s v; unfold Stdev.next; rw [h.sma]
theorem prank : Prank.next c = Prank.next c' := by funext s v; unfold Prank.next; simp only [h.atLength]
theorem highest : Highest.next c = Highest.next c' := by funext s v; unfold Highest.next; simp only [h.atLength]
theorem lowest : Lowest.next c = Lowest.next c' := by funext s v; unfold Lowest.next; simp only [h.atLength]
theorem highestBars : HighestBars.next c = HighestBars.next c' := by
  funext s; unfold HighestBars.next; simp only [h.atLength, h.highs]
theorem lowestBars : LowestBars.next c = LowestBars.next c' := by
  funext s; unfold LowestBars.next; simp only [h.atLength, h.lows]
theorem stoch : Stoch.next c = Stoch.next c' := by funext s v; unfold Stoch.next; simp only [h.atLength]
theorem tr : Tr.next c = Tr.next c' := by
  funext s; unfold Tr.next; simp only [h.barHigh, h.barLow, h.high, h.low, h.close]
theorem atr : Atr.next c = Atr.next c' := by funext s; unfold Atr.next; simp only [h.tr, h.rma]
theorem rsi : Rsi.next c = Rsi.next c' := by funext s v; unfold Rsi.next; simp only [h.rma]

theorem withSrc {S O : Type} (k : SrcKind) {next : Ctx α → S → Option α → Res (O × S)} (hn : next c = next c') :
    Pace.withSrc k next c = Pace.withSrc k next c' := by
  funext s; unfold Pace.withSrc; rw [h.src, hn]
theorem aroon : Aroon.next c = Aroon.next c' := by
  funext s; unfold Aroon.next; simp only [h.atLength, h.highestBars, h.lowestBars]
theorem awesome : AwesomeOscillator.next c = AwesomeOscillator.next c' := by
  funext s v; unfold AwesomeOscillator.next AwesomeOscillatorOf.next; simp only [h.ma]
theorem bop : BalanceOfPower.next c = BalanceOfPower.next c' := by
  unfold BalanceOfPower.next; simp only [h.barClose, h.barOpen, h.barHigh, h.barLow]
theorem bbpb : BollingerBandsPercentB.next c = BollingerBandsPercentB.next c' := by
  funext s v; unfold BollingerBandsPercentB.next; simp only [h.sma, h.stdev]
theorem bbw : BollingerBandsWidth.next c = BollingerBandsWidth.next c' := by
  funext s v; unfold BollingerBandsWidth.next; simp only [h.sma, h.stdev]
theorem cmf : ChaikinMoneyFlow.next c = ChaikinMoneyFlow.next c' := by
  funext s; unfold ChaikinMoneyFlow.next; simp only [h.barClose, h.barHigh, h.barLow, h.barVolume, h.sum]
theorem cks : ChandeKrollStop.next c = ChandeKrollStop.next c' := by
  funext s; unfold ChandeKrollStop.next; simp only [h.barHigh, h.barLow, h.atr, h.highest, h.lowest]
theorem cmo : ChandeMomentumOscillator.next c = ChandeMomentumOscillator.next c' := by
  funext s v; unfold ChandeMomentumOscillator.next; simp only [h.sum]
theorem chop : ChoppinessIndex.next c = ChoppinessIndex.next c' := by
  funext s; unfold ChoppinessIndex.next; simp only [h.barHigh, h.barLow, h.atr, h.highest, h.lowest, h.sum]
theorem cci : CommodityChannelIndex.next c = CommodityChannelIndex.next c' := by
  funext s v; unfold CommodityChannelIndex.next; simp only [h.sma, h.dev]
theorem crsi : ConnorsRsi.next c = ConnorsRsi.next c' := by
  funext s v; unfold ConnorsRsi.next; simp only [h.rsi, h.prank]
theorem coppock : CoppockCurve.next c = CoppockCurve.next c' := by
  funext s v; unfold CoppockCurve.next; simp only [h.wma]
theorem dmi : Dmi.next c = Dmi.next c' := by
  funext s; unfold Dmi.next; simp only [h.barHigh, h.barLow, h.high, h.low, h.tr, h.rma]
theorem donchian : DonchianChannels.next c = DonchianChannels.next c' := by
  funext s; unfold DonchianChannels.next; simp only [h.barHigh, h.barLow, h.highest, h.lowest]
theorem macd : Macd.next c = Macd.next c' := by funext s v; unfold Macd.next MacdOf.next; simp only [h.ma]
theorem priceOsc : PriceOscillator.next c = PriceOscillator.next c' := by
  funext s v; unfold PriceOscillator.next PriceOscillator.nextOf; simp only [h.ma]
theorem rsiContent : RelativeStrengthIndex.next c = RelativeStrengthIndex.next c' := by
  funext s v; unfold RelativeStrengthIndex.next; simp only [h.rsi]
theorem rvgi : RelativeVigorIndex.next c = RelativeVigorIndex.next c' := by
  funext s; unfold RelativeVigorIndex.next; simp only [h.barClose, h.barOpen, h.barHigh, h.barLow, h.sum, h.swma]
theorem rvi : RelativeVolatilityIndex.next c = RelativeVolatilityIndex.next c' := by
  funext s v; unfold RelativeVolatilityIndex.next; simp only [h.stdev, h.ema]
theorem stochRsi : StochRsi.next c = StochRsi.next c' := by
  funext s v; unfold StochRsi.next; simp only [h.rsi, h.stoch, h.sma]
theorem ultimate : UltimateOscillator.next c = UltimateOscillator.next c' := by
  funext s; unfold UltimateOscillator.next; simp only [h.barHigh, h.barLow, h.barClose, h.close, h.index, h.sum]
theorem volumeOsc : VolumeOscillator.next c = VolumeOscillator.next c' := by
  funext s; unfold VolumeOscillator.next VolumeOscillator.nextOf; simp only [h.barVolume, h.ma]
theorem vortex : Vortex.next c = Vortex.next c' := by
  funext s; unfold Vortex.next; simp only [h.barHigh, h.barLow, h.high, h.low, h.sum, h.atr]
theorem williams : WilliamsPercentRank.next c = WilliamsPercentRank.next c' := by
  funext s v; unfold WilliamsPercentRank.next; simp only [h.barHigh, h.barLow, h.highest, h.lowest]
theorem strategy : Strategy.next c = Strategy.next c' := by
  funext s v; unfold Strategy.next; simp only [h.index, h.barOpen, h.barClose]
theorem equityMetrics : EquityMetrics.next c = EquityMetrics.next c' := by
  funext s v; unfold EquityMetrics.next; simp only [h.barLow, h.barHigh]
theorem tv : TvMetrics.next c = TvMetrics.next c' := by
  funext s v; unfold TvMetrics.next; simp only [h.equityMetrics]
theorem cobra : CobraMetrics.next c = CobraMetrics.next c' := by
  funext y s v; unfold CobraMetrics.next; simp only [h.equityMetrics]

end SameView
end Pace
