import Verif.Lemmas.UnitsNew
import Verif.Props.Units
import Verif.Props.Program
import Verif.Float.Wide

/-!
# Independence of units: indicators, signals and whole programs (C71)
-/

set_option linter.unusedSectionVars false

namespace Pace
open Spec

section
variable {α : Type} [F64 α]

theorem Spec.Commutes.of {S I O : Type} {p v : α → α} {i : I → I} {o : O → O} {next : Ctx α → S → I → Res (O × S)} {new : Res S} (r : S → S)
    (h0 : Fixed r new) (h : ∀ c s x, next (c.rescale p v) (r s) (i x) = (next c s x).map fun q => (o q.1, r q.2)) :
    Commutes p v i o next new := fun d x N => by
  have := outputs_convert (step := fun t => next ⟨d, t⟩) (step' := fun t => next ⟨d.rescale p v, t⟩) r i o (fun _ => True)
    (fun _ _ _ _ _ _ _ => trivial) (fun t s x _ => h ⟨d, t⟩ s x) x N new (fun _ _ => trivial)
  rwa [show new.map r = new from h0] at this

theorem Spec.BarsCommute.of {S O : Type} {p v : α → α} {o : O → O} {next : Ctx α → S → Res (O × S)} {new : Res S} (r : S → S)
    (h0 : Fixed r new) (h : ∀ c s, next (c.rescale p v) (r s) = (next c s).map fun q => (o q.1, r q.2)) :
    BarsCommute p v o next new := fun d N => by
  have := outputs_convert (step := noInput fun t => next ⟨d, t⟩) (step' := noInput fun t => next ⟨d.rescale p v, t⟩) r id o (fun _ => True)
    (fun _ _ _ _ _ _ _ => trivial) (fun t s x _ => h ⟨d, t⟩ s) unit N new (fun _ _ => trivial)
  rwa [show new.map r = new from h0] at this

theorem withSrc_rescale {S O : Type} (D : Dilation α) {v : α → α} {o : O → O} {next : Ctx α → S → Option α → Res (O × S)} {r : S → S}
    (h : ∀ c s x, next (c.rescale D.f v) (r s) (x.map D.f) = (next c s x).map fun q => (o q.1, r q.2)) {k : SrcKind} (hk : k ≠ .volume)
    (c : Ctx α) (s : S) : withSrc k next (c.rescale D.f v) (r s) = (withSrc k next c s).map fun q => (o q.1, r q.2) := by
  unfold withSrc
  simp only [D.src _ _ k hk, Res.map_bind, Res.bind_map, h]

theorem withSrc2_rescale {S O : Type} (D : Dilation α) {v : α → α} {o : O → O} {next : Ctx α → S → Option α × Option α → Res (O × S)} {r : S → S}
    (h : ∀ c s x, next (c.rescale D.f v) (r s) (x.1.map D.f, x.2.map D.f) = (next c s x).map fun q => (o q.1, r q.2))
    {k k' : SrcKind} (hk : k ≠ .volume) (hk' : k' ≠ .volume)
    (c : Ctx α) (s : S) : withSrc2 k k' next (c.rescale D.f v) (r s) = (withSrc2 k k' next c s).map fun q => (o q.1, r q.2) := by
  unfold withSrc2
  simp only [D.src _ _ k hk, D.src _ _ k' hk', Res.map_bind, Res.bind_map]
  exact Res.bind_congr fun a => Res.bind_congr fun b => h c s (a, b)

variable (D : Dilation α)

/-- **C71.** Averages, sums, mean absolute deviation, differences and extremes are measured in the unit of their input: convert the inputs
and every output is converted.  (The bars are ignored, so they may be in any units.) -/
theorem C71_averages (p v : α → α) (n : Nat) (a : α) (k : MaKind) :
    let c := Option.map D.f
    Commutes p v c c Sma.next (Sma.new n) ∧ Commutes p v c c Sum.next (Sum.new n) ∧ Commutes p v c c Ema.next (Ema.new n) ∧
    Commutes p v c c Ema.next (Ema.withAlpha n a) ∧ Commutes p v c c Rma.next (Rma.new n) ∧ Commutes p v c c Wma.next (Wma.new n) ∧
    Commutes p v c c Swma.next Swma.new ∧ Commutes p v c c Ma.next (Ma.new k n) ∧ Commutes p v c c Dev.next (Dev.new n) ∧
    Commutes p v c c (fun _ => Change.next) (Change.new n) ∧ Commutes p v c c Highest.next (Highest.new n) ∧
    Commutes p v c c Lowest.next (Lowest.new n) :=
  ⟨.of _ (D.new_sma n) fun c s x => D.sma c p v s x, .of _ (D.new_sum n) fun c s x => D.sum c p v s x,
    .of _ (D.new_ema n) fun c s x => D.ema c p v s x, .of _ (D.new_emaAlpha n a) fun c s x => D.ema c p v s x,
    .of _ (D.new_rma n) fun c s x => D.rma c p v s x, .of _ (D.new_wma n) fun c s x => D.wma c p v s x,
    .of _ D.new_swma fun c s x => D.swma c p v s x, .of _ (D.new_ma k n) fun c s x => D.ma c p v s x,
    .of _ (D.new_dev n) fun c s x => D.dev c p v s x, .of _ (D.new_change n) fun c s x => D.change s x,
    .of _ (D.new_highest n) fun c s x => D.highest c p v s x, .of _ (D.new_lowest n) fun c s x => D.lowest c p v s x⟩

/-- **C71.** Rates of change, percent ranks, stochastics, RSI and crossings are pure numbers: convert the inputs and nothing changes. -/
theorem C71_ratios (p v : α → α) (n : Nat) :
    let c := Option.map D.f
    Commutes p v c id (fun _ => Roc.next) (Roc.new n) ∧ Commutes p v c id Prank.next (Prank.new n) ∧
    Commutes p v (fun x => (c x.1, c x.2.1, c x.2.2)) id Stoch.next (Stoch.new n) ∧ Commutes p v c id Rsi.next (Rsi.new n) ∧
    Commutes p v (fun x => (c x.1, c x.2)) id (fun c => total Cross.next c.index) (.ok .new) ∧
    Commutes p v (fun x => (c x.1, c x.2)) id (fun c => total CrossOver.next c.index) (.ok .new) ∧
    Commutes p v (fun x => (c x.1, c x.2)) id (fun c => total CrossUnder.next c.index) (.ok .new) :=
  ⟨.of _ (D.new_roc n) fun c s x => D.roc s x, .of _ (D.new_prank n) fun c s x => D.prank c p v s x,
    .of _ (D.new_stoch n) fun c s x => D.stoch c p v s x, .of _ (D.new_rsi n) fun c s x => D.rsi c p v s x,
    .of (CrossState.rescale D.f) rfl fun c s x => congrArg Except.ok (D.cross s x),
    .of (CrossState.rescale D.f) rfl fun c s x => congrArg Except.ok (D.crossOver s x),
    .of (CrossState.rescale D.f) rfl fun c s x => congrArg Except.ok (D.crossUnder s x)⟩

/-- **C71.** A threshold is a price: convert it with the inputs and the crossings do not change. -/
theorem C71_thresholds (th : α) (x : Nat → Option α) (N : Nat) :
    outputs (total CrossThreshold.next) (fun t => (x t).map D.f) N (.ok (.new (D.f th))) =
      outputs (total CrossThreshold.next) x N (.ok (.new th)) ∧
    outputs (total CrossOverThreshold.next) (fun t => (x t).map D.f) N (.ok (.new (D.f th))) =
      outputs (total CrossOverThreshold.next) x N (.ok (.new th)) ∧
    outputs (total CrossUnderThreshold.next) (fun t => (x t).map D.f) N (.ok (.new (D.f th))) =
      outputs (total CrossUnderThreshold.next) x N (.ok (.new th)) := by
  have key {next : CrossThresholdState α → Option α → Bool × CrossThresholdState α}
      (h : ∀ s x, next (s.rescale D.f) (x.map D.f) = ((next s x).1, (next s x).2.rescale D.f)) :
      outputs (total next) (fun t => (x t).map D.f) N (.ok (.new (D.f th))) = outputs (total next) x N (.ok (.new th)) := by
    have := outputs_convert (step := total next) (step' := total next) (CrossThresholdState.rescale D.f) (Option.map D.f) id (fun _ => True)
      (fun _ _ _ _ _ _ _ => trivial) (fun t s x _ => congrArg Except.ok (h s x)) x N (.ok (.new th)) (fun _ _ => trivial)
    rw [List.map_id_fun] at this
    exact this.trans (by cases outputs (total next) x N (.ok (.new th)) <;> rfl)
  refine ⟨?_, key D.crossOverThreshold, key D.crossUnderThreshold⟩
  have := outputs_convert (step := total CrossThreshold.next) (step' := total CrossThreshold.next) (CrossThresholdState.rescale D.f) (Option.map D.f)
    id (fun _ => True) (fun _ _ _ _ _ _ _ => trivial) (fun t s x _ => congrArg Except.ok (D.crossThreshold s x)) x N (.ok (.new th))
    (fun _ _ => trivial)
  rw [List.map_id_fun] at this
  exact this.trans (by cases outputs (total CrossThreshold.next) x N (.ok (.new th)) <;> rfl)

/-- **C71.** Indicators measured in prices: on the bars in another unit of price (and any unit of volume) every output is converted. -/
theorem C71_price_indicators (v : α → α) (n m l : Nat) (x : α) (na : Bool) (k₁ k₂ k₃ : MaKind) (s₁ s₂ : SrcKind)
    (h₁ : s₁ ≠ .volume) (h₂ : s₂ ≠ .volume) :
    let c := Option.map D.f
    BarsCommute D.f v c (fun c (s : Unit) => do return (← Tr.next c na, s)) (.ok ()) ∧
    BarsCommute D.f v c Atr.next (Atr.new n) ∧
    BarsCommute D.f v (fun y => ⟨c y.upper, c y.basis, c y.lower⟩) DonchianChannels.next (DonchianChannels.new n) ∧
    BarsCommute D.f v (fun y => ⟨c y.firstHighStop, c y.firstLowStop, c y.stopLong, c y.stopShort⟩) ChandeKrollStop.next (ChandeKrollStop.new n m x) ∧
    BarsCommute D.f v c (withSrc2 s₁ s₂ AwesomeOscillator.next) (do
      let long ← Ma.new k₂ m
      let short ← Ma.new k₁ n
      return .new short long) ∧
    BarsCommute D.f v (fun y => (c y.1, c y.2)) (withSrc2 s₁ s₂ Macd.next) (do
      let short ← Ma.new k₁ n
      let long ← Ma.new k₂ m
      let signal ← Ma.new k₃ l
      return ⟨short, long, signal⟩) :=
  ⟨.of id rfl fun c s => by
      simp only [D.tr, Res.map_bind, Res.bind_map]
      rfl,
    .of _ (D.new_atr n) fun c s => D.atr c v s, .of _ (D.new_donchian n) fun c s => D.donchian c v s,
    .of _ (D.new_chandeKroll n m x) fun c s => D.chandeKroll c v s,
    .of _ (D.new_awesome k₁ k₂ n m) (withSrc2_rescale D (fun c s x => D.awesome c D.f v s x) h₁ h₂),
    .of _ (D.new_macd k₁ k₂ k₃ n m l) (withSrc2_rescale D (o := fun y : Option α × Option α => (y.1.map D.f, y.2.map D.f)) (fun c s x => D.macd c D.f v s x) h₁ h₂)⟩

/-- **C71.** Every other indicator except the three built on the standard deviation is a pure number: on the bars in another unit of price
and another unit of volume its outputs do not change at all. -/
theorem C71_pure_indicators (V : Dilation α) (n m l j : Nat) (k₁ k₂ : MaKind) (src : SrcKind) (hs : src ≠ .volume) :
    BarsCommute D.f V.f id Aroon.next (Aroon.new n) ∧
    BarsCommute D.f V.f id (fun c (s : Unit) => do return (← BalanceOfPower.next c, s)) (.ok ()) ∧
    BarsCommute D.f V.f id ChaikinMoneyFlow.next (ChaikinMoneyFlow.new n) ∧
    BarsCommute D.f V.f id (withSrc src ChandeMomentumOscillator.next) (ChandeMomentumOscillator.new n) ∧
    BarsCommute D.f V.f id ChoppinessIndex.next (ChoppinessIndex.new n) ∧
    BarsCommute D.f V.f id (withSrc src CommodityChannelIndex.next) (CommodityChannelIndex.new n) ∧
    BarsCommute D.f V.f id (withSrc src ConnorsRsi.next) (ConnorsRsi.new n m l) ∧
    BarsCommute D.f V.f id (withSrc src CoppockCurve.next) (CoppockCurve.new n m l) ∧
    BarsCommute D.f V.f id Dmi.next (Dmi.new n m) ∧
    BarsCommute D.f V.f id (withSrc src PriceOscillator.next) (do
      let long ← Ma.new k₂ m
      let short ← Ma.new k₁ n
      return ⟨short, long⟩) ∧
    BarsCommute D.f V.f id (withSrc src RelativeStrengthIndex.next) (Rsi.new n) ∧
    BarsCommute D.f V.f id RelativeVigorIndex.next (RelativeVigorIndex.new n) ∧
    BarsCommute D.f V.f id (withSrc src StochRsi.next) (StochRsi.new n m l j) ∧
    BarsCommute D.f V.f id UltimateOscillator.next (UltimateOscillator.new n m l) ∧
    BarsCommute D.f V.f id VolumeOscillator.next (do
      let short ← Ma.new k₁ n
      let long ← Ma.new k₂ m
      return ⟨short, long⟩) ∧
    BarsCommute D.f V.f id Vortex.next (Vortex.new n) ∧
    BarsCommute D.f V.f id (withSrc src WilliamsPercentRank.next) (WilliamsPercentRank.new n) := by
  have same {S O : Type} {x : Res (O × S)} : x = x.map fun q => (id q.1, id q.2) := by cases x <;> rfl
  refine ⟨.of id (by cases Aroon.new n <;> rfl) fun c s => (D.aroon c V.f s).trans same, .of id rfl fun c s => ?_, .of _ (V.new_cmf n) fun c s => D.cmf c V s,
    .of _ (D.new_cmo n) (withSrc_rescale D (fun c s x => D.cmo c D.f V.f s x) hs), .of _ (D.new_chop n) fun c s => D.chop c V.f s,
    .of _ (D.new_cci n) (withSrc_rescale D (fun c s x => D.cci c D.f V.f s x) hs),
    .of _ (D.new_connors n m l) (withSrc_rescale D (fun c s x => D.connors c D.f V.f s x) hs),
    .of _ (D.new_coppock n m l) (withSrc_rescale D (fun c s x => D.coppock c D.f V.f s x) hs),
    .of _ (D.new_dmi n m) fun c s => D.dmi c V.f s,
    .of _ (D.new_maPair' k₁ k₂ n m) (withSrc_rescale D (fun c s x => D.priceOsc c D.f V.f s x) hs),
    .of _ (D.new_rsi n) (withSrc_rescale D (fun c s x => D.rsi c D.f V.f s x) hs),
    .of _ (D.new_vigor n) fun c s => D.vigor c V.f s,
    .of _ (D.new_stochRsi n m l j) (withSrc_rescale D (fun c s x => D.stochRsi c D.f V.f s x) hs),
    .of _ (D.new_ultimate n m l) fun c s => D.ultimate c V.f s,
    .of _ (V.new_maPair k₁ k₂ n m) fun c s => Dilation.volumeOsc c D.f V s,
    .of _ (D.new_vortex n) fun c s => D.vortex c V.f s,
    .of _ (D.new_williams n) (withSrc_rescale D (fun c s x => D.williams c V.f s x) hs)⟩
  simp only [D.balance]
  exact same

/-- **C71.** A signal of crossing zero does not depend on the unit of what crosses (default MACD and awesome oscillator strategies). -/
theorem C71_zero_crossing {y : Nat → Option α} {N : Nat} {sig : Nat → Option TradeDirection}
    (h : Runs (total ThresholdStrategy.next) (.ok (ThresholdStrategy.mk' (lit 0) (lit 0))) y N sig) :
    Runs (total ThresholdStrategy.next) (.ok (ThresholdStrategy.mk' (lit 0) (lit 0))) (fun t => (y t).map D.f) N sig := by
  have e : (Except.ok (ThresholdStrategy.mk' (lit 0) (lit 0)) : Res (ThresholdStrategy α)) =
      Except.map (fun s : ThresholdStrategy α => ⟨s.crossOver.rescale D.f, s.crossUnder.rescale D.f⟩) (.ok (ThresholdStrategy.mk' (lit 0) (lit 0))) := by
    simp [ThresholdStrategy.mk', CrossThresholdState.rescale, CrossThresholdState.new, D.zero]
  refine Runs.map (fun s : ThresholdStrategy α => ⟨s.crossOver.rescale D.f, s.crossUnder.rescale D.f⟩) (Option.map D.f) id e (fun t s x => ?_) h
  simp only [total, ThresholdStrategy.next, D.crossOverThreshold, D.crossUnderThreshold]
  rfl

/-- **C71, whole backtest programs.** An indicator, its strategy, the runner and the TradingView metrics together: if the indicator only
converts its outputs by `o`, and the converted outputs give the same signals (trivially so when `o` is the identity, and by
`C71_zero_crossing` for MACD and the awesome oscillator), then the program run on the converted bars, with converted capital and risk-free
return, gives the same signals and the converted trades and metrics. -/
theorem C71_program {S Q O : Type} (U : Units α) {vol : α → α} {ind : Ctx α → S → Res (O × S)} {ind0 : Res S} {conv : O → O}
    (hi : BarsCommute U.price.f vol conv ind ind0) {sgn : Q → O → Option TradeDirection × Q} {q0 : Q}
    {d : DataProvider α} {N : Nat} {o h l c v : Nat → α} (hb : Bars d N o h l c v) {y : Nat → O} {sig : Nat → Option TradeDirection}
    (hy : Runs (noInput fun t => ind ⟨d, t⟩) ind0 unit N y) (hs : Runs (total sgn) (.ok q0) y N sig)
    (hs' : Runs (total sgn) (.ok q0) (fun t => conv (y t)) N sig)
    (cfg : StrategyConfig α) (hq : cfg.buyWithEquity = true ∨ U.size.f (lit 1) = lit 1) (rfr : α) :
    ∃ (st : Nat → Strategy α) (tv tv' : Nat → TvMetrics α), Runs (noInput fun t => Program.next ind sgn ⟨d, t⟩) (Program.new ind0 q0 cfg rfr) unit N
        (fun t => (y t, sig t, st t, tv t)) ∧
      Runs (noInput fun t => Program.next ind sgn ⟨d.rescale U.price.f vol, t⟩) (Program.new ind0 q0 (cfg.rescale U) (U.money.f rfr)) unit N
        (fun t => (conv (y t), sig t, (st t).rescale U, tv' t)) ∧
      ∀ t, (tv' t).data = (tv t).data.rescale U := by
  obtain ⟨st, tv, h1, h2, h3⟩ := C65_program hb hy hs cfg rfr
  obtain ⟨tv', h4, h5⟩ := C71_tradingview U vol h2
  refine ⟨st, tv, tv', h3, program_runs ?_ hs' (cfg.rescale U) (U.money.f rfr) (C71_backtest U hq vol h1) h4, fun t => (h5 t).1⟩
  have e := hi d N
  unfold Runs at hy ⊢
  rw [hy] at e
  rw [e]
  simp [Except.map, Function.comp_def]

end

/-! ## The standard deviation has a unit of its own -/

section
variable {K : Type} [Field K] [LinearOrder K] [IsStrictOrderedRing K] [LawfulRoots K]

theorem stdev_pair (d : DataProvider (Ex K)) (a : K) : ∃ y, Runs (fun t => Stdev.next ⟨d, t⟩) (Stdev.new 2 true)
    (fun t => some (fin (if t = 0 then 0 else a))) 2 y ∧
    y 1 = some (fin (RootOps.sqrt ((cutDev (-(a / 2)) ^ 2 + cutDev (a / 2) ^ 2) / 2))) := by
  refine ⟨_, C26_stdev d (len := 2) (by omega) true (fun t => some (if t = 0 then (0 : K) else a)) 2, ?_⟩
  have e : fullWindow (fun t => some (if t = 0 then (0 : K) else a)) 2 1 = some [0, a] := by
    simp [fullWindow, win, allSome, List.range_succ]
  rw [e]
  have hm : mean [0, a] = a / 2 := by simp [mean]
  simp only [Option.map_some, cutSqDev, hm, List.map_cons, List.map_nil, List.sum_cons, List.sum_nil, add_zero]
  rw [show (0 : K) - a / 2 = -(a / 2) by ring, show a - a / 2 = a / 2 by ring]
  simp

/-- **C71.** `Stdev` treats deviations below `1e-10` as zero, so it is *not* independent of units: if the unit is so large that the
difference of two prices becomes less than `1e-10` of it, their standard deviation becomes 0.  (So do the Bollinger bands and the relative
volatility index.) -/
theorem C71_stdev_depends_on_units {k : K} (hk : 0 < k) (hs : k < 1 / 10000000000) (p v : Ex K → Ex K) :
    ¬ Commutes p v (Option.map (times k)) (Option.map (times k)) Stdev.next (Stdev.new 2 true) := by
  intro hc
  have d : DataProvider (Ex K) := ⟨[], [], [], [], [], [], 0, 0⟩
  obtain ⟨y, h1, e1⟩ := stdev_pair d 1
  obtain ⟨z, h2, e2⟩ := stdev_pair (d.rescale p v) k
  have h := hc d (fun t => some (fin (if t = 0 then 0 else 1))) 2
  have hx : (fun t : Nat => Option.map (times k) (some (fin (if t = 0 then (0 : K) else 1)))) = fun t => some (fin (if t = 0 then (0 : K) else k)) := by
    funext t
    rw [Option.map_some]
    refine congrArg some ?_
    show Ext.fin (k * _) = Ext.fin _
    split <;> simp
  unfold Runs at h1 h2
  rw [hx, h1, h2] at h
  simp only [Res.map_ok', Except.ok.injEq, List.map_map] at h
  have h3 : z 1 = (y 1).map (times k) := by
    have := congrArg (fun l => l[1]?) h
    simpa [List.range_succ] using this
  rw [e1, e2] at h3
  have hkk : |k / 2| < 1 / 10000000000 := by rw [abs_of_pos (by linarith)]; linarith
  have h1' : ¬ |(1 : K) / 2| < 1 / 10000000000 := by rw [abs_of_pos (by norm_num)]; norm_num
  simp only [cutDev, abs_neg, if_pos hkk, if_neg h1'] at h3
  have h4 : RootOps.sqrt ((0 ^ 2 + 0 ^ 2 : K) / 2) = k * RootOps.sqrt (((-(1 / 2)) ^ 2 + (1 / 2) ^ 2 : K) / 2) :=
    Ext.fin.inj (Option.some.inj h3)
  have h5 := LawfulRoots.sqrt_mul_self ((0 ^ 2 + 0 ^ 2 : K) / 2) (by norm_num)
  have h6 := LawfulRoots.sqrt_mul_self (((-(1 / 2)) ^ 2 + (1 / 2) ^ 2 : K) / 2) (by norm_num)
  rw [h4, mul_mul_mul_comm, h6] at h5
  have := mul_pos hk hk
  norm_num at h5
  linarith

/-- The unit of prices really can be that large. -/
example : ¬ Commutes id id (Option.map (times (1 / 100000000000 : ℝ))) (Option.map (times (1 / 100000000000 : ℝ)))
    (Stdev.next (α := Ex ℝ)) (Stdev.new 2 true) :=
  C71_stdev_depends_on_units (by norm_num) (by norm_num) id id

/-- **C71.** Without such small deviations, before and after the change of units, the standard deviation is converted like any other
amount. -/
theorem C71_stdev {k : K} (hk : 0 < k) (d d' : DataProvider (Ex K)) {n : Nat} (hn : 2 ≤ n) (biased : Bool) (x : Nat → Option K) (N : Nat)
    (hx : ∀ t v, fullWindow x n t = some v → ∀ w ∈ v, w = mean v ∨ (1 / 10000000000 ≤ |w - mean v| ∧ 1 / 10000000000 ≤ k * |w - mean v|)) :
    ∃ y, Runs (fun t => Stdev.next ⟨d, t⟩) (Stdev.new n biased) (flo x) N y ∧
      Runs (fun t => Stdev.next ⟨d', t⟩) (Stdev.new n biased) (flo fun t => (x t).map (k * ·)) N (fun t => (y t).map (times k)) := by
  refine ⟨_, C26_stdev d hn biased x N, (C26_stdev d' hn biased _ N).congr fun t _ => ?_⟩
  have e : fullWindow (fun t => (x t).map (k * ·)) n t = (fullWindow x n t).map (List.map (k * ·)) := fullWindow_map ..
  rw [e]
  cases hv : fullWindow x n t with
  | none => rfl
  | some v =>
    have hm : mean (v.map (k * ·)) = k * mean v := by
      have hs : (v.map (k * ·)).sum = k * v.sum := by
        have := List.sum_map_mul_left (l := v) (f := fun x => x) (r := k)
        rwa [List.map_id'] at this
      simp only [mean, List.length_map, hs, mul_div_assoc]
    have hc : cutSqDev (v.map (k * ·)) = k * k * cutSqDev v := by
      simp only [cutSqDev, hm, List.map_map, ← List.sum_map_mul_left]
      congr 1
      apply List.map_congr_left
      intro w hw
      simp only [Function.comp, cutDev, ← mul_sub, abs_mul, abs_of_pos hk]
      rcases hx t v hv w hw with rfl | ⟨h1, h2⟩
      · simp
      · rw [if_neg (not_lt.mpr h1), if_neg (not_lt.mpr h2)]; ring
    have hp : 0 ≤ cutSqDev v / (if biased then (n : K) else (n : K) - 1) := by
      apply div_nonneg (C26_cut v).1.1
      have : (2 : K) ≤ n := by exact_mod_cast hn
      split <;> linarith
    simp only [Option.map_some, Option.some.injEq]
    rw [hc, mul_div_assoc, sqrt_scale hk hp]
    rfl

end

/-! ## Which factors, and the project's example -/

section
variable {K : Type} [Field K] [LinearOrder K] [IsStrictOrderedRing K] [FloorRing K] [LawfulRoots K]

/-- **C71.** With 53 significant bits and an unlimited exponent every power of two is a change of units: prices, quantities and capital can
be multiplied by powers of two and nothing but the exponents changes, bit for bit. -/
theorem C71_binary (j : ℤ) : (Rounding.wide K).Homogeneous ((2 : K) ^ j) := wide_homogeneous j

/-- **C71.** That is the arithmetic of the hardware as long as results are zero or of normal size. -/
theorem C71_hardware (a : K) (h : a = 0 ∨ ((2 : K) ^ (-1022 : ℤ) ≤ |a| ∧ |a| < (2 : K) ^ (1023 : ℤ))) :
    (Rounding.binary64 K).rnd a = (Rounding.wide K).rnd a := binary64_eq_wide a h
end

theorem total_runs {S I O : Type} (f : S → I → O × S) (s0 : S) (x : Nat → I) (N : Nat) : ∃ y, Runs (total f) (.ok s0) x N y := by
  let s : Nat → S := fun t => Nat.rec s0 (fun t s => (f s (x t)).2) t
  exact ⟨fun t => (f (s t) (x t)).1, Runs.of_trace s rfl fun t _ => rfl⟩

section
variable {K : Type} [Field K] [LinearOrder K] [IsStrictOrderedRing K] {R : Rounding K}

/-- **C71, the project's example program** on any complete bars, and on the same bars quoted in another currency: the same RSI, the same
signals, the same quantities, and `k` times the equity, if the initial capital is converted. -/
theorem C71_example {k : K} (hk : R.Homogeneous k) {d : DataProvider (Fl R)} {N : Nat} {o h l c v : Nat → Fl R} (hb : Bars d N o h l c v) :
    let run (d : DataProvider (Fl R)) (cfg : StrategyConfig (Fl R)) :=
      Runs (noInput fun t => Program.next RelativeStrengthIndex.defaultNext ThresholdStrategy.next ⟨d, t⟩)
        (Program.new RelativeStrengthIndex.default (RelativeStrengthIndexStrategy.new exampleThresholds) cfg (lit 0)) unit N
    ∃ (rsi : Nat → Option (Fl R)) (sig : Nat → Option TradeDirection) (st st' : Nat → Strategy (Fl R)) (tv tv' : Nat → TvMetrics (Fl R)),
      run d exampleConfig (fun t => (rsi t, sig t, st t, tv t)) ∧
      run (d.rescale (times k) id) { (exampleConfig : StrategyConfig (Fl R)) with initialCapital := times k (lit 1000) } (fun t => (rsi t, sig t, st' t, tv' t)) ∧
      ∀ t, (st' t).metrics.equity = times k (st t).metrics.equity ∧ (st' t).metrics.closedTrades = (st t).metrics.closedTrades ∧
        (tv' t).data.profitFactor = (tv t).data.profitFactor ∧ (tv' t).data.sharpeRatio = (tv t).data.sharpeRatio ∧
        (tv' t).data.netProfit = times k (tv t).data.netProfit := by
  obtain ⟨y, hy, _⟩ := C63_rsi hb .close (len := 14) (by omega)
  obtain ⟨sig, hs⟩ := total_runs ThresholdStrategy.next (RelativeStrengthIndexStrategy.new exampleThresholds) y N
  have hm : ∀ a : Fl R, (Units.of hk (homogeneous_one R)).money.f a = times k a := fun a => by
    show Ext.scale (k * 1) a = Ext.scale k a
    rw [mul_one]
  obtain ⟨st, tv, tv', h1, h2, h3⟩ := C71_program (Units.of hk (homogeneous_one R)) (vol := id) (conv := id)
    (C71_pure_indicators (Units.of hk (homogeneous_one R)).price Dilation.id 14 0 0 0 .sma .sma .close (by decide)).2.2.2.2.2.2.2.2.2.2.1
    hb hy hs hs exampleConfig (Or.inr (scale_one _)) (lit 0)
  refine ⟨y, sig, st, fun t => (st t).rescale (Units.of hk (homogeneous_one R)), tv, tv', h1, ?_, fun t => ⟨hm _, rfl, ?_, ?_, ?_⟩⟩
  · rw [(Units.of hk (homogeneous_one R)).money.zero] at h2
    have e : (exampleConfig : StrategyConfig (Fl R)).rescale (Units.of hk (homogeneous_one R)) =
        { (exampleConfig : StrategyConfig (Fl R)) with initialCapital := times k (lit 1000) } := by
      unfold StrategyConfig.rescale; rw [hm]; rfl
    rw [e] at h2
    exact h2
  · rw [h3]; rfl
  · rw [h3]; rfl
  · rw [h3]; exact hm _
end

/-- Some bars that meet the hypotheses: a hundred of them, of real numbers, converted at 3.7 for one. -/
noncomputable example := C71_example (K := ℝ) (exact_homogeneous (k := 37 / 10) (by norm_num))
  (bars_ofSeries 100 (fun t => fin (t : ℝ)) (fun t => fin (t + 2 : ℝ)) (fun t => fin (t - 1 : ℝ)) (fun t => fin (t + (if t % 5 = 0 then -1 else 1) : ℝ))
    (fun _ => fin 1))
/-- The same with 53-bit rounding, converted at 1024 for one. -/
noncomputable example := C71_example (K := ℝ) (C71_binary 10)
  (bars_ofSeries 100 (fun t => (Ext.fin (t : ℝ) : Ext ℝ)) (fun t => Ext.fin (t + 2 : ℝ)) (fun t => Ext.fin (t - 1 : ℝ)) (fun t => Ext.fin (t + (1 / 10) : ℝ))
    (fun _ => Ext.fin 1))

/-- An investing strategy on some bars, and the same with thrice the capital. -/
noncomputable example (sig : Nat → Option TradeDirection) :
    ∃ cfg : StrategyConfig (Ex ℝ), ∃ d : DataProvider (Ex ℝ), ∃ st st', Backtest cfg d sig 50 st ∧
      Backtest { cfg with initialCapital := times 3 cfg.initialCapital } d sig 50 st' ∧
      ∀ t, (st' t).metrics.netProfit = times 3 (st t).metrics.netProfit := by
  obtain ⟨st, hr⟩ := C57_strategy_complete (⟨true, true, fin (100 : ℝ), true⟩ : StrategyConfig (Ex ℝ)) sig
    (bars_ofSeries 50 (fun t => fin (t + 1 : ℝ)) (fun t => fin (t + 3 : ℝ)) (fun t => fin (t : ℝ)) (fun t => fin (t + 2 : ℝ)) (fun _ => fin (1 : ℝ)))
  obtain ⟨st', h1, h2⟩ := C71_capital (C71_exact (k := (3 : ℝ)) (by norm_num)) rfl hr
  exact ⟨_, _, st, st', hr, h1, fun t => (h2 t).2.1⟩

end Pace
