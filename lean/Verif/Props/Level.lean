import Verif.Lemmas.LevelContent
import Verif.Props.UnitsTa
import Verif.Props.Mirror2

/-!
# C80: the level of prices
-/

set_option linter.unusedSectionVars false
set_option linter.unusedSimpArgs false

namespace Pace
open Spec

theorem Bars.rescale {α : Type} {d : DataProvider α} {N : Nat} {o h l c v : Nat → α} (hb : Bars d N o h l c v) (p w : α → α) :
    Bars (d.rescale p w) N (fun t => p (o t)) (fun t => p (h t)) (fun t => p (l t)) (fun t => p (c t)) (fun t => w (v t)) := by
  have key {l : List (Option α)} {x : Nat → α} (h : HasCol l N fun t => some (x t)) (f : α → α) :
      HasCol (l.map (Option.map f)) N fun t => some (f (x t)) := fun t ht => by rw [List.getElem?_map, h t ht]; rfl
  exact ⟨key hb.open_ _, key hb.high _, key hb.low _, key hb.close _, key hb.volume _⟩

/-! ## Components that only compare -/

section
variable {α : Type} [F64 α] (D : Increasing α)

/-- **C80.** Highest and lowest value, their distance in bars, percent rank, Aroon and crossings only compare prices. So for *any* change
of scale `f` that keeps the order of the numbers, in any arithmetic: the extremes are converted by `f`, and the others do not change. -/
theorem C80_order (p v : α → α) (n : Nat) :
    let c := Option.map D.f
    Commutes p v c c Highest.next (Highest.new n) ∧ Commutes p v c c Lowest.next (Lowest.new n) ∧
    Commutes p v c id Prank.next (Prank.new n) ∧
    BarsCommute D.f v id HighestBars.next (HighestBars.new n) ∧ BarsCommute D.f v id LowestBars.next (LowestBars.new n) ∧
    BarsCommute D.f v id Aroon.next (Aroon.new n) ∧
    Commutes p v (fun x => (c x.1, c x.2)) id (fun c => total Cross.next c.index) (.ok .new) ∧
    Commutes p v (fun x => (c x.1, c x.2)) id (fun c => total CrossOver.next c.index) (.ok .new) ∧
    Commutes p v (fun x => (c x.1, c x.2)) id (fun c => total CrossUnder.next c.index) (.ok .new) := by
  have same {S O : Type} {x : Res (O × S)} : x = x.map fun q => (id q.1, id q.2) := by cases x <;> rfl
  have same' {S : Type} {x : Res S} : x.map id = x := by cases x <;> rfl
  have ha (c : Ctx α) (s : Aroon) : Aroon.next (c.rescale D.f v) s = Aroon.next c s := by
    unfold Aroon.next
    have h1 : ∀ s, HighestBars.next (c.rescale D.f v) s = HighestBars.next c s := D.highestBars c v
    have h2 : ∀ s, LowestBars.next (c.rescale D.f v) s = LowestBars.next c s := D.lowestBars c v
    simp only [Ctx.rescale_atLength, h1, h2]
  refine ⟨.of _ ?_ fun c s x => D.highest c p v s x, .of _ ?_ fun c s x => D.lowest c p v s x, .of _ ?_ fun c s x => D.prank c p v s x,
    .of id same' fun c s => (D.highestBars c v s).trans same, .of id same' fun c s => (D.lowestBars c v s).trans same,
    .of id same' fun c s => (ha c s).trans same,
    .of (CrossState.rescale D.f) rfl fun c s x => congrArg Except.ok (D.cross s x),
    .of (CrossState.rescale D.f) rfl fun c s x => congrArg Except.ok (D.crossOver s x),
    .of (CrossState.rescale D.f) rfl fun c s x => congrArg Except.ok (D.crossUnder s x)⟩
  · unfold Highest.new; by_cases h : 1 ≤ n <;> simp [h, Highest.rescale] <;> rfl
  · unfold Lowest.new; by_cases h : 1 ≤ n <;> simp [h, Lowest.rescale] <;> rfl
  · unfold Prank.new; by_cases h : 1 ≤ n <;> simp [h, Prank.rescale] <;> rfl

/-- **C80.** A threshold converted with the prices: the same crossings. -/
theorem C80_thresholds (th : α) (x : Nat → Option α) (N : Nat) :
    outputs (total CrossThreshold.next) (fun t => (x t).map D.f) N (.ok (.new (D.f th))) =
      outputs (total CrossThreshold.next) x N (.ok (.new th)) ∧
    outputs (total CrossOverThreshold.next) (fun t => (x t).map D.f) N (.ok (.new (D.f th))) =
      outputs (total CrossOverThreshold.next) x N (.ok (.new th)) ∧
    outputs (total CrossUnderThreshold.next) (fun t => (x t).map D.f) N (.ok (.new (D.f th))) =
      outputs (total CrossUnderThreshold.next) x N (.ok (.new th)) := by
  have key {O : Type} {next : CrossThresholdState α → Option α → O × CrossThresholdState α}
      (h : ∀ s x, next (s.rescale D.f) (x.map D.f) = ((next s x).1, (next s x).2.rescale D.f)) :
      outputs (total next) (fun t => (x t).map D.f) N (.ok (.new (D.f th))) = outputs (total next) x N (.ok (.new th)) := by
    have := outputs_convert (step := total next) (step' := total next) (CrossThresholdState.rescale D.f) (Option.map D.f) id (fun _ => True)
      (fun _ _ _ _ _ _ _ => trivial) (fun t s x _ => congrArg Except.ok (h s x)) x N (.ok (.new th)) (fun _ _ => trivial)
    rw [List.map_id_fun] at this
    exact this.trans (by cases outputs (total next) x N (.ok (.new th)) <;> rfl)
  exact ⟨key D.crossThreshold, key D.crossOverThreshold, key D.crossUnderThreshold⟩

end

section
variable {K : Type} [Field K] [LinearOrder K] [IsStrictOrderedRing K] [RootOps K] (k : K)

/-! ## Components that follow the level -/

/-- **C80.** In exact arithmetic, add the same amount `k` to every input: every average and every extreme is `k` higher, on every tick, with
missing values anywhere.  (The exponential average for any finite smoothing factor.) -/
theorem C80_averages (p v : Ex K → Ex K) (n : Nat) (a : K) (kind : MaKind) :
    let c := Option.map (raise k)
    Commutes p v c c Sma.next (Sma.new n) ∧ Commutes p v c c Ema.next (Ema.new n) ∧ Commutes p v c c Ema.next (Ema.withAlpha n (fin a)) ∧
    Commutes p v c c Rma.next (Rma.new n) ∧ Commutes p v c c Wma.next (Wma.new n) ∧ Commutes p v c c Swma.next Swma.new ∧
    Commutes p v c c Ma.next (Ma.new kind n) ∧ Commutes p v c c Highest.next (Highest.new n) ∧ Commutes p v c c Lowest.next (Lowest.new n) :=
  ⟨(smaL k p v n).commutes, (emaL k p v n).commutes, (emaAlphaL k p v n a).commutes, (rmaL k p v n).commutes, (wmaL k p v n).commutes,
    (swmaL k p v).commutes, (maL k p v kind n).commutes, (highestL k p v n).commutes, (lowestL k p v n).commutes⟩

/-- **C80.** On bars `k` higher, the sources (except volume), the Donchian channel and the Chande Kroll stops are `k` higher. -/
theorem C80_price_indicators (v : Ex K → Ex K) (n m : Nat) (x : Ex K) (src : SrcKind) (hs : src ≠ .volume) :
    let c := Option.map (raise k)
    BarsCommute (raise k) v c (fun c (s : Unit) => do return (← Src.next c src, s)) (.ok ()) ∧
    BarsCommute (raise k) v (fun y => ⟨c y.upper, c y.basis, c y.lower⟩) DonchianChannels.next (DonchianChannels.new n) ∧
    BarsCommute (raise k) v (fun y => ⟨c y.firstHighStop, c y.firstLowStop, c y.stopLong, c y.stopShort⟩) ChandeKrollStop.next
      (ChandeKrollStop.new n m x) :=
  ⟨.of id rfl fun c s => by
      simp only [src_raise k c v hs, Res.map_bind, Res.bind_map]
      rfl,
    (donchianL k v n).bars, (chandeKrollL k v n m x).bars⟩

/-! ## Components that ignore the level -/

/-- **C80.** Mean absolute deviation, standard deviation, stochastic, percent rank and RSI do not depend on the level: add `k` to every
input and no output changes. -/
theorem C80_deviations (p v : Ex K → Ex K) (n : Nat) (biased : Bool) :
    let c := Option.map (raise k)
    Commutes p v c id Dev.next (Dev.new n) ∧ Commutes p v c id Stdev.next (Stdev.new n biased) ∧
    Commutes p v (fun x => (c x.1, c x.2.1, c x.2.2)) id Stoch.next (Stoch.new n) ∧
    Commutes p v c id Prank.next (Prank.new n) ∧ Commutes p v c id Rsi.next (Rsi.new n) :=
  ⟨(devL k p v n).commutes, (stdevL k p v n biased).commutes, (stochL k p v n).commutes, (prankL k p v n).commutes, (rsiL k p v n).commutes⟩

/-- **C80.** These indicators do not depend on the level: on bars with all prices `k` higher and the same volume, no output changes. -/
theorem C80_level_free (n m l j : Nat) (mult : Ex K) (na : Bool) (k₁ k₂ k₃ : MaKind) (s₁ s₂ : SrcKind) (h₁ : s₁ ≠ .volume) (h₂ : s₂ ≠ .volume) :
    let Free {S O : Type} (next : Ctx (Ex K) → S → Res (O × S)) (new : Res S) := BarsCommute (raise k) id id next new
    Free (fun c (s : Unit) => do return (← Tr.next c na, s)) (.ok ()) ∧
    Free Atr.next (Atr.new n) ∧
    Free HighestBars.next (HighestBars.new n) ∧ Free LowestBars.next (LowestBars.new n) ∧ Free Aroon.next (Aroon.new n) ∧
    Free (withSrc2 s₁ s₂ AwesomeOscillator.next) (do
      let long ← Ma.new k₂ m
      let short ← Ma.new k₁ n
      return .new short long) ∧
    Free (fun c (s : Unit) => do return (← BalanceOfPower.next c, s)) (.ok ()) ∧
    Free (withSrc s₁ BollingerBandsPercentB.next) (BollingerBands.new n mult) ∧
    Free ChaikinMoneyFlow.next (ChaikinMoneyFlow.new n) ∧
    Free (withSrc s₁ ChandeMomentumOscillator.next) (ChandeMomentumOscillator.new n) ∧
    Free ChoppinessIndex.next (ChoppinessIndex.new n) ∧
    Free (withSrc s₁ CommodityChannelIndex.next) (CommodityChannelIndex.new n) ∧
    Free Dmi.next (Dmi.new n m) ∧
    Free (withSrc2 s₁ s₂ Macd.next) (do
      let short ← Ma.new k₁ n
      let long ← Ma.new k₂ m
      let signal ← Ma.new k₃ l
      return ⟨short, long, signal⟩) ∧
    Free (withSrc s₁ RelativeStrengthIndex.next) (Rsi.new n) ∧
    Free RelativeVigorIndex.next (RelativeVigorIndex.new n) ∧
    Free (withSrc s₁ RelativeVolatilityIndex.next) (RelativeVolatilityIndex.new n m) ∧
    Free (withSrc s₁ StochRsi.next) (StochRsi.new n m l j) ∧
    Free UltimateOscillator.next (UltimateOscillator.new n m l) ∧
    Free VolumeOscillator.next (do
      let short ← Ma.new k₁ n
      let long ← Ma.new k₂ m
      return ⟨short, long⟩) ∧
    Free Vortex.next (Vortex.new n) ∧
    Free (withSrc s₁ WilliamsPercentRank.next) (WilliamsPercentRank.new n) := by
  intro Free
  have fixed {S O : Type} {next : Ctx (Ex K) → S → Res (O × S)} {new : Res S} (h : ∀ c s, next (c.rescale (raise k) id) s = next c s) :
      BarsCommute (raise k) id id next new :=
    .of id (by cases new <;> rfl) fun c s => (h c s).trans (by cases next c s <;> rfl)
  refine ⟨fixed fun c s => ?_, fixed fun c s => atr_raise k id c s, fixed fun c s => (raiseI k).highestBars c id s,
    fixed fun c s => (raiseI k).lowestBars c id s, fixed fun c s => aroon_raise k id c s,
    (src2L k (awesomeL k id (raise k) (maL k (raise k) id k₁ n) (maL k (raise k) id k₂ m)) h₁ h₂).bars,
    fixed fun c s => ?_, (srcL k (percentBL k id (raise k) n mult) h₁).bars, fixed fun c s => cmf_raise k c s,
    (srcL k (cmoL k id (raise k) n) h₁).bars, (chopL k id n).bars, (srcL k (cciL k id (raise k) n) h₁).bars, fixed fun c s => dmi_raise k id c s,
    (src2L k (macdL k id (raise k) (maL k (raise k) id k₁ n) (maL k (raise k) id k₂ m) (newG := Ma.new k₃ l) fun c s x => ma_rescale c _ _ s x) h₁ h₂).bars,
    (srcL k (rsiL k (raise k) id n) h₁).bars, fixed fun c s => vigor_raise k id c s, (srcL k (rviL k id (raise k) n m) h₁).bars,
    (srcL k (stochRsiL k id (raise k) n m l j) h₁).bars, fixed fun c s => ultimate_raise k id c s, fixed fun c s => volumeOsc_raise k c s,
    fixed fun c s => vortex_raise k id c s, (srcL k (williamsL k id n) h₁).bars⟩
  · simp only [tr_raise k id c na]
  · simp only [balance_raise k id c]

/-! ## Backtests -/

private def levelSim (cap : Ex K) : Sim (Ex K) where
  g := id
  inj _ _ := Iff.rfl
  price := raise k
  P := fun q q' => q' = q
  M m m' := m' = m
  cap := cap
  cap' := cap
  zero := rfl
  pnl ep cp dir := by
    unfold tradePnl
    simp only [raise_diff, id]
  close m m' dir q q' h hq := by rw [h, hq]; rfl
  openP m m' h := by rw [h]
  mark m m' q q' h hq := by rw [h, hq]

theorem forall₂_map {A : Type} {f : A → A} {l l' : List A} (h : List.Forall₂ (fun a b => b = f a) l l') : l' = l.map f := by
  induction h with
  | nil => rfl
  | cons h _ ih => rw [h, ih, List.map_cons]

/-- **C80.** A strategy that trades one unit, run on prices `k` higher with the same signals, panics on exactly the same tick; otherwise its
trades are the same at prices `k` higher, and every profit, count and amount of money is the same. -/
theorem C80_strategy (cfg : StrategyConfig (Ex K)) (hf : cfg.buyWithEquity = false) (v : Ex K → Ex K) (d : DataProvider (Ex K))
    (sig : Nat → Option TradeDirection) (N : Nat) :
    outputs (fun t => runner ⟨d.rescale (raise k) v, t⟩) sig N (.ok (Strategy.new cfg)) =
      (outputs (fun t => runner ⟨d, t⟩) sig N (.ok (Strategy.new cfg))).map (List.map (Strategy.raise k)) := by
  have h0 : (levelSim k cfg.initialCapital).St (Strategy.new cfg) (Strategy.new cfg) :=
    ⟨rfl, rfl, hf, hf, rfl, rfl, .nil, rfl, .none, .none, rfl⟩
  have htr {x x' : Trade (Ex K)} (h : (levelSim k cfg.initialCapital).Tr x x') : x' = x.raise k := by
    obtain ⟨h1, h2, h3, h4, h5, h6, h7, h8, h9⟩ := h
    have h1 : x'.direction = x.direction := h1
    have h4 : x'.entryPrice = x.entryPrice.map (raise k) := h4
    have h6 : x'.exitPrice = x.exitPrice.map (raise k) := h6
    have h9 : x'.pnlField = x.pnlField := h9
    unfold Trade.raise
    cases x; cases x'; simp_all
  have hopt {a b : Option (Trade (Ex K))} (h : Option.Rel (levelSim k cfg.initialCapital).Tr a b) : b = a.map (Trade.raise k) := by
    cases h with
    | none => rfl
    | some h => rw [htr h]; rfl
  have hsig : (fun t => (sig t).map (levelSim k cfg.initialCapital).g) = sig := by funext t; exact Option.map_id_apply
  have h := Sim.runs (d := d) (d' := d.rescale (raise k) v) h0 (fun t => index_map _ d.open_ t) (fun t => index_map _ d.close t)
    (Q := fun s s' => s' = s.raise k) (fun t s s' dir s1 s1' hs e e' h => ?_) sig N
  · rw [hsig] at h
    show outputs (fun t s dir => do let s ← Strategy.next ⟨d.rescale (raise k) v, t⟩ s dir; return (s, s)) sig N (.ok (Strategy.new cfg)) =
      (outputs (fun t s dir => do let s ← Strategy.next ⟨d, t⟩ s dir; return (s, s)) sig N (.ok (Strategy.new cfg))).map _
    revert h
    generalize outputs (fun t s dir => do let s ← Strategy.next ⟨d.rescale (raise k) v, t⟩ s dir; return (s, s)) sig N (.ok (Strategy.new cfg)) = r'
    generalize outputs (fun t s dir => do let s ← Strategy.next ⟨d, t⟩ s dir; return (s, s)) sig N (.ok (Strategy.new cfg)) = r
    intro h
    cases r with
    | error e =>
      cases r' with
      | error e' => exact congrArg Except.error (Eq.symm h)
      | ok q' => exact h.elim
    | ok q =>
      cases r' with
      | error e' => exact h.elim
      | ok q' => exact congrArg Except.ok (forall₂_map h)
  · have hc := Sim.config h rfl
    have ht := forall₂_map (h.trades.imp fun _ _ => htr)
    have hu : s1'.unfilled = s1.unfilled := by rw [h.unfilled]; exact Option.map_id_apply
    have hm : s1'.metrics = s1.metrics := h.metrics
    have h1 := hopt h.entry
    have h2 := hopt h.exit
    have he : s1'.events = ⟨s1.events.onTradeEntry.map (Trade.raise k), s1.events.onTradeExit.map (Trade.raise k)⟩ := by
      cases hx : s1'.events
      rw [hx] at h1 h2
      simp only at h1 h2
      rw [h1, h2]
    unfold Strategy.raise
    cases s1; cases s1'
    simp only at hc ht hu hm he
    subst hc ht hu hm he
    rfl

/-- **C80.** The same for a run that does not panic. -/
theorem C80_backtest {cfg : StrategyConfig (Ex K)} (hf : cfg.buyWithEquity = false) (v : Ex K → Ex K) {d : DataProvider (Ex K)}
    {sig : Nat → Option TradeDirection} {N : Nat} {st : Nat → Strategy (Ex K)} (hr : Backtest cfg d sig N st) :
    Backtest cfg (d.rescale (raise k) v) sig N (fun t => (st t).raise k) := by
  have h := C80_strategy k cfg hf v d sig N
  have hr' : outputs (fun t => runner ⟨d, t⟩) sig N (.ok (Strategy.new cfg)) = .ok ((List.range N).map st) := hr
  rw [hr'] at h
  refine h.trans ?_
  simp [Except.map, Function.comp_def]

theorem pnl_raise (x : Trade (Ex K)) (p : Ex K) : (x.raise k).pnl (raise k p) = x.pnl p := by
  unfold Trade.pnl Trade.raise
  dsimp only
  cases x.fillSize with
  | none => rfl
  | some fs =>
    cases x.entryPrice with
    | none => rfl
    | some ep =>
      simp only [Option.map_some, unwrap_some, Res.ok_bind]
      unfold tradePnl
      simp only [raise_diff]

theorem equity_raise (v : Ex K → Ex K) (c : Ctx (Ex K)) (e : EquityMetrics (Ex K)) (s : Strategy (Ex K)) :
    e.next (c.rescale (raise k) v) (s.raise k) = e.next c s := by
  unfold EquityMetrics.next
  simp only [Ctx.rescale_barHigh, Ctx.rescale_barLow, Res.map_bind, Strategy.raise, List.getLast?_map]
  cases s.events.onTradeExit <;> cases s.trades.getLast? <;> simp only [Option.map_none, Option.map_some] <;> rename_i x
  all_goals
    rw [show (x.raise k).isClosed = x.isClosed from rfl, show (x.raise k).direction = x.direction from rfl]
    simp only [unwrap_map, Res.map_bind]
    split
    · refine Res.bind_congr fun _ => Res.bind_congr fun lo => Res.bind_congr fun _ => Res.bind_congr fun hi => ?_
      by_cases hd : x.direction = .short
      · simp only [if_pos hd, pnl_raise]
      · simp only [if_neg hd, pnl_raise]
    · rfl

/-- **C80.** The equity and the TradingView metrics of the backtest on prices `k` higher are the same on every tick, all of them. -/
theorem C80_metrics {cfg : StrategyConfig (Ex K)} (v : Ex K → Ex K) {d : DataProvider (Ex K)} {N : Nat} {st : Nat → Strategy (Ex K)} {rfr : Ex K}
    {em : Nat → EquityMetrics (Ex K)} {tv : Nat → TvMetrics (Ex K)} :
    (EquityRun d cfg.initialCapital st N em ↔ EquityRun (d.rescale (raise k) v) cfg.initialCapital (fun t => (st t).raise k) N em) ∧
    (TvRun d cfg rfr st N tv ↔ TvRun (d.rescale (raise k) v) cfg rfr (fun t => (st t).raise k) N tv) := by
  have e1 (t : Nat) (e : EquityMetrics (Ex K)) (s : Strategy (Ex K)) : e.next ⟨d.rescale (raise k) v, t⟩ (s.raise k) = e.next ⟨d, t⟩ s :=
    equity_raise k v ⟨d, t⟩ e s
  have e2 (t : Nat) (e : TvMetrics (Ex K)) (s : Strategy (Ex K)) : e.next ⟨d.rescale (raise k) v, t⟩ (s.raise k) = e.next ⟨d, t⟩ s := by
    unfold TvMetrics.next
    rw [e1]
    have h1 : (s.raise k).events.onTradeExit.isSome = s.events.onTradeExit.isSome := Option.isSome_map
    simp only [h1]
    rfl
  constructor
  · constructor <;> intro h
    · obtain ⟨s, h0, hs⟩ := h.trace
      exact Runs.of_trace s h0 fun t ht => by simp only [e1]; exact hs t ht
    · obtain ⟨s, h0, hs⟩ := h.trace
      exact Runs.of_trace s h0 fun t ht => by have := hs t ht; simp only [e1] at this; exact this
  · constructor <;> intro h
    · obtain ⟨s, h0, hs⟩ := h.trace
      exact Runs.of_trace s h0 fun t ht => by simp only [e2]; exact hs t ht
    · obtain ⟨s, h0, hs⟩ := h.trace
      exact Runs.of_trace s h0 fun t ht => by have := hs t ht; simp only [e2] at this; exact this

/-- From a comparison of outputs to the comparison of runs. -/
theorem alike_runs {S S' I I' O : Type} {step : Nat → S → I → Res (O × S)} {step' : Nat → S' → I' → Res (O × S')} {s0 : Res S} {s0' : Res S'}
    {x : Nat → I} {x' : Nat → I'} {N : Nat} {Q : O → O → Prop} (h : Alike (List.Forall₂ Q) (outputs step x N s0) (outputs step' x' N s0'))
    {y : Nat → O} (hr : Runs step s0 x N y) : ∃ y', Runs step' s0' x' N y' ∧ ∀ t, t < N → Q (y t) (y' t) := by
  unfold Runs at hr
  rw [hr] at h
  cases e : outputs step' x' N s0' with
  | error _ => rw [e] at h; exact h.elim
  | ok l =>
    rw [e] at h
    have h : List.Forall₂ Q ((List.range N).map y) l := h
    have hl : N = l.length := by have := h.length_eq; simpa using this
    refine ⟨fun t => l.getD t (y t), ?_, fun t ht => ?_⟩
    · unfold Runs
      rw [e]
      congr 1
      apply List.ext_getElem (by simp [hl])
      intro i h1 h2
      simp [h1]
    · have := h.get (i := t) (by simpa using ht) (by omega)
      have hlt : t < l.length := by omega
      simpa [hlt] using this

/-- **C80.** The Cobra metrics of the backtest on prices `k` higher are the same on every tick, except the largest drawdown inside a trade,
which is measured as a fraction of the entry price. -/
theorem C80_cobra {cfg : StrategyConfig (Ex K)} (v : Ex K → Ex K) {d : DataProvider (Ex K)} {N : Nat} {st : Nat → Strategy (Ex K)}
    {est : Bool} {sy : Option Int} {year : Nat → Option Int} {co : Nat → CobraMetrics (Ex K)} (h : CobraRun d cfg est sy year st N co) :
    ∃ co' : Nat → CobraMetrics (Ex K), CobraRun (d.rescale (raise k) v) cfg est sy year (fun t => (st t).raise k) N co' ∧
      ∀ t, t < N → ∃ x, co' t = { co t with data := { (co t).data with intraTradeMaxDd := x } } := by
  have ex (s : CobraMetrics (Ex K)) (x : Ex K) (t : Nat) : Alike
      (fun q q' => ∃ x, q' = { q with data := { q.data with intraTradeMaxDd := x } })
      (s.next ⟨d, t⟩ (year t) (st t))
      (CobraMetrics.next ⟨d.rescale (raise k) v, t⟩ (year t) { s with data := { s.data with intraTradeMaxDd := x } } ((st t).raise k)) := by
    have e1 (e : EquityMetrics (Ex K)) : e.next ⟨d.rescale (raise k) v, t⟩ ((st t).raise k) = e.next ⟨d, t⟩ (st t) :=
      equity_raise k v ⟨d, t⟩ e (st t)
    have fin (s s' : CobraMetrics (Ex K)) (hs : ∃ x, s' = { s with data := { s.data with intraTradeMaxDd := x } }) :
        Alike (fun q q' => ∃ x, q' = { q with data := { q.data with intraTradeMaxDd := x } })
          (do
            let em ← s.equityMetrics.next ⟨d, t⟩ (st t)
            let s := { s with
              equityMetrics := em
              data := { s.data with
                equityCurveMaxDd := F64.fmin (em.equity / em.equityMax - lit 1) s.data.equityCurveMaxDd }
              currentTradeMaxDrawdown :=
                F64.fmax (em.netEquity - em.barEquityMin) s.currentTradeMaxDrawdown }
            let equityReturns := Metrics.returns em.equity s.prevEquity
            let s := { s with prevEquity := em.equity }
            match s.returnsStartYear with
            | some y => do
              let by_ ← unwrap (year t)
              if by_ < y then return s
              return s.onReturns equityReturns
            | none => return s.onReturns equityReturns)
          (do
            let em ← s'.equityMetrics.next ⟨d.rescale (raise k) v, t⟩ ((st t).raise k)
            let s := { s' with
              equityMetrics := em
              data := { s'.data with
                equityCurveMaxDd := F64.fmin (em.equity / em.equityMax - lit 1) s'.data.equityCurveMaxDd }
              currentTradeMaxDrawdown :=
                F64.fmax (em.netEquity - em.barEquityMin) s'.currentTradeMaxDrawdown }
            let equityReturns := Metrics.returns em.equity s.prevEquity
            let s := { s with prevEquity := em.equity }
            match s.returnsStartYear with
            | some y => do
              let by_ ← unwrap (year t)
              if by_ < y then return s
              return s.onReturns equityReturns
            | none => return s.onReturns equityReturns) := by
      obtain ⟨x, rfl⟩ := hs
      dsimp only
      rw [e1]
      refine Alike.step fun em => ?_
      cases s.returnsStartYear with
      | none => exact ⟨x, rfl⟩
      | some y =>
        dsimp only
        cases year t with
        | none => exact rfl
        | some b =>
          simp only [unwrap_some, Res.ok_bind]
          by_cases hb : b < y
          · simp only [if_pos hb]; exact ⟨x, rfl⟩
          · simp only [if_neg hb]; exact ⟨x, rfl⟩
    have hx : ((st t).raise k).events.onTradeExit = (st t).events.onTradeExit.map (Trade.raise k) := rfl
    unfold CobraMetrics.next
    rw [hx]
    cases (st t).events.onTradeExit with
    | none => exact fin _ _ ⟨x, rfl⟩
    | some e =>
      simp only [Option.map_some]
      unfold CobraMetrics.onExit
      have hep : (e.raise k).entryPrice = e.entryPrice.map (raise k) := rfl
      rw [hep]
      cases e.entryPrice with
      | none => exact rfl
      | some ep => exact fin _ _ ⟨_, rfl⟩
  have h' := outputs_alike (step := fun t s x => do let s ← CobraMetrics.next ⟨d, t⟩ (year t) s x; return (s, s))
    (step' := fun t s x => do let s ← CobraMetrics.next ⟨d.rescale (raise k) v, t⟩ (year t) s x; return (s, s))
    (fun s s' => ∃ x, s' = { s with data := { s.data with intraTradeMaxDd := x } })
    (fun s s' => ∃ x, s' = { s with data := { s.data with intraTradeMaxDd := x } }) st (fun t => (st t).raise k)
    (fun t s s' hs => by
      obtain ⟨x, rfl⟩ := hs
      refine (ex s x t).bind ?_
      intro q q' hq
      exact ⟨hq, hq⟩) N (s0 := CobraMetrics.new (Strategy.new cfg) est sy) (s0' := CobraMetrics.new (Strategy.new cfg) est sy) ⟨_, rfl⟩
  exact alike_runs h' h

end

/-! ## Programs -/

section
variable {K : Type} [Field K] [LinearOrder K] [IsStrictOrderedRing K] [RootOps K] (k : K)

/-- **C80, whole backtest programs.** An indicator that ignores the level, a rule that turns its outputs into signals, the runner trading
one unit and the TradingView metrics: run on prices `k` higher, the program makes the same trades at prices `k` higher and reports the same
metrics. -/
theorem C80_program {S Q O : Type} {ind : Ctx (Ex K) → S → Res (O × S)} {ind0 : Res S} (hi : BarsCommute (raise k) id id ind ind0)
    {sgn : Q → O → Option TradeDirection × Q} {q0 : Q} {d : DataProvider (Ex K)} {N : Nat} {o h l c v : Nat → Ex K} (hb : Bars d N o h l c v)
    {y : Nat → O} (hy : Runs (noInput fun t => ind ⟨d, t⟩) ind0 unit N y)
    (cfg : StrategyConfig (Ex K)) (hq : cfg.buyWithEquity = false) (rfr : Ex K) :
    ∃ (sig : Nat → Option TradeDirection) (st : Nat → Strategy (Ex K)) (tv : Nat → TvMetrics (Ex K)),
      Runs (noInput fun t => Program.next ind sgn ⟨d, t⟩) (Program.new ind0 q0 cfg rfr) unit N (fun t => (y t, sig t, st t, tv t)) ∧
      Runs (noInput fun t => Program.next ind sgn ⟨d.rescale (raise k) id, t⟩) (Program.new ind0 q0 cfg rfr) unit N
        (fun t => (y t, sig t, (st t).raise k, tv t)) := by
  obtain ⟨sig, hs⟩ := total_runs sgn q0 y N
  obtain ⟨st, tv, h1, h2, h3⟩ := C65_program hb hy hs cfg rfr
  refine ⟨sig, st, tv, h3, program_runs ?_ hs cfg rfr (C80_backtest k hq id h1) ((C80_metrics k id (em := fun _ => .new rfr)).2.mp h2)⟩
  have e := hi d N
  unfold Runs at hy ⊢
  rw [hy] at e
  rw [e]
  simp [Except.map]

/-- **C80, the project's example program**, on any complete bars and on the same bars with all prices `k` higher: the same RSI, the same
signals, the same trades at prices `k` higher and the same metrics. -/
theorem C80_example {d : DataProvider (Ex K)} {N : Nat} {o h l c v : Nat → Ex K} (hb : Bars d N o h l c v) :
    let run (d : DataProvider (Ex K)) :=
      Runs (noInput fun t => Program.next RelativeStrengthIndex.defaultNext ThresholdStrategy.next ⟨d, t⟩)
        (Program.new RelativeStrengthIndex.default (RelativeStrengthIndexStrategy.new exampleThresholds) exampleConfig (lit 0)) unit N
    ∃ (rsi : Nat → Option (Ex K)) (sig : Nat → Option TradeDirection) (st : Nat → Strategy (Ex K)) (tv : Nat → TvMetrics (Ex K)),
      run d (fun t => (rsi t, sig t, st t, tv t)) ∧ run (d.rescale (raise k) id) (fun t => (rsi t, sig t, (st t).raise k, tv t)) := by
  obtain ⟨y, hy, _⟩ := C63_rsi hb .close (len := 14) (by omega)
  obtain ⟨sig, st, tv, h⟩ := C80_program k (C80_level_free k 14 0 0 0 (lit 0) true .sma .sma .sma .close .close (by decide) (by decide)).2.2.2.2.2.2.2.2.2.2.2.2.2.2.1
    (sgn := ThresholdStrategy.next) (q0 := RelativeStrengthIndexStrategy.new exampleThresholds) hb hy exampleConfig rfl (lit 0)
  exact ⟨y, sig, st, tv, h⟩

end

/-! ## Components that depend on the level -/

section
private def steps (l : List ℚ) : Nat → Option (Ex ℚ) := fun t => some (fin (l.getD t 0))
private def flat (l : List ℚ) : DataProvider (Ex ℚ) := .ofSeries l.length (steps l) (steps l) (steps l) (steps l) (steps l)

/-- **C80, and no others.** What divides by a price depends on the level of prices: rate of change, Coppock curve, Connors RSI, price
oscillator and the width of the Bollinger bands change when all prices rise by 1.  `Change` does not divide, but reports no change from a
price of exactly 0, and so depends on the level as well. -/
theorem C80_not_level_free :
    ¬ Commutes (α := Ex ℚ) id id (Option.map (raise (1 : ℚ))) id (fun _ => Roc.next) (Roc.new 1) ∧
    ¬ Commutes (α := Ex ℚ) id id (Option.map (raise (1 : ℚ))) id (fun _ => Change.next) (Change.new 1) ∧
    ¬ BarsCommute (raise (1 : ℚ)) id id (withSrc .close BollingerBandsWidth.next) (BollingerBands.new 2 (lit 1)) ∧
    ¬ BarsCommute (raise (1 : ℚ)) id id (withSrc .close CoppockCurve.next) (CoppockCurve.new 2 2 1) ∧
    ¬ BarsCommute (raise (1 : ℚ)) id id (withSrc .close ConnorsRsi.next) (ConnorsRsi.new 2 2 2) ∧
    ¬ BarsCommute (raise (1 : ℚ)) id id (withSrc .close PriceOscillator.next) (do
      let long ← Ma.new .sma 2
      let short ← Ma.new .sma 1
      return ⟨short, long⟩) := by
  refine ⟨fun h => ?_, fun h => ?_, fun h => ?_, fun h => ?_, fun h => ?_, fun h => ?_⟩
  · exact absurd (h (flat []) (steps [1, 2]) 2) (by decide +kernel)
  · exact absurd (h (flat []) (steps [0, 2]) 2) (by decide +kernel)
  · exact absurd (h (flat [1, 3, 5]) 3) (by decide +kernel)
  · exact absurd (h (flat [1, 3, 5, 6]) 4) (by decide +kernel)
  · exact absurd (h (flat [1, 2, 4, 7]) 4) (by decide +kernel)
  · exact absurd (h (flat [1, 3, 5]) 3) (by decide +kernel)

/-- **C80, only for one unit.** A strategy that buys with its equity gets fewer units of what is dearer: on these five bars, made 10 dearer,
the net profit changes. -/
theorem C80_not_equity_sized : ∃ (st st' : Nat → Strategy (Ex ℚ)), Backtest exCfg exBars exSig 5 st ∧
    Backtest exCfg (exBars.rescale (raise (10 : ℚ)) id) exSig 5 st' ∧ (st 4).metrics.netProfit ≠ (st' 4).metrics.netProfit := by
  obtain ⟨st, h⟩ := exRun
  obtain ⟨st', h'⟩ := C57_strategy_complete exCfg exSig ((bars_ofSeries 5 _ _ _ _ _ : Bars exBars 5 _ _ _ _ _).rescale (raise (10 : ℚ)) id)
  refine ⟨st, st', h, h', ?_⟩
  rw [(backtest_done h 4 (by norm_num)).books.metrics, (backtest_done h' 4 (by norm_num)).books.metrics]
  dsimp only
  decide +kernel

end

/-! ## Concrete cases -/

/-- A map that keeps the order and is not linear: the cube. -/
example : Increasing (Ex ℚ) where
  f := fun
    | .fin a => .fin (a ^ 3)
    | e => e
  lt a b := by
    have h (a b : ℚ) : a ^ 3 < b ^ 3 ↔ a < b := (Odd.strictMono_pow (by decide : Odd 3)).lt_iff_lt
    show Ext.lt _ _ = Ext.lt a b
    cases a <;> cases b <;> simp [Ext.lt, h]
  le a b := by
    have h (a b : ℚ) : a ^ 3 ≤ b ^ 3 ↔ a ≤ b := (Odd.strictMono_pow (by decide : Odd 3)).le_iff_le
    show Ext.le _ _ = Ext.le a b
    cases a <;> cases b <;> simp [Ext.le, h]

/-- A hundred bars, made 7 dearer. -/
noncomputable example := C80_example (K := ℝ) 7
  (bars_ofSeries 100 (fun t => fin (t : ℝ)) (fun t => fin (t + 2 : ℝ)) (fun t => fin (t - 1 : ℝ)) (fun t => fin (t + (if t % 5 = 0 then -1 else 1) : ℝ))
    (fun _ => fin 1))

/-- Five bars with three trades, made 10 dearer: a backtest with all its metrics. -/
example : ∃ (cfg : StrategyConfig (Ex ℝ)) (st : Nat → Strategy (Ex ℝ)) (em : Nat → EquityMetrics (Ex ℝ)) (tv : Nat → TvMetrics (Ex ℝ)),
    cfg.buyWithEquity = false ∧ Backtest cfg realBars exSig 5 st ∧ Backtest cfg (realBars.rescale (raise 10) id) exSig 5 (fun t => (st t).raise 10) ∧
    EquityRun (realBars.rescale (raise 10) id) cfg.initialCapital (fun t => (st t).raise 10) 5 em ∧
    TvRun (realBars.rescale (raise 10) id) cfg (fin 0) (fun t => (st t).raise 10) 5 tv := by
  obtain ⟨st, h⟩ : ∃ st, Backtest ⟨false, true, fin 100, false⟩ realBars exSig 5 st :=
    C57_strategy_complete _ _ (bars_ofSeries 5 _ _ _ _ _)
  have hb : ∀ t, t < 5 → OpenBarsComplete realBars st t := by
    intro t ht _
    exact ⟨⟨_, (bars_ofSeries 5 _ _ _ _ _).low t ht⟩, ⟨_, (bars_ofSeries 5 _ _ _ _ _).high t ht⟩⟩
  obtain ⟨em, hem⟩ := (C57_equity_metrics h).mpr hb
  obtain ⟨tv, htv⟩ := (C57_tradingview_metrics h (fin 0)).mpr hb
  exact ⟨_, st, em, tv, rfl, h, C80_backtest 10 rfl id h, (C80_metrics 10 id (rfr := fin 0) (tv := tv)).1.mp hem, (C80_metrics 10 id (em := em)).2.mp htv⟩

end Pace
