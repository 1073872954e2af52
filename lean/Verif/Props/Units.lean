import Verif.Lemmas.Units
import Verif.Spec.Metrics
import Verif.Props.Strategy2
import Verif.Props.Causal

/-!
# Independence of units (C71)

Quoting the same market in another currency, after a stock split, or trading it with another capital, changes amounts in proportion
and leaves every decision, every tick and every ratio alone.
-/

set_option linter.unusedSectionVars false

namespace Pace
open Spec

section
variable {α : Type} [F64 α]

theorem Runs.map {S S' I I' O O' : Type} {step : Nat → S → I → Res (O × S)} {step' : Nat → S' → I' → Res (O' × S')}
    (f : S → S') (g : I → I') (h : O → O') {s0 : Res S} {s0' : Res S'} (h0 : s0' = s0.map f)
    (hs : ∀ t s x, step' t (f s) (g x) = (step t s x).map fun p => (h p.1, f p.2)) {x : Nat → I} {N : Nat} {y : Nat → O}
    (hr : Runs step s0 x N y) : Runs step' s0' (fun t => g (x t)) N (fun t => h (y t)) := by
  have := outputs_convert f g h (fun _ => True) (fun _ _ _ _ _ _ _ => trivial) (fun t s x _ => hs t s x) x N s0 (fun _ _ => trivial)
  unfold Runs at hr ⊢
  rw [h0, this, hr]
  simp [Except.map, Function.comp_def]

/-- **C71.** A strategy that invests its equity, or any strategy if quantities keep their unit: run on the bars written in other
units, with the capital written in other units, it panics on exactly the same tick, and otherwise every trade, order, event and metric
of every tick is the original one written in the other units. -/
theorem C71_strategy (U : Units α) (cfg : StrategyConfig α) (h : cfg.buyWithEquity = true ∨ U.size.f (lit 1) = lit 1)
    (d : DataProvider α) (vol : α → α) (sig : Nat → Option TradeDirection) (N : Nat) :
    outputs (fun t => runner ⟨d.rescale U.price.f vol, t⟩) sig N (.ok (Strategy.new (cfg.rescale U))) =
      (outputs (fun t => runner ⟨d, t⟩) sig N (.ok (Strategy.new cfg))).map (List.map (Strategy.rescale U)) := by
  have h0 : (Except.ok (Strategy.new (cfg.rescale U)) : Res (Strategy α)) = Except.map (Strategy.rescale U) (.ok (Strategy.new cfg)) := by
    simp [Strategy.rescale, Strategy.new, StrategyMetrics.default, StrategyMetrics.rescale, U.money.zero, StrategyConfig.rescale]
  rw [h0]
  refine outputs_convert (Strategy.rescale U) id (Strategy.rescale U) (fun s => s.config = cfg) ?_ ?_ sig N _ ?_
  · intro t s x o s1 hc hn
    unfold runner at hn
    cases hq : s.next ⟨d, t⟩ x with
    | error e => simp [hq] at hn
    | ok q =>
      simp only [hq, Res.ok_bind, Res.pure_eq, Except.ok.injEq, Prod.mk.injEq] at hn
      rw [← hn.2, next_config hq, hc]
  · intro t s x hc
    unfold runner
    rw [id, U.next s (by rw [hc]; exact h)]
    cases s.next ⟨d, t⟩ x <;> rfl
  · intro s hs
    cases hs; rfl

/-- **C71.** The same for a run that does not panic. -/
theorem C71_backtest (U : Units α) {cfg : StrategyConfig α} (h : cfg.buyWithEquity = true ∨ U.size.f (lit 1) = lit 1)
    {d : DataProvider α} (vol : α → α) {sig : Nat → Option TradeDirection} {N : Nat} {st : Nat → Strategy α}
    (hr : Backtest cfg d sig N st) :
    Backtest (cfg.rescale U) (d.rescale U.price.f vol) sig N (fun t => (st t).rescale U) := by
  have e := C71_strategy U cfg h d vol sig N
  have hr' : outputs (fun t => runner ⟨d, t⟩) sig N (.ok (Strategy.new cfg)) = .ok ((List.range N).map st) := hr
  rw [hr'] at e
  show outputs (fun t => runner ⟨d.rescale U.price.f vol, t⟩) sig N (.ok (Strategy.new (cfg.rescale U))) = _
  rw [e]
  simp [Except.map, Function.comp_def]

/-- **C71.** The equity metrics are the original ones in the other unit of money. -/
theorem C71_equity (U : Units α) {d : DataProvider α} (vol : α → α) {cap : α} {st : Nat → Strategy α} {N : Nat}
    {em : Nat → EquityMetrics α} (h : EquityRun d cap st N em) :
    EquityRun (d.rescale U.price.f vol) (U.money.f cap) (fun t => (st t).rescale U) N (fun t => (em t).rescale U) := by
  refine Runs.map (EquityMetrics.rescale U) (Strategy.rescale U) (EquityMetrics.rescale U) ?_ ?_ h
  · simp [EquityMetrics.new, EquityMetrics.rescale, U.money.zero]
  · intro t s x
    rw [U.equityNext]
    cases s.next ⟨d, t⟩ x <;> rfl

/-- **C71.** TradingView metrics: amounts are converted, percentages and ratios (profit factor, Sharpe, Sortino, average win to average
loss, ...) are unchanged, if the risk-free "rate" is converted too: it is subtracted from amounts of money. -/
theorem C71_tradingview (U : Units α) {d : DataProvider α} (vol : α → α) {cfg : StrategyConfig α} {rfr : α} {st : Nat → Strategy α}
    {N : Nat} {tv : Nat → TvMetrics α} (h : TvRun d cfg rfr st N tv) :
    ∃ tv', TvRun (d.rescale U.price.f vol) (cfg.rescale U) (U.money.f rfr) (fun t => (st t).rescale U) N tv' ∧
      ∀ t, (tv' t).data = (tv t).data.rescale U ∧ (tv' t).equityMetrics = (tv t).equityMetrics.rescale U := by
  refine ⟨fun t => (tv t).rescale U, Runs.map (TvMetrics.rescale U) (Strategy.rescale U) (TvMetrics.rescale U) ?_ ?_ h, fun t => ⟨rfl, rfl⟩⟩
  · simp [TvMetrics.new, TvMetrics.rescale, U.money.zero, TvData.default, TvData.rescale, EquityMetrics.new, EquityMetrics.rescale,
      Strategy.new, StrategyConfig.rescale, Returns.build, Returns.rescale, StatStdev.build, StatStdev.rescale, Var.build, Var.rescale,
      WelfordsVar.new, WelfordsVar.rescale, Mean.new, Mean.rescale, IncrementalCache.new, U.zero2]
  · intro t s x
    rw [U.tvNext]
    cases s.next ⟨d, t⟩ x <;> rfl

/-- **C71.** Cobra metrics are pure numbers and do not change, except the intra-trade drawdown "percentage": it is an amount of money
divided by an entry price, so it is proportional to the traded quantity. -/
theorem C71_cobra (U : Units α) {d : DataProvider α} (vol : α → α) {cfg : StrategyConfig α} {est : Bool} {sy : Option Int}
    {year : Nat → Option Int} {st : Nat → Strategy α} {N : Nat} {co : Nat → CobraMetrics α} (h : CobraRun d cfg est sy year st N co) :
    ∃ co', CobraRun (d.rescale U.price.f vol) (cfg.rescale U) est sy year (fun t => (st t).rescale U) N co' ∧
      ∀ t, (co' t).data = { (co t).data with intraTradeMaxDd := U.size.f (co t).data.intraTradeMaxDd } := by
  refine ⟨fun t => (co t).rescale U, Runs.map (CobraMetrics.rescale U) (Strategy.rescale U) (CobraMetrics.rescale U) ?_ ?_ h, fun t => rfl⟩
  · simp [CobraMetrics.new, CobraMetrics.rescale, U.money.zero, CobraData.default, CobraData.rescale, EquityMetrics.new,
      EquityMetrics.rescale, Strategy.new, StrategyConfig.rescale, U.size.zero]
  · intro t s x
    rw [U.cobraNext]
    cases s.next ⟨d, t⟩ (year t) x <;> rfl

end

/-! ## The common cases -/

section
variable {K : Type} [Field K] [LinearOrder K] [IsStrictOrderedRing K]

theorem homogeneous_one (R : Rounding K) : R.Homogeneous 1 where
  pos := one_pos
  rnd a := by rw [one_mul]; cases R.rnd a <;> simp [Ext.scale]
  sqrt a _ := by rw [one_mul, one_mul]; cases R.sqrtR a <;> simp [Ext.scale]

theorem scale_one (e : Ext K) : e.scale 1 = e := by cases e <;> simp [Ext.scale]

/-- Multiplication of a float by a number, without rounding. -/
def times {R : Rounding K} (k : K) (x : Fl R) : Fl R := Ext.scale k x

/-- **C71, another currency.** Bars quoted in another currency (one old unit = `k` new units) and the capital converted: a strategy
of either kind makes the same trades on the same ticks with the same quantities; net profit, open profit and equity are `k` times what
they were. -/
theorem C71_currency {R : Rounding K} {k : K} (hk : R.Homogeneous k) {cfg : StrategyConfig (Fl R)} {d : DataProvider (Fl R)}
    {sig : Nat → Option TradeDirection} {N : Nat} {st : Nat → Strategy (Fl R)} (hr : Backtest cfg d sig N st) :
    ∃ st', Backtest { cfg with initialCapital := times k cfg.initialCapital } (d.rescale (times k) id) sig N st' ∧
      ∀ t, (st' t).metrics.equity = times k (st t).metrics.equity ∧ (st' t).metrics.netProfit = times k (st t).metrics.netProfit ∧
        (st' t).metrics.openProfit = times k (st t).metrics.openProfit ∧
        (st' t).metrics.closedTrades = (st t).metrics.closedTrades ∧ (st' t).metrics.winningTrades = (st t).metrics.winningTrades ∧
        (st' t).metrics.losingTrades = (st t).metrics.losingTrades ∧ (st' t).unfilled = (st t).unfilled ∧
        (st' t).trades.map (fun x => (x.direction, x.entryTick, x.exitTick, x.fillSize)) =
          (st t).trades.map (fun x => (x.direction, x.entryTick, x.exitTick, x.fillSize)) := by
  have h1 := C71_backtest (Units.of hk (homogeneous_one R)) (cfg := cfg) (Or.inr (scale_one _)) id hr
  have hm : ∀ a : Fl R, (Units.of hk (homogeneous_one R)).money.f a = times k a := fun a => by
    show Ext.scale (k * 1) a = Ext.scale k a
    rw [mul_one]
  refine ⟨fun t => (st t).rescale (Units.of hk (homogeneous_one R)), ?_, fun t => ⟨hm _, hm _, hm _, rfl, rfl, rfl, rfl, ?_⟩⟩
  · have e : cfg.rescale (Units.of hk (homogeneous_one R)) = { cfg with initialCapital := times k cfg.initialCapital } := by
      unfold StrategyConfig.rescale; rw [hm]
    rw [e] at h1
    exact h1
  · simp only [Strategy.rescale, List.map_map]
    apply List.map_congr_left
    intro T _
    simp only [Function.comp, Trade.rescale, Prod.mk.injEq, true_and]
    cases T.fillSize with
    | none => rfl
    | some q => exact congrArg some (scale_one q)

/-- **C71, another capital.** A strategy that invests its equity, given `m` times the capital on the same bars, makes the same trades at
the same prices on the same ticks with `m` times the quantities and `m` times the profit. -/
theorem C71_capital {R : Rounding K} {m : K} (hm : R.Homogeneous m) {cfg : StrategyConfig (Fl R)} (hq : cfg.buyWithEquity = true)
    {d : DataProvider (Fl R)} {sig : Nat → Option TradeDirection} {N : Nat} {st : Nat → Strategy (Fl R)} (hr : Backtest cfg d sig N st) :
    ∃ st', Backtest { cfg with initialCapital := times m cfg.initialCapital } d sig N st' ∧
      ∀ t, (st' t).metrics.equity = times m (st t).metrics.equity ∧ (st' t).metrics.netProfit = times m (st t).metrics.netProfit ∧
        (st' t).metrics.openProfit = times m (st t).metrics.openProfit ∧ (st' t).unfilled = (st t).unfilled ∧
        (st' t).trades = (st t).trades.map fun x => { x with fillSize := x.fillSize.map (times m), pnlField := times m x.pnlField } := by
  have h1 := C71_backtest (Units.of (homogeneous_one R) hm) (cfg := cfg) (Or.inl hq) id hr
  have hmm : ∀ a : Fl R, (Units.of (homogeneous_one R) hm).money.f a = times m a := fun a => by
    show Ext.scale (1 * m) a = Ext.scale m a
    rw [one_mul]
  have hp : (Units.of (homogeneous_one R) hm).price.f = id := by funext a; exact scale_one a
  refine ⟨fun t => (st t).rescale (Units.of (homogeneous_one R) hm), ?_, fun t => ⟨hmm _, hmm _, hmm _, rfl, ?_⟩⟩
  · have e : cfg.rescale (Units.of (homogeneous_one R) hm) = { cfg with initialCapital := times m cfg.initialCapital } := by
      unfold StrategyConfig.rescale; rw [hmm]
    rw [e, hp] at h1
    have e2 : d.rescale id id = d := by simp [DataProvider.rescale]
    rw [e2] at h1
    exact h1
  · simp only [Strategy.rescale]
    apply List.map_congr_left
    intro T _
    simp only [Trade.rescale, hmm, hp, Option.map_id, id]
    rfl

/-- **C71, a stock split.** Prices divided by `k`: a strategy that invests its equity buys `k` times as much and its money does not
notice. -/
theorem C71_split {R : Rounding K} {k m : K} (hk : R.Homogeneous k) (hm : R.Homogeneous m) (h1 : k * m = 1)
    {cfg : StrategyConfig (Fl R)} (hq : cfg.buyWithEquity = true)
    {d : DataProvider (Fl R)} {sig : Nat → Option TradeDirection} {N : Nat} {st : Nat → Strategy (Fl R)} (hr : Backtest cfg d sig N st) :
    ∃ st', Backtest cfg (d.rescale (times k) (times m)) sig N st' ∧
      ∀ t, (st' t).metrics = (st t).metrics ∧ (st' t).unfilled = (st t).unfilled ∧
        (st' t).trades = (st t).trades.map fun x =>
          { x with entryPrice := x.entryPrice.map (times k), exitPrice := x.exitPrice.map (times k), fillSize := x.fillSize.map (times m) } := by
  have hb := C71_backtest (Units.of hk hm) (cfg := cfg) (Or.inl hq) (times m) hr
  have hmm : ∀ a : Fl R, (Units.of hk hm).money.f a = a := fun a => by
    show Ext.scale (k * m) a = a
    rw [h1]; exact scale_one a
  refine ⟨fun t => (st t).rescale (Units.of hk hm), ?_, fun t => ⟨?_, rfl, ?_⟩⟩
  · have e : cfg.rescale (Units.of hk hm) = cfg := by
      unfold StrategyConfig.rescale; rw [hmm]
    rw [e] at hb
    exact hb
  · simp only [Strategy.rescale, StrategyMetrics.rescale, hmm]
  · simp only [Strategy.rescale]
    apply List.map_congr_left
    intro T _
    simp only [Trade.rescale, hmm]
    rfl

/-- **C71.** Without rounding every positive factor qualifies. -/
theorem C71_exact [LawfulRoots K] {k : K} (hk : 0 < k) : (Rounding.exact K).Homogeneous k := exact_homogeneous hk

end
end Pace
