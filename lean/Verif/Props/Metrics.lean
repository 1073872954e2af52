import Verif.Lemmas.Metrics
import Verif.Lemmas.Extremes

/-!
# Metrics of a backtest: C46 – C50, C58

`Backtest cfg d sig N st`: the runner's states; `EquityRun`, `TvRun`, `CobraRun`: the metrics components stepped on them.
-/

set_option linter.unusedSectionVars false

namespace Pace
open Spec

section
variable {α : Type} [F64 α] {cfg : StrategyConfig α} {d : DataProvider α} {sig : Nat → Option TradeDirection} {N : Nat}
  {st : Nat → Strategy α} {em : Nat → EquityMetrics α}

/-! ## C46 -/

/-- **C46.** After every tick of every run, in floating point: equity is the runner's equity; its extremes are the `f64::min`
and `f64::max` of the initial capital and all equities so far; net equity is the capital plus the net profit of the closed
trades, and its extremes are taken over the capital and the net equities at the exits so far. -/
theorem C46_values (h : Backtest cfg d sig N st) (he : EquityRun d cfg.initialCapital st N em) {t : Nat} (ht : t < N) :
    (em t).equity = (st t).metrics.equity ∧
    (em t).equityMin = runMin cfg.initialCapital ((List.range (t + 1)).map fun k => (st k).metrics.equity) ∧
    (em t).equityMax = runMax cfg.initialCapital ((List.range (t + 1)).map fun k => (st k).metrics.equity) ∧
    (em t).netEquity = (if (st t).metrics.closedTrades = 0 then cfg.initialCapital
      else cfg.initialCapital + (st t).metrics.netProfit) ∧
    (em t).netEquityMin = runMin cfg.initialCapital ((exits st t).map fun k => (em k).netEquity) ∧
    (em t).netEquityMax = runMax cfg.initialCapital ((exits st t).map fun k => (em k).netEquity) := by
  have f := em_facts h he (t + 1) ht
  have hk : ∀ k ∈ exits st t, (em k).netEquity = netEquity cfg (st k) := by
    intro k hk
    have := List.mem_range.mp (List.mem_of_mem_filter hk)
    exact (em_facts h he (k + 1) (by omega)).netEquity
  have e1 : (exits st t).map (fun k => (em k).netEquity) = (exits st t).map fun k => netEquity cfg (st k) :=
    List.map_congr_left hk
  rw [e1]
  exact ⟨(em_step (selfRun_step he t ht)).equity, f.equityMin, f.equityMax, f.netEquity, f.netEquityMin, f.netEquityMax⟩

theorem netEquity_mem (h : Backtest cfg d sig N st) {t : Nat} (ht : t < N) :
    netEquity cfg (st t) ∈ cfg.initialCapital :: (exits st t).map fun k => netEquity cfg (st k) := by
  induction t with
  | zero =>
    cases hx : exited st 0 with
    | true => simp [exits_zero, hx]
    | false =>
      have := (noExit_metrics h ht hx).1
      simp [prior, Strategy.new, StrategyMetrics.default] at this
      simp [netEquity, this]
  | succ t ih =>
    rw [exits_succ]
    cases hx : exited st (t + 1) with
    | true => simp
    | false =>
      have e : netEquity cfg (st (t + 1)) = netEquity cfg (st t) := by
        rw [netEquity, netEquity, (noExit_metrics h ht hx).1, (noExit_metrics h ht hx).2]; rfl
      rw [e]; simpa using ih (by omega)

/-! ## C47 -/

/-- **C47.** While a trade is open after tick `t`, the bar's open-profit extremes are that trade's profit at the bar's worst
and best price (low and high for a long, high and low for a short), and the bar equities are the net equity plus these. -/
theorem C47_open (h : Backtest cfg d sig N st) (he : EquityRun d cfg.initialCapital st N em) {t : Nat} (ht : t < N) {T : Trade α}
    (hT : T ∈ (st t).trades) (ho : T.isClosed = false) :
    ∃ low high entry size, d.low[t]? = some (some low) ∧ d.high[t]? = some (some high) ∧ T.entryPrice = some entry ∧
      T.fillSize = some size ∧
      (em t).barOpenProfitMin = (match T.direction with
        | .long => (low - entry) * size * lit 1
        | .short => (high - entry) * size * -(lit 1)) ∧
      (em t).barOpenProfitMax = (match T.direction with
        | .long => (high - entry) * size * lit 1
        | .short => (low - entry) * size * -(lit 1)) ∧
      (em t).barEquityMin = (em t).netEquity + (em t).barOpenProfitMin ∧
      (em t).barEquityMax = (em t).netEquity + (em t).barOpenProfitMax := by
  have hs := em_step (selfRun_step he t ht)
  rw [C39_refines h ht] at hT
  rcases List.mem_append.mp hT with hT | hT
  · obtain ⟨c, _, rfl⟩ := List.mem_map.mp hT
    simp [Closed.toTrade] at ho
  · obtain ⟨x, hx, rfl⟩ : ∃ x, (ledger cfg d sig (t + 1)).opened = some x ∧ x.toTrade = T := by
      simpa [Option.map_eq_some_iff] using hT
    have hl : (st t).trades.getLast? = some x.toTrade := by
      rw [C39_refines h ht, Ledger.trades, hx]; simp
    obtain ⟨lo, hi, mn, mx, h1, h2, h3, h4, h5, h6⟩ := hs.open_ _ hl ho
    rw [pnl_toTrade] at h3 h4
    cases h3; cases h4
    refine ⟨lo, hi, x.price, x.size, h1, h2, rfl, rfl, ?_, ?_, hs.barMin, hs.barMax⟩
    · rw [h5]; obtain ⟨dir, _, _, _⟩ := x; cases dir <;> rfl
    · rw [h6]; obtain ⟨dir, _, _, _⟩ := x; cases dir <;> rfl

/-- **C47.** While no trade is open the open-profit extremes keep the value of the tick before (0 before the first tick); the
bar equities are still the net equity plus these values. -/
theorem C47_flat (_h : Backtest cfg d sig N st) (he : EquityRun d cfg.initialCapital st N em) {t : Nat} (ht : t < N)
    (hf : ∀ T ∈ (st t).trades, T.isClosed = true) :
    (em t).barOpenProfitMin = (if t = 0 then lit 0 else (em (t - 1)).barOpenProfitMin) ∧
    (em t).barOpenProfitMax = (if t = 0 then lit 0 else (em (t - 1)).barOpenProfitMax) ∧
    (em t).barEquityMin = (em t).netEquity + (em t).barOpenProfitMin ∧
    (em t).barEquityMax = (em t).netEquity + (em t).barOpenProfitMax := by
  have hs := em_step (selfRun_step he t ht)
  obtain ⟨h1, h2⟩ := hs.flat fun T hT => hf T (List.mem_of_getLast? hT)
  refine ⟨?_, ?_, hs.barMin, hs.barMax⟩
  · rw [h1]; cases t <;> simp [prior, EquityMetrics.new]
  · rw [h2]; cases t <;> simp [prior, EquityMetrics.new]

/-- **C47.** Before the first trade the open-profit extremes are 0. -/
theorem C47_no_trade (h : Backtest cfg d sig N st) (he : EquityRun d cfg.initialCapital st N em) {t : Nat} (ht : t < N)
    (hf : (st t).trades = []) : (em t).barOpenProfitMin = lit 0 ∧ (em t).barOpenProfitMax = lit 0 := by
  induction t with
  | zero => have := C47_flat h he ht (by simp [hf]); simpa using ⟨this.1, this.2.1⟩
  | succ t ih =>
    have hf' : (st t).trades = [] := by
      rw [C39_refines h (by omega)] at hf ⊢
      rw [ledger] at hf
      generalize ledger cfg d sig (t + 1) = L at *
      obtain ⟨l, op⟩ := L
      revert hf
      unfold Ledger.tick
      split
      · exact id
      · simp [Ledger.enter, Ledger.trades]
      · rename_i heq
        simp only at heq
        subst heq
        split
        · simp [Ledger.trades]
        · simp only; split <;> simp [Ledger.trades, Ledger.enter]
    have := C47_flat h he ht (by simp [hf])
    simp only [Nat.add_eq_zero_iff, one_ne_zero, and_false, if_false, Nat.add_sub_cancel] at this
    rw [this.1, this.2.1]
    exact ih (by omega) hf'

end

/-! ## Level 1: order facts, for every rounding -/
section rounded
variable {K : Type} [Field K] [LinearOrder K] {R : Rounding K}
variable {cfg : StrategyConfig (Fl R)} {d : DataProvider (Fl R)} {sig : Nat → Option TradeDirection} {N : Nat}
  {st : Nat → Strategy (Fl R)} {em : Nat → EquityMetrics (Fl R)}

/-- **C46.** For every rounding: `equity_min` (`equity_max`) is one of the initial capital and the equities so far, and is at
most (at least) each of them that is not NaN. -/
theorem C46_extremes (h : Backtest cfg d sig N st) (he : EquityRun d cfg.initialCapital st N em) {t : Nat} (ht : t < N) :
    ((em t).equityMin = cfg.initialCapital ∨ ∃ k, k ≤ t ∧ (em t).equityMin = (st k).metrics.equity) ∧
    ((em t).equityMax = cfg.initialCapital ∨ ∃ k, k ≤ t ∧ (em t).equityMax = (st k).metrics.equity) ∧
    (NotNan cfg.initialCapital → F64.le (em t).equityMin cfg.initialCapital = true ∧ F64.le cfg.initialCapital (em t).equityMax = true) ∧
    ∀ k, k ≤ t → NotNan (st k).metrics.equity → F64.le (em t).equityMin (st k).metrics.equity = true ∧
      F64.le (st k).metrics.equity (em t).equityMax = true := by
  obtain ⟨_, h1, h2, _⟩ := C46_values h he ht
  rw [h1, h2]
  obtain ⟨a1, a2⟩ := runMin_spec cfg.initialCapital ((List.range (t + 1)).map fun k => (st k).metrics.equity)
  obtain ⟨b1, b2⟩ := runMax_spec cfg.initialCapital ((List.range (t + 1)).map fun k => (st k).metrics.equity)
  have hmem : ∀ v : Fl R, v ∈ cfg.initialCapital :: ((List.range (t + 1)).map fun k => (st k).metrics.equity) →
      v = cfg.initialCapital ∨ ∃ k, k ≤ t ∧ v = (st k).metrics.equity := by
    intro v hv
    rcases List.mem_cons.mp hv with rfl | hv
    · exact Or.inl rfl
    · obtain ⟨k, hk, rfl⟩ := List.mem_map.mp hv
      exact Or.inr ⟨k, by have := List.mem_range.mp hk; omega, rfl⟩
  refine ⟨hmem _ a1, hmem _ b1, fun hn => ⟨a2 _ (by simp) hn, b2 _ (by simp) hn⟩, fun k hk hn => ?_⟩
  have hin : (st k).metrics.equity ∈ cfg.initialCapital :: ((List.range (t + 1)).map fun k => (st k).metrics.equity) :=
    List.mem_cons_of_mem _ (List.mem_map.mpr ⟨k, List.mem_range.mpr (by omega), rfl⟩)
  exact ⟨a2 _ hin hn, b2 _ hin hn⟩

/-- **C46.** The same for the net equity. -/
theorem C46_net_extremes (h : Backtest cfg d sig N st) (he : EquityRun d cfg.initialCapital st N em) {t : Nat} (ht : t < N) :
    ((em t).netEquityMin = cfg.initialCapital ∨ ∃ k, k ≤ t ∧ (em t).netEquityMin = (em k).netEquity) ∧
    ((em t).netEquityMax = cfg.initialCapital ∨ ∃ k, k ≤ t ∧ (em t).netEquityMax = (em k).netEquity) ∧
    (NotNan cfg.initialCapital →
      F64.le (em t).netEquityMin cfg.initialCapital = true ∧ F64.le cfg.initialCapital (em t).netEquityMax = true) ∧
    ∀ k, k ≤ t → NotNan (em k).netEquity → F64.le (em t).netEquityMin (em k).netEquity = true ∧
      F64.le (em k).netEquity (em t).netEquityMax = true := by
  obtain ⟨_, _, _, _, h1, h2⟩ := C46_values h he ht
  rw [h1, h2]
  obtain ⟨a1, a2⟩ := runMin_spec cfg.initialCapital ((exits st t).map fun k => (em k).netEquity)
  obtain ⟨b1, b2⟩ := runMax_spec cfg.initialCapital ((exits st t).map fun k => (em k).netEquity)
  have hmem : ∀ v : Fl R, v ∈ cfg.initialCapital :: ((exits st t).map fun k => (em k).netEquity) →
      v = cfg.initialCapital ∨ ∃ k, k ≤ t ∧ v = (em k).netEquity := by
    intro v hv
    rcases List.mem_cons.mp hv with rfl | hv
    · exact Or.inl rfl
    · obtain ⟨k, hk, rfl⟩ := List.mem_map.mp hv
      exact Or.inr ⟨k, by have := List.mem_range.mp (List.mem_of_mem_filter hk); omega, rfl⟩
  refine ⟨hmem _ a1, hmem _ b1, fun hn => ⟨a2 _ (by simp) hn, b2 _ (by simp) hn⟩, fun k hk hn => ?_⟩
  have hin : (em k).netEquity ∈ cfg.initialCapital :: ((exits st t).map fun k => (em k).netEquity) := by
    have hne (j : Nat) (hj : j < N) : (em j).netEquity = netEquity cfg (st j) := (em_facts h he (j + 1) hj).netEquity
    have := netEquity_mem h (show k < N by omega)
    rw [hne k (by omega)]
    rcases List.mem_cons.mp this with hc | hc
    · rw [hc]; simp
    · obtain ⟨j, hj, hj'⟩ := List.mem_map.mp hc
      obtain ⟨hj1, hj2⟩ := List.mem_filter.mp hj
      have hj3 := List.mem_range.mp hj1
      refine List.mem_cons_of_mem _ (List.mem_map.mpr ⟨j, List.mem_filter.mpr ⟨List.mem_range.mpr (by omega), hj2⟩, ?_⟩)
      rw [hne j (by omega), hj']
  exact ⟨a2 _ hin hn, b2 _ hin hn⟩

end rounded
/-! ## Before the first tick -/

section
variable {α : Type} [F64 α]

/-- **C46.** Before the first tick every equity figure is the initial capital and no open profit has been seen. -/
theorem C46_start (c0 : α) :
    (EquityMetrics.new c0).equity = c0 ∧ (EquityMetrics.new c0).equityMin = c0 ∧ (EquityMetrics.new c0).equityMax = c0 ∧
    (EquityMetrics.new c0).netEquity = c0 ∧ (EquityMetrics.new c0).netEquityMin = c0 ∧
    (EquityMetrics.new c0).netEquityMax = c0 ∧ (EquityMetrics.new c0).barOpenProfitMin = lit 0 ∧
    (EquityMetrics.new c0).barOpenProfitMax = lit 0 ∧ (EquityMetrics.new c0).barEquityMin = c0 ∧
    (EquityMetrics.new c0).barEquityMax = c0 :=
  ⟨rfl, rfl, rfl, rfl, rfl, rfl, rfl, rfl, rfl, rfl⟩

/-- **C50.** Before the first value the returns report zero, and the reference value is the initial one, in either mode. -/
theorem C50_start (v : α) (fast : Bool) :
    (Returns.build v fast).delta = lit 0 ∧ (Returns.build v fast).stdevV = lit 0 ∧
    (Returns.build v fast).meanV = lit 0 ∧ (Returns.build v fast).prevValue = v :=
  ⟨rfl, rfl, rfl, rfl⟩

/-- **C49.** Before the first tick the TradingView metrics report zero for every figure and every count; the two equity
histories hold the initial capital, the drawdown history a single zero. -/
theorem C49_start (st : Strategy α) (rfr : α) :
    (TvMetrics.new st rfr).data =
      { netProfit := lit 0, netProfitPercent := lit 0, grossProfit := lit 0, grossProfitPercent := lit 0,
        grossLoss := lit 0, grossLossPercent := lit 0, maxRunUp := lit 0, maxRunUpPercent := lit 0,
        maxDrawdown := lit 0, maxDrawdownPercent := lit 0, sharpeRatio := lit 0, sortinoRatio := lit 0,
        profitFactor := lit 0, openPl := lit 0, totalClosedTrades := 0, numberWinningTrades := 0,
        numberLosingTrades := 0, percentProfitable := lit 0, avgTrade := lit 0, avgWinningTrade := lit 0,
        avgLosingTrade := lit 0, ratioAvgWinAvgLoss := lit 0,
        netEquityHistory := [st.config.initialCapital], maxDrawdownHistory := [lit 0],
        equityHistory := [st.config.initialCapital] } ∧
    (TvMetrics.new st rfr).riskFreeRate = rfr :=
  ⟨rfl, rfl⟩

/-- **C59.** Before the first tick the Cobra metrics report zero for every figure and no trades. -/
theorem C59_start (st : Strategy α) (est : Bool) (year : Option Int) :
    (CobraMetrics.new st est year).data =
      { equityCurveMaxDd := lit 0, intraTradeMaxDd := lit 0, sortino := lit 0, sharpe := lit 0,
        profitFactor := lit 0, profitable := lit 0, trades := 0, omega := lit 0, netProfitLSRatio := lit 0 } ∧
    (CobraMetrics.new st est year).returnsStartYear = year :=
  ⟨rfl, rfl⟩

end

end Pace
