import Verif.Cases.Runs
import Verif.Props.Fresh
import Verif.Props.Labels
import Verif.Props.UnitsTa

/-! # The theorems on strategies and metrics (C36–C50, C57–C61, C81, C82, C85) at concrete runs -/

namespace Pace.Cases
open Pace Spec

private theorem four : 4 < 5 := by norm_num

/-- The trades of `exSt`. -/
theorem ex_trades : (exSt 4).trades =
    [⟨.short, true, some 1, some (q 10), some 2, some (q 12), some (q 10), q (-20)⟩,
     ⟨.long, true, some 2, some (q 12), some 4, some (q 15), some (q (20/3)), q 20⟩,
     ⟨.short, false, some 4, some (q 15), none, none, some (q (20/3)), q 0⟩] := by decide +kernel

/-- Its second and third trade. -/
abbrev T2 : Trade (Ex ℚ) := ⟨.long, true, some 2, some (q 12), some 4, some (q 15), some (q (20/3)), q 20⟩
@[inherit_doc T2] abbrev T3 : Trade (Ex ℚ) := ⟨.short, false, some 4, some (q 15), none, none, some (q (20/3)), q 0⟩

theorem T2_mem : T2 ∈ (exSt 4).trades := by rw [ex_trades]; simp
theorem T3_mem : T3 ∈ (exSt 4).trades := by rw [ex_trades]; simp
theorem flat_trades : (flatSt 2).trades = [⟨.long, true, some 0, some (q 10), some 2, some (q 13), some (q 1), q 3⟩] := by decide +kernel
theorem flat_mem : (⟨.long, true, some 0, some (q 10), some 2, some (q 13), some (q 1), q 3⟩ : Trade (Ex ℚ)) ∈ (flatSt 2).trades := by
  rw [flat_trades]; simp

/-! ## Strategy.lean -/

example : ∀ k, 2 < k → k < 4 → order exCfg exSig k ≠ some .short := by
  obtain ⟨e, h1, h2, _⟩ := C39_first_opposite ex_backtest four T2_mem
  obtain ⟨x, h3, _, _, h4⟩ := h2 rfl
  cases h1; cases h3; exact h4
example := C39_continuous_alternates ex_backtest rfl four
example : ∃ T, (exSt 4).trades.getLast? = some T ∧ T.isClosed = false :=
  C39_continuous_in_market (k := 1) ex_backtest rfl four (by norm_num) (by decide)
example : ∃ x, some 2 = some x ∧ ∀ k, x < k → k ≤ 4 → order exCfg2 exSig2 k = none :=
  (C39_flat_ignores_nothing flat_backtest rfl four).2 ⟨.long, true, some 0, some (q 10), some 2, some (q 13), some (q 1), q 3⟩ (by decide +kernel) rfl
example : ∃ e, some 1 = some e ∧ order exCfg exSig e = some .short ∧ ∀ k, k < e → order exCfg exSig k = none :=
  (C39_first_order ex_backtest four).1 _ (by rw [ex_trades]; rfl)
example := C36_one_open ex_backtest four
example : T3.isActive = true := (C36_active ex_backtest four T3_mem).mpr rfl
example : 2 < 4 ∧ 4 ≤ 4 := (C37_order ex_backtest four).1 T2 T2_mem 2 4 rfl rfl
example : 2 ≤ 2 ∧ exSig2 2 = some .short ∧ ∃ p, some (q 13) = some p ∧ exBars.close[2]? = some (some p) :=
  (C38_bar_close flat_backtest rfl (show 2 < 5 by norm_num) flat_mem).2 2 rfl
example : ∃ k, some 2 = some (k + 1) ∧ k + 1 ≤ 4 ∧ exSig k = some .long ∧ ∃ p, some (q 12) = some p ∧ exBars.open_[k + 1]? = some (some p) :=
  (C38_next_open ex_backtest rfl four T2_mem).1
example : (exSt 4).metrics.winningTrades = 1 := by
  rw [(C40_statistics ex_backtest four).winningTrades, ex_trades]; decide +kernel
example : T2.pnlField = (q 15 - q 12) * q (20/3) * lit 1 := by
  obtain ⟨a, b, c, h1, h2, h3, h4⟩ := (C40_pnl ex_backtest four T2_mem).1 rfl
  cases h1; cases h2; cases h3; exact h4
example : (exSt 4).metrics.winningTrades + (exSt 4).metrics.losingTrades = (exSt 4).metrics.closedTrades :=
  (C40_counts ex_backtest four).2.mpr (by rw [ex_trades]; decide +kernel)
example : (exSt 4).metrics.equity = q 100 + (exSt 4).metrics.netProfit + (exSt 4).metrics.openProfit := (C42_equity ex_backtest four).1
example : (exSt 4).events.onTradeEntry = some T3 := (C43_events ex_backtest four T3).1.mpr ⟨T3_mem, rfl⟩
example := (C44_size ex_backtest four T2_mem).2 rfl
example : ∃ st, Backtest exCfg exBars exSig 5 st := by
  refine C57_strategy.mpr fun t ht => ⟨_, _, (bars_ofSeries 5 _ _ _ _ _).open_ t ht, (bars_ofSeries 5 _ _ _ _ _).close t ht, fun _ _ _ => ?_, fun _ => ?_⟩
  · split <;> simp
  · simp

/-! ## Strategy2.lean -/

private theorem capital : exCfg.initialCapital = q 100 := rfl
private theorem nineteen : 19 < 20 := by norm_num
private theorem ℓ : (Rounding.binary64 ℝ).Lawful := binary64_lawful ℝ

/-- The first trade of the binary64 run. -/
theorem f_first : ∃ T, T ∈ (fSt 19).trades ∧ T.direction = .long ∧ T.entryTick = some 1 := by
  have h := f_trades
  match hl : (fSt 19).trades with
  | [] => rw [hl] at h; cases h
  | T :: l =>
    rw [hl] at h
    injection h with h1 _
    injection h1 with h1 h2
    injection h2 with h2 _
    exact ⟨T, by simp, h1, h2⟩

example : ∃ net gross loss long short : ℚ, (exSt 4).metrics.netProfit = q net ∧ (exSt 4).metrics.grossProfit = q gross ∧
    (exSt 4).metrics.grossLoss = q loss ∧ (exSt 4).metrics.longNetProfit = q long ∧ (exSt 4).metrics.shortNetProfit = q short ∧
    net = gross - loss ∧ net = long + short ∧ 0 ≤ gross ∧ 0 ≤ loss := C41_identities ex_backtest exBars_finite capital four
example := C44_exact ex_backtest exBars_finite capital rfl four T2_mem
example : ∃ long short : ℚ, tradePnl (q 2) (q 10) (q 13) true = q long ∧ tradePnl (q 2) (q 10) (q 13) false = q short ∧
    short = -long ∧ (0 < long ↔ (10 : ℚ) < 13) ∧ (0 < short ↔ (13 : ℚ) < 10) ∧ (long = 0 ↔ (13 : ℚ) = 10) := C45_exact 2 10 13 (by norm_num)
example := C41_nonneg ℓ f_backtest nineteen
example : ∃ T ∈ (fSt 19).trades, ∃ s, T.fillSize = some s ∧ (s = Fl.of _ .nan ∨ F64.le (lit 0) s = true) :=
  let ⟨T, h, _⟩ := f_first
  ⟨T, h, C44_nonneg ℓ f_backtest nineteen h⟩
example : tradePnl (f 2) (f 10) (f 13) false = -tradePnl (f 2) (f 10) (f 13) true := C45_antisymmetric ℓ _ _ _
example := C45_zero_at_entry ℓ 2 10 true
example := (C45_sign (size := 2) (entry := 10) (price := 13) ℓ (by norm_num)).1 (by norm_num)
example : ∀ T ∈ (exSt 4).trades, ∀ k, ¬ (T.isAtEntry k = true ∧ T.isAtExit k = true) :=
  fun _ hT k => (C36_entry_exit ex_backtest four hT k).2.2

/-! ## Metrics -/

example : (exEm 4).equityMin = q 80 := by
  rw [(C46_values ex_backtest ex_equity four).2.1]; decide +kernel
example : ∃ low high entry size, exBars.low[4]? = some (some low) ∧ exBars.high[4]? = some (some high) ∧ T3.entryPrice = some entry ∧
    T3.fillSize = some size ∧ (exEm 4).barOpenProfitMin = (high - entry) * size * -(lit 1) ∧ (exEm 4).barOpenProfitMax = (low - entry) * size * -(lit 1) ∧
    (exEm 4).barEquityMin = (exEm 4).netEquity + (exEm 4).barOpenProfitMin ∧ (exEm 4).barEquityMax = (exEm 4).netEquity + (exEm 4).barOpenProfitMax :=
  C47_open ex_backtest ex_equity four T3_mem rfl
example : (flatEm 2).barOpenProfitMin = (flatEm 1).barOpenProfitMin :=
  (C47_flat flat_backtest flat_equity (show 2 < 5 by norm_num) (by rw [flat_trades]; simp)).1
example : (exEm 0).barOpenProfitMin = lit 0 ∧ (exEm 0).barOpenProfitMax = lit 0 :=
  C47_no_trade ex_backtest ex_equity (by norm_num) (by decide +kernel)
example : ∃ em, EquityRun (fbars 20) fCfg.initialCapital fSt 20 em ∧ F64.le (em 19).equityMin (f 1000) = true :=
  let ⟨em, h⟩ := f_equity
  ⟨em, h, ((C46_extremes f_backtest h nineteen).2.2.1 (f_ne_nan 1000)).1⟩
example : F64.le (exEm 4).equityMin (exSt 2).metrics.equity = true :=
  ((C46_extremes ex_backtest ex_equity four).2.2.2 2 (by norm_num) (show (exSt 2).metrics.equity ≠ qnan by decide +kernel)).1
example : F64.le (exEm 4).netEquityMin (exEm 2).netEquity = true :=
  ((C46_net_extremes ex_backtest ex_equity four).2.2.2 2 (by norm_num) (show (exEm 2).netEquity ≠ qnan by decide +kernel)).1
example := C46_start (q 100)
example := C50_start (q 100) false
example := C49_start (Strategy.new exCfg) (q 0)
example := C59_start (Strategy.new exCfg) false none

example := C49_counters ex_tv four
example : (exTv 4).data.profitFactor = q 1 := by
  rw [(C49_ratios ex_backtest ex_tv four).2.2.2.1]; decide +kernel
example : (exTv 4).data.netEquityHistory.length = 3 := by
  rw [(C49_histories ex_backtest ex_tv four).2.2.2.2.1]; decide +kernel
example : (exTv 4).data.maxDrawdown = q 30 := by
  rw [(C48_values ex_tv four).1]; decide +kernel
example := C48_cobra_values ex_cobra four
example : (exCo 4).data.intraTradeMaxDd = F64.fmax ((exCo 3).currentTradeMaxDrawdown / q 12) (exCo 3).data.intraTradeMaxDd := by
  obtain ⟨_, entry, h1, h2⟩ := (C59_intra_trade ex_backtest ex_cobra four).2.2 T2 T2_mem rfl
  cases h1; exact h2
example : (exCo 4).data.trades = 2 := by
  rw [(C59_counts ex_backtest ex_cobra four).1]; decide +kernel
/-- Capital 100, then 90, 120, 110. -/
private def values : Nat → ℚ := fun t => [90, 120, 110].getD t 0
private def exReturns (t : Nat) : Returns (Ex ℚ) :=
  ((outputs (total fun s x => (Returns.next s x, Returns.next s x)) (fun t => q (values t)) 3 (.ok (Returns.build (q 100) false))).toOption.getD []).getD t
    (Returns.build (q 100) false)
private theorem exReturns_run : Runs (total fun s x => (Returns.next s x, Returns.next s x)) (.ok (Returns.build (q 100) false)) (fun t => q (values t)) 3
    exReturns := computed (total_runs _ _ _ _) _
example : (exReturns 1).delta = q 20 := by
  rw [C50_delta (q 100) false _ 3 exReturns_run 1 (by norm_num)]; decide +kernel
example : (exReturns 2).meanV = q (20/3) := by
  rw [(C50_stats 100 false values 3 exReturns_run (by norm_num : 2 < 3)).2.1, fin_inj]; decide +kernel
example : ∃ tv, TvRun (fbars 20) fCfg (f 0) fSt 20 tv ∧ F64.le (lit 0) (tv 19).data.maxDrawdown = true :=
  let ⟨tv, h⟩ := f_tv
  ⟨tv, h, (C48_monotone ℓ h nineteen).1⟩
example : ∃ tv, TvRun (fbars 20) fCfg (f 0) fSt 20 tv ∧ F64.le (tv 19).data.percentProfitable (lit 1) = true :=
  let ⟨tv, h⟩ := f_tv
  ⟨tv, h, (C49_percent_range ℓ f_backtest h (by norm_num) nineteen).2⟩

example : ∃ co, CobraRun exBars exCfg false none (fun _ => none) exSt 5 co :=
  (C57_cobra_metrics ex_backtest false none (fun _ => none)).mpr fun t ht => ⟨ex_complete t ht, by simp⟩
/-- With a start year but no time column the Cobra metrics panic. -/
example : ¬ ∃ co, CobraRun exBars exCfg false (some 2018) (fun _ => none) exSt 5 co :=
  fun h => ((C57_cobra_metrics ex_backtest false (some 2018) (fun _ => none)).mp h 0 (by norm_num)).2 (by simp) rfl
example : ∃ co, CobraRun (fbars 20) fCfg false none (fun _ => none) fSt 20 co ∧ F64.le (co 19).data.equityCurveMaxDd (lit 0) = true :=
  let ⟨co, h⟩ := f_cobra
  ⟨co, h, (C48_cobra_monotone ℓ h nineteen).1⟩
example := C58_optional ℓ (f 30) (f 20) 2 3
example := C58_ratios ℓ (f 30) (f 20) (f 1)
example : Metrics.returns (q 6) (q 5) = q (1/5) := (C58_returns 6 5).trans (by norm_num)
example := C58_averages (30 : ℚ) 3 2 (by norm_num)
example := C58_percents ex_backtest exBars_finite capital (by norm_num) four

example : (exEm 4).netEquity = q 100 + (exSt 4).metrics.netProfit ∧ (exEm 4).equity = (exEm 4).netEquity + (exSt 4).metrics.openProfit :=
  C46_net_equity_exact ex_backtest ex_equity capital four
example : ∃ mn e mx : ℚ, (exEm 4).barEquityMin = q mn ∧ (exEm 4).equity = q e ∧ (exEm 4).barEquityMax = q mx ∧ mn ≤ e ∧ e ≤ mx :=
  C47_bracket (lo := 12) (cl := 14) (hi := 17) ex_backtest ex_equity exBars_finite capital four T3_mem rfl rfl rfl rfl (by norm_num)
example := C60_tradingview_ratios ex_backtest ex_tv exBars_finite capital
example := C61_cobra_ratios ex_backtest ex_cobra exBars_finite capital
example := C47_stale_when_flat

/-! ## Position, Compound, Labels -/

example : held exCfg exSig 5 = -1 := by
  rw [(C81_position ex_backtest four).1, ex_trades]; rfl
private theorem five2 : 2 < 5 := by norm_num
private theorem flat_held : held exCfg2 exSig2 3 = 0 := by decide
example : (flatSt 2).metrics.netProfit = q 3 ∧ (flatSt 2).metrics.openProfit = q 0 := by
  obtain ⟨h1, h2⟩ := C81_flat flat_backtest exBars_exact rfl five2 flat_held
  refine ⟨h1.trans ?_, h2⟩
  rw [fin_inj]; decide +kernel
private theorem unit_capital : unitCfg.initialCapital = q 100 := rfl
example := C81_change unit_backtest exBars_exact rfl unit_capital (show 3 + 1 < 5 by norm_num)
example := C81_bound unit_backtest exBars_exact rfl unit_capital four

/-- A second market and a weighted sum of the two: `2 * first + 3 * second`. -/
private def secondBars : DataProvider (Ex ℚ) := bars 5
private def mixBars : DataProvider (Ex ℚ) :=
  .ofSeries 5 (fun t => some (q (2 * [9, 10, 12, 14, 15].getD t 0 + 3 * bo t))) (fun _ => some (q 0)) (fun _ => some (q 0))
    (fun t => some (q (2 * [10, 12, 13, 15, 14].getD t 0 + 3 * bc t))) (fun _ => some (q 0))
example := C81_linear 2 3 unit_backtest
  (computed (C57_strategy_complete unitCfg exSig (bars_ok 5)) (Strategy.new unitCfg))
  (computed (C57_strategy_complete unitCfg exSig (d := mixBars) (bars_ofSeries 5 _ _ _ _ _)) (Strategy.new unitCfg))
  exBars_exact (bars_ok 5) (d₃ := mixBars) (c₃ := fun t => 2 * [10, 12, 13, 15, 14].getD t 0 + 3 * bc t) (bars_ofSeries 5 _ _ _ _ _)
  (fun _ => rfl) (fun _ => rfl) rfl unit_capital four

/-- Long from 1 to 3, then long from 3 to 4, against long from 1 to 4. -/
private def sigA : Nat → Option TradeDirection := fun t => [some .long, none, some .short].getD t none
private def sigB : Nat → Option TradeDirection := fun t => [none, none, some .long, some .short].getD t none
private def sigC : Nat → Option TradeDirection := fun t => [some .long, none, none, some .short].getD t none
private def onceCfg : StrategyConfig (Ex ℚ) := ⟨false, false, fin 100, false⟩
private theorem onceRun (s) : Backtest onceCfg exBars s 5 (stOf onceCfg exBars s 5) :=
  computed (C57_strategy_complete onceCfg s (bars_ofSeries 5 _ _ _ _ _)) _
private theorem onceCapital : onceCfg.initialCapital = q 100 := rfl
example : ∃ w₁ w₂ : ℚ, (stOf onceCfg exBars sigA 5 4).metrics.equity = q (100 + w₁) ∧ (stOf onceCfg exBars sigB 5 4).metrics.equity = q (100 + w₂) ∧
    (stOf onceCfg exBars sigC 5 4).metrics.equity = q (100 + (w₁ + w₂)) :=
  C81_additive (onceRun sigA) (onceRun sigB) (onceRun sigC) exBars_exact rfl rfl rfl onceCapital onceCapital onceCapital rfl rfl
    (by decide) four
/-- A repeated signal changes nothing. -/
private def sigD : Nat → Option TradeDirection := fun t => [some .long, some .long, none, some .short].getD t none
example : ∃ w : ℚ, (stOf onceCfg exBars sigC 5 4).metrics.equity = q (100 + w) ∧ (stOf onceCfg exBars sigD 5 4).metrics.equity = q (100 + w) :=
  C81_same_position (onceRun sigC) (onceRun sigD) exBars_exact rfl rfl onceCapital onceCapital rfl (by decide) four

example := C82_timetable ex_backtest four
private def richCfg : StrategyConfig (Ex ℚ) := { exCfg with initialCapital := q (3 * 100) }
private theorem rich_backtest : Backtest richCfg exBars exSig 5 (stOf richCfg exBars exSig 5) :=
  computed (C57_strategy_complete richCfg exSig (bars_ofSeries 5 _ _ _ _ _)) _
example : ∃ e : ℚ, (exSt 4).metrics.equity = q e ∧ (stOf richCfg exBars exSig 5 4).metrics.equity = q (3 * e) :=
  C82_capital (k := 3) (by norm_num) ex_backtest rich_backtest exBars_exact rfl capital four
/-- The market of `exBars` in cents. -/
private def centBars : DataProvider (Ex ℚ) :=
  .ofSeries 5 (fun t => some (q (100 * [9, 10, 12, 14, 15].getD t 0))) (fun _ => some (q 0)) (fun _ => some (q 0))
    (fun t => some (q (100 * [10, 12, 13, 15, 14].getD t 0))) (fun _ => some (q 0))
example : (stOf exCfg centBars exSig 5 4).metrics.equity = (exSt 4).metrics.equity :=
  C82_price_units (k := 100) (by norm_num) ex_backtest
    (computed (C57_strategy_complete exCfg exSig (d := centBars) (bars_ofSeries 5 _ _ _ _ _)) _) exBars_exact (d' := centBars)
    (bars_ofSeries 5 _ _ _ _ _) (fun _ => rfl) (fun _ => rfl) rfl capital four
private def hold : Nat → Option TradeDirection := fun t => if t = 0 then some .long else none
private theorem exPositive : ∀ t, t < 5 → (0 : ℚ) < [9, 10, 12, 14, 15].getD t 0 ∧ (0 : ℚ) < [10, 12, 13, 15, 14].getD t 0 := by decide +kernel
example : ∃ e : ℚ, (stOf exCfg exBars hold 5 4).metrics.equity = q e ∧ 0 < e :=
  C82_long (computed (C57_strategy_complete exCfg hold (bars_ofSeries 5 _ _ _ _ _)) _) exBars_exact rfl capital (by norm_num)
    exPositive four (by decide +kernel)
example : ∃ e : ℚ, (exSt 4).metrics.equity = q e ∧ (TradeDirection.short = .long → 0 < e) ∧
    (TradeDirection.short = .short → e < 2 * (100 + 0) ∧ (e ≤ 0 ↔ 2 * (15 : ℚ) ≤ [10, 12, 13, 15, 14].getD 4 0)) :=
  C82_limits ex_backtest exBars_exact rfl capital four (net := 0) (entry := 15) (by decide +kernel) (by norm_num) T3_mem rfl rfl (by norm_num)
    (exPositive 4 four).2

example : T2.getTriangleColoredString 4 = positionArrow 1 0 := (C85_triangle ex_backtest four T2_mem 4).2.1 rfl
example := C85_no_exit_shown ex_backtest rfl four (T := T3) (by rw [ex_trades]; rfl)
example := C85_plot_trades (fun x : Ex ℚ => x) ex_backtest ex_tv four

end Pace.Cases
