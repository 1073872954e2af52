import Verif.Cases.Runs
import Verif.Props.Causal
import Verif.Props.Snapshot
import Verif.Props.Io
import Verif.Props.Report
import Verif.Props.Program
import Verif.Props.Panics
import Verif.Props.Panics2
import Verif.Props.Calendar
import Verif.Props.Mirror2
import Verif.Cases.Rounded

/-! # The theorems on whole programs (C51, C57, C65, C66, C74, C75, C76) at concrete cases -/

namespace Pace.Cases
open Pace Spec Calendar

/-! ## No look-ahead -/

/-- The market of `bars`, cut off and replaced by something else after bar 8. -/
private def other (t : Nat) (x : ℚ) : Option (Ex ℚ) := some (q (if t < 9 then x else 50))
private def bars' : DataProvider (Ex ℚ) :=
  .ofSeries 12 (fun t => other t (bo t)) (fun t => other t (bh t)) (fun t => other t (bl t)) (fun t => other t (bc t)) (fun t => other t (bv t))
private def times9 (d : DataProvider (Ex ℚ)) : DataProvider (Ex ℚ) := { d with time := [] }
private theorem agree : AgreeUpTo 9 (times9 (bars 9)) (times9 bars') := by
  constructor <;> decide +kernel
/-- They do differ. -/
example : (times9 (bars 9)).close ≠ (times9 bars').close := by decide +kernel

example : outputs (fun t => Rsi.next ⟨times9 (bars 9), t⟩) (fun t => some (q (pi t))) 9 (Rsi.new 3) =
    outputs (fun t => Rsi.next ⟨times9 bars', t⟩) (fun t => some (q (if t < 9 then pi t else 0))) 9 (Rsi.new 3) :=
  C51_outputs C51_ta.2.2.2.2.2.2.2.2.2.2.2.2.2.1 _ 9 _ _ agree _ _ fun t ht => by rw [if_pos ht]
example : outputs (noInput fun t => Atr.next ⟨times9 (bars 9), t⟩) unit 9 (Atr.new 3) = outputs (noInput fun t => Atr.next ⟨times9 bars', t⟩) unit 9 (Atr.new 3) :=
  C51_outputs C51_ta_bars.2.2.1 _ 9 _ _ agree _ _ fun _ _ => rfl
example : outputs (fun t => CommodityChannelIndex.next ⟨times9 (bars 9), t⟩) (fun t => some (q (pi t))) 9 (CommodityChannelIndex.new 3) =
    outputs (fun t => CommodityChannelIndex.next ⟨times9 bars', t⟩) (fun t => some (q (if t < 9 then pi t else 0))) 9 (CommodityChannelIndex.new 3) :=
  C51_outputs C51_content.2.2.2.2.1 _ 9 _ _ agree _ _ fun t ht => by rw [if_pos ht]
example : outputs (noInput fun t => Dmi.next ⟨times9 (bars 9), t⟩) unit 9 (Dmi.new 3 2) = outputs (noInput fun t => Dmi.next ⟨times9 bars', t⟩) unit 9 (Dmi.new 3 2) :=
  C51_outputs C51_content_bars.2.2.2.2.2.1 _ 9 _ _ agree _ _ fun _ _ => rfl
example : outputs (noInput fun t => withSrc .hlc3 Sma.next ⟨times9 (bars 9), t⟩) unit 9 (Sma.new 3) =
    outputs (noInput fun t => withSrc .hlc3 Sma.next ⟨times9 bars', t⟩) unit 9 (Sma.new 3) :=
  C51_outputs (C51_with_src .hlc3 C51_ta.1) _ 9 _ _ agree _ _ fun _ _ => rfl
/-- RSI of the RSI. -/
example : NoLookAhead (α := Ex ℚ) (pipe Rsi.next Rsi.next) :=
  C51_pipe C51_ta.2.2.2.2.2.2.2.2.2.2.2.2.2.1 C51_ta.2.2.2.2.2.2.2.2.2.2.2.2.2.1
/-- The first five of nine averages are those of a run of five ticks. -/
example : outputs (fun t => Sma.next ⟨bars 9, t⟩) (fun t => some (q (pi t))) 5 (Sma.new 3) =
    .ok [none, none, some (q (8 / 3)), some (q 2), some (q (10 / 3))] :=
  Eq.trans (C51_prefix (fun t => Sma.next ⟨bars 9, t⟩) (fun t => some (q (pi t))) (Sma.new 3) 5 4
    [none, none, some (q (8 / 3)), some (q 2), some (q (10 / 3)), some (q 5), some (q (16 / 3)), some (q (17 / 3)), some (q (13 / 3))] (by decide +kernel)) rfl
/-- MACD with a weighted and two other averages of the crate. -/
example : NoLookAhead (α := Ex ℚ) (MacdOf.next Wma.next Ma.next Ma.next) :=
  (C51_any_averages (fun _ _ h => h.wma) (fun _ _ h => h.ma) (fun _ _ h => h.ma)).1
example : outputs (fun t => runner ⟨times9 (bars 9), t⟩) fSig 9 (.ok (Strategy.new exCfg)) =
    outputs (fun t => runner ⟨times9 bars', t⟩) fSig 9 (.ok (Strategy.new exCfg)) :=
  C51_outputs C51_strategy _ 9 _ _ agree _ _ fun _ _ => rfl
example := C51_outputs (C51_metrics (α := Ex ℚ)).1 (.ok (EquityMetrics.new (q 100))) 9 _ _ agree (stOf exCfg (times9 (bars 9)) fSig 9)
  (stOf exCfg (times9 (bars 9)) fSig 9) fun _ _ => rfl
example := C51_backtest (do
  let r ← Rsi.new 3
  return (((r, ThresholdStrategy.mk' (q 50) (q 50)), Strategy.new exCfg), TvMetrics.new (Strategy.new exCfg) (q 0))) 9 _ _ agree

/-! ## The test helper -/

private def snap : ArraySnapshot (Option (Ex ℚ)) := ⟨false, none, [some (q 1), some (q 2), none]⟩
private def good : List (Option (Ex ℚ)) := [some (q 1), some (q (2000001 / 1000000)), none]
private def bad : List (Option (Ex ℚ)) := [some (q 1), some (q (21 / 10)), some (q 3)]

example : snap.actual.length = good.length ∧ ∀ i, ¬ DiffersAt optFloatCompare snap.actual good i :=
  (C76_passes (s := snap) rfl).mp (by decide +kernel)
example : (snap.debug.assertIter bad optFloatCompare).2 = .ok () := (C76_debug rfl).mpr rfl
example : DiffersAt optFloatCompare snap.actual bad 1 ∧ ∀ j, j < 1 → ¬ DiffersAt optFloatCompare snap.actual bad j :=
  (C76_reports_first (s := snap) (cmp := optFloatCompare) (e := bad) rfl 1).mp (by decide +kernel)
example : snap.debug.debugMode = true ∧ 0 < snap.debug.actual.length ∧ (∀ l, l ≤ 0 → ¬ DiffersAt optFloatCompare snap.debug.actual bad l) ∧
    ∀ m, snap.debug.printMaxIndex = some m → 0 < m :=
  (C76_debug_lines (s := snap.debug) (cmp := optFloatCompare) (e := bad) rfl 0).mp (by decide +kernel)
example : ([q 1, q 2].foldl ArraySnapshot.push .new).actual = [q 1, q 2] := (C76_push _).1
example : ([some (q 4)].foldl ArraySnapshot.push (snap.setActual [none])).actual = [none, some (q 4)] := (C76_actual snap _ _).1
example : List.Forall₂ Close snap.actual good := (C76_floats (s := snap) rfl good).mp (by decide +kernel)
example : ¬ List.Forall₂ Close snap.actual bad := fun h => absurd ((C76_floats (s := snap) rfl bad).mpr h) (by decide +kernel)
example : Close (some (q 1)) (some (q 1)) ∧ Close (none : Option (Ex ℚ)) none ∧ true = true :=
  (C76_tuples (K := ℚ) (some (q 1)) none (some (q 1)) none true true none none none none none none).1.mp (by decide +kernel)
/-- The second components 2 and 7 are not compared. -/
example : List.Forall₂ (Option.Rel fun x y => Close x.1 y.1) [some (some (q 1), some (q 2))] [some (some (q 1), some (q 7))] :=
  (C76_second_ignored (s := ⟨false, none, [some (some (q 1), some (q 2))]⟩) rfl _).mp (by decide +kernel)
example : (([some 1, none] : List (Option Nat)).foldl ArraySnapshot.push .new).actual = [some 1, none] :=
  (C76_equal (s := ([some 1, none].foldl ArraySnapshot.push .new)) rfl [some 1, none]).mp (by decide +kernel)
example : .value 0 ∈ ((snap.debugMax 1).assertIter good optFloatCompare).1 ∧ .value 1 ∉ ((snap.debugMax 1).assertIter good optFloatCompare).1 :=
  have h := (C76_modes (s := snap) optFloatCompare good 1).2.2.2.2.2 rfl
  ⟨(h 0).mpr ⟨by decide, fun l _ => ((C76_passes (s := snap) rfl).mp (by decide +kernel)).2 l, by decide⟩, fun hv => absurd ((h 1).mp hv).2.2 (by decide)⟩
example : snap.assertIter [none] optFloatCompare = ([], .error .assertFailed) := C76_lengths (by decide)

/-! ## Data frames -/

private theorem exCols : Ohlcv exFrame [some (q 1), some (q 2)] [some (q 3), some qnan] [none, some (q 1)] [some (q 2), some (q 1)]
      [some (q 5), some (q 6)] [some (q 60), some (q 120)] := ⟨rfl, rfl, rfl, rfl, rfl, rfl⟩
private def secs (_ : Ex ℚ) : Res Nat := .ok 7
private theorem loaded : ∃ d, DataProvider.fromDf secs exFrame = .ok d :=
  (C66_loads secs exFrame).mpr ⟨_, _, _, _, _, _, exCols, by simp, fun _ _ _ => ⟨7, rfl⟩⟩
/-- The NaN and the null cell are missing. -/
example : ∃ d, DataProvider.fromDf secs exFrame = .ok d ∧ d.high = [some (q 3), none] ∧ d.low = [none, some (q 1)] ∧ d.endTick = 1 := by
  obtain ⟨d, hd⟩ := loaded
  obtain ⟨_, h, l, _, _, _, _, e, _⟩ := C66_cells exCols hd
  exact ⟨d, hd, h.trans (by decide +kernel), l.trans (by decide +kernel), by simpa using e⟩
example : ∃ d, DataProvider.fromDf secs exFrame = .ok d ∧ ∀ x, some x ∈ d.high → F64.feq x x = true := by
  obtain ⟨d, hd⟩ := loaded
  exact ⟨d, hd, C66_no_nan hd _ (by simp)⟩

/-- The frame of the market of `bars`. -/
private def frame (N : Nat) : Frame (Ex ℚ) :=
  ⟨[("time", hist (fun _ => none) N), ("open", hist (fun k => some (q (bo k))) N), ("high", hist (fun k => some (q (bh k))) N),
    ("low", hist (fun k => some (q (bl k))) N), ("close", hist (fun k => some (q (bc k))) N), ("volume", hist (fun k => some (q (bv k))) N)]⟩
private theorem frameCols (N : Nat) : Ohlcv (frame N) (hist (fun k => some (q (bo k))) N) (hist (fun k => some (q (bh k))) N)
    (hist (fun k => some (q (bl k))) N) (hist (fun k => some (q (bc k))) N) (hist (fun k => some (q (bv k))) N) (hist (fun _ => none) N) :=
  ⟨rfl, rfl, rfl, rfl, rfl, rfl⟩
private theorem noTime (N : Nat) (x : Ex ℚ) (_ : some x ∈ hist (fun _ => (none : Option (Ex ℚ))) N) : F64.feq x x = true → ∃ n, secs x = .ok n :=
  fun _ => ⟨7, rfl⟩
example : ∃ d, DataProvider.fromDf secs (frame 9) = .ok d ∧ Bars d 9 (fun t => q (bo t)) (fun t => q (bh t)) (fun t => q (bl t)) (fun t => q (bc t)) (fun t => q (bv t)) ∧
    d.endTick + 1 = 9 := by
  obtain ⟨d, hd⟩ := (C66_loads secs (frame 9)).mpr ⟨_, _, _, _, _, _, frameCols 9, by simp [hist], noTime 9⟩
  have h := C66_bars (frameCols 9) (fun k _ => by simp) hd
  exact ⟨d, hd, h.1, h.2.2⟩
example : (toTradeDir [some (q 1), none, some (q (-1)), some (q 5)])[0]? = some (some .long) :=
  (C66_trade_dir _ 0).1.mpr ⟨q 1, rfl, by decide +kernel, by decide +kernel⟩
example := C66_merge (df := exFrame) (n1 := "open") (n2 := "high") (n3 := "low") (n4 := "close") rfl rfl rfl rfl (N := 2) rfl rfl rfl rfl
example : readDf (some "csv") (.ok 1) (.ok 2) = .ok 2 := (C66_read_df (some "csv") _ _).2.1 rfl
example : getFilenameExtension "btc.1d.csv".toList = some "csv" ∧ getFilename "btc.1d.csv".toList = "btc.1d" :=
  (C66_extension "btc.1d".toList "csv".toList (by decide)).1 (by decide) (by decide)
example : readDf (getFilenameExtension "btc.parquet".toList) (.ok 1) (.ok 2) = .ok 1 :=
  ((C66_files "btc.parquet".toList (.ok 1) (.ok 2) (.ok ()) (.ok ())).1 ⟨"btc".toList, by decide, by decide⟩).1

/-! ## Reports -/

example : ∃ dd ddp : ℚ, (exTv 4).data.printOverview "USD" =
      [⟨"Net Profit", .both (fin 0) "USD" (fin 0), 0⟩, ⟨"Total Closed Trades", .count 2, 0⟩, ⟨"Percent Profitable", .suffixed (fin 50) "%", 0⟩,
       ⟨"Profit Factor", .number (fin 1) 3, 0⟩, ⟨"Max Drawdown", .both (fin dd) "USD" (fin (ddp * 100)), band (-dd) (-(1 / 5)) (-(1 / 5))⟩,
       ⟨"Avg Trade", .suffixed (fin 0) " USD", 0⟩] := by
  obtain ⟨hp, ⟨dd, ddp, _, h1, h2⟩, _⟩ := exReport_facts
  refine ⟨dd, ddp, (C75_overview (cap := 100) ex_backtest ex_tv rfl (by norm_num) (by norm_num) hp h1 h2 "USD" _ _ _ rfl rfl rfl).trans ?_⟩
  norm_num [part, band]
  rfl
example := C75_summary (cap := 100) ex_backtest ex_tv rfl (by norm_num) (by norm_num : 4 < 5) exReport_facts.1 (dd := 30) (ddp := 3 / 10)
  (ru := 40) (rup := 1 / 3) (sharpe := -8 / 9) (sortino := -8 / 9) (openPl := 20 / 3)
  (by decide +kernel) (by decide +kernel) (by decide +kernel) (by decide +kernel) (by decide +kernel) (by decide +kernel) (by decide +kernel) "USD"
example := C75_cobra ex_backtest ex_cobra (by norm_num : 4 < 5) exReport_facts.1 (dd := -1 / 5) (intra := 3) (sharpe := 1539 / 470) (sortino := 513 / 104)
  (omega := 1501 / 52) (lsr := 1)
  (by decide +kernel) (by decide +kernel) (by decide +kernel) (by decide +kernel) (by decide +kernel) (by decide +kernel)
example : ∃ co, CobraRun (fbars 20) fCfg false none (fun _ => none) fSt 20 co ∧ colour (co 19).data.print "Intra-trade Max DD" = some 1 := by
  obtain ⟨co, h⟩ := f_cobra
  exact ⟨co, h, (C75_intra_trade_always_green (Valued.unsigned _) (binary64_lawful ℝ) quarter_binary64 h (by norm_num)).2⟩
example : ∃ co, CobraRun b64Bars sCfg false none (fun _ => none) sSt 5 co ∧ colour (co 4).data.print "Intra-trade Max DD" = some 1 := by
  obtain ⟨co, h⟩ := s_cobra
  exact ⟨co, h, C75_intra_trade_binary64 h (by norm_num)⟩
/-- One winner, bought at 10 and sold at 13: the profit factor is shown as 0, in red. -/
private noncomputable def winCfg : StrategyConfig (Ex ℝ) := ⟨true, false, fin 100, false⟩
private theorem winRun : ∃ st tv co, Backtest winCfg realBars exSig2 5 st ∧ TvRun realBars winCfg (fin 0) st 5 tv ∧
    CobraRun realBars winCfg false none (fun _ => none) st 5 co := by
  have hb : Bars realBars 5 _ _ _ _ _ := bars_ofSeries 5 _ _ _ _ _
  obtain ⟨st, h⟩ := C57_strategy_complete winCfg exSig2 hb
  have hc : ∀ t, t < 5 → OpenBarsComplete realBars st t := fun t ht _ => ⟨⟨_, hb.low t ht⟩, ⟨_, hb.high t ht⟩⟩
  obtain ⟨tv, htv⟩ := (C57_tradingview_metrics h (fin 0)).mpr hc
  obtain ⟨co, hco⟩ := (C57_cobra_metrics h false none (fun _ => none)).mpr fun t ht => ⟨hc t ht, by simp⟩
  exact ⟨st, tv, co, h, htv, hco⟩
private theorem price0 : fillPrice winCfg realBars 0 = fin 10 := rfl
private theorem price1 : fillPrice winCfg realBars 1 = fin 12 := rfl
private theorem price2 : fillPrice winCfg realBars 2 = fin 13 := rfl
private theorem order0 : order winCfg exSig2 0 = some .long := rfl
private theorem order1 : order winCfg exSig2 1 = none := rfl
private theorem order2 : order winCfg exSig2 2 = some .short := rfl
example : ∃ st tv co, Backtest winCfg realBars exSig2 5 st ∧ TvRun realBars winCfg (fin 0) st 5 tv ∧
    CobraRun realBars winCfg false none (fun _ => none) st 5 co ∧ (st 2).trades = [⟨.long, true, some 0, some (fin 10), some 2, some (fin 13), some (fin 1), fin 3⟩] ∧
    colour ((tv 2).data.printOverview "USD") "Profit Factor" = some (-1) := by
  obtain ⟨st, tv, co, h, htv, hco⟩ := winRun
  have e : (st 2).trades = [⟨.long, true, some 0, some (fin 10), some 2, some (fin 13), some (fin 1), fin 3⟩] := by
    rw [C39_refines h (by norm_num : 2 < 5)]
    simp only [ledger, price0, price1, price2, order0, order1, order2]
    simp [Ledger.tick, Ledger.enter, Ledger.trades, winCfg, Closed.toTrade, Closed.profit, Holding.profit]
    norm_num
  refine ⟨st, tv, co, h, htv, hco, e, (C75_no_loss_is_red (Valued.unsigned _) exact_lawful h htv hco (by norm_num) (fun T hT _ => ?_) "USD").2.1⟩
  rw [e, List.mem_singleton] at hT
  subst hT
  exact decide_eq_false (by norm_num)
/-- After the first bar (bought at its close 10, its low is 8) the drawdown is 2: enough or too little, depending on the unit of money. -/
example (c : Int) (hc : c = 1 ∨ c = -1) : ∃ k : ℝ, 0 < k ∧ ∃ st tv, TvRun (realBars.rescale (times k) id) { winCfg with initialCapital := times k winCfg.initialCapital } (times k (fin 0)) st 5 tv ∧
    colour ((tv 0).data.printOverview "USD") "Max Drawdown" = some c := by
  obtain ⟨st, tv, co, h, htv, hco⟩ := winRun
  have e : (st 0).trades = [⟨.long, false, some 0, some (fin 10), none, none, some (fin 1), fin 0⟩] := by
    rw [C39_refines h (by norm_num : 0 < 5)]
    simp only [ledger, price0, order0]
    simp [Ledger.tick, Ledger.enter, Ledger.trades, winCfg, Holding.toTrade]
  have hem := tv_em htv
  obtain ⟨lo, hi, en, sz, g1, g2, g3, g4, g5, g6, g7, _⟩ := C47_open h hem (by norm_num : 0 < 5)
    (T := ⟨.long, false, some 0, some (fin 10), none, none, some (fin 1), fin 0⟩) (by rw [e]; simp) rfl
  have g1' : some (some lo) = some (some (fin 8 : Ex ℝ)) := by rw [← g1]; rfl
  cases g1'; cases g3; cases g4
  have hnp : (st 0).metrics.closedTrades = 0 := by
    rw [(C40_statistics h (by norm_num : 0 < 5)).closedTrades, e]; rfl
  obtain ⟨_, _, _, v4, _, v6⟩ := C46_values h hem (by norm_num : 0 < 5)
  have hdd : (tv 0).data.maxDrawdown = fin 2 := by
    rw [(C48_values htv (by norm_num : 0 < 5)).1]
    simp only [List.range_one, zero_add, List.map_cons, List.map_nil, runMax', List.foldl]
    simp only at g5 g7 v4 v6
    rw [if_pos hnp] at v4
    have hmax : (tv 0).equityMetrics.netEquityMax = fin 100 := by
      rw [v6]
      simp only [exits, zero_add, List.range_one, runMax]
      cases hx : exited st 0 <;> simp [hx, v4, winCfg]
    rw [g7, g5, hmax, v4]
    simp [winCfg]
    norm_num
  obtain ⟨k, hk, st', tv', _, htv', _, hcol⟩ := C75_drawdown_colour h htv hdd (by norm_num) c hc "USD"
  exact ⟨k, hk, st', tv', htv', hcol⟩

/-! ## Programs -/

example : ∃ w w1 w2 p2, World.new (bars 5) = .ok w ∧ w.clone 0 = .ok w1 ∧
    ForLoop (bars 5) 1 (fun c p => .ok (p + c.index, p + 1)) w1 0 [0, 2, 4, 6, 8] w2 p2 :=
  (C65_loop (d := bars 5) rfl rfl (fun c p => .ok (p + c.index, p + 1)) 0 [0, 2, 4, 6, 8]).mpr (by decide +kernel)
/-- A program that trades the 3-bar average of the closes against the level 13 on the market of `bars`. -/
private def ind (c : Ctx (Ex ℚ)) (s : Sma (Ex ℚ)) := withSrc .close Sma.next c s
private def avg (t : Nat) : Option (Ex ℚ) := sma0 3 (fun t => some (q (bc t))) t
private theorem avg_runs (d : DataProvider (Ex ℚ)) (h : Bars d 9 (fun t => q (bo t)) (fun t => q (bh t)) (fun t => q (bl t)) (fun t => q (bc t)) (fun t => q (bv t))) :
    Runs (noInput fun t => ind ⟨d, t⟩) (Sma.new 3) unit 9 avg :=
  withSrc_runs (fun t ht => src_exact' h .close t ht) (sma_runs d (by norm_num : 1 ≤ 3) _ 9)
private def sgn (t : Nat) : Option TradeDirection := if t = 4 then some .long else none
private theorem sgn_runs : Runs (total ThresholdStrategy.next) (.ok (ThresholdStrategy.mk' (q 13) (q 13))) avg 9 sgn := by
  unfold Runs; decide +kernel
example : ∃ st tv, Backtest exCfg (bars 9) sgn 9 st ∧ TvRun (bars 9) exCfg (q 0) st 9 tv ∧
    Runs (noInput fun t => Program.next ind ThresholdStrategy.next ⟨bars 9, t⟩) (Program.new (Sma.new 3) (ThresholdStrategy.mk' (q 13) (q 13)) exCfg (q 0)) unit 9
      (fun t => (avg t, sgn t, st t, tv t)) :=
  C65_program (bars_ok 9) (avg_runs _ (bars_ok 9)) sgn_runs exCfg (q 0)
example : ∃ d st tv, DataProvider.fromDf secs (frame 9) = .ok d ∧ Backtest exCfg d sgn 9 st ∧ TvRun d exCfg (q 0) st 9 tv ∧
    ∀ os, BacktestProgram secs (frame 9) (Sma.new 3) ind (ThresholdStrategy.mk' (q 13) (q 13)) ThresholdStrategy.next exCfg (q 0) os ↔
      os = hist (fun t => (avg t, sgn t, st t, tv t)) 9 := by
  obtain ⟨d, st, tv, h1, _, h2, h3, h4⟩ := C65_frame (by norm_num : 1 ≤ 9) (frameCols 9)
    (fun k _ => by simp) (noTime 9) avg_runs sgn_runs exCfg (q 0)
  exact ⟨d, st, tv, h1, h2, h3, h4⟩
example : outputs (noInput fun t => Program.next ind ThresholdStrategy.next ⟨times9 (bars 9), t⟩) unit 9 (Program.new (Sma.new 3) (ThresholdStrategy.mk' (q 13) (q 13)) exCfg (q 0)) =
    outputs (noInput fun t => Program.next ind ThresholdStrategy.next ⟨times9 bars', t⟩) unit 9 (Program.new (Sma.new 3) (ThresholdStrategy.mk' (q 13) (q 13)) exCfg (q 0)) :=
  C51_outputs (next := fun c p (_ : Unit) => Program.next ind ThresholdStrategy.next c p) (C65_no_look_ahead (C51_with_src .close C51_ta.1)) _ 9 _ _ agree _ _ fun _ _ => rfl
example : ∃ st, Backtest exampleRules (bars 9) fSig 9 st :=
  let ⟨_, h⟩ := C57_strategy_complete StrategyConfig.default fSig (bars_ok 9)
  ⟨_, C65_default_config h⟩
example := C65_example (fromSecs := secs) (by norm_num : 1 ≤ 9) (frameCols 9) (noTime 9)

/-! ## Panics -/

example : Succeeds (Rsi.new (α := Ex ℚ) 2) ∧ ¬ Succeeds (Rsi.new (α := Ex ℚ) 1) :=
  ⟨(C57_constructors 2).2.2.2.2.2.2.2.2.2.2.2.2.2.2.2.2.2.1.mpr le_rfl, fun h => absurd ((C57_constructors 1).2.2.2.2.2.2.2.2.2.2.2.2.2.2.2.2.2.1.mp h) (by norm_num)⟩
example : Succeeds (Swma.new (α := Ex ℚ)) := C57_swma_constructor
example : NeverPanics (fun t => Wma.next ⟨bars 9, t⟩) (Wma.new 3) (fun t => (gap t).map q) 9 :=
  (C57_gap_tolerant (bars 9) (by norm_num : 1 ≤ 3) (fun t => (gap t).map q) (fun _ => none) (fun _ => none) true 9).2.2.1
example : NeverPanics (fun t => Rma.next ⟨bars 9, t⟩) (Rma.new 3) (fun t => (dense t).map q) 9 :=
  (C57_recursive (bars 9) (by norm_num : 1 ≤ 3) (q 1) (fun t => (dense t).map q) 9 (fun _ _ => rfl)).2.2.1
example : NeverPanics (noInput fun t => Atr.next ⟨bars 9, t⟩) (Atr.new 3) unit 9 := (C57_bars (bars 9) (by norm_num : 1 ≤ 3) (bars_ok 9)).2.2.1
example : ¬ Succeeds (ConnorsRsi.new (α := Ex ℚ) 3 1 9) := fun h =>
  absurd ((C57_content_constructors 3 1 9 0 (q 1)).2.2.2.2.2.2.2.1.mp h).2.1 (by norm_num)
example : ¬ (GapFree 2 (rviUpper 5 fun t => some (q (([3, 2, 1, 2] : List ℚ).getD t 0))) 4 ∧ GapFree 2 (rviLower 5 fun t => some (q (([3, 2, 1, 2] : List ℚ).getD t 0))) 4) := fun h =>
  C57_relative_volatility_panics (bars 4) (by omega) (by omega) (p := fun t => q (([3, 2, 1, 2] : List ℚ).getD t 0)) (N := 4) (by decide +kernel) (by decide +kernel) (by omega)
    ((C57_relative_volatility_iff (bars 4) (by norm_num : 1 ≤ 5) (le_refl 2) _ 4).mpr h)
example := C57_relative_volatility_one (bars 9) (by norm_num : 1 ≤ 5) (flo gap) 9
example := C57_relative_volatility_safe (bars 9) (by norm_num : 1 ≤ 5) (by norm_num : 2 ≤ 3) (by norm_num) (fun t => q (pi t)) 9

/-! ## Years -/

example : newYear 2018 ≤ 1514764800000 ∧ 1514764800000 < newYear 2019 :=
  ((C74_year (by norm_num) (by norm_num : 1970 ≤ 2018)).mp (by decide +kernel : yearOfMillis 1514764800000 = some ((2018 : Nat) : Int))).2
example : yearOfMillis 9000000000000000000 = none ∧ newYear 262144 ≤ 9000000000000000000 :=
  have h : yearOfMillis 9000000000000000000 = none := by decide +kernel
  ⟨h, (C74_no_year (by norm_num)).mp h⟩
example : yearOfMillis (2 ^ 64 - 1) = some 1969 ∧ (1969 : Int) < 1970 :=
  have h : yearOfMillis (2 ^ 64 - 1) = some 1969 := by decide +kernel
  ⟨h, (C74_large_times (2 ^ 64 - 1)).2 (by norm_num) 1969 h⟩
private theorem bar2 : counted (some ((2018 : Nat) : Int)) (Ctx.barYear ⟨datedBars, 2⟩) = true := by decide +kernel
example : newYear 2018 ≤ datedTau 2 := (C74_counted datedBars_run.1 (by norm_num : 1970 ≤ 2018) (by norm_num : 2 < 5)).mp bar2
example : counted (some ((2018 : Nat) : Int)) (Ctx.barYear ⟨datedBars, 3⟩) = true :=
  C74_suffix datedBars_run.1 datedBars_run.2.2.1 (by norm_num : 1970 ≤ 2018) (by norm_num : 2 ≤ 3) (by norm_num) bar2
example : ∃ st co, Backtest exCfg datedBars exSig 5 st ∧ DatedCobraRun datedBars exCfg false (some ((2018 : Nat) : Int)) st 5 co ∧
    ∃ e : Nat → ℚ, ∀ k, k < 5 → (st k).metrics.equity = fin (e k) := by
  obtain ⟨st, co, hb, h⟩ := datedBars_run.2.2.2
  obtain ⟨e, he, _⟩ := C74_ratios (cap := 100) hb (by norm_num : 1970 ≤ 2018) datedBars_run.1 h (exBars_finite : FinitePrices datedBars) rfl
  exact ⟨st, co, hb, h, e, he⟩

end Pace.Cases
