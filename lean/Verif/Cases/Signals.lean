import Verif.Props.OnlyPosition
import Verif.Props.TwoReports
import Verif.Props.NoGap
import Verif.Cases.Strategy

/-! # The theorems on signals, positions and reports (C88–C90) at concrete runs -/

namespace Pace.Cases
open Pace Spec

/-! ## C88 -/

/-- The signals short, long, long, short, with the second `long` left out. -/
private def sigOnce : Nat → Option TradeDirection := fun t => [some .short, some .long, none, some .short].getD t none

example : (List.range 5).map (changes exSig) = (List.range 5).map sigOnce := by decide
private theorem once_held : ∀ n, n ≤ 5 → held exCfg exSig n = held exCfg sigOnce n := by decide
private theorem once_latest : ∀ n, n ≤ 5 → latest exSig n = latest sigOnce n := by decide

example : ∃ st', Backtest exCfg exBars sigOnce 5 st' ∧ (st' 4).trades = (exSt 4).trades ∧ TvRun exBars exCfg (q 0) st' 5 exTv := by
  obtain ⟨st', h1, h2⟩ := C88_same_position ex_backtest once_held
  exact ⟨st', h1, (h2 4 (by norm_num)).trades.symm, (C88_reports h2).2.1 _ _ ex_tv⟩
example : ∃ st', Backtest exCfg exBars sigOnce 5 st' ∧ (st' 4).metrics = (exSt 4).metrics := by
  obtain ⟨st', h1, h2⟩ := C88_latest ex_backtest rfl once_latest
  exact ⟨st', h1, (h2 4 (by norm_num)).metrics.symm⟩
example : ∃ st', Backtest exCfg exBars (changes exSig) 5 st' ∧ (st' 4).metrics = (exSt 4).metrics := by
  obtain ⟨st', h1, h2⟩ := C88_repeats ex_backtest rfl
  exact ⟨st', h1, (h2 4 (by norm_num)).metrics.symm⟩
/-- The last signal before the bar was `long`. -/
example : held exCfg exSig 4 = 1 := C88_continuous (cfg := exCfg) (sig := exSig) rfl 3

/-- In binary64, on twenty bars. -/
example : ∃ st', Backtest fCfg (fbars 20) (changes fSig) 20 st' ∧ (st' 19).trades = (fSt 19).trades := by
  obtain ⟨st', h1, h2⟩ := C88_repeats f_backtest rfl
  exact ⟨st', h1, (h2 19 (by norm_num)).trades.symm⟩

/-- A close-only run: long, short, short. -/
private def closeCfg : StrategyConfig (Ex ℚ) := ⟨true, false, q 100, true⟩
private def sigTwice : Nat → Option TradeDirection := fun t => [some .long, some .short, some .short].getD t none
private theorem close_run (sig : Nat → Option TradeDirection) : Backtest closeCfg exBars sig 5 (stOf closeCfg exBars sig 5) :=
  computed (C57_strategy_complete closeCfg sig (bars_ofSeries 5 _ _ _ _ _)) _
example := C88_close_only (cfg := closeCfg) (sig := sigTwice) rfl rfl rfl rfl rfl (close_run _) (close_run _) (by norm_num)

/-! ## C89 -/

example : (exTv 4).equityMetrics = exEm 4 ∧ (exCo 4).equityMetrics = exEm 4 := C89_equity ex_tv ex_cobra ex_equity (by norm_num)
example : (exCo 4).data.trades = (exTv 4).data.totalClosedTrades ∧ (exCo 4).data.profitable = (exTv 4).data.percentProfitable ∧
    (exCo 4).data.profitFactor = (exTv 4).data.profitFactor := C89_counts (by decide +kernel) ex_backtest ex_tv ex_cobra (by norm_num)
example : (exTv 4).data.totalClosedTrades = 2 ∧ (exTv 4).data.profitFactor ≠ q 0 ∧ (exTv 4).data.sharpeRatio ≠ (exCo 4).data.sharpe := by
  decide +kernel

/-! ## C90 -/

/-- Bars without gaps: 10, 12, 13, 15, 14 are the closes, and each is the next open. -/
private def tight : DataProvider (Ex ℚ) :=
  .ofSeries 5 (fun t => q ([9, 10, 12, 13, 15].getD t 0)) (fun t => q ([11, 13, 14, 16, 17].getD t 0))
    (fun t => q ([8, 9, 11, 12, 12].getD t 0)) (fun t => q ([10, 12, 13, 15, 14].getD t 0)) (fun _ => q 1)
private theorem tight_noGaps : NoGaps tight 5 := by
  intro t ht
  have : t = 0 ∨ t = 1 ∨ t = 2 ∨ t = 3 := by omega
  rcases this with rfl | rfl | rfl | rfl <;> rfl
private def atClose : StrategyConfig (Ex ℚ) := ⟨true, true, q 100, true⟩
private def atOpen : StrategyConfig (Ex ℚ) := ⟨false, true, q 100, true⟩
private theorem close_tight : Backtest atClose tight exSig 5 (stOf atClose tight exSig 5) :=
  computed (C57_strategy_complete atClose exSig (bars_ofSeries 5 _ _ _ _ _)) _
private theorem open_tight : Backtest atOpen tight exSig 5 (stOf atOpen tight exSig 5) :=
  computed (C57_strategy_complete atOpen exSig (bars_ofSeries 5 _ _ _ _ _)) _
example : (stOf atOpen tight exSig 5 4).trades = (stOf atClose tight exSig 5 3).trades.map later :=
  (C90_one_bar_later (cfg := atClose) (cfg' := atOpen) tight_noGaps rfl rfl rfl rfl rfl close_tight open_tight (show 3 + 1 < 5 by norm_num)).1
example : ((stOf atClose tight exSig 5 3).trades.map fun T => (T.entryTick, T.exitTick, T.pnlField)) =
    [(some 0, some 1, q (-20)), (some 1, some 3, q 20), (some 3, none, q 0)] := by decide +kernel
example := C90_first_bar rfl open_tight (show 0 < 5 by norm_num)

end Pace.Cases
