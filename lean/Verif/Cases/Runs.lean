import Verif.Props.Report
import Verif.Props.Position
import Verif.Props.Compound
import Verif.Cases.FloatData

/-! # Backtests used by the concrete cases -/

namespace Pace.Cases
open Pace Spec

/-- The outputs of a run are the computed ones. -/
theorem computed {S I O : Type} {step : Nat → S → I → Res (O × S)} {s0 : Res S} {x : Nat → I} {N : Nat}
    (h : ∃ y, Runs step s0 x N y) (o : O) : Runs step s0 x N fun t => ((outputs step x N s0).toOption.getD []).getD t o := by
  obtain ⟨y, h⟩ := h
  have e := h
  unfold Runs at e
  refine h.congr fun t ht => ?_
  rw [e]
  simp [Except.toOption, ht]

/-- The strategies of a backtest, computed. -/
def stOf {α : Type} [F64 α] (cfg : StrategyConfig α) (d : DataProvider α) (sig : Nat → Option TradeDirection) (N t : Nat) : Strategy α :=
  ((outputs (fun t => runner ⟨d, t⟩) sig N (.ok (Strategy.new cfg))).toOption.getD []).getD t (Strategy.new cfg)

/-- The equity metrics of `exSt`, computed. -/
def exEm (t : Nat) : EquityMetrics (Ex ℚ) :=
  ((outputs (fun t s x => do let s ← EquityMetrics.next ⟨exBars, t⟩ s x; return (s, s)) exSt 5
    (.ok (EquityMetrics.new exCfg.initialCapital))).toOption.getD []).getD t (EquityMetrics.new exCfg.initialCapital)

theorem ex_backtest : Backtest exCfg exBars exSig 5 exSt := exReport_runs.1
theorem ex_tv : TvRun exBars exCfg (q 0) exSt 5 exTv := exReport_runs.2.1
theorem ex_cobra : CobraRun exBars exCfg false none (fun _ => none) exSt 5 exCo := exReport_runs.2.2

theorem ex_complete (t : Nat) (ht : t < 5) : OpenBarsComplete exBars exSt t := fun _ =>
  ⟨⟨_, (bars_ofSeries 5 _ _ _ _ _).low t ht⟩, ⟨_, (bars_ofSeries 5 _ _ _ _ _).high t ht⟩⟩

theorem ex_equity : EquityRun exBars exCfg.initialCapital exSt 5 exEm := computed ((C57_equity_metrics ex_backtest).mpr ex_complete) _

/-- A run without reversals, filled on the close with one unit: long 10 to 13, then flat. -/
def flatSt : Nat → Strategy (Ex ℚ) := stOf exCfg2 exBars exSig2 5

theorem flat_backtest : Backtest exCfg2 exBars exSig2 5 flatSt := computed (C57_strategy_complete exCfg2 exSig2 (bars_ofSeries 5 _ _ _ _ _)) _

def flatEm (t : Nat) : EquityMetrics (Ex ℚ) :=
  ((outputs (fun t s x => do let s ← EquityMetrics.next ⟨exBars, t⟩ s x; return (s, s)) flatSt 5
    (.ok (EquityMetrics.new exCfg2.initialCapital))).toOption.getD []).getD t (EquityMetrics.new exCfg2.initialCapital)

theorem flat_equity : EquityRun exBars exCfg2.initialCapital flatSt 5 flatEm :=
  computed ((C57_equity_metrics flat_backtest).mpr fun t ht _ =>
    ⟨⟨_, (bars_ofSeries 5 _ _ _ _ _).low t ht⟩, ⟨_, (bars_ofSeries 5 _ _ _ _ _).high t ht⟩⟩) _

/-- The run of `exCfg` with one unit per trade. -/
def unitSt : Nat → Strategy (Ex ℚ) := stOf unitCfg exBars exSig 5

theorem unit_backtest : Backtest unitCfg exBars exSig 5 unitSt := computed (C57_strategy_complete unitCfg exSig (bars_ofSeries 5 _ _ _ _ _)) _

/-! ## A binary64 run -/

noncomputable def fCfg : StrategyConfig (Fl (Rounding.binary64 ℝ)) := ⟨false, true, f 1000, true⟩

/-- Twenty bars, signals long, short, long, short, ... at every third tick. -/
def fSig (t : Nat) : Option TradeDirection := if t % 3 = 0 then (if t % 2 = 0 then some .long else some .short) else none

noncomputable def fSt : Nat → Strategy (Fl (Rounding.binary64 ℝ)) := stOf fCfg (fbars 20) fSig 20

theorem f_backtest : Backtest fCfg (fbars 20) fSig 20 fSt := computed (C57_strategy_complete fCfg fSig (fbars_ok 20)) _

theorem f_complete (t : Nat) (ht : t < 20) : OpenBarsComplete (fbars 20) fSt t := fun _ =>
  ⟨⟨_, (fbars_ok 20).low t ht⟩, ⟨_, (fbars_ok 20).high t ht⟩⟩

theorem f_equity : ∃ em, EquityRun (fbars 20) fCfg.initialCapital fSt 20 em := (C57_equity_metrics f_backtest).mpr f_complete

theorem f_tv : ∃ tv, TvRun (fbars 20) fCfg (f 0) fSt 20 tv := (C57_tradingview_metrics f_backtest (f 0)).mpr f_complete

theorem f_cobra : ∃ co, CobraRun (fbars 20) fCfg false none (fun _ => none) fSt 20 co :=
  (C57_cobra_metrics f_backtest false none (fun _ => none)).mpr fun t ht => ⟨f_complete t ht, by simp⟩

/-- Its trades: the first is long, entered at tick 1 on the open and closed at tick 4. -/
theorem f_trades : ((fSt 19).trades.map fun T => (T.direction, T.entryTick, T.exitTick)) =
    [(.long, some 1, some 4), (.short, some 4, some 7), (.long, some 7, some 10), (.short, some 10, some 13), (.long, some 13, some 16),
      (.short, some 16, some 19), (.long, some 19, none)] := by
  have h := C82_timetable f_backtest (show 19 < 20 by norm_num)
  have := congrArg (List.map fun x => (x.1, x.2.2.1, x.2.2.2.2.1)) h
  simp only [List.map_map, List.map_append] at this
  refine this.trans ?_
  decide +kernel

end Pace.Cases
