import Verif.Props.Side
import Verif.Cases.Strategy
import Verif.Cases.FloatData

/-! # Which side a crossing strategy is on (C91), at concrete runs -/

namespace Pace.Cases
open Pace Spec

/-- The digits of pi from tick 2 on, as an indicator. -/
private def ind (t : Nat) : Option (Ex ℚ) := if t < 2 then none else some (q (pi t))
private def half : Ex ℚ := q (7 / 2)

private def sideSig : Nat → Option TradeDirection := fun t =>
  ((outputs (total ThresholdStrategy.next) ind 10 (.ok (PriceOscillatorStrategy.new ⟨half, half⟩))).toOption.getD []).getD t none
private theorem side_run : Runs (total ThresholdStrategy.next) (.ok (PriceOscillatorStrategy.new ⟨half, half⟩)) ind 10 sideSig :=
  let ⟨y, h, _⟩ := C55_threshold ⟨half, half⟩ ind 10 PriceOscillatorStrategy.new (by simp)
  computed ⟨y, h⟩ none
private theorem side_rule : ThresholdRule ind half half 10 sideSig := by
  obtain ⟨y, h1, h2⟩ := C55_threshold ⟨half, half⟩ ind 10 PriceOscillatorStrategy.new (by simp)
  exact fun t ht => by rw [side_run.unique h1 t ht]; exact h2 t ht
private theorem ind_from : ValuesFrom ind 2 10 := fun t _ =>
  ⟨fun h => if_pos h, fun h => ⟨_, if_neg (by omega), fun e => by cases e⟩⟩

/-- 4, then 1 (short), 5 (long), 9, 2 (short), 6 (long), 5, 3 (short). -/
example : (List.range 10).map sideSig =
    [none, none, none, some .short, some .long, none, some .short, some .long, none, some .short] := by decide +kernel
private theorem first_signal : sideSig 3 ≠ none := by decide +kernel
private theorem nothing_before : ∀ k, k < 3 → sideSig k = none := by decide +kernel

example : latest sideSig 9 = some .long :=
  (C91_one_threshold (fun e => by cases e) side_rule ind_from first_signal (show 8 < 10 by norm_num) (by norm_num) (w := q 5) rfl).1 (by decide +kernel)
example : latest sideSig 9 = some .long :=
  (C91_latest side_rule (by decide +kernel) ind_from (show 8 < 10 by norm_num) (w := q 5) rfl).1 (by decide +kernel) 3 (q 1) (by norm_num) rfl (by decide +kernel)

/-- One unit per trade at the close, reversing. -/
private def sideCfg : StrategyConfig (Ex ℚ) := ⟨true, true, q 100, false⟩
private theorem side_backtest : Backtest sideCfg (bars 10) sideSig 10 (stOf sideCfg (bars 10) sideSig 10) :=
  computed (C57_strategy_complete sideCfg sideSig (bars_ofSeries 10 _ _ _ _ _)) _

example : held sideCfg sideSig 9 = 1 :=
  (C91_strategies (cfg := sideCfg) rfl (fun e => by cases e) ind_from PriceOscillatorStrategy.new (by simp) sideSig side_run 3 first_signal
    8 (q 5) (by norm_num) (by norm_num) rfl).1 (by decide +kernel)

/-- The indicator is the close less 10, so the strategy buys after a rise and sells after a fall. -/
example : (stOf sideCfg (bars 10) sideSig 10 9).metrics.equity =
    fin (100 + ∑ k ∈ Finset.Ico 3 9, (SignType.sign (pi k - 7 / 2) : ℚ) * (bc (k + 1) - bc k)) :=
  C91_equity (w := pi) (θ := 7 / 2) (s := 2) side_backtest (bars_ok 10) rfl rfl rfl rfl side_rule (fun t _ => rfl)
    (by intro t ht _; revert t; decide +kernel) first_signal nothing_before (by norm_num)
example : (stOf sideCfg (bars 10) sideSig 10 9).metrics.equity = q 86 := by decide +kernel

/-- With a gap where the indicator falls from 9 to 2, the strategy is still long one tick later. -/
private def holed (t : Nat) : Option (Ex ℚ) := if t = 6 then none else if t = 7 then some (q 2) else ind t
private theorem holed_rule (y : Nat → Option TradeDirection)
    (h : Runs (total ThresholdStrategy.next) (.ok (PriceOscillatorStrategy.new ⟨half, half⟩)) holed 10 y) : ThresholdRule holed half half 10 y := by
  obtain ⟨y', h1, h2⟩ := C55_threshold ⟨half, half⟩ holed 10 PriceOscillatorStrategy.new (by simp)
  exact fun t ht => by rw [h.unique h1 t ht]; exact h2 t ht
example : ∃ y, Runs (total ThresholdStrategy.next) (.ok (PriceOscillatorStrategy.new ⟨half, half⟩)) holed 10 y ∧
    y 6 = none ∧ y 7 = none ∧ latest y 8 = some .long ∧ holed 7 = some (q 2) := by
  obtain ⟨y, h1, _⟩ := C55_threshold ⟨half, half⟩ holed 10 PriceOscillatorStrategy.new (by simp)
  have hc := computed ⟨y, h1⟩ none
  obtain ⟨g1, g2⟩ := C91_missed (holed_rule _ hc) (show 6 + 1 < 10 by norm_num) rfl
  exact ⟨_, hc, g1, g2, by decide +kernel, rfl⟩

/-- The Williams strategy between 2 and 4: short since the 1 on tick 3, long since the 5 on tick 4, and long still at 3 on tick 9. -/
private def wr : Nat → Option TradeDirection := fun t =>
  ((outputs (total ThresholdStrategy.next) ind 10 (.ok (WilliamsPercentRankStrategy.new ⟨q 2, q 4⟩))).toOption.getD []).getD t none
private theorem wr_run : Runs (total ThresholdStrategy.next) (.ok (WilliamsPercentRankStrategy.new ⟨q 2, q 4⟩)) ind 10 wr :=
  let ⟨y, h, _⟩ := C55_williams ⟨q 2, q 4⟩ ind 10
  computed ⟨y, h⟩ none
example : held sideCfg wr 6 = 1 ∧ latest wr 10 = latest wr 9 :=
  ⟨(C91_williams (cfg := sideCfg) (k := ⟨q 2, q 4⟩) rfl (by decide +kernel) ind_from wr_run (t := 5) (by norm_num) (w := q 9) rfl (j := 3) (by norm_num)
      (p := q 1) rfl).1 (by decide +kernel) (by decide +kernel),
   (C91_williams (cfg := sideCfg) (k := ⟨q 2, q 4⟩) rfl (by decide +kernel) ind_from wr_run (t := 9) (by norm_num) (w := q 3) rfl (j := 3) (by norm_num)
      (p := q 1) rfl).2.2 (by decide +kernel) (by decide +kernel)⟩

/-- MACD in binary64, on the digits of pi less 2: long since tick 2, and short from the 1 on tick 3 on. -/
example : ∃ y, Runs (total ThresholdStrategy.next) (.ok MacdStrategy.new) (fun t => some (f (pi t - 2))) 9 y ∧
    held sideCfg y 3 = 1 ∧ held sideCfg y 4 = -1 ∧ held sideCfg y 6 = 1 := by
  obtain ⟨y, h, h'⟩ := C55_macd (binary64_lawful ℝ) (fun t => some (f (pi t - 2))) 9
  have h2 : y 2 ≠ none := by
    rw [(h' 2 (by omega)).1.mpr ⟨1, _, _, rfl, rfl, rfl, decide_eq_true (by norm_num [pi]), decide_eq_true (by norm_num [pi])⟩]
    simp
  have hv : ValuesFrom (fun t => some (f (pi t - 2))) 0 9 := fun t _ => ⟨fun h => by omega, fun _ => ⟨_, rfl, f_ne_nan _⟩⟩
  refine ⟨y, h, ?_, ?_, ?_⟩
  · exact (C91_macd (cfg := sideCfg) (binary64_lawful ℝ) rfl hv h h2 (t := 2) (by norm_num) (by norm_num) rfl).1 (decide_eq_true (by norm_num [pi]))
  · exact (C91_macd (cfg := sideCfg) (binary64_lawful ℝ) rfl hv h h2 (t := 3) (by norm_num) (by norm_num) rfl).2 (decide_eq_true (by norm_num [pi]))
  · exact (C91_macd (cfg := sideCfg) (binary64_lawful ℝ) rfl hv h h2 (t := 5) (by norm_num) (by norm_num) rfl).1 (decide_eq_true (by norm_num [pi]))

/-- Vortex: the indicator against the constant 7/2, missing before tick 2. -/
private def crossSig : Nat → Option TradeDirection := fun t =>
  ((outputs (total CrossStrategy.next) (fun t => (ind t, (some half : Option (Ex ℚ)))) 10 (.ok CrossState.new)).toOption.getD []).getD t none
private theorem cross_run : Runs (total CrossStrategy.next) (.ok CrossState.new) (fun t => (ind t, (some half : Option (Ex ℚ)))) 10 crossSig :=
  let ⟨y, h, _⟩ := C55_cross ind (fun _ => some half) 10
  computed ⟨y, h⟩ none
private theorem cross_from : LinesFrom ind (fun _ => some half) 2 10 := fun t _ =>
  ⟨fun h => .inl (if_pos h), fun h => ⟨_, _, if_neg (by omega), rfl, (fun e => by cases e), fun e => by cases e⟩⟩
example : held sideCfg crossSig 7 = -1 :=
  (C91_cross_strategies (cfg := sideCfg) (b := fun _ => some half) rfl cross_from cross_run (f := 3) (by decide +kernel) (t := 6) (by norm_num) (by norm_num)
    (u := q 2) (w := half) rfl rfl).2 (by decide +kernel)
example : latest crossSig 7 = some .short := by
  obtain ⟨y, h1, h2⟩ := C55_cross ind (fun _ => some half) 10
  have hy : CrossRule ind (fun _ => some half) 10 crossSig := fun t ht => by rw [cross_run.unique h1 t ht]; exact h2 t ht
  exact (C91_lines hy cross_from (f := 3) (by decide +kernel) (t := 6) (by norm_num) (by norm_num) (u := q 2) (w := half) rfl rfl).2.1 (by decide +kernel)

end Pace.Cases
