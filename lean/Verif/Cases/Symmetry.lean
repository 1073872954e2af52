import Verif.Cases.Runs
import Verif.Props.UnitsTa
import Verif.Props.Level
import Verif.Props.Missing
import Verif.Props.Mirror2
import Verif.Props.Content3

/-! # The theorems on units (C71), price levels (C80) and missing data (C79) at concrete cases -/

namespace Pace.Cases
open Pace Spec Real

private theorem four : 4 < 5 := by norm_num

/-- Prices in cents, two for one. -/
private theorem cents : (Rounding.exact ℝ).Homogeneous 100 := exact_homogeneous (by norm_num)
private theorem half : (Rounding.exact ℝ).Homogeneous (1 / 2) := exact_homogeneous (by norm_num)
private theorem double : (Rounding.exact ℝ).Homogeneous 2 := exact_homogeneous (by norm_num)

private noncomputable def U : Units (Ex ℝ) := .of cents half
private noncomputable def D : Dilation (Ex ℝ) := .of cents

private noncomputable def rCfg : StrategyConfig (Ex ℝ) := ⟨false, true, fin 100, true⟩
private noncomputable def rUnit : StrategyConfig (Ex ℝ) := ⟨false, true, fin 100, false⟩
private theorem rRun : ∃ st, Backtest rCfg realBars exSig 5 st := C57_strategy_complete _ _ (bars_ofSeries 5 _ _ _ _ _)
private theorem rBars : ExBars realBars 5 (fun t => [9, 10, 12, 14, 15].getD t 0) (fun t => [11, 13, 14, 16, 17].getD t 0)
    (fun t => [8, 9, 11, 13, 12].getD t 0) (fun t => [10, 12, 13, 15, 14].getD t 0) (fun _ => (1 : ℝ)) := bars_ofSeries 5 _ _ _ _ _
private theorem rComplete (st : Nat → Strategy (Ex ℝ)) (t : Nat) (ht : t < 5) : OpenBarsComplete realBars st t := fun _ =>
  ⟨⟨_, (bars_ofSeries 5 _ _ _ _ _).low t ht⟩, ⟨_, (bars_ofSeries 5 _ _ _ _ _).high t ht⟩⟩

example : outputs (fun t => runner ⟨realBars.rescale U.price.f id, t⟩) exSig 5 (.ok (Strategy.new (rCfg.rescale U))) =
    (outputs (fun t => runner ⟨realBars, t⟩) exSig 5 (.ok (Strategy.new rCfg))).map (List.map (Strategy.rescale U)) :=
  C71_strategy U rCfg (.inl rfl) realBars id exSig 5
example : ∃ st, Backtest rCfg realBars exSig 5 st ∧ Backtest (rCfg.rescale U) (realBars.rescale U.price.f id) exSig 5 (fun t => (st t).rescale U) :=
  let ⟨st, h⟩ := rRun
  ⟨st, h, C71_backtest U (.inl rfl) id h⟩
example : ∃ st em, EquityRun realBars rCfg.initialCapital st 5 em ∧
    EquityRun (realBars.rescale U.price.f id) (U.money.f rCfg.initialCapital) (fun t => (st t).rescale U) 5 (fun t => (em t).rescale U) :=
  let ⟨st, h⟩ := rRun
  let ⟨em, h'⟩ := (C57_equity_metrics h).mpr (rComplete st)
  ⟨st, em, h', C71_equity U id h'⟩
example : ∃ st tv tv', TvRun realBars rCfg (fin 0) st 5 tv ∧
    TvRun (realBars.rescale U.price.f id) (rCfg.rescale U) (U.money.f (fin 0)) (fun t => (st t).rescale U) 5 tv' ∧
    ∀ t, (tv' t).data = (tv t).data.rescale U ∧ (tv' t).equityMetrics = (tv t).equityMetrics.rescale U :=
  let ⟨st, h⟩ := rRun
  let ⟨tv, h'⟩ := (C57_tradingview_metrics h (fin 0)).mpr (rComplete st)
  let ⟨tv', h''⟩ := C71_tradingview U id h'
  ⟨st, tv, tv', h', h''⟩
example : ∃ st co co', CobraRun realBars rCfg false none (fun _ => none) st 5 co ∧
    CobraRun (realBars.rescale U.price.f id) (rCfg.rescale U) false none (fun _ => none) (fun t => (st t).rescale U) 5 co' :=
  let ⟨st, h⟩ := rRun
  let ⟨co, h'⟩ := (C57_cobra_metrics h false none (fun _ => none)).mpr fun t ht => ⟨rComplete st t ht, by simp⟩
  let ⟨co', h'', _⟩ := C71_cobra U id h'
  ⟨st, co, co', h', h''⟩
example : ∃ st st', Backtest rCfg realBars exSig 5 st ∧
    Backtest { (rCfg : StrategyConfig (Ex ℝ)) with initialCapital := times 100 rCfg.initialCapital } (realBars.rescale (times 100) id) exSig 5 st' := by
  obtain ⟨st, h⟩ := rRun
  obtain ⟨st', h', _⟩ := C71_currency cents h
  exact ⟨st, st', h, h'⟩
example : ∃ st st', Backtest rCfg realBars exSig 5 st ∧ Backtest rCfg (realBars.rescale (times (1 / 2)) (times 2)) exSig 5 st' ∧
    (st' 4).metrics = (st 4).metrics := by
  obtain ⟨st, h⟩ := rRun
  obtain ⟨st', h', h''⟩ := C71_split half double (by norm_num) rfl h
  exact ⟨st, st', h, h', (h'' 4).1⟩

/-- Prices with a gap. -/
private noncomputable def px (t : Nat) : Option (Ex ℝ) := if t = 2 then none else some (fin (t * t : ℝ))

example : outputs (fun t => Sma.next ⟨realBars.rescale id id, t⟩) (fun t => (px t).map D.f) 5 (Sma.new 2) =
    (outputs (fun t => Sma.next ⟨realBars, t⟩) px 5 (Sma.new 2)).map (List.map (Option.map D.f)) :=
  (C71_averages D id id 2 (fin (1 / 2)) .sma).1 realBars px 5
example := (C71_ratios D id id 2).1 realBars px 5
example := (C71_thresholds D (fin 7) px 5).1
example := (C71_price_indicators D id 2 3 4 (fin 2) true .sma .ema .rma .close .hl2 (by decide) (by decide)).1 realBars
example : outputs (noInput fun t => Aroon.next ⟨realBars.rescale D.f D.f, t⟩) unit 5 (Aroon.new 2) =
    (outputs (noInput fun t => Aroon.next ⟨realBars, t⟩) unit 5 (Aroon.new 2)).map (List.map id) :=
  (C71_pure_indicators D D 2 3 4 5 .sma .ema .close (by decide)).1 realBars 5
example : ∃ sig, Runs (total ThresholdStrategy.next) (.ok (ThresholdStrategy.mk' (lit 0) (lit 0))) (fun t => (px t).map D.f) 5 sig :=
  let ⟨sig, h⟩ := total_runs ThresholdStrategy.next (ThresholdStrategy.mk' (lit 0) (lit 0)) px 5
  ⟨sig, C71_zero_crossing D h⟩
/-- The standard deviation of 0, 1, 2, 3, ... in other units: every window has mean `t - 1/2`. -/
private noncomputable def line (t : Nat) : Option ℝ := some t
private theorem line_far : ∀ t v, fullWindow line 2 t = some v →
    ∀ w ∈ v, w = mean v ∨ (1 / 10000000000 ≤ |w - mean v| ∧ 1 / 10000000000 ≤ 100 * |w - mean v|) := by
  intro t v hv w hw
  unfold fullWindow at hv
  by_cases ht : 2 ≤ t + 1
  · rw [if_pos ht] at hv
    obtain ⟨k, rfl⟩ : ∃ k, t = k + 1 := ⟨t - 1, by omega⟩
    have e : win line 2 (k + 1) = [some (k : ℝ), some ((k : ℝ) + 1)] := by
      simp [win, line, List.range_succ]
    rw [e] at hv
    simp [allSome] at hv
    subst hv
    right
    have hm : mean [(k : ℝ), (k : ℝ) + 1] = k + 1 / 2 := by simp [mean]; ring
    rw [hm]
    simp at hw
    rcases hw with rfl | rfl
    · rw [show (k : ℝ) - (k + 1 / 2) = -(1 / 2) by ring]; norm_num [abs_of_pos]
    · rw [show (k : ℝ) + 1 - (k + 1 / 2) = 1 / 2 by ring]; norm_num [abs_of_pos]
  · rw [if_neg ht] at hv; cases hv
example : ∃ y, Runs (fun t => Stdev.next ⟨realBars, t⟩) (Stdev.new 2 true) (flo line) 9 y ∧
    Runs (fun t => Stdev.next ⟨realBars, t⟩) (Stdev.new 2 true) (flo fun t => (line t).map (100 * ·)) 9 (fun t => (y t).map (times 100)) :=
  C71_stdev (by norm_num) realBars realBars (le_refl 2) true line 9 line_far
example : (Rounding.binary64 ℝ).rnd (1 / 3) = (Rounding.wide ℝ).rnd (1 / 3) := by
  refine C71_hardware _ (.inr ?_)
  rw [abs_of_pos (by norm_num)]
  constructor
  · exact le_trans (zpow_le_zpow_right₀ (by norm_num) (by norm_num : (-1022 : ℤ) ≤ -2)) (by norm_num)
  · exact lt_of_lt_of_le (by norm_num) (zpow_le_zpow_right₀ (by norm_num) (by norm_num : (0 : ℤ) ≤ 1023))
/-- Aroon drives a strategy: the whole program in other units. -/
example : ∃ (y : Nat → Option (Ex ℝ) × Option (Ex ℝ)) (sig : Nat → Option TradeDirection) (st : Nat → Strategy (Ex ℝ)) (tv tv' : Nat → TvMetrics (Ex ℝ)),
    Runs (noInput fun t => Program.next Aroon.next AroonStrategy.next ⟨realBars, t⟩) (Program.new (Aroon.new 2) AroonStrategy.new rCfg (fin 0)) unit 5
      (fun t => (y t, sig t, st t, tv t)) ∧
    Runs (noInput fun t => Program.next Aroon.next AroonStrategy.next ⟨realBars.rescale U.price.f U.price.f, t⟩)
      (Program.new (Aroon.new 2) AroonStrategy.new (rCfg.rescale U) (U.money.f (fin 0))) unit 5 (fun t => (id (y t), sig t, (st t).rescale U, tv' t)) ∧
    ∀ t, (tv' t).data = (tv t).data.rescale U := by
  have hi := (C71_pure_indicators U.price U.price 2 3 4 5 .sma .ema .close (by decide)).1
  obtain ⟨y, hy, _⟩ := C54_aroon rBars (by norm_num : 1 ≤ 2)
  obtain ⟨sig, hs⟩ := total_runs AroonStrategy.next (AroonStrategy.new : AroonStrategy (Ex ℝ)) y 5
  obtain ⟨st, tv, tv', h⟩ := C71_program U hi rBars hy hs hs rCfg (.inl rfl) (fin 0)
  exact ⟨_, sig, st, tv, tv', h⟩

/-! ## Price levels -/

/-- The cube keeps the order. -/
private def cube : Increasing (Ex ℚ) where
  f := fun
    | .fin a => .fin (a ^ 3)
    | e => e
  lt a b := by
    have h (a b : ℚ) : a ^ 3 < b ^ 3 ↔ a < b := (Odd.strictMono_pow (by decide : Odd 3)).lt_iff_lt
    show Ext.lt _ _ = Ext.lt a b
    cases a <;> cases b <;> simp [Ext.lt, h]
  le a b := by
    have h (a b : ℚ) : a ^ 3 ≤ b ^ 3 ↔ a ≤ b := (Odd.strictMono_pow (by decide : Odd 3)).le_iff_le
    show Ext.le _ _ = Ext.le a b
    cases a <;> cases b <;> simp [Ext.le, h]

private def gx (t : Nat) : Option (Ex ℚ) := (gap t).map q

example : outputs (fun t => Highest.next ⟨(bars 9).rescale id id, t⟩) (fun t => (gx t).map cube.f) 9 (Highest.new 3) =
    (outputs (fun t => Highest.next ⟨bars 9, t⟩) gx 9 (Highest.new 3)).map (List.map (Option.map cube.f)) := (C80_order cube id id 3).1 (bars 9) gx 9
example := (C80_thresholds cube (q 4) gx 9).1
example : outputs (fun t => Sma.next ⟨(bars 9).rescale id id, t⟩) (fun t => (gx t).map (raise 7)) 9 (Sma.new 3) =
    (outputs (fun t => Sma.next ⟨bars 9, t⟩) gx 9 (Sma.new 3)).map (List.map (Option.map (raise 7))) := (C80_averages 7 id id 3 (1 / 2) .sma).1 (bars 9) gx 9
example := (C80_price_indicators 7 id 3 4 (q 2) .close (by decide)).1 (bars 9)
example := (C80_deviations 7 id id 3 true).1 (bars 9) gx 9
example := (C80_level_free (7 : ℚ) 3 4 5 6 (q 2) true .sma .ema .rma .close .hl2 (by decide) (by decide)).1 (bars 9) 9
example : outputs (fun t => runner ⟨exBars.rescale (raise 7) id, t⟩) exSig 5 (.ok (Strategy.new unitCfg)) =
    (outputs (fun t => runner ⟨exBars, t⟩) exSig 5 (.ok (Strategy.new unitCfg))).map (List.map (Strategy.raise 7)) :=
  C80_strategy 7 unitCfg rfl id exBars exSig 5
example := C80_cobra 7 id ex_cobra
example := C80_not_level_free
example := C80_not_equity_sized
example : ∃ (y : Nat → Option (Ex ℝ) × Option (Ex ℝ)) (sig : Nat → Option TradeDirection) (st : Nat → Strategy (Ex ℝ)) (tv : Nat → TvMetrics (Ex ℝ)),
    Runs (noInput fun t => Program.next Aroon.next AroonStrategy.next ⟨realBars, t⟩) (Program.new (Aroon.new 2) AroonStrategy.new rUnit (fin 0)) unit 5
      (fun t => (y t, sig t, st t, tv t)) ∧
    Runs (noInput fun t => Program.next Aroon.next AroonStrategy.next ⟨realBars.rescale (raise 7) id, t⟩)
      (Program.new (Aroon.new 2) AroonStrategy.new rUnit (fin 0)) unit 5 (fun t => (y t, sig t, (st t).raise 7, tv t)) := by
  have hi : BarsCommute (raise (7 : ℝ)) id id Aroon.next (Aroon.new 2) := (C80_order (raiseI 7) id id 2).2.2.2.2.2.1
  obtain ⟨y, hy, _⟩ := C54_aroon rBars (by norm_num : 1 ≤ 2)
  obtain ⟨sig, st, tv, h⟩ := C80_program 7 hi rBars hy rUnit rfl (fin 0) (sgn := AroonStrategy.next) (q0 := AroonStrategy.new)
  exact ⟨_, sig, st, tv, h⟩

/-! ## Missing data -/

/-- No bars at all. -/
private def nowhere : DataProvider (Ex ℚ) := ⟨[], [], [], [], [], [], 0, 0⟩

example := (C79_ta 3 (q (1 / 2)) true true .ema).1
example := C79_src (α := Ex ℚ) .hl2
example := (C79_indicators 3 4 5 6 (q 2) .close).1
example := (C79_averages (α := Ex ℚ) .sma .ema .rma 3 4 5 .close .volume).1
example : calls runner (.ok (Strategy.new exCfg)) nowhere id exSig 5 ≠ .error .underflow :=
  C79_no_underflow (C79_strategy exCfg) nowhere monotone_id exSig 5
example := (C79_metrics (Strategy.new exCfg) (q 0) true (some 2018)).1
private theorem inside (i : Nat) (h : i < 5) : HasBar ⟨exBars, id i⟩ := by
  obtain rfl | rfl | rfl | rfl | rfl : i = 0 ∨ i = 1 ∨ i = 2 ∨ i = 3 ∨ i = 4 := by omega
  all_goals exact ⟨by decide, by decide, by decide, by decide, by decide⟩
example : (∃ l, calls runner (.ok (Strategy.new exCfg)) exBars id exSig 5 = .ok l) ∨
    calls runner (.ok (Strategy.new exCfg)) exBars id exSig 5 = .error .unwrapNone :=
  C79_inside (C79_strategy exCfg) rfl exBars monotone_id inside exSig
example := C79_backwards

end Pace.Cases
