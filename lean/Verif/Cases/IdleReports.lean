import Verif.Cases.Rounded
import Verif.Props.IdleReports

/-! # The theorems on the reports of a strategy before its first signal (C110) at a concrete case: nine bars, the first signal on bar 6 -/

namespace Pace.Cases
open Pace Spec

private theorem ℓ : (Rounding.binary64 ℝ).Lawful := binary64_lawful ℝ
private theorem acc : (Rounding.binary64 ℝ).Accurate b64u b64η ((2 : ℝ) ^ (1023 : ℤ)) := binary64_accurate ℝ

private def o (t : Nat) : Nat := [9, 10, 2, 15, 4, 16, 3, 14, 2].getD t 0
private def h (t : Nat) : Nat := [11, 12, 16, 16, 17, 16, 15, 14, 16].getD t 0
private def l (t : Nat) : Nat := [8, 1, 2, 3, 3, 2, 2, 1, 1].getD t 0
private def c (t : Nat) : Nat := [10, 2, 15, 4, 16, 3, 14, 2, 15].getD t 0

private def v (t : Nat) : Nat := [1, 3, 2, 5, 1, 2, 4, 2, 3].getD t 0

private noncomputable def d : DataProvider B64 :=
  .ofSeries 9 (fun t => some (s (o t))) (fun t => some (s (h t))) (fun t => some (s (l t))) (fun t => some (s (c t))) (fun t => some (s (v t)))
private noncomputable def cfg : StrategyConfig B64 := ⟨false, true, lit ((100 : Nat) : ℚ), false⟩
private def sig (t : Nat) : Option TradeDirection := if t < 6 then none else some .long

private theorem cap : (Sf.valued (Rounding.binary64 ℝ)).val cfg.initialCapital = Fl.of _ (.fin 100) := by
  have := val_lit_nat (V := Sf.valued (Rounding.binary64 ℝ)) ℓ (n := 100) (by norm_num)
  exact_mod_cast this

private theorem run : ∃ st, Backtest cfg d sig 9 st := C57_strategy_complete cfg sig (bars_ofSeries 9 _ _ _ _ _)

private theorem complete (st : Nat → Strategy B64) : ∀ t, t < 9 → OpenBarsComplete d st t := fun t ht _ =>
  ⟨⟨_, hasCol_hist 9 (fun t => some (s (l t))) t ht⟩, ⟨_, hasCol_hist 9 (fun t => some (s (h t))) t ht⟩⟩

private theorem roots : RoundedRoots (Rounding.binary64 ℝ) := fun _ _ => rfl

private def year (k : Nat) : Option Int := some (if k < 3 then 2020 else 2021)

private theorem whole : (Rounding.binary64 ℝ).rnd 100 = .fin 100 := by
  have := ℓ.int 100 (by norm_num)
  exact_mod_cast this

private theorem twenty : (20 : ℝ) ≤ (2 : ℝ) ^ (1023 : ℤ) :=
  le_trans (by norm_num : (20 : ℝ) ≤ (2 : ℝ) ^ (24 : ℤ)) (zpow_le_zpow_right₀ (by norm_num) (by norm_num))

/-- The Cobra report in both modes. -/
example (est : Bool) : ∃ st co, Backtest cfg d sig 9 st ∧ CobraRun d cfg est (some 2021) year st 9 co ∧
    (Sf.valued (Rounding.binary64 ℝ)).val (co 5).data.sharpe = Fl.of _ (.fin 0) ∧ (Sf.valued (Rounding.binary64 ℝ)).val (co 5).data.equityCurveMaxDd = Fl.of _ (.fin 0) ∧
    (co 5).data.trades = 0 := by
  obtain ⟨st, H⟩ := run
  obtain ⟨co, hr⟩ := (C57_cobra_metrics H est (some 2021) year).mpr fun t ht => ⟨complete st t ht, fun _ => by simp [year]⟩
  obtain ⟨-, -, h1, -, h2, -, h3, -⟩ := C110_cobra acc ℓ roots twenty cap whole H (by norm_num) hr (t := 5) (by norm_num) (fun k hk => if_pos (by omega))
  exact ⟨st, co, H, hr, h1, h2, h3⟩

/-- The TradingView report with a risk free rate of 3. -/
example : ∃ st tv, Backtest cfg d sig 9 st ∧ TvRun d cfg (s 3) st 9 tv ∧ (tv 5).data.sharpeRatio = lit 0 ∧ (tv 5).data.netEquityHistory = [cfg.initialCapital] ∧
    (Sf.valued (Rounding.binary64 ℝ)).val (tv 5).data.netProfitPercent = Fl.of _ (.fin 0) := by
  obtain ⟨st, H⟩ := run
  obtain ⟨tv, hr⟩ := (C57_tradingview_metrics H (s 3)).mpr fun t ht => complete st t ht
  obtain ⟨h1, -, -, -, h2, -, -, -, -, -, -, -, -, -, -, -, -, -, h3, -⟩ := C110_tradingview ℓ roots cap whole H (by norm_num) hr (t := 5) (by norm_num) (fun k hk => if_pos (by omega))
  exact ⟨st, tv, H, hr, h1, h3, (h2 (by norm_num)).2.2.1⟩

end Pace.Cases
