import Verif.Cases.Rounded
import Verif.Props.AccuracyAverages

/-! # The theorems on the reported figures in floats (C103) at a concrete case: nine bars, five orders, four closed trades -/

namespace Pace.Cases
open Pace Spec

private theorem ℓ : (Rounding.binary64 ℝ).Lawful := binary64_lawful ℝ
private theorem acc : (Rounding.binary64 ℝ).Accurate b64u b64η ((2 : ℝ) ^ (1023 : ℤ)) := binary64_accurate ℝ

private def o (t : Nat) : Nat := [9, 10, 12, 14, 15, 14, 11, 10, 12].getD t 0
private def h (t : Nat) : Nat := [11, 13, 14, 16, 17, 15, 12, 13, 16].getD t 0
private def l (t : Nat) : Nat := [8, 9, 11, 13, 12, 10, 9, 9, 11].getD t 0
private def c (t : Nat) : Nat := [10, 12, 13, 15, 14, 11, 10, 12, 15].getD t 0

private def v (t : Nat) : Nat := [1, 3, 2, 5, 1, 2, 4, 2, 3].getD t 0

private noncomputable def d : DataProvider B64 :=
  .ofSeries 9 (fun t => some (s (o t))) (fun t => some (s (h t))) (fun t => some (s (l t))) (fun t => some (s (c t))) (fun t => some (s (v t)))
private theorem small : ∀ t, t < 9 → o t ≤ 17 ∧ h t ≤ 17 ∧ l t ≤ 17 ∧ c t ≤ 17 ∧ v t ≤ 5 := by decide

private theorem hb : PricedBars (Sf.valued (Rounding.binary64 ℝ)) d 9 (fun t => (o t : ℝ)) (fun t => (h t : ℝ)) (fun t => (l t : ℝ)) (fun t => (c t : ℝ))
    (fun t => (v t : ℝ)) 17 := by
  refine ⟨⟨_, _, _, _, _, bars_ofSeries 9 _ _ _ _ _, fun t ht => ?_⟩, fun t ht => ?_⟩
  · obtain ⟨h1, h2, h3, h4, h5⟩ := small t ht
    exact ⟨s_val (by omega), s_val (by omega), s_val (by omega), s_val (by omega), s_val (by omega)⟩
  · obtain ⟨h1, h2, h3, h4, h5⟩ := small t ht
    have key : ∀ n : Nat, n ≤ 17 → |(n : ℝ)| ≤ 17 := fun n hn => by rw [abs_of_nonneg (Nat.cast_nonneg _)]; exact_mod_cast hn
    exact ⟨key _ h1, key _ h2, key _ h3, key _ h4⟩

private theorem tiny : b64u ≤ 1 / 2 ^ 20 ∧ 0 ≤ b64u ∧ b64η ≤ 1 / 2 ^ 20 ∧ 0 ≤ b64η := by
  have key : ∀ z : ℤ, z ≤ -20 → (2 : ℝ) ^ z ≤ 1 / 2 ^ 20 := fun z hz => by
    have := zpow_le_zpow_right₀ (by norm_num : (1 : ℝ) ≤ 2) hz
    refine this.trans (le_of_eq ?_)
    norm_num
  unfold b64u b64η
  exact ⟨key _ (by norm_num), (Binary64.two_zpow_pos _).le, key _ (by norm_num), (Binary64.two_zpow_pos _).le⟩


private theorem big {x : ℝ} (hx : x ≤ 16777216) : x ≤ (2 : ℝ) ^ (1023 : ℤ) :=
  hx.trans (le_trans (by norm_num : (16777216 : ℝ) ≤ (2 : ℝ) ^ (24 : ℤ)) (zpow_le_zpow_right₀ (by norm_num) (by norm_num)))
private theorem η1 : b64η ≤ 1 := tiny.2.2.1.trans (by norm_num)

private theorem finer : b64u ≤ 1 / 2 ^ 50 ∧ b64η ≤ 1 / 2 ^ 50 := by
  have key : ∀ z : ℤ, z ≤ -50 → (2 : ℝ) ^ z ≤ 1 / 2 ^ 50 := fun z hz => by
    have := zpow_le_zpow_right₀ (by norm_num : (1 : ℝ) ≤ 2) hz
    refine this.trans (le_of_eq ?_)
    norm_num
  unfold b64u b64η
  exact ⟨key _ (by norm_num), key _ (by norm_num)⟩


private noncomputable def cfg : StrategyConfig B64 := ⟨false, true, lit ((100 : Nat) : ℚ), false⟩
private def sig (t : Nat) : Option TradeDirection :=
  [some .long, none, some .short, some .long, none, some .short, none, some .long, none].getD t none

private theorem cap : (Sf.valued (Rounding.binary64 ℝ)).val cfg.initialCapital = Fl.of _ (.fin 100) := by
  have := val_lit_nat (V := Sf.valued (Rounding.binary64 ℝ)) ℓ (n := 100) (by norm_num)
  exact_mod_cast this

private theorem run : ∃ st, Backtest cfg d sig 9 st := C57_strategy_complete cfg sig (bars_ofSeries 9 _ _ _ _ _)

private theorem complete (st : Nat → Strategy B64) : ∀ t, t < 9 → OpenBarsComplete d st t := fun t ht _ =>
  ⟨⟨_, hasCol_hist 9 (fun t => some (s (l t))) t ht⟩, ⟨_, hasCol_hist 9 (fun t => some (s (h t))) t ht⟩⟩

private theorem closed : (deals cfg sig 9).1 = [⟨.long, 1, 3⟩, ⟨.short, 3, 4⟩, ⟨.long, 4, 6⟩, ⟨.short, 6, 8⟩] := by
  rfl

private theorem room : |(100 : ℝ)| + 2 * 17 * (9 : Nat) + 2 * 17 ≤ 440 := by norm_num
private theorem many : (((9 : Nat) : ℝ) + 2) * b64u ≤ 1 := by
  have := tiny.1
  push_cast
  norm_num at this ⊢
  linarith
private theorem top : 100 * (440 : ℝ) + 100 * ((9 : Nat) + 4) * b64η ≤ (2 : ℝ) ^ (1023 : ℤ) :=
  big (by have := η1; push_cast; linarith)

private theorem fills : fillSeries cfg (fun t => (o t : ℝ)) (fun t => (c t : ℝ)) = fun t => (o t : ℝ) := rfl

private theorem whole {n : Nat} (hn : n ≤ 17) : Binary64.Representable (n : ℝ) :=
  ⟨n, 0, by rw [abs_of_nonneg (Int.natCast_nonneg _)]; exact lt_of_le_of_lt (Int.ofNat_le.mpr hn) (by norm_num), by norm_num, by norm_num, by simp⟩

private theorem clear : ∀ i j, i < 9 → j < 9 → fillSeries cfg (fun t => (o t : ℝ)) (fun t => (c t : ℝ)) i = fillSeries cfg (fun t => (o t : ℝ)) (fun t => (c t : ℝ)) j ∨
    b64η < |fillSeries cfg (fun t => (o t : ℝ)) (fun t => (c t : ℝ)) i - fillSeries cfg (fun t => (o t : ℝ)) (fun t => (c t : ℝ)) j| := by
  intro i j hi hj
  exact C103_apart (whole (small i hi).1) (whole (small j hj).1)

example : (7 : ℝ) = 7 ∨ b64η < |(7 : ℝ) - 7| := C103_apart (whole (n := 7) (by norm_num)) (whole (n := 7) (by norm_num))
example : b64η < |((7 : Nat) : ℝ) - ((9 : Nat) : ℝ)| := (C103_apart (whole (n := 7) (by norm_num)) (whole (n := 9) (by norm_num))).resolve_left (by norm_num)

/-- The largest error bound in the examples. -/
private theorem err {k : ℝ} (h0 : 0 ≤ k) (hk : k ≤ 200) : k * (b64u * 440 + b64η) ≤ 1 / 2 ^ 20 := by
  have h1 := finer.1
  have h2 := finer.2
  have h3 : b64u * 440 + b64η ≤ 441 / 2 ^ 50 := by linarith
  have h4 := mul_le_mul hk h3 (by have := tiny.2.1; have := tiny.2.2.2; positivity) (by norm_num)
  exact h4.trans (by norm_num)

private theorem err2 {k : ℝ} (h0 : 0 ≤ k) (hk : k ≤ 200) : 2 * (k * (b64u * 440 + b64η)) ≤ 1 := by
  have := err h0 hk
  generalize k * (b64u * 440 + b64η) = x at *
  norm_num at this
  linarith

/-- After the last bar: four closed trades, one won, three lost, the equity metrics and the figures within the bounds. -/
example : ∃ st, Backtest cfg d sig 9 st ∧ (∃ em, EquityRun d cfg.initialCapital st 9 em ∧
    Near (Sf.valued (Rounding.binary64 ℝ)) (em 8).netEquity 98 (1 / 2 ^ 20) ∧ Near (Sf.valued (Rounding.binary64 ℝ)) (em 8).equityMax
      (peak 100 (equityCurve cfg sig 100 (fun t => (o t : ℝ)) fun t => (c t : ℝ)) 8) (1 / 2 ^ 20)) := by
  obtain ⟨st, H⟩ := run
  obtain ⟨em, he⟩ := (C57_equity_metrics H).mpr (complete st)
  refine ⟨st, H, em, he, ?_⟩
  obtain ⟨-, h2, -, h4, -⟩ := C103_equity_metrics acc ℓ H hb (by norm_num) cap rfl room many top he (t := 8) (by norm_num)
  have e := err (k := 6 * ((9 : Nat) + 2)) (by positivity) (by norm_num)
  refine ⟨?_, h2.mono e⟩
  have : netCurve cfg sig 100 (fillSeries cfg (fun t => (o t : ℝ)) fun t => (c t : ℝ)) 8 = 98 := by
    unfold netCurve
    rw [closed, fills]
    norm_num [booked, side, o]
  rw [this] at h4
  exact h4.mono e

/-- The reports on that run: drawdown, trades, averages, percentages and factors. -/
example : ∃ st tv co, Backtest cfg d sig 9 st ∧ TvRun d cfg (lit 0) st 9 tv ∧ CobraRun d cfg false none (fun _ => none) st 9 co ∧
    (st 8).metrics.winningTrades = 1 ∧ (st 8).metrics.losingTrades = 3 ∧
    Near (Sf.valued (Rounding.binary64 ℝ)) (tv 8).data.avgTrade (-2 / 4) (1 / 2 ^ 20) ∧
    Near (Sf.valued (Rounding.binary64 ℝ)) (tv 8).data.netProfitPercent (-2 / 100) (1 / 2 ^ 16) ∧
    Near (Sf.valued (Rounding.binary64 ℝ)) (tv 8).data.profitFactor (4 / 6) (1 / 2 ^ 8) ∧
    Near (Sf.valued (Rounding.binary64 ℝ)) (co 8).data.netProfitLSRatio 0 (1 / 2 ^ 8) ∧
    Near (Sf.valued (Rounding.binary64 ℝ)) (tv 8).data.ratioAvgWinAvgLoss 2 (1 / 2 ^ 8) := by
  obtain ⟨st, H⟩ := run
  obtain ⟨tv, hr⟩ := (C57_tradingview_metrics H (lit 0)).mpr (complete st)
  obtain ⟨co, hco⟩ := (C57_cobra_metrics H false none fun _ => none).mpr fun t ht => ⟨complete st t ht, fun g => absurd rfl g⟩
  have e := fun k h0 h1 => err (k := k) h0 h1
  have u0 := tiny.2.1
  have u1 := finer.1
  have η0 := tiny.2.2.2
  have hg0 : ∀ k : ℝ, 0 ≤ k → 0 ≤ k * (b64u * 440 + b64η) := fun k hk => by positivity
  obtain ⟨-, w1, w2, -, -, -, -, -, -⟩ := C103_trades acc ℓ H hb (by norm_num) cap rfl room many top clear (t := 8) (by norm_num)
  obtain ⟨a1, -, -, -⟩ := C103_averages acc ℓ H hb (by norm_num) cap rfl room many top clear (by norm_num) (big (by norm_num)) hr (t := 8) (by norm_num)
  obtain ⟨p1, -, -⟩ := C103_percents acc ℓ H hb (by norm_num) cap rfl room many top clear hr (t := 8) (by norm_num) rfl (by norm_num)
    ((err2 (by positivity) (by norm_num)).trans (by norm_num)) (big (by norm_num))
  obtain ⟨f1, -, f3, f4⟩ := C103_factors acc ℓ H hb (by norm_num) cap rfl room many top clear (by norm_num) (big (by norm_num)) hr hco (t := 8) (by norm_num) (a := 1) rfl (by norm_num)
    (err2 (by positivity) (by norm_num)) (big (by norm_num))
  have lost6 : lost (fillSeries cfg (fun t => (o t : ℝ)) fun t => (c t : ℝ)) (deals cfg sig (8 + 1)).1 = 6 := by
    rw [closed, fills]; norm_num [lost, dealProfit, side, o]
  have won4 : won (fillSeries cfg (fun t => (o t : ℝ)) fun t => (c t : ℝ)) (deals cfg sig (8 + 1)).1 = 4 := by
    rw [closed, fills]; norm_num [won, dealProfit, side, o]
  have short2 : bookedOn .short (fillSeries cfg (fun t => (o t : ℝ)) fun t => (c t : ℝ)) (deals cfg sig (8 + 1)).1 = -2 := by
    rw [closed, fills]; unfold bookedOn; rw [show [(⟨.long, 1, 3⟩ : Deal), ⟨.short, 3, 4⟩, ⟨.long, 4, 6⟩, ⟨.short, 6, 8⟩].filter (fun x => decide (x.dir = .short)) = [⟨.short, 3, 4⟩, ⟨.short, 6, 8⟩] from rfl]; norm_num [booked, side, o]
  have long0 : bookedOn .long (fillSeries cfg (fun t => (o t : ℝ)) fun t => (c t : ℝ)) (deals cfg sig (8 + 1)).1 = 0 := by
    rw [closed, fills]; unfold bookedOn; rw [show [(⟨.long, 1, 3⟩ : Deal), ⟨.short, 3, 4⟩, ⟨.long, 4, 6⟩, ⟨.short, 6, 8⟩].filter (fun x => decide (x.dir = .long)) = [⟨.long, 1, 3⟩, ⟨.long, 4, 6⟩] from rfl]; norm_num [booked, side, o]
  have net2 : booked (fillSeries cfg (fun t => (o t : ℝ)) fun t => (c t : ℝ)) (deals cfg sig (8 + 1)).1 = -2 := by
    rw [closed, fills]; norm_num [booked, side, o]
  have win1 : winners (fillSeries cfg (fun t => (o t : ℝ)) fun t => (c t : ℝ)) (deals cfg sig (8 + 1)).1 = 1 := by
    rw [closed, fills]; norm_num [winners, dealProfit, side, o]
  have lose3 : losers (fillSeries cfg (fun t => (o t : ℝ)) fun t => (c t : ℝ)) (deals cfg sig (8 + 1)).1 = 3 := by
    rw [closed, fills]; norm_num [losers, dealProfit, side, o]
  have n4 : (deals cfg sig (8 + 1)).1.length = 4 := by rw [closed]; rfl
  rw [lost6, won4] at f1 f4
  rw [short2, long0] at f3
  rw [win1, lose3] at f4
  rw [net2] at a1 p1
  rw [n4] at a1
  rw [perTrade, if_neg (by norm_num)] at a1
  rw [perTrade, if_neg (by norm_num), perTrade, if_neg (by norm_num)] at f4
  push_cast at a1 f4
  have g1 := e (6 * ((9 : Nat) + 2)) (by positivity) (by norm_num)
  have g2 := hg0 (6 * ((9 : Nat) + 2)) (by positivity)
  have g3 := e (6 * (9 : Nat)) (by positivity) (by norm_num)
  refine ⟨st, tv, co, H, hr, hco, w1.trans win1, w2.trans lose3, ?_, ?_, ?_, ?_, ?_⟩
  · exact a1.mono (by push_cast at g1; exact g1)
  · exact p1.mono (by norm_num at g3 u1 ⊢; linarith)
  · exact (f1 (by norm_num)).1.mono (by norm_num at g1 u1 ⊢; linarith)
  · have := f3 (by norm_num)
    norm_num at this
    exact this.mono (by norm_num at g1 u1 ⊢; linarith)
  · have := f4 (by norm_num)
    norm_num at this
    exact this.mono (by norm_num at g1 u1 ⊢; linarith)

/-- Drawdown and run-up of that run, in money, in percent and in the Cobra report. -/
example : ∃ st tv co, Backtest cfg d sig 9 st ∧ TvRun d cfg (lit 0) st 9 tv ∧ CobraRun d cfg false none (fun _ => none) st 9 co ∧ ∀ t, t < 9 →
    Near (Sf.valued (Rounding.binary64 ℝ)) (tv t).data.maxDrawdown (drawdownCurve cfg sig 100 (fun t => (o t : ℝ)) (fun t => (h t : ℝ)) (fun t => (l t : ℝ)) t) (1 / 2 ^ 20) ∧
    Near (Sf.valued (Rounding.binary64 ℝ)) (tv t).data.maxDrawdownPercent (drawdownCurve cfg sig 100 (fun t => (o t : ℝ)) (fun t => (h t : ℝ)) (fun t => (l t : ℝ)) t /
      peak 100 (netCurve cfg sig 100 fun t => (o t : ℝ)) t) (1 / 2 ^ 15) ∧
    Near (Sf.valued (Rounding.binary64 ℝ)) (co t).data.equityCurveMaxDd (trough 0 (fun k => equityCurve cfg sig 100 (fun t => (o t : ℝ)) (fun t => (c t : ℝ)) k /
      peak 100 (equityCurve cfg sig 100 (fun t => (o t : ℝ)) fun t => (c t : ℝ)) k - 1) t) (1 / 2 ^ 15) := by
  obtain ⟨st, H⟩ := run
  obtain ⟨tv, hr⟩ := (C57_tradingview_metrics H (lit 0)).mpr (complete st)
  obtain ⟨co, hco⟩ := (C57_cobra_metrics H false none fun _ => none).mpr fun t ht => ⟨complete st t ht, fun g => absurd rfl g⟩
  have u1 := finer.1
  have g1 := err (k := 12 * ((9 : Nat) + 5)) (by positivity) (by norm_num)
  have g2 := err (k := 6 * ((9 : Nat) + 2)) (by positivity) (by norm_num)
  refine ⟨st, tv, co, H, hr, hco, fun t ht => ⟨?_, ?_, ?_⟩⟩
  · exact (C103_drawdown acc ℓ H hb (by norm_num) cap rfl room many top hr ht).1.mono g1
  · refine ((C103_drawdown_percent acc ℓ H hb (by norm_num) cap rfl room many top hr ht rfl).1 (by norm_num)
      ((err2 (by positivity) (by norm_num)).trans (by norm_num)) (big (by norm_num))).mono ?_
    norm_num at g1 u1 ⊢
    linarith
  · refine (C103_cobra_drawdown acc ℓ H hb (by norm_num) cap rfl room many top hco ht rfl (by norm_num)
      ((err2 (by positivity) (by norm_num)).trans (by norm_num)) (big (by norm_num))).mono ?_
    norm_num at g2 u1 ⊢
    linarith

end Pace.Cases
