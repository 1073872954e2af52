import Verif.Cases.Rounded
import Verif.Props.AccuracyCompound

/-! # The theorems on the reports of a run that reinvests, in floats (C106), at a concrete case: nine bars, five orders, four closed trades -/

namespace Pace.Cases
open Pace Spec

private theorem ℓ : (Rounding.binary64 ℝ).Lawful := binary64_lawful ℝ
private theorem acc : (Rounding.binary64 ℝ).Accurate b64u b64η ((2 : ℝ) ^ (1023 : ℤ)) := binary64_accurate ℝ

private def o (t : Nat) : Nat := [9, 10, 12, 14, 15, 14, 11, 10, 12].getD t 0
private def h (t : Nat) : Nat := [11, 13, 14, 16, 17, 15, 12, 13, 16].getD t 0
private def l (t : Nat) : Nat := [8, 9, 11, 13, 12, 10, 9, 9, 11].getD t 0
private def c (t : Nat) : Nat := [10, 12, 13, 15, 14, 11, 10, 12, 15].getD t 0

private def v (t : Nat) : Nat := [1, 3, 2, 5, 1, 2, 4, 2, 3].getD t 0

private noncomputable def d : DataProvider B64 :=
  .ofSeries 9 (fun t => some (s (o t))) (fun t => some (s (h t))) (fun t => some (s (l t))) (fun t => some (s (c t))) (fun t => some (s (v t)))
private theorem small : ∀ t, t < 9 → o t ≤ 17 ∧ h t ≤ 17 ∧ l t ≤ 17 ∧ c t ≤ 17 ∧ v t ≤ 5 := by decide

private theorem hb : PricedBars (Sf.valued (Rounding.binary64 ℝ)) d 9 (fun t => (o t : ℝ)) (fun t => (h t : ℝ)) (fun t => (l t : ℝ)) (fun t => (c t : ℝ))
    (fun t => (v t : ℝ)) 17 := by
  refine ⟨⟨_, _, _, _, _, bars_ofSeries 9 _ _ _ _ _, fun t ht => ?_⟩, fun t ht => ?_⟩
  · obtain ⟨h1, h2, h3, h4, h5⟩ := small t ht
    exact ⟨s_val (by omega), s_val (by omega), s_val (by omega), s_val (by omega), s_val (by omega)⟩
  · obtain ⟨h1, h2, h3, h4, h5⟩ := small t ht
    have key : ∀ n : Nat, n ≤ 17 → |(n : ℝ)| ≤ 17 := fun n hn => by rw [abs_of_nonneg (Nat.cast_nonneg _)]; exact_mod_cast hn
    exact ⟨key _ h1, key _ h2, key _ h3, key _ h4⟩

private theorem tiny : b64u ≤ 1 / 2 ^ 20 ∧ 0 ≤ b64u ∧ b64η ≤ 1 / 2 ^ 20 ∧ 0 ≤ b64η := by
  have key : ∀ z : ℤ, z ≤ -20 → (2 : ℝ) ^ z ≤ 1 / 2 ^ 20 := fun z hz => by
    have := zpow_le_zpow_right₀ (by norm_num : (1 : ℝ) ≤ 2) hz
    refine this.trans (le_of_eq ?_)
    norm_num
  unfold b64u b64η
  exact ⟨key _ (by norm_num), (Binary64.two_zpow_pos _).le, key _ (by norm_num), (Binary64.two_zpow_pos _).le⟩


private theorem big {x : ℝ} (hx : x ≤ 16777216) : x ≤ (2 : ℝ) ^ (1023 : ℤ) :=
  hx.trans (le_trans (by norm_num : (16777216 : ℝ) ≤ (2 : ℝ) ^ (24 : ℤ)) (zpow_le_zpow_right₀ (by norm_num) (by norm_num)))
private theorem η1 : b64η ≤ 1 := tiny.2.2.1.trans (by norm_num)

private theorem finer : b64u ≤ 1 / 2 ^ 50 ∧ b64η ≤ 1 / 2 ^ 50 := by
  have key : ∀ z : ℤ, z ≤ -50 → (2 : ℝ) ^ z ≤ 1 / 2 ^ 50 := fun z hz => by
    have := zpow_le_zpow_right₀ (by norm_num : (1 : ℝ) ≤ 2) hz
    refine this.trans (le_of_eq ?_)
    norm_num
  unfold b64u b64η
  exact ⟨key _ (by norm_num), key _ (by norm_num)⟩


private noncomputable def cfg : StrategyConfig B64 := ⟨false, true, lit ((100 : Nat) : ℚ), true⟩
private def sig (t : Nat) : Option TradeDirection :=
  [some .long, none, some .short, some .long, none, some .short, none, some .long, none].getD t none

private theorem cap : (Sf.valued (Rounding.binary64 ℝ)).val cfg.initialCapital = Fl.of _ (.fin 100) := by
  have := val_lit_nat (V := Sf.valued (Rounding.binary64 ℝ)) ℓ (n := 100) (by norm_num)
  exact_mod_cast this

private theorem run : ∃ st, Backtest cfg d sig 9 st := C57_strategy_complete cfg sig (bars_ofSeries 9 _ _ _ _ _)

private theorem complete (st : Nat → Strategy B64) : ∀ t, t < 9 → OpenBarsComplete d st t := fun t ht _ =>
  ⟨⟨_, hasCol_hist 9 (fun t => some (s (l t))) t ht⟩, ⟨_, hasCol_hist 9 (fun t => some (s (h t))) t ht⟩⟩

private theorem closed : (deals cfg sig 9).1 = [⟨.long, 1, 3⟩, ⟨.short, 3, 4⟩, ⟨.long, 4, 6⟩, ⟨.short, 6, 8⟩] := by
  rfl

private theorem fills : fillSeries cfg (fun t => (o t : ℝ)) (fun t => (c t : ℝ)) = fun t => (o t : ℝ) := rfl

private theorem roots : RoundedRoots (Rounding.binary64 ℝ) := fun _ _ => rfl

private theorem finest : b64u = 1 / 2 ^ 53 ∧ b64η ≤ 1 / 2 ^ 60 := by
  refine ⟨by norm_num [b64u], ?_⟩
  have := zpow_le_zpow_right₀ (by norm_num : (1 : ℝ) ≤ 2) (show (-1075 : ℤ) ≤ -60 by norm_num)
  unfold b64η
  refine this.trans (le_of_eq ?_)
  norm_num

private def table : List (List Deal × Option (TradeDirection × Nat)) :=
  [([], none), ([], none), ([], some (.long, 1)), ([], some (.long, 1)), ([⟨.long, 1, 3⟩], some (.short, 3)), ([⟨.long, 1, 3⟩, ⟨.short, 3, 4⟩], some (.long, 4)),
   ([⟨.long, 1, 3⟩, ⟨.short, 3, 4⟩], some (.long, 4)), ([⟨.long, 1, 3⟩, ⟨.short, 3, 4⟩, ⟨.long, 4, 6⟩], some (.short, 6)),
   ([⟨.long, 1, 3⟩, ⟨.short, 3, 4⟩, ⟨.long, 4, 6⟩], some (.short, 6)), ([⟨.long, 1, 3⟩, ⟨.short, 3, 4⟩, ⟨.long, 4, 6⟩, ⟨.short, 6, 8⟩], some (.long, 8))]

private theorem dealt : ∀ n, n ≤ 9 → deals cfg sig n = table.getD n ([], none) := by
  intro n hn
  interval_cases n <;> rfl

/-- The equity after each bar. -/
private noncomputable def equity (k : Nat) : ℝ := [100, 120, 130, 130, 364 / 3, 286 / 3, 104, 260 / 3, 325 / 3].getD k 0

private theorem curve : ∀ k, k < 9 → worthCurve cfg sig (100 : ℝ) (fun t => (o t : ℝ)) (fun t => (c t : ℝ)) k = equity k := by
  intro k hk
  unfold worthCurve
  rw [dealt (k + 1) (by omega)]
  interval_cases k <;> norm_num [table, worth, wealth, grown, growth, o, c, equity]

private theorem tame : TameRun cfg sig 9 (fun t => (o t : ℝ)) (fun t => (c t : ℝ)) 100 (2 / 5) 140 80 9 17 := by
  refine ⟨fun t ht => ?_, ?_, fun t ht dir e he => ?_, by norm_num, fun n hn => ?_, fun t ht => ?_⟩
  · rw [fills]
    interval_cases t <;> norm_num [o]
  · rw [closed, fills]
    simp only [List.mem_cons, List.not_mem_nil, or_false]
    rintro x (rfl | rfl | rfl | rfl) <;> norm_num [o, abs_le]
  · rw [fills]
    rw [dealt (t + 1) (by omega)] at he
    interval_cases t <;> simp [table] at he
    all_goals
      obtain ⟨rfl, rfl⟩ := he
      norm_num [o, c, abs_le]
  · rw [dealt n hn, fills]
    interval_cases n <;> norm_num [table, wealth, grown, growth, o]
  · have := curve t ht
    unfold worthCurve at this
    rw [fills, this]
    interval_cases t <;> norm_num [equity]

private theorem far : FarFromLimits b64u b64η ((2 : ℝ) ^ (1023 : ℤ)) (2 / 5) (2 * 140) 9 17 := by
  have e1 := finest.2
  refine ⟨by norm_num, by norm_num, by norm_num, big (by norm_num), big (by norm_num), big (by norm_num), ?_, ?_, ?_⟩ <;> rw [finest.1] <;> norm_num at e1 ⊢ <;> linarith

private theorem bound : ((9 : Nat) + 1) * (48 * ((1 + 2 / 5) * (b64u * 140)) / 80) ≤ 1 / 2 := by rw [finest.1]; norm_num

/-- Equity, extremes and net equity after the last bar. -/
example : ∃ st tv, Backtest cfg d sig 9 st ∧ TvRun d cfg (lit 0) st 9 tv ∧ Near (Sf.valued (Rounding.binary64 ℝ)) (tv 8).equityMetrics.equity (325 / 3) (1 / 2 ^ 30) ∧
    Near (Sf.valued (Rounding.binary64 ℝ)) (tv 8).equityMetrics.equityMax 130 (1 / 2 ^ 30) ∧ Near (Sf.valued (Rounding.binary64 ℝ)) (tv 8).equityMetrics.equityMin (260 / 3) (1 / 2 ^ 30) ∧
    Near (Sf.valued (Rounding.binary64 ℝ)) (tv 8).equityMetrics.netEquity (260 / 3) (1 / 2 ^ 30) := by
  obtain ⟨st, H⟩ := run
  obtain ⟨tv, hr⟩ := (C57_tradingview_metrics H (lit 0)).mpr (complete st)
  obtain ⟨h1, h2, h3, h4⟩ := C106_equity acc ℓ H (hb.floatBars cap) rfl tame far rfl bound rfl (tv_em hr) (t := 8) (by norm_num)
  rw [fills] at h1 h2 h3 h4
  have p : peak (100 : ℝ) (worthCurve cfg sig (100 : ℝ) (fun t => (o t : ℝ)) (fun t => (c t : ℝ))) 8 = 130 := by
    simp only [peak, curve 0 (by norm_num), curve 1 (by norm_num), curve 2 (by norm_num), curve 3 (by norm_num), curve 4 (by norm_num), curve 5 (by norm_num), curve 6 (by norm_num),
      curve 7 (by norm_num), curve 8 (by norm_num)]
    norm_num [equity]
  have q : trough (100 : ℝ) (worthCurve cfg sig (100 : ℝ) (fun t => (o t : ℝ)) (fun t => (c t : ℝ))) 8 = 260 / 3 := by
    simp only [trough, curve 0 (by norm_num), curve 1 (by norm_num), curve 2 (by norm_num), curve 3 (by norm_num), curve 4 (by norm_num), curve 5 (by norm_num), curve 6 (by norm_num),
      curve 7 (by norm_num), curve 8 (by norm_num)]
    norm_num [equity]
  have w : wealth (100 : ℝ) (fun t => (o t : ℝ)) (deals cfg sig (8 + 1)).1 = 260 / 3 := by
    rw [dealt 9 le_rfl]
    norm_num [table, wealth, grown, growth, o]
  rw [curve 8 (by norm_num)] at h1
  rw [p] at h2
  rw [q] at h3
  rw [w] at h4
  have small : ((9 : Nat) + 1) * (48 * ((1 + 2 / 5) * (b64u * 140)) / 80) * ((1 + 2 / 5) * 140) ≤ (1 / 2 ^ 30 : ℝ) := by rw [finest.1]; norm_num
  exact ⟨st, tv, H, hr, h1.mono small, h2.mono small, h3.mono small, h4.mono small⟩

private def year (_ : Nat) : Option Int := none

private theorem ticks : countedTicks none year 8 = [0, 1, 2, 3, 4, 5, 6, 7, 8] := by decide +kernel

/-- The returns of the bars. -/
private noncomputable def r : List ℝ := [0, 1 / 5, 1 / 12, 0, -1 / 15, -3 / 14, 1 / 11, -1 / 6, 1 / 4]

private theorem returns : r = (countedTicks none year 8).map (returnOf (100 : ℝ) (worthCurve cfg sig 100 (fillSeries cfg (fun t => (o t : ℝ)) fun t => (c t : ℝ)) fun t => (c t : ℝ))) := by
  rw [ticks, fills]
  norm_num [r, returnOf, curve, equity]

/-- The equity has fallen by a third from its peak of 130. -/
example : ∃ st co, Backtest cfg d sig 9 st ∧ CobraRun d cfg false none year st 9 co ∧
    Near (Sf.valued (Rounding.binary64 ℝ)) (co 8).data.equityCurveMaxDd (-1 / 3) (1 / 2 ^ 30) := by
  obtain ⟨st, H⟩ := run
  obtain ⟨co, hr⟩ := (C57_cobra_metrics H false none year).mpr fun t ht => ⟨complete st t ht, fun h => absurd rfl h⟩
  have h1 := C106_drawdown acc ℓ H (hb.floatBars cap) rfl tame far rfl bound rfl (by rw [finest.1]; norm_num) (big (by norm_num)) hr (t := 8) (by norm_num)
  rw [fills] at h1
  have e : trough 0 (fun k => worthCurve cfg sig (100 : ℝ) (fun t => (o t : ℝ)) (fun t => (c t : ℝ)) k /
      peak 100 (worthCurve cfg sig (100 : ℝ) (fun t => (o t : ℝ)) (fun t => (c t : ℝ))) k - 1) 8 = -1 / 3 := by
    simp only [trough, peak, curve 0 (by norm_num), curve 1 (by norm_num), curve 2 (by norm_num), curve 3 (by norm_num), curve 4 (by norm_num), curve 5 (by norm_num), curve 6 (by norm_num),
      curve 7 (by norm_num), curve 8 (by norm_num)]
    norm_num [equity]
  rw [e] at h1
  exact ⟨st, co, H, hr, h1.mono (by rw [finest.1]; norm_num)⟩

/-- The three ratios after the last bar. -/
example : ∃ st co, Backtest cfg d sig 9 st ∧ CobraRun d cfg false none year st 9 co ∧
    Near (Sf.valued (Rounding.binary64 ℝ)) (co 8).data.sharpe (mean r / Real.sqrt (popVar r) * Real.sqrt 365) (1 / 500) ∧
    Near (Sf.valued (Rounding.binary64 ℝ)) (co 8).data.sortino (mean r / Real.sqrt (popVar [0, 0, 0, 0, 1 / 15, 3 / 14, 0, 1 / 6, 0]) * Real.sqrt 365) (1 / 500) ∧
    Near (Sf.valued (Rounding.binary64 ℝ)) (co 8).data.omega ((1 / 5 + 1 / 12 + 1 / 11 + 1 / 4) / (1 / 15 + 3 / 14 + 1 / 6) * Real.sqrt 365) (1 / 500) := by
  obtain ⟨st, H⟩ := run
  obtain ⟨co, hr⟩ := (C57_cobra_metrics H false none year).mpr fun t ht => ⟨complete st t ht, fun h => absurd rfl h⟩
  have e0 := finest.1
  have ne : countedTicks none year 8 ≠ [] := by rw [ticks]; simp
  obtain ⟨h1, h2, h3⟩ := C106_ratios acc ℓ roots H (hb.floatBars cap) rfl tame far rfl bound rfl rfl (by rw [e0]; norm_num) (by rw [e0]; norm_num) (by norm_num) rfl
    (a := 1 / 20) (by norm_num) (by rw [e0]; norm_num) (big (by norm_num)) hr (t := 8) (by norm_num) ne returns
  have s1 : r.map (fun x => max 0 (-x)) = [0, 0, 0, 0, 1 / 15, 3 / 14, 0, 1 / 6, 0] := by
    simp only [r, List.map_cons, List.map_nil]
    norm_num [max_eq_left, max_eq_right]
  have s2 : (r.map (max 0)).sum = 1 / 5 + 1 / 12 + 1 / 11 + 1 / 4 := by
    simp only [r, List.map_cons, List.map_nil, List.sum_cons, List.sum_nil]
    norm_num [max_eq_left, max_eq_right]
  rw [s1] at h2 h3
  rw [s2] at h3
  refine ⟨st, co, H, hr, (h1 (le_root (by norm_num [r, popVar, sqDev, mean]) fun _ => ?_)).mono ?_, (h2 (le_root (by norm_num [popVar, sqDev, mean]) fun _ => ?_)).mono ?_, ?_⟩
  · norm_num [r, popVar, sqDev, mean]
  · rw [e0]; norm_num
  · norm_num [popVar, sqDev, mean]
  · rw [e0]; norm_num
  · have := (h3 (by norm_num)).mono (f := 1 / 500) (by rw [e0]; norm_num)
    norm_num at this ⊢
    exact this

end Pace.Cases
