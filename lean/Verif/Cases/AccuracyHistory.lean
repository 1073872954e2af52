import Verif.Cases.Rounded
import Verif.Props.AccuracyHistory

/-! # The theorems on the statistics of a history in floats (C104) at a concrete case: nine bars, five orders, four closed trades -/

namespace Pace.Cases
open Pace Spec

private theorem ℓ : (Rounding.binary64 ℝ).Lawful := binary64_lawful ℝ
private theorem acc : (Rounding.binary64 ℝ).Accurate b64u b64η ((2 : ℝ) ^ (1023 : ℤ)) := binary64_accurate ℝ

private def o (t : Nat) : Nat := [9, 10, 12, 14, 15, 14, 11, 10, 12].getD t 0
private def h (t : Nat) : Nat := [11, 13, 14, 16, 17, 15, 12, 13, 16].getD t 0
private def l (t : Nat) : Nat := [8, 9, 11, 13, 12, 10, 9, 9, 11].getD t 0
private def c (t : Nat) : Nat := [10, 12, 13, 15, 14, 11, 10, 12, 15].getD t 0

private def v (t : Nat) : Nat := [1, 3, 2, 5, 1, 2, 4, 2, 3].getD t 0

private noncomputable def d : DataProvider B64 :=
  .ofSeries 9 (fun t => some (s (o t))) (fun t => some (s (h t))) (fun t => some (s (l t))) (fun t => some (s (c t))) (fun t => some (s (v t)))
private theorem small : ∀ t, t < 9 → o t ≤ 17 ∧ h t ≤ 17 ∧ l t ≤ 17 ∧ c t ≤ 17 ∧ v t ≤ 5 := by decide

private theorem hb : PricedBars (Sf.valued (Rounding.binary64 ℝ)) d 9 (fun t => (o t : ℝ)) (fun t => (h t : ℝ)) (fun t => (l t : ℝ)) (fun t => (c t : ℝ))
    (fun t => (v t : ℝ)) 17 := by
  refine ⟨⟨_, _, _, _, _, bars_ofSeries 9 _ _ _ _ _, fun t ht => ?_⟩, fun t ht => ?_⟩
  · obtain ⟨h1, h2, h3, h4, h5⟩ := small t ht
    exact ⟨s_val (by omega), s_val (by omega), s_val (by omega), s_val (by omega), s_val (by omega)⟩
  · obtain ⟨h1, h2, h3, h4, h5⟩ := small t ht
    have key : ∀ n : Nat, n ≤ 17 → |(n : ℝ)| ≤ 17 := fun n hn => by rw [abs_of_nonneg (Nat.cast_nonneg _)]; exact_mod_cast hn
    exact ⟨key _ h1, key _ h2, key _ h3, key _ h4⟩

private theorem tiny : b64u ≤ 1 / 2 ^ 20 ∧ 0 ≤ b64u ∧ b64η ≤ 1 / 2 ^ 20 ∧ 0 ≤ b64η := by
  have key : ∀ z : ℤ, z ≤ -20 → (2 : ℝ) ^ z ≤ 1 / 2 ^ 20 := fun z hz => by
    have := zpow_le_zpow_right₀ (by norm_num : (1 : ℝ) ≤ 2) hz
    refine this.trans (le_of_eq ?_)
    norm_num
  unfold b64u b64η
  exact ⟨key _ (by norm_num), (Binary64.two_zpow_pos _).le, key _ (by norm_num), (Binary64.two_zpow_pos _).le⟩


private theorem big {x : ℝ} (hx : x ≤ 16777216) : x ≤ (2 : ℝ) ^ (1023 : ℤ) :=
  hx.trans (le_trans (by norm_num : (16777216 : ℝ) ≤ (2 : ℝ) ^ (24 : ℤ)) (zpow_le_zpow_right₀ (by norm_num) (by norm_num)))
private theorem η1 : b64η ≤ 1 := tiny.2.2.1.trans (by norm_num)

private theorem finer : b64u ≤ 1 / 2 ^ 50 ∧ b64η ≤ 1 / 2 ^ 50 := by
  have key : ∀ z : ℤ, z ≤ -50 → (2 : ℝ) ^ z ≤ 1 / 2 ^ 50 := fun z hz => by
    have := zpow_le_zpow_right₀ (by norm_num : (1 : ℝ) ≤ 2) hz
    refine this.trans (le_of_eq ?_)
    norm_num
  unfold b64u b64η
  exact ⟨key _ (by norm_num), key _ (by norm_num)⟩


private noncomputable def cfg : StrategyConfig B64 := ⟨false, true, lit ((100 : Nat) : ℚ), false⟩
private def sig (t : Nat) : Option TradeDirection :=
  [some .long, none, some .short, some .long, none, some .short, none, some .long, none].getD t none

private theorem cap : (Sf.valued (Rounding.binary64 ℝ)).val cfg.initialCapital = Fl.of _ (.fin 100) := by
  have := val_lit_nat (V := Sf.valued (Rounding.binary64 ℝ)) ℓ (n := 100) (by norm_num)
  exact_mod_cast this

private theorem run : ∃ st, Backtest cfg d sig 9 st := C57_strategy_complete cfg sig (bars_ofSeries 9 _ _ _ _ _)

private theorem complete (st : Nat → Strategy B64) : ∀ t, t < 9 → OpenBarsComplete d st t := fun t ht _ =>
  ⟨⟨_, hasCol_hist 9 (fun t => some (s (l t))) t ht⟩, ⟨_, hasCol_hist 9 (fun t => some (s (h t))) t ht⟩⟩

private theorem closed : (deals cfg sig 9).1 = [⟨.long, 1, 3⟩, ⟨.short, 3, 4⟩, ⟨.long, 4, 6⟩, ⟨.short, 6, 8⟩] := by
  rfl

private theorem room : |(100 : ℝ)| + 2 * 17 * (9 : Nat) + 2 * 17 ≤ 440 := by norm_num
private theorem many : (((9 : Nat) : ℝ) + 2) * b64u ≤ 1 := by
  have := tiny.1
  push_cast
  norm_num at this ⊢
  linarith
private theorem top : 100 * (440 : ℝ) + 100 * ((9 : Nat) + 4) * b64η ≤ (2 : ℝ) ^ (1023 : ℤ) :=
  big (by have := η1; push_cast; linarith)

private theorem fills : fillSeries cfg (fun t => (o t : ℝ)) (fun t => (c t : ℝ)) = fun t => (o t : ℝ) := rfl

private theorem whole {n : Nat} (hn : n ≤ 17) : Binary64.Representable (n : ℝ) :=
  ⟨n, 0, by rw [abs_of_nonneg (Int.natCast_nonneg _)]; exact lt_of_le_of_lt (Int.ofNat_le.mpr hn) (by norm_num), by norm_num, by norm_num, by simp⟩

private theorem clear : ∀ i j, i < 9 → j < 9 → fillSeries cfg (fun t => (o t : ℝ)) (fun t => (c t : ℝ)) i = fillSeries cfg (fun t => (o t : ℝ)) (fun t => (c t : ℝ)) j ∨
    b64η < |fillSeries cfg (fun t => (o t : ℝ)) (fun t => (c t : ℝ)) i - fillSeries cfg (fun t => (o t : ℝ)) (fun t => (c t : ℝ)) j| := by
  intro i j hi hj
  exact C103_apart (whole (small i hi).1) (whole (small j hj).1)


/-- The profit booked after each bar. -/
private def booksAt (k : Nat) : ℝ := [0, 0, 0, 4, 3, 3, -1, -1, -2].getD k 0

private theorem books : ∀ k, k < 9 → booked (fun t => (o t : ℝ)) (deals cfg sig (k + 1)).1 = booksAt k := by
  intro k hk
  have c0 : (deals cfg sig 1).1 = [] := rfl
  have c1 : (deals cfg sig 2).1 = [] := rfl
  have c2 : (deals cfg sig 3).1 = [] := rfl
  have c3 : (deals cfg sig 4).1 = [⟨.long, 1, 3⟩] := rfl
  have c4 : (deals cfg sig 5).1 = [⟨.long, 1, 3⟩, ⟨.short, 3, 4⟩] := rfl
  have c5 : (deals cfg sig 6).1 = [⟨.long, 1, 3⟩, ⟨.short, 3, 4⟩] := rfl
  have c6 : (deals cfg sig 7).1 = [⟨.long, 1, 3⟩, ⟨.short, 3, 4⟩, ⟨.long, 4, 6⟩] := rfl
  have c7 : (deals cfg sig 8).1 = [⟨.long, 1, 3⟩, ⟨.short, 3, 4⟩, ⟨.long, 4, 6⟩] := rfl
  interval_cases k <;> norm_num [c0, c1, c2, c3, c4, c5, c6, c7, closed, booked, side, o, booksAt]

private theorem spread : popVar (hist booksAt 9) = 4 := by
  norm_num [hist, List.range_succ, booksAt, popVar, sqDev, mean]
private theorem shortfall : popVar (hist (fun k => max 0 (-booksAt k)) 9) = 38 / 81 := by
  norm_num [hist, List.range_succ, booksAt, popVar, sqDev, mean]
private theorem average : mean (hist booksAt 9) = 2 / 3 := by
  norm_num [hist, List.range_succ, booksAt, mean]

private theorem huge {x : ℝ} (hx : x ≤ 1099511627776) : x ≤ (2 : ℝ) ^ (1023 : ℤ) :=
  hx.trans (le_trans (by norm_num : (1099511627776 : ℝ) ≤ (2 : ℝ) ^ (40 : ℤ)) (zpow_le_zpow_right₀ (by norm_num) (by norm_num)))
private theorem roots : RoundedRoots (Rounding.binary64 ℝ) := fun _ _ => rfl

/-- The incremental statistics of three floats. -/
example : ∃ y, Runs (total StatStdev.next) (.ok (StatStdev.build false : StatStdev B64)) (fun t => s (o t)) 3 y ∧ y 2 = Stats.stdev [s (o 0), s (o 1), s (o 2)] :=
  ⟨_, (C104_batch (fun t => s (o t)) 3).2.2, rfl⟩

/-- Mean and standard deviation of the nine open prices. -/
example : Near (Sf.valued (Rounding.binary64 ℝ)) (Stats.mean (hist (fun t => s (o t)) 9)) (107 / 9) (1 / 2 ^ 20) ∧
    Near (Sf.valued (Rounding.binary64 ℝ)) (Stats.stdev (hist (fun t => s (o t)) 9)) (Real.sqrt (popVar (hist (fun t => (o t : ℝ)) 9))) (1 / 2 ^ 20) := by
  have u0 := tiny.2.1
  have u1 := finer.1
  obtain ⟨h1, h2⟩ := C104_statistics acc ℓ (V := Sf.valued (Rounding.binary64 ℝ)) roots (x := fun t => s (o t)) (p := fun t => (o t : ℝ)) (n := 9) (M := 17) (δ := 0) (by norm_num) (by norm_num)
    (by norm_num) (fun i hi => near_of_val (s_val (by have := (small i hi).1; omega))) (fun i hi => by
      have := (small i hi).1
      rw [abs_of_nonneg (Nat.cast_nonneg _)]
      exact_mod_cast this) (by norm_num) (by norm_num at u1 ⊢; linarith) (big (by norm_num)) rfl
  have e : mean (hist (fun t => (o t : ℝ)) 9) = 107 / 9 := by norm_num [hist, List.range_succ, o, mean]
  rw [e] at h1
  exact ⟨h1.mono (by norm_num at u1 ⊢; linarith), h2.mono (by norm_num at u1 ⊢; linarith)⟩

/-- The Sharpe ratio after the last bar is near `2 / 3 / 2` and the Sortino ratio near `2 / 3 / √(38 / 81)`; both are made of the lists of distances. -/
example : ∃ st tv, Backtest cfg d sig 9 st ∧ TvRun d cfg (lit 0) st 9 tv ∧
    (tv 8).data.sharpeRatio = Metrics.sharpeRatio (Stats.mean (hist (fun k => (tv k).equityMetrics.netEquity - cfg.initialCapital) 9))
      (Stats.stdev (hist (fun k => (tv k).equityMetrics.netEquity - cfg.initialCapital) 9)) (lit 0) ∧
    Near (Sf.valued (Rounding.binary64 ℝ)) (tv 8).data.sharpeRatio (1 / 3) (1 / 2 ^ 10) ∧
    Near (Sf.valued (Rounding.binary64 ℝ)) (tv 8).data.sortinoRatio (2 / 3 / Real.sqrt (38 / 81)) (1 / 2 ^ 10) := by
  obtain ⟨st, H⟩ := run
  obtain ⟨tv, hr⟩ := (C57_tradingview_metrics H (lit 0)).mpr (complete st)
  have u0 := tiny.2.1
  have u1 := finer.1
  have v0 : (Sf.valued (Rounding.binary64 ℝ)).val (lit 0 : B64) = Fl.of _ (.fin 0) := by rw [(Sf.valued (Rounding.binary64 ℝ)).lit, lit_zero ℓ]
  obtain ⟨h1, h2⟩ := C104_sharpe_sortino acc ℓ roots H hb (by norm_num) cap rfl room (by norm_num at u1 ⊢; linarith) (huge (by norm_num)) (by norm_num) v0 (by norm_num) hr (t := 8) (by norm_num)
    rfl (a := 1 / 2) (by norm_num) (by norm_num at u1 ⊢; linarith) (big (by norm_num)) (fun _ => rfl)
  have e1 : hist (fun k => booked (fillSeries cfg (fun t => (o t : ℝ)) fun t => (c t : ℝ)) (deals cfg sig (k + 1)).1) (8 + 1) = hist booksAt 9 :=
    List.map_congr_left fun k hk => books k (List.mem_range.mp hk)
  have e2 : hist (fun k => max 0 (-booked (fillSeries cfg (fun t => (o t : ℝ)) fun t => (c t : ℝ)) (deals cfg sig (k + 1)).1)) (8 + 1) = hist (fun k => max 0 (-booksAt k)) 9 :=
    List.map_congr_left fun k hk => by rw [fills, books k (List.mem_range.mp hk)]
  rw [e1, spread, average] at h1
  rw [e1, e2, shortfall, average] at h2
  have r4 : RootOps.sqrt (4 : ℝ) = 2 := by
    show Real.sqrt 4 = 2
    rw [show (4 : ℝ) = 2 * 2 by norm_num]
    exact Real.sqrt_mul_self (by norm_num)
  rw [r4] at h1
  refine ⟨st, tv, H, hr, (C104_ratios hr (t := 8) (by norm_num)).1, ?_, ?_⟩
  · have := (h1 (by norm_num)).mono (f := 1 / 2 ^ 10) (by norm_num at u1 ⊢; linarith)
    norm_num at this ⊢
    exact this
  · have := (h2 (le_root (by norm_num) fun _ => by norm_num)).mono (f := 1 / 2 ^ 10) (by norm_num at u1 ⊢; linarith)
    rw [sub_zero] at this
    exact this

end Pace.Cases
