import Verif.Cases.Rounded
import Verif.Props.AccuracyFast

/-! # The theorems on the fast ratios of the Cobra report in floats (C109) at a concrete case: nine bars, five orders, four closed trades -/

namespace Pace.Cases
open Pace Spec

private theorem ℓ : (Rounding.binary64 ℝ).Lawful := binary64_lawful ℝ
private theorem acc : (Rounding.binary64 ℝ).Accurate b64u b64η ((2 : ℝ) ^ (1023 : ℤ)) := binary64_accurate ℝ

private def o (t : Nat) : Nat := [9, 10, 2, 15, 4, 16, 3, 14, 2].getD t 0
private def h (t : Nat) : Nat := [11, 12, 16, 16, 17, 16, 15, 14, 16].getD t 0
private def l (t : Nat) : Nat := [8, 1, 2, 3, 3, 2, 2, 1, 1].getD t 0
private def c (t : Nat) : Nat := [10, 2, 15, 4, 16, 3, 14, 2, 15].getD t 0

private def v (t : Nat) : Nat := [1, 3, 2, 5, 1, 2, 4, 2, 3].getD t 0

private noncomputable def d : DataProvider B64 :=
  .ofSeries 9 (fun t => some (s (o t))) (fun t => some (s (h t))) (fun t => some (s (l t))) (fun t => some (s (c t))) (fun t => some (s (v t)))
private theorem small : ∀ t, t < 9 → o t ≤ 17 ∧ h t ≤ 17 ∧ l t ≤ 17 ∧ c t ≤ 17 ∧ v t ≤ 5 := by decide

private theorem hb : PricedBars (Sf.valued (Rounding.binary64 ℝ)) d 9 (fun t => (o t : ℝ)) (fun t => (h t : ℝ)) (fun t => (l t : ℝ)) (fun t => (c t : ℝ))
    (fun t => (v t : ℝ)) 17 := by
  refine ⟨⟨_, _, _, _, _, bars_ofSeries 9 _ _ _ _ _, fun t ht => ?_⟩, fun t ht => ?_⟩
  · obtain ⟨h1, h2, h3, h4, h5⟩ := small t ht
    exact ⟨s_val (by omega), s_val (by omega), s_val (by omega), s_val (by omega), s_val (by omega)⟩
  · obtain ⟨h1, h2, h3, h4, h5⟩ := small t ht
    have key : ∀ n : Nat, n ≤ 17 → |(n : ℝ)| ≤ 17 := fun n hn => by rw [abs_of_nonneg (Nat.cast_nonneg _)]; exact_mod_cast hn
    exact ⟨key _ h1, key _ h2, key _ h3, key _ h4⟩

private theorem tiny : b64u ≤ 1 / 2 ^ 20 ∧ 0 ≤ b64u ∧ b64η ≤ 1 / 2 ^ 20 ∧ 0 ≤ b64η := by
  have key : ∀ z : ℤ, z ≤ -20 → (2 : ℝ) ^ z ≤ 1 / 2 ^ 20 := fun z hz => by
    have := zpow_le_zpow_right₀ (by norm_num : (1 : ℝ) ≤ 2) hz
    refine this.trans (le_of_eq ?_)
    norm_num
  unfold b64u b64η
  exact ⟨key _ (by norm_num), (Binary64.two_zpow_pos _).le, key _ (by norm_num), (Binary64.two_zpow_pos _).le⟩


private theorem big {x : ℝ} (hx : x ≤ 16777216) : x ≤ (2 : ℝ) ^ (1023 : ℤ) :=
  hx.trans (le_trans (by norm_num : (16777216 : ℝ) ≤ (2 : ℝ) ^ (24 : ℤ)) (zpow_le_zpow_right₀ (by norm_num) (by norm_num)))
private theorem η1 : b64η ≤ 1 := tiny.2.2.1.trans (by norm_num)

private noncomputable def cfg : StrategyConfig B64 := ⟨false, true, lit ((100 : Nat) : ℚ), false⟩
private def sig (t : Nat) : Option TradeDirection :=
  [some .long, none, some .short, some .long, none, some .short, none, some .long, none].getD t none

private theorem cap : (Sf.valued (Rounding.binary64 ℝ)).val cfg.initialCapital = Fl.of _ (.fin 100) := by
  have := val_lit_nat (V := Sf.valued (Rounding.binary64 ℝ)) ℓ (n := 100) (by norm_num)
  exact_mod_cast this

private theorem run : ∃ st, Backtest cfg d sig 9 st := C57_strategy_complete cfg sig (bars_ofSeries 9 _ _ _ _ _)

private theorem complete (st : Nat → Strategy B64) : ∀ t, t < 9 → OpenBarsComplete d st t := fun t ht _ =>
  ⟨⟨_, hasCol_hist 9 (fun t => some (s (l t))) t ht⟩, ⟨_, hasCol_hist 9 (fun t => some (s (h t))) t ht⟩⟩

private theorem room : |(100 : ℝ)| + 2 * 17 * (9 : Nat) + 2 * 17 ≤ 440 := by norm_num
private theorem top : 100 * (440 : ℝ) + 100 * ((9 : Nat) + 4) * b64η ≤ (2 : ℝ) ^ (1023 : ℤ) :=
  big (by have := η1; push_cast; linarith)

private theorem fills : fillSeries cfg (fun t => (o t : ℝ)) (fun t => (c t : ℝ)) = fun t => (o t : ℝ) := rfl

private theorem roots : RoundedRoots (Rounding.binary64 ℝ) := fun _ _ => rfl

/-- The equity after each bar. -/
private def worth (k : Nat) : ℝ := [100, 92, 105, 116, 128, 115, 104, 116, 129].getD k 0

private theorem equity : ∀ k, k < 9 → equityCurve cfg sig (100 : ℝ) (fun t => (o t : ℝ)) (fun t => (c t : ℝ)) k = worth k := by
  intro k hk
  have c0 : held cfg sig 0 = 0 := rfl
  have c1 : held cfg sig 1 = 0 := rfl
  have c2 : held cfg sig 2 = 1 := rfl
  have c3 : held cfg sig 3 = 1 := rfl
  have c4 : held cfg sig 4 = -1 := rfl
  have c5 : held cfg sig 5 = 1 := rfl
  have c6 : held cfg sig 6 = 1 := rfl
  have c7 : held cfg sig 7 = -1 := rfl
  have c8 : held cfg sig 8 = -1 := rfl
  have c9 : held cfg sig 9 = 1 := rfl
  interval_cases k <;> norm_num [c0, c1, c2, c3, c4, c5, c6, c7, c8, c9, equityCurve, earned, Finset.sum_range_succ, side, o, c, worth]

private def year (k : Nat) : Option Int := some (if k < 3 then 2020 else 2021)

private theorem ticks : countedTicks (some 2021) year 8 = [3, 4, 5, 6, 7, 8] := by decide +kernel

/-- The returns on the bars of the year 2021. -/
private noncomputable def ρ : List ℝ := [11 / 105, 12 / 116, -13 / 128, -11 / 115, 12 / 104, 13 / 116]

private theorem returns : ρ = (countedTicks (some 2021) year 8).map (returnOf (100 : ℝ) (equityCurve cfg sig 100 (fillSeries cfg (fun t => (o t : ℝ)) fun t => (c t : ℝ)) fun t => (c t : ℝ))) := by
  rw [ticks, fills]
  norm_num [ρ, returnOf, equity, worth]

private theorem finest : b64u = 1 / 2 ^ 53 ∧ b64η ≤ 1 / 2 ^ 60 := by
  refine ⟨by norm_num [b64u], ?_⟩
  have := zpow_le_zpow_right₀ (by norm_num : (1 : ℝ) ≤ 2) (show (-1075 : ℤ) ≤ -60 by norm_num)
  unfold b64η
  refine this.trans (le_of_eq ?_)
  norm_num

/-- The two ratios of the year 2021 after the last bar, in the fast mode. -/
example : ∃ st co, Backtest cfg d sig 9 st ∧ CobraRun d cfg true (some 2021) year st 9 co ∧
    Near (Sf.valued (Rounding.binary64 ℝ)) (co 8).data.sharpe (mean ρ / Real.sqrt (sampleVar ρ) * Real.sqrt 365) (1 / 20) ∧
    Near (Sf.valued (Rounding.binary64 ℝ)) (co 8).data.sortino (mean ρ / Real.sqrt (sampleVar [0, 0, 13 / 128, 11 / 115, 0, 0]) * Real.sqrt 365) (1 / 20) := by
  obtain ⟨st, H⟩ := run
  obtain ⟨co, hr⟩ := (C57_cobra_metrics H true (some 2021) year).mpr fun t ht => ⟨complete st t ht, fun _ => by simp [year]⟩
  have e0 := finest.1
  have e1 := finest.2
  have e2 := tiny.2.2.2
  have low : ∀ k, k < 9 → (90 : ℝ) ≤ equityCurve cfg sig 100 (fillSeries cfg (fun t => (o t : ℝ)) fun t => (c t : ℝ)) (fun t => (c t : ℝ)) k := by
    intro k hk
    rw [fills, equity k hk]
    interval_cases k <;> norm_num [worth]
  have main := fun a => C109_report acc ℓ roots H hb (by norm_num) cap rfl room (by rw [e0]; norm_num) top (by norm_num) (m := 90) (by norm_num) rfl
    (by rw [e0]; norm_num at e1 ⊢; linarith) (by norm_num) low rfl (a := a)
  have E : 3 * ((1 + 440 / 90) * (3 * (6 * (((9 : Nat) : ℝ) + 2) * (b64u * 440 + b64η) / 90) + b64u)) + (9 : Nat) * b64u * ((1 + 440 / 90) + 1) ≤ 3 / 2 ^ 40 := by
    rw [e0]; norm_num at e1 ⊢; linarith
  have E0 : 0 ≤ 3 * ((1 + 440 / 90) * (3 * (6 * (((9 : Nat) : ℝ) + 2) * (b64u * 440 + b64η) / 90) + b64u)) + (9 : Nat) * b64u * ((1 + 440 / 90) + 1) := by
    rw [e0]; positivity
  generalize hEd : 3 * ((1 + 440 / 90) * (3 * (6 * (((9 : Nat) : ℝ) + 2) * (b64u * 440 + b64η) / 90) + b64u)) + (9 : Nat) * b64u * ((1 + 440 / 90) + 1) = Z at main E E0
  have ne : 2 ≤ (countedTicks (some 2021) year 8).length := by rw [ticks]; simp
  obtain ⟨h1, h2⟩ := main (1 / 20) (by norm_num) (by norm_num at E ⊢; linarith) (big (by norm_num)) hr (t := 8) (by norm_num) ne returns
  have s1 : ρ.map (fun x => max 0 (-x)) = [0, 0, 13 / 128, 11 / 115, 0, 0] := by
    simp only [ρ, List.map_cons, List.map_nil]
    norm_num [max_eq_left, max_eq_right]
  rw [s1] at h2
  refine ⟨st, co, H, hr, (h1 (le_root (by norm_num [ρ, sampleVar, sqDev, mean]) fun _ => ?_)).mono ?_, (h2 (le_root (by norm_num [sampleVar, sqDev, mean]) fun _ => ?_)).mono ?_⟩
  · norm_num [ρ, sampleVar, sqDev, mean]
  · rw [e0]; norm_num at E ⊢; linarith
  · norm_num [sampleVar, sqDev, mean]
  · rw [e0]; norm_num at E ⊢; linarith

/-- The Omega ratio of the year 2021 after the last bar, in the fast mode. -/
example : ∃ st co, Backtest cfg d sig 9 st ∧ CobraRun d cfg true (some 2021) year st 9 co ∧
    Near (Sf.valued (Rounding.binary64 ℝ)) (co 8).data.omega ((11 / 105 + 12 / 116 + 12 / 104 + 13 / 116) / (13 / 128 + 11 / 115) * Real.sqrt 365) (1 / 1000) := by
  obtain ⟨st, H⟩ := run
  obtain ⟨co, hr⟩ := (C57_cobra_metrics H true (some 2021) year).mpr fun t ht => ⟨complete st t ht, fun _ => by simp [year]⟩
  have e0 := finest.1
  have e1 := finest.2
  have e2 := tiny.2.2.2
  have low : ∀ k, k < 9 → (90 : ℝ) ≤ equityCurve cfg sig 100 (fillSeries cfg (fun t => (o t : ℝ)) fun t => (c t : ℝ)) (fun t => (c t : ℝ)) k := by
    intro k hk
    rw [fills, equity k hk]
    interval_cases k <;> norm_num [worth]
  have E : 3 * ((1 + 440 / 90) * (3 * (6 * (((9 : Nat) : ℝ) + 2) * (b64u * 440 + b64η) / 90) + b64u)) + (9 : Nat) * b64u * ((1 + 440 / 90) + 1) ≤ 3 / 2 ^ 40 := by
    rw [e0]; norm_num at e1 ⊢; linarith
  have main := fun a => C109_omega acc ℓ roots H hb (by norm_num) cap rfl room (by rw [e0]; norm_num) top (by norm_num) (m := 90) (by norm_num) rfl
    (by rw [e0]; norm_num at e1 ⊢; linarith) (by norm_num) low rfl (a := a)
  generalize hEd : 3 * ((1 + 440 / 90) * (3 * (6 * (((9 : Nat) : ℝ) + 2) * (b64u * 440 + b64η) / 90) + b64u)) + (9 : Nat) * b64u * ((1 + 440 / 90) + 1) = Z at main E
  have h3 := main (1 / 10) (by norm_num) (by norm_num at E ⊢; linarith) (big (by norm_num)) hr (t := 8) (by norm_num) (by rw [ticks]; simp) returns
  have s1 : (ρ.map fun x => max 0 (-x)).sum = 13 / 128 + 11 / 115 := by
    simp only [ρ, List.map_cons, List.map_nil, List.sum_cons, List.sum_nil]
    norm_num [max_eq_left, max_eq_right]
  have s2 : (ρ.map (max 0)).sum = 11 / 105 + 12 / 116 + 12 / 104 + 13 / 116 := by
    simp only [ρ, List.map_cons, List.map_nil, List.sum_cons, List.sum_nil]
    norm_num [max_eq_left, max_eq_right]
  rw [s1, s2] at h3
  have := (h3 (by norm_num)).mono (f := 1 / 1000) (by rw [e0]; norm_num at E ⊢; linarith)
  exact ⟨st, co, H, hr, this⟩

/-- While no bar counts the ratios are zero; afterwards they are those of the list of float returns. -/
example : ∃ st co, Backtest cfg d sig 9 st ∧ CobraRun d cfg true (some 2021) year st 9 co ∧ (co 2).data.sharpe = lit 0 ∧
    (co 4).data.sharpe = Metrics.sharpeRatio (Stats.mean [equityReturn cfg st 3, equityReturn cfg st 4]) (fastDev [equityReturn cfg st 3, equityReturn cfg st 4]) (lit 0) * F64.sqrt (lit 365) := by
  obtain ⟨st, H⟩ := run
  obtain ⟨co, hr⟩ := (C57_cobra_metrics H true (some 2021) year).mpr fun t ht => ⟨complete st t ht, fun _ => by simp [year]⟩
  have t2 : countedTicks (some 2021) year 2 = [] := by decide +kernel
  have t4 : countedTicks (some 2021) year 4 = [3, 4] := by decide +kernel
  have := ((C109_ratios hr (t := 4) (by norm_num)).2 (by rw [t4]; simp)).sharpe
  rw [t4] at this
  exact ⟨st, co, H, hr, ((C109_ratios hr (t := 2) (by norm_num)).1 t2).2.1, this⟩

end Pace.Cases
