import Verif.Cases.Rounded
import Verif.Props.AccuracyVolatility
import Verif.Props.Reflect2
import Mathlib.Tactic.NormNum.RealSqrt

/-! # The theorems on the relative volatility index in floats (C101) at concrete cases

Nine bars; closes 10, 12, 13, 15, 14, 11, 10, 12, 15. The standard deviation of two closes is half their distance. -/

namespace Pace.Cases
open Pace Spec

private theorem ℓ : (Rounding.binary64 ℝ).Lawful := binary64_lawful ℝ
private theorem acc : (Rounding.binary64 ℝ).Accurate b64u b64η ((2 : ℝ) ^ (1023 : ℤ)) := binary64_accurate ℝ

private def o (t : Nat) : Nat := [9, 10, 12, 14, 15, 14, 11, 10, 12].getD t 0
private def h (t : Nat) : Nat := [11, 13, 14, 16, 17, 15, 12, 13, 16].getD t 0
private def l (t : Nat) : Nat := [8, 9, 11, 13, 12, 10, 9, 9, 11].getD t 0
private def c (t : Nat) : Nat := [10, 12, 13, 15, 14, 11, 10, 12, 15].getD t 0

private def v (t : Nat) : Nat := [1, 3, 2, 5, 1, 2, 4, 2, 3].getD t 0

private noncomputable def d : DataProvider B64 :=
  .ofSeries 9 (fun t => some (s (o t))) (fun t => some (s (h t))) (fun t => some (s (l t))) (fun t => some (s (c t))) (fun t => some (s (v t)))
private noncomputable def dx : DataProvider (Ex ℝ) :=
  .ofSeries 9 (fun t => some (fin (o t : ℝ))) (fun t => some (fin (h t : ℝ))) (fun t => some (fin (l t : ℝ))) (fun t => some (fin (c t : ℝ)))
    (fun t => some (fin (v t : ℝ)))
private theorem hx : ExBars dx 9 (fun t => (o t : ℝ)) (fun t => (h t : ℝ)) (fun t => (l t : ℝ)) (fun t => (c t : ℝ)) (fun t => (v t : ℝ)) :=
  bars_ofSeries 9 _ _ _ _ _

private theorem small : ∀ t, t < 9 → o t ≤ 17 ∧ h t ≤ 17 ∧ l t ≤ 17 ∧ c t ≤ 17 ∧ v t ≤ 5 := by decide

private theorem hb : PricedBars (Sf.valued (Rounding.binary64 ℝ)) d 9 (fun t => (o t : ℝ)) (fun t => (h t : ℝ)) (fun t => (l t : ℝ)) (fun t => (c t : ℝ))
    (fun t => (v t : ℝ)) 17 := by
  refine ⟨⟨_, _, _, _, _, bars_ofSeries 9 _ _ _ _ _, fun t ht => ?_⟩, fun t ht => ?_⟩
  · obtain ⟨h1, h2, h3, h4, h5⟩ := small t ht
    exact ⟨s_val (by omega), s_val (by omega), s_val (by omega), s_val (by omega), s_val (by omega)⟩
  · obtain ⟨h1, h2, h3, h4, h5⟩ := small t ht
    have key : ∀ n : Nat, n ≤ 17 → |(n : ℝ)| ≤ 17 := fun n hn => by rw [abs_of_nonneg (Nat.cast_nonneg _)]; exact_mod_cast hn
    exact ⟨key _ h1, key _ h2, key _ h3, key _ h4⟩

private theorem le900 {x : ℝ} (hx : x ≤ 1024) : x ≤ (2 : ℝ) ^ (900 : ℤ) :=
  hx.trans (le_trans (by norm_num : (1024 : ℝ) ≤ (2 : ℝ) ^ (10 : ℤ)) (zpow_le_zpow_right₀ (by norm_num) (by norm_num)))
private theorem room : Room b64u b64η ((2 : ℝ) ^ (1023 : ℤ)) 100 17 := room_binary64 (by norm_num) (by norm_num) (le900 (by norm_num))

private theorem tiny : b64u ≤ 1 / 2 ^ 20 ∧ 0 ≤ b64u ∧ b64η ≤ 1 / 2 ^ 20 ∧ 0 ≤ b64η := by
  have key : ∀ z : ℤ, z ≤ -20 → (2 : ℝ) ^ z ≤ 1 / 2 ^ 20 := fun z hz => by
    have := zpow_le_zpow_right₀ (by norm_num : (1 : ℝ) ≤ 2) hz
    refine this.trans (le_of_eq ?_)
    norm_num
  unfold b64u b64η
  exact ⟨key _ (by norm_num), (Binary64.two_zpow_pos _).le, key _ (by norm_num), (Binary64.two_zpow_pos _).le⟩


private theorem big {x : ℝ} (hx : x ≤ 16777216) : x ≤ (2 : ℝ) ^ (1023 : ℤ) :=
  hx.trans (le_trans (by norm_num : (16777216 : ℝ) ≤ (2 : ℝ) ^ (24 : ℤ)) (zpow_le_zpow_right₀ (by norm_num) (by norm_num)))
private theorem η1 : b64η ≤ 1 := tiny.2.2.1.trans (by norm_num)

private noncomputable def cfg : StrategyConfig B64 := ⟨true, true, s 100, false⟩
private noncomputable def cfgx : StrategyConfig (Ex ℝ) := ⟨true, true, fin ((100 : ℕ) : ℝ), false⟩
private noncomputable abbrev closes : Nat → ℝ := sourceValue .close (fun t => (o t : ℝ)) (fun t => (h t : ℝ)) (fun t => (l t : ℝ)) (fun t => (c t : ℝ)) (fun t => (v t : ℝ))

private theorem finer : b64u ≤ 1 / 2 ^ 50 ∧ b64η ≤ 1 / 2 ^ 50 := by
  have key : ∀ z : ℤ, z ≤ -50 → (2 : ℝ) ^ z ≤ 1 / 2 ^ 50 := fun z hz => by
    have := zpow_le_zpow_right₀ (by norm_num : (1 : ℝ) ≤ 2) hz
    refine this.trans (le_of_eq ?_)
    norm_num
  unfold b64u b64η
  exact ⟨key _ (by norm_num), key _ (by norm_num)⟩

private theorem roots : RoundedRoots (Rounding.binary64 ℝ) := fun _ _ => rfl

private theorem means : ∀ t, t < 9 → 1 ≤ t → mean (win closes 2 t) = [0, 11, 25 / 2, 14, 29 / 2, 25 / 2, 21 / 2, 11, 27 / 2].getD t 0 := by
  intro t ht hs
  interval_cases t <;> norm_num [closes, mean, win, sourceValue, c, List.range_succ]

/-- The population standard deviations of two closes. -/
private theorem deviations : ∀ t, t < 9 → 1 ≤ t → deviationLine 2 closes t = [0, 1, 1 / 2, 1, 1 / 2, 3 / 2, 1 / 2, 1, 3 / 2].getD t 0 := by
  intro t ht hs
  have key : ∀ x y : ℝ, 0 ≤ y → x = y ^ 2 → RootOps.sqrt x = y := fun x y hy hxy => by
    show Real.sqrt x = y
    rw [hxy, Real.sqrt_sq hy]
  unfold deviationLine standardDeviation
  rw [if_pos rfl]
  refine key _ _ ?_ ?_
  · interval_cases t <;> norm_num
  · unfold popVar sqDev
    rw [means t ht hs]
    interval_cases t <;> norm_num [closes, win, sourceValue, c, List.range_succ]

private noncomputable def ups (t : Nat) : Option ℝ := [none, some 1, some (1 / 2), some 1, some 0, some 0, some 0, some 1, some (3 / 2)].getD t none
private noncomputable def downs (t : Nat) : Option ℝ := [none, some 0, some 0, some 0, some (1 / 2), some (3 / 2), some (1 / 2), some 0, some 0].getD t none

private theorem ups_eq : ∀ t, t < 9 → upMoves closes 2 t = ups t := by
  intro t ht
  rcases Nat.eq_zero_or_pos t with rfl | h0
  · simp [upMoves, ups]
  · unfold upMoves startAt
    rw [deviations t ht h0]
    interval_cases t <;> norm_num [closes, sourceValue, c, ups]
private theorem downs_eq : ∀ t, t < 9 → downMoves closes 2 t = downs t := by
  intro t ht
  rcases Nat.eq_zero_or_pos t with rfl | h0
  · simp [downMoves, downs]
  · unfold downMoves startAt
    rw [deviations t ht h0]
    interval_cases t <;> norm_num [closes, sourceValue, c, downs]

/-- Averages of three of them, from bar 3 on. -/
private theorem up_averages : ∀ t, t < 9 → 3 ≤ t → upAverage 2 3 closes t = [0, 0, 0, 5 / 6, 5 / 12, 5 / 24, 5 / 48, 53 / 96, 197 / 192].getD t 0 := by
  intro t ht hs
  unfold upAverage
  rw [emaSeries_congr (y := ups) fun r hr => ups_eq r (by omega)]
  interval_cases t <;> norm_num [emaSeries, fullWindow, win, allSome, mean, List.range_succ, ups]
private theorem down_averages : ∀ t, t < 9 → 3 ≤ t → downAverage 2 3 closes t = [0, 0, 0, 0, 1 / 4, 7 / 8, 11 / 16, 11 / 32, 11 / 64].getD t 0 := by
  intro t ht hs
  unfold downAverage
  rw [emaSeries_congr (y := downs) fun r hr => downs_eq r (by omega)]
  interval_cases t <;> norm_num [emaSeries, fullWindow, win, allSome, mean, List.range_succ, downs]

private theorem sums : ∀ t, t < 9 → 3 ≤ t → 1 / 2 ≤ upAverage 2 3 closes t + downAverage 2 3 closes t := by
  intro t ht hs
  rw [up_averages t ht hs, down_averages t ht hs]
  interval_cases t <;> norm_num

private theorem index : ∀ t, t < 9 → 3 ≤ t → volatilityLine 2 3 closes t = [0, 0, 0, 100, 125 / 2, 250 / 13, 250 / 19, 2650 / 43, 1970 / 23].getD t 0 := by
  intro t ht hs
  unfold volatilityLine
  rw [up_averages t ht hs, down_averages t ht hs]
  interval_cases t <;> norm_num

private theorem err_tiny : 0 ≤ volatilityError b64u 17 9 2 3 ∧ volatilityError b64u 17 9 2 3 ≤ 1 / 2 ^ 30 := by
  obtain ⟨f1, f2⟩ := finer
  have := tiny.2.1
  unfold volatilityError stdevError
  constructor
  · positivity
  · norm_num at *; linarith

private theorem error_small : 1212 * (volatilityError b64u 17 9 2 3 / (1 / 2)) + 303 * b64u < 1 / 10 := by
  have g := err_tiny.2
  have := finer.1
  norm_num at *
  linarith

private theorem exactly : StaysNear (Sf.valued (Rounding.binary64 ℝ)) (fun t => some (s (c t))) 0 closes 0 9 := by
  intro t ht
  unfold startAt
  rw [if_neg (by omega)]
  obtain ⟨-, -, -, h4, -⟩ := small t ht
  exact ⟨_, rfl, closes t, s_val (by omega), by simp⟩
private theorem closes_small : ∀ t, t < 9 → |closes t| ≤ 17 := fun t ht => (hb.bound t ht).2.2.2

private theorem clear : ∀ t, t + 1 < 9 → closes (t + 1) = closes t ∨ b64η < |closes (t + 1) - closes t| := by
  intro t ht
  right
  have hη : b64η < 1 := lt_of_le_of_lt tiny.2.2.1 (by norm_num)
  have h1 : t = 0 ∨ t = 1 ∨ t = 2 ∨ t = 3 ∨ t = 4 ∨ t = 5 ∨ t = 6 ∨ t = 7 := by omega
  refine lt_of_lt_of_le hη ?_
  rcases h1 with rfl | rfl | rfl | rfl | rfl | rfl | rfl | rfl <;> norm_num [closes, sourceValue, c, abs]

/-- The index of deviations of two closes, averaged over three bars. -/
example := C101_relative_volatility acc ℓ roots d (n := 2) (m := 3) (k := 100) (by norm_num) (by norm_num) (.inr (by norm_num)) (by norm_num) (by norm_num) room
  (big (by norm_num)) (big (by norm_num)) exactly closes_small clear rfl (μ := 1 / 2) (by norm_num) (by have := err_tiny.2; norm_num at *; linarith)
  (fun t ht hs => sums t ht hs)

/-- The program with thresholds 20 and 80: the index starts at 100, falls to 13 and rises to 86. -/
example (rfr : B64) (rfrx : Ex ℝ) := C101_relative_volatility_program acc ℓ roots hb (by norm_num) hx (src := .close) (.inr (.inr (.inr rfl))) (p := closes) rfl
  (n := 2) (m := 3) (k := 100) (by norm_num) (by norm_num) (.inr (by norm_num)) (by norm_num) room (big (by norm_num)) (big (by norm_num)) clear rfl (μ := 1 / 2)
  (by norm_num) (by have := err_tiny.2; norm_num at *; linarith) (fun t ht hs => sums t ht hs)
  (th := ⟨s 20, s 80⟩) (thx := ⟨fin ((20 : ℕ) : ℝ), fin ((80 : ℕ) : ℝ)⟩) (s_val (by norm_num)) (s_val (by norm_num)) rfl rfl
  (fun t ht hs => by
    have e := error_small
    rw [index t ht hs]
    generalize 1212 * (volatilityError b64u 17 9 2 3 / (1 / 2)) + 303 * b64u = E at *
    have h1 : t = 3 ∨ t = 4 ∨ t = 5 ∨ t = 6 ∨ t = 7 ∨ t = 8 := by omega
    rcases h1 with rfl | rfl | rfl | rfl | rfl | rfl <;> constructor <;> refine e.trans ?_ <;> norm_num [abs])
  cfg cfgx rfr rfrx

/-- It goes Long on tick 7, where the index leaves the oversold side. -/
example : lineSignal 3 (volatilityLine 2 3 closes) (20 : ℕ) (80 : ℕ) 7 = some .long := by
  have h6 := index 6 (by norm_num) (by norm_num)
  have h7 := index 7 (by norm_num) (by norm_num)
  norm_num at h6 h7
  norm_num [lineSignal, h6, h7]

end Pace.Cases
