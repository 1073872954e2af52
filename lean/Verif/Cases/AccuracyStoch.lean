import Verif.Cases.Rounded
import Verif.Props.AccuracyStoch

/-! # The theorems on the stochastic RSI in floats (C93) at concrete cases

Nine bars; closes 10, 12, 13, 15, 14, 11, 10, 12, 15. The RSI of length 2 is 100, 100, 700/11, 20, 700/51, 1420/23, 26300/307 from tick 2 on, its
stochastic over 5 ticks 0, 0, 0, 55.6, 100 from tick 4 on. -/

namespace Pace.Cases
open Pace Spec

private theorem ℓ : (Rounding.binary64 ℝ).Lawful := binary64_lawful ℝ
private theorem acc : (Rounding.binary64 ℝ).Accurate b64u b64η ((2 : ℝ) ^ (1023 : ℤ)) := binary64_accurate ℝ

private def o (t : Nat) : Nat := [9, 10, 12, 14, 15, 14, 11, 10, 12].getD t 0
private def h (t : Nat) : Nat := [11, 13, 14, 16, 17, 15, 12, 13, 16].getD t 0
private def l (t : Nat) : Nat := [8, 9, 11, 13, 12, 10, 9, 9, 11].getD t 0
private def c (t : Nat) : Nat := [10, 12, 13, 15, 14, 11, 10, 12, 15].getD t 0

private def v (t : Nat) : Nat := [1, 3, 2, 5, 1, 2, 4, 2, 3].getD t 0

private noncomputable def d : DataProvider B64 :=
  .ofSeries 9 (fun t => some (s (o t))) (fun t => some (s (h t))) (fun t => some (s (l t))) (fun t => some (s (c t))) (fun t => some (s (v t)))
private noncomputable def dx : DataProvider (Ex ℝ) :=
  .ofSeries 9 (fun t => some (fin (o t : ℝ))) (fun t => some (fin (h t : ℝ))) (fun t => some (fin (l t : ℝ))) (fun t => some (fin (c t : ℝ)))
    (fun t => some (fin (v t : ℝ)))
private theorem hx : ExBars dx 9 (fun t => (o t : ℝ)) (fun t => (h t : ℝ)) (fun t => (l t : ℝ)) (fun t => (c t : ℝ)) (fun t => (v t : ℝ)) :=
  bars_ofSeries 9 _ _ _ _ _

private theorem small : ∀ t, t < 9 → o t ≤ 17 ∧ h t ≤ 17 ∧ l t ≤ 17 ∧ c t ≤ 17 ∧ v t ≤ 5 := by decide

private theorem hb : PricedBars (Sf.valued (Rounding.binary64 ℝ)) d 9 (fun t => (o t : ℝ)) (fun t => (h t : ℝ)) (fun t => (l t : ℝ)) (fun t => (c t : ℝ))
    (fun t => (v t : ℝ)) 17 := by
  refine ⟨⟨_, _, _, _, _, bars_ofSeries 9 _ _ _ _ _, fun t ht => ?_⟩, fun t ht => ?_⟩
  · obtain ⟨h1, h2, h3, h4, h5⟩ := small t ht
    exact ⟨s_val (by omega), s_val (by omega), s_val (by omega), s_val (by omega), s_val (by omega)⟩
  · obtain ⟨h1, h2, h3, h4, h5⟩ := small t ht
    have key : ∀ n : Nat, n ≤ 17 → |(n : ℝ)| ≤ 17 := fun n hn => by rw [abs_of_nonneg (Nat.cast_nonneg _)]; exact_mod_cast hn
    exact ⟨key _ h1, key _ h2, key _ h3, key _ h4⟩

private theorem le900 {x : ℝ} (hx : x ≤ 1024) : x ≤ (2 : ℝ) ^ (900 : ℤ) :=
  hx.trans (le_trans (by norm_num : (1024 : ℝ) ≤ (2 : ℝ) ^ (10 : ℤ)) (zpow_le_zpow_right₀ (by norm_num) (by norm_num)))
private theorem room : Room b64u b64η ((2 : ℝ) ^ (1023 : ℤ)) 100 17 := room_binary64 (by norm_num) (by norm_num) (le900 (by norm_num))

private theorem tiny : b64u ≤ 1 / 2 ^ 20 ∧ 0 ≤ b64u ∧ b64η ≤ 1 / 2 ^ 20 ∧ 0 ≤ b64η := by
  have key : ∀ z : ℤ, z ≤ -20 → (2 : ℝ) ^ z ≤ 1 / 2 ^ 20 := fun z hz => by
    have := zpow_le_zpow_right₀ (by norm_num : (1 : ℝ) ≤ 2) hz
    refine this.trans (le_of_eq ?_)
    norm_num
  unfold b64u b64η
  exact ⟨key _ (by norm_num), (Binary64.two_zpow_pos _).le, key _ (by norm_num), (Binary64.two_zpow_pos _).le⟩


private theorem big {x : ℝ} (hx : x ≤ 16777216) : x ≤ (2 : ℝ) ^ (1023 : ℤ) :=
  hx.trans (le_trans (by norm_num : (16777216 : ℝ) ≤ (2 : ℝ) ^ (24 : ℤ)) (zpow_le_zpow_right₀ (by norm_num) (by norm_num)))
private theorem η1 : b64η ≤ 1 := tiny.2.2.1.trans (by norm_num)

private noncomputable def cfg : StrategyConfig B64 := ⟨true, true, s 100, false⟩
private noncomputable def cfgx : StrategyConfig (Ex ℝ) := ⟨true, true, fin ((100 : ℕ) : ℝ), false⟩
private noncomputable abbrev closes : Nat → ℝ := sourceValue .close (fun t => (o t : ℝ)) (fun t => (h t : ℝ)) (fun t => (l t : ℝ)) (fun t => (c t : ℝ)) (fun t => (v t : ℝ))

private theorem wide : 1 ≤ b64u * (2 : ℝ) ^ (1023 : ℤ) := by
  unfold b64u
  rw [← zpow_add₀ (by norm_num : (2 : ℝ) ≠ 0)]
  exact one_le_zpow₀ (by norm_num) (by norm_num)

private theorem averages : ∀ t, t < 9 → 2 ≤ t → avgGain 2 closes t = [0, 0, 3 / 2, 7 / 4, 7 / 8, 7 / 16, 7 / 32, 71 / 64, 263 / 128].getD t 0 ∧
    avgLoss 2 closes t = [0, 0, 0, 0, 1 / 2, 7 / 4, 11 / 8, 11 / 16, 11 / 32].getD t 0 := by
  intro t ht hs
  interval_cases t <;>
    norm_num [closes, avgGain, avgLoss, wilder, smoothed, mean, gain, loss, sourceValue, c, List.range_succ]
private theorem moves : ∀ t, t < 9 → 2 ≤ t → 1 ≤ avgGain 2 closes t + avgLoss 2 closes t := by
  intro t ht hs
  rw [(averages t ht hs).1, (averages t ht hs).2]
  interval_cases t <;> norm_num
private theorem line : ∀ t, t < 9 → 2 ≤ t → rsiLine 2 closes t = [0, 0, 100, 100, 700 / 11, 20, 700 / 51, 1420 / 23, 26300 / 307].getD t 0 := by
  intro t ht hs
  unfold rsiLine
  rw [(averages t ht hs).1, (averages t ht hs).2]
  interval_cases t <;> norm_num

/-- The extremes of the RSI over five ticks. -/
private theorem extremes : ∀ t, t < 9 → 4 ≤ t →
    Spec.highest (startAt 2 (rsiLine 2 closes)) 5 t = some ([0, 0, 0, 0, 100, 100, 100, 100, 26300 / 307].getD t 0) ∧
    Spec.lowest (startAt 2 (rsiLine 2 closes)) 5 t = some ([0, 0, 0, 0, 700 / 11, 20, 700 / 51, 700 / 51, 700 / 51].getD t 0) := by
  intro t ht hs
  have l2 := line 2 (by norm_num) (by norm_num)
  have l3 := line 3 (by norm_num) (by norm_num)
  have l4 := line 4 (by norm_num) (by norm_num)
  have l5 := line 5 (by norm_num) (by norm_num)
  have l6 := line 6 (by norm_num) (by norm_num)
  have l7 := line 7 (by norm_num) (by norm_num)
  have l8 := line 8 (by norm_num) (by norm_num)
  norm_num at l2 l3 l4 l5 l6 l7 l8
  interval_cases t <;>
    norm_num [Spec.highest, Spec.lowest, win, startAt, List.range_succ, l2, l3, l4, l5, l6, l7, l8, List.reduceOption, List.max?, List.min?] <;>
    simp only [List.filterMap_cons, List.filterMap_nil, List.foldl_cons, List.foldl_nil] <;> norm_num [max_def, min_def]

private theorem spread : Spreads 5 2 (rsiLine 2 closes) 30 9 := by
  intro t ht hs hi lo e1 e2
  have h4 : 4 ≤ t := by simp at hs; omega
  obtain ⟨x1, x2⟩ := extremes t ht h4
  rw [x1] at e1
  rw [x2] at e2
  obtain rfl := Option.some.inj e1
  obtain rfl := Option.some.inj e2
  interval_cases t <;> norm_num

private theorem stochs : ∀ t, t < 9 → 4 ≤ t →
    stochLine 5 2 (rsiLine 2 closes) t = [0, 0, 0, 0, 0, 0, 0, 1280 / 23, 100].getD t 0 := by
  intro t ht hs
  obtain ⟨x1, x2⟩ := extremes t ht hs
  unfold stochLine
  rw [x1, x2, line t ht (by omega)]
  interval_cases t <;> norm_num

private theorem finer : b64u ≤ 1 / 2 ^ 50 ∧ b64η ≤ 1 / 2 ^ 50 := by
  have key : ∀ z : ℤ, z ≤ -50 → (2 : ℝ) ^ z ≤ 1 / 2 ^ 50 := fun z hz => by
    have := zpow_le_zpow_right₀ (by norm_num : (1 : ℝ) ≤ 2) hz
    refine this.trans (le_of_eq ?_)
    norm_num
  unfold b64u b64η
  exact ⟨key _ (by norm_num), key _ (by norm_num)⟩



private noncomputable abbrev ρ : ℝ := 200 * ((13 + 54 * ((2 : ℕ) : ℝ)) * (b64u * 17 + b64η)) / 1 + 1601 * b64u
private theorem tinyRho : 0 ≤ ρ ∧ ρ ≤ 1 / 2 ^ 20 := by
  obtain ⟨t1, t2, t3, t4⟩ := tiny
  obtain ⟨f1, f2⟩ := finer
  constructor
  · unfold ρ; positivity
  · unfold ρ; norm_num at *; linarith
private theorem lineError : smoothError b64u b64η 9 (1610 * (ρ / 30) + 101 * b64u) < 1 := by
  obtain ⟨t1, t2, t3, t4⟩ := tiny
  obtain ⟨f1, f2⟩ := finer
  obtain ⟨r1, r2⟩ := tinyRho
  unfold smoothError
  generalize ρ = r at *
  have h1 : 1610 * (r / 30) + 101 * b64u ≤ 1 / 100 := by norm_num at *; linarith
  have h2 : b64u * (100 + (1610 * (r / 30) + 101 * b64u)) ≤ b64u * 101 := mul_le_mul_of_nonneg_left (by linarith) t2
  norm_num at *
  linarith

private noncomputable abbrev kline : Nat → ℝ := average .sma 2 4 (stochLine 5 2 (rsiLine 2 closes))
private theorem klines : ∀ t, t < 9 → 5 ≤ t → kline t = [0, 0, 0, 0, 0, 0, 0, 640 / 23, 1790 / 23].getD t 0 := by
  intro t ht hs
  have l4 := stochs 4 (by norm_num) (by norm_num)
  have l5 := stochs 5 (by norm_num) (by norm_num)
  have l6 := stochs 6 (by norm_num) (by norm_num)
  have l7 := stochs 7 (by norm_num) (by norm_num)
  have l8 := stochs 8 (by norm_num) (by norm_num)
  norm_num at l4 l5 l6 l7 l8
  interval_cases t <;> norm_num [kline, average, win, mean, List.range_succ, l4, l5, l6, l7, l8]
private theorem clear : ∀ t, t < 9 → 4 + 2 - 1 ≤ t → smoothError b64u b64η 9 (1610 * (ρ / 30) + 101 * b64u) < |kline t - (20 : ℕ)| ∧
    smoothError b64u b64η 9 (1610 * (ρ / 30) + 101 * b64u) < |kline t - (80 : ℕ)| := by
  intro t ht hs
  rw [klines t ht (by omega)]
  refine ⟨lineError.trans ?_, lineError.trans ?_⟩ <;> interval_cases t <;> norm_num [abs_lt, lt_abs]

private theorem little : 4 * ((13 + 54 * ((2 : ℕ) : ℝ)) * (b64u * 17 + b64η)) ≤ 1 := by
  obtain ⟨t1, t2, t3, t4⟩ := tiny
  norm_num at *
  linarith

/-- The stochastic of the highs from tick 2 on. -/
example := C93_stoch (V := Sf.valued (Rounding.binary64 ℝ)) acc ℓ d (m := 5) (s := 2) (N := 9) (by norm_num)
  (x := fun t => if t < 2 then none else some (s (h t))) (w := fun t => (h t : ℝ)) (e := 0) (B := 17) (σ := 1 / 8) (δ := 1)
  (fun t ht => by
    unfold startAt
    by_cases h2 : t < 2
    · rw [if_pos h2]; exact if_pos h2
    · rw [if_neg h2]
      simp only [if_neg h2]
      exact ⟨_, rfl, near_of_val (s_val (n := h t) (by have := (small t ht).2.1; omega))⟩)
  (fun t ht _ => by
    rw [abs_of_nonneg (Nat.cast_nonneg _)]
    exact_mod_cast (small t ht).2.1)
  (by obtain ⟨t1, t2, t3, t4⟩ := tiny; norm_num at *; linarith) (by norm_num) (by norm_num)
  (fun t ht hs hi lo e1 e2 => by
    have h4 : 4 ≤ t := by simp at hs; omega
    have a1 := (spec_highest_some (by omega) e1).2
    have a2 := (spec_lowest_some (by omega) e2).2
    have key : ∀ i, 2 ≤ i → startAt 2 (fun t => (h t : ℝ)) i = some ((h i : ℕ) : ℝ) := fun i hi => by unfold startAt; rw [if_neg (by omega)]
    interval_cases t
    · have := a1 4 _ (by norm_num) (by norm_num) (key _ (by norm_num)); have := a2 2 _ (by norm_num) (by norm_num) (key _ (by norm_num)); norm_num [h] at *; linarith
    · have := a1 4 _ (by norm_num) (by norm_num) (key _ (by norm_num)); have := a2 2 _ (by norm_num) (by norm_num) (key _ (by norm_num)); norm_num [h] at *; linarith
    · have := a1 4 _ (by norm_num) (by norm_num) (key _ (by norm_num)); have := a2 2 _ (by norm_num) (by norm_num) (key _ (by norm_num)); norm_num [h] at *; linarith
    · have := a1 4 _ (by norm_num) (by norm_num) (key _ (by norm_num)); have := a2 6 _ (by norm_num) (by norm_num) (key _ (by norm_num)); norm_num [h] at *; linarith
    · have := a1 4 _ (by norm_num) (by norm_num) (key _ (by norm_num)); have := a2 6 _ (by norm_num) (by norm_num) (key _ (by norm_num)); norm_num [h] at *; linarith)
  (big (by norm_num))
example := C93_stoch_rsi acc ℓ wide hb (by norm_num) (src := .close) (by decide) (n := 2) (m := 5) (sk := 2) (sd := 2) (k := 50) (by norm_num)
  (by norm_num) (by norm_num) (by norm_num) (by norm_num) (room_binary64 (by norm_num) (by norm_num) (le900 (by norm_num))) (big (by norm_num))
  (μ := 1) (by norm_num) little moves (ρ := ρ) rfl (δ := 30) (by norm_num) (by have := tinyRho.2; linarith) spread (s := 4) (by norm_num) (kline := kline) rfl rfl
example := C93_stoch_rsi_program acc ℓ wide hb (by norm_num) hx (src := .close) (by decide) (n := 2) (m := 5) (sk := 2) (sd := 2) (k := 50) (by norm_num)
  (by norm_num) (by norm_num) (by norm_num) (by norm_num) (room_binary64 (by norm_num) (by norm_num) (le900 (by norm_num))) (big (by norm_num))
  (μ := 1) (by norm_num) little moves (ρ := ρ) rfl (δ := 30) (by norm_num) (by have := tinyRho.2; linarith) spread (s := 4) (by norm_num) (kline := kline) rfl
  (th := ⟨s 20, s 80⟩) (thx := ⟨fin ((20 : ℕ) : ℝ), fin ((80 : ℕ) : ℝ)⟩) (lo := (20 : ℕ)) (hi := (80 : ℕ))
  (s_val (by norm_num)) (s_val (by norm_num)) rfl rfl clear cfg cfgx (s 0) (fin 0)
/-- Tick 7 is a signal to go long. -/
example : lineSignal (4 + 2 - 1) kline ((20 : ℕ) : ℝ) ((80 : ℕ) : ℝ) 7 = some .long := by
  unfold lineSignal
  rw [klines 7 (by norm_num) (by norm_num), klines (7 - 1) (by norm_num) (by norm_num)]
  norm_num

end Pace.Cases
