import Verif.Cases.Rounded
import Verif.Props.AccuracyRsi

/-! # The theorems on indicators and signals in floats (C92, C93) at concrete cases -/

namespace Pace.Cases
open Pace Spec

private theorem ℓ : (Rounding.binary64 ℝ).Lawful := binary64_lawful ℝ
private theorem acc : (Rounding.binary64 ℝ).Accurate b64u b64η ((2 : ℝ) ^ (1023 : ℤ)) := binary64_accurate ℝ

private def o (t : Nat) : Nat := [9, 10, 12, 14, 15].getD t 0
private def h (t : Nat) : Nat := [11, 13, 14, 16, 17].getD t 0
private def l (t : Nat) : Nat := [8, 9, 11, 13, 12].getD t 0
private def c (t : Nat) : Nat := [10, 12, 13, 15, 14].getD t 0

private noncomputable def d : DataProvider B64 :=
  .ofSeries 5 (fun t => some (s (o t))) (fun t => some (s (h t))) (fun t => some (s (l t))) (fun t => some (s (c t))) (fun _ => some (s 1))
private noncomputable def dx : DataProvider (Ex ℝ) :=
  .ofSeries 5 (fun t => some (fin (o t : ℝ))) (fun t => some (fin (h t : ℝ))) (fun t => some (fin (l t : ℝ))) (fun t => some (fin (c t : ℝ)))
    (fun _ => some (fin ((1 : ℕ) : ℝ)))
private theorem hx : ExBars dx 5 (fun t => (o t : ℝ)) (fun t => (h t : ℝ)) (fun t => (l t : ℝ)) (fun t => (c t : ℝ)) (fun _ => ((1 : ℕ) : ℝ)) :=
  bars_ofSeries 5 _ _ _ _ _

private theorem small : ∀ t, t < 5 → o t ≤ 17 ∧ h t ≤ 17 ∧ l t ≤ 17 ∧ c t ≤ 17 := by decide

private theorem hb : PricedBars (Sf.valued (Rounding.binary64 ℝ)) d 5 (fun t => (o t : ℝ)) (fun t => (h t : ℝ)) (fun t => (l t : ℝ)) (fun t => (c t : ℝ))
    (fun _ => ((1 : ℕ) : ℝ)) 17 := by
  refine ⟨⟨_, _, _, _, _, bars_ofSeries 5 _ _ _ _ _, fun t ht => ?_⟩, fun t ht => ?_⟩
  · obtain ⟨h1, h2, h3, h4⟩ := small t ht
    exact ⟨s_val (by omega), s_val (by omega), s_val (by omega), s_val (by omega), s_val (by norm_num)⟩
  · obtain ⟨h1, h2, h3, h4⟩ := small t ht
    have key : ∀ n : Nat, n ≤ 17 → |(n : ℝ)| ≤ 17 := fun n hn => by rw [abs_of_nonneg (Nat.cast_nonneg _)]; exact_mod_cast hn
    exact ⟨key _ h1, key _ h2, key _ h3, key _ h4⟩

private theorem le900 {x : ℝ} (hx : x ≤ 1024) : x ≤ (2 : ℝ) ^ (900 : ℤ) :=
  hx.trans (le_trans (by norm_num : (1024 : ℝ) ≤ (2 : ℝ) ^ (10 : ℤ)) (zpow_le_zpow_right₀ (by norm_num) (by norm_num)))
private theorem room : Room b64u b64η ((2 : ℝ) ^ (1023 : ℤ)) 100 17 := room_binary64 (by norm_num) (by norm_num) (le900 (by norm_num))

private theorem tiny : b64u ≤ 1 / 2 ^ 20 ∧ 0 ≤ b64u ∧ b64η ≤ 1 / 2 ^ 20 ∧ 0 ≤ b64η := by
  have key : ∀ z : ℤ, z ≤ -20 → (2 : ℝ) ^ z ≤ 1 / 2 ^ 20 := fun z hz => by
    have := zpow_le_zpow_right₀ (by norm_num : (1 : ℝ) ≤ 2) hz
    refine this.trans (le_of_eq ?_)
    norm_num
  unfold b64u b64η
  exact ⟨key _ (by norm_num), (Binary64.two_zpow_pos _).le, key _ (by norm_num), (Binary64.two_zpow_pos _).le⟩

/-- A chain: the three-bar EMA of what a float source gives. -/
example : ∃ x y, (∀ t, t < 5 → Src.next ⟨d, t⟩ .hlc3 = .ok (x t)) ∧ Runs (fun t => Ma.next ⟨d, t⟩) (Ma.new .ema 3) x 5 y ∧
    StaysNear (Sf.valued (Rounding.binary64 ℝ)) y 2 (average .ema 3 0 fun t => ((h t : ℝ) + l t + c t) / 3) (5 * (b64u * 17 + b64η) +
      36 * (b64u * (17 + 5 * (b64u * 17 + b64η)) + b64η)) 5 := by
  obtain ⟨t1, t2, t3, t4⟩ := tiny
  have big : (2 : ℝ) ^ (14 : ℤ) ≤ (2 : ℝ) ^ (1023 : ℤ) := zpow_le_zpow_right₀ (by norm_num) (by norm_num)
  have e14 : (2 : ℝ) ^ (14 : ℤ) = 16384 := by norm_num
  rw [e14] at big
  obtain ⟨x, h1, h2⟩ := C92_source acc ℓ hb (by norm_num) (by generalize (2 : ℝ) ^ (1023 : ℤ) = T at *; norm_num at *; linarith) (k := .hlc3) (by decide)
  obtain ⟨y, h3, h4⟩ := C92_average acc ℓ d .ema (n := 3) (by norm_num) (N := 5) (k := 9) (by norm_num) (by norm_num) (by norm_num at *; linarith) h2
    (M := 17) (by norm_num) (by positivity) (fun t ht _ => sourceValue_abs (hb.bound t ht) (by decide))
    (by generalize (2 : ℝ) ^ (1023 : ℤ) = T at *; norm_num at *; linarith)
  exact ⟨x, y, h1, h3, h4.mono (le_of_eq (by simp [slack]))⟩

/-- MACD of an EMA of the closes and an SMA of the middles of the bars. -/
example := C92_macd acc ℓ hb (by norm_num) (ss := .close) (sl := .hl2) (by decide) (by decide) .ema .sma .ema (a := 2) (b := 3) (g := 2) (k := 100)
  (by norm_num) (by norm_num) (by norm_num) (by norm_num) room

/-- A line known up to 1/4 that jumps over 7 to 8 and back below 3 to 1: the signals are those of the exact line 5, 8, 4, 1, 5. -/
private def w (t : Nat) : ℝ := [5, 8, 4, 1, 5].getD t 5
private theorem near : StaysNear (Sf.valued (Rounding.binary64 ℝ)) (fun t => some (s ([5, 8, 4, 1, 5].getD t 5))) 0 w (1 / 4) 5 := by
  intro t ht
  unfold startAt
  rw [if_neg (by omega)]
  refine ⟨_, rfl, w t, ?_, by norm_num⟩
  refine (s_val ?_).trans ?_
  · interval_cases t <;> norm_num
  · interval_cases t <;> simp [w]
example : Runs (total ThresholdStrategy.next) (.ok (RelativeStrengthIndexStrategy.new ⟨s 7, s 3⟩)) (fun t => some (s ([5, 8, 4, 1, 5].getD t 5))) 5
    (lineSignal 0 w (7 : ℕ) (3 : ℕ)) :=
  (C92_signals (c := ⟨s 7, s 3⟩) near (s_val (by norm_num)) (s_val (by norm_num)) fun t ht _ => by
    interval_cases t <;> norm_num [w, abs_lt, lt_abs]).1 _ (by simp)
example : lineSignal 0 w (7 : ℕ) (3 : ℕ) 1 = some .long ∧ lineSignal 0 w (7 : ℕ) (3 : ℕ) 2 = none ∧ lineSignal 0 w (7 : ℕ) (3 : ℕ) 3 = some .short := by
  norm_num [lineSignal, w]
example : Runs (total ThresholdStrategy.next) (.ok MacdStrategy.new) (fun t => some (s ([5, 8, 4, 1, 5].getD t 5))) 5 (lineSignal 0 w 0 0) :=
  C92_macd_signals ℓ near fun t ht _ => by interval_cases t <;> norm_num [w, abs_lt, lt_abs]
example := (C92_signals_exact 0 w ⟨fin 7, fin 3⟩ rfl rfl 5).2.1
example := C92_cross_exact 0 2 w (fun _ => 7) 5
private theorem level : StaysNear (Sf.valued (Rounding.binary64 ℝ)) (fun _ => some (s 7)) 0 (fun _ => ((7 : ℕ) : ℝ)) (1 / 4) 5 := by
  intro t ht
  unfold startAt
  rw [if_neg (by omega)]
  exact ⟨_, rfl, _, s_val (by norm_num), by norm_num⟩
example := C92_cross_signals near level fun t ht _ => by interval_cases t <;> norm_num [w, abs_lt, lt_abs]

/-- The close against its two-bar average: the exact line is 1, 1/2, 1, -1/2 from tick 1 on, far from 0. -/
private theorem far : ∀ t, t < 5 → max (maLength .sma 1) (maLength .sma 2) ≤ t + 1 →
    (16 + 2 * (slack .sma 1 5 + slack .sma 2 5)) * (b64u * 17 + b64η) <
      |average .sma 1 0 (sourceValue .close (fun t => (o t : ℝ)) (fun t => (h t : ℝ)) (fun t => (l t : ℝ)) (fun t => (c t : ℝ)) (fun _ => ((1 : ℕ) : ℝ))) t -
        average .sma 2 0 (sourceValue .close (fun t => (o t : ℝ)) (fun t => (h t : ℝ)) (fun t => (l t : ℝ)) (fun t => (c t : ℝ)) (fun _ => ((1 : ℕ) : ℝ))) t| := by
  obtain ⟨t1, t2, t3, t4⟩ := tiny
  intro t ht hp
  have small : (16 + 2 * (slack .sma 1 5 + slack .sma 2 5)) * (b64u * 17 + b64η) < 1 / 4 := by
    simp only [slack]
    norm_num at *
    linarith
  refine small.trans ?_
  simp only [maLength] at hp
  interval_cases t
  · omega
  all_goals norm_num [average, win, mean, sourceValue, c, List.range_succ, abs_lt, lt_abs]

private noncomputable def cfg : StrategyConfig B64 := ⟨true, true, s 100, false⟩
private noncomputable def cfgx : StrategyConfig (Ex ℝ) := ⟨true, true, fin ((100 : ℕ) : ℝ), false⟩

example := C92_macd_program acc ℓ hb (by norm_num) hx (ss := .close) (sl := .close) (by decide) (by decide) .sma .sma .ema (a := 1) (b := 2) (g := 1)
  (k := 100) (by norm_num) (by norm_num) (by norm_num) (by norm_num) room far cfg cfgx (s 0) (fin 0)
example := C92_macd_binary64 hb (by norm_num) hx (ss := .close) (sl := .close) (by decide) (by decide) .sma .sma .ema (a := 1) (b := 2) (g := 1)
  (by norm_num) (by norm_num) (by norm_num) (by norm_num) far (cfg := cfg) (cfgx := cfgx) rfl rfl rfl rfl (s_val (by norm_num)) rfl
  (le900 (by rw [abs_of_nonneg (Nat.cast_nonneg _)]; norm_num)) (s 0) (fin 0)

/-! ## The RSI -/

example {sig : Nat → Option TradeDirection} {st : Nat → Strategy B64} (H : Backtest cfg d sig 5 st) :=
  C92_equity_binary64 hb (by norm_num) (by norm_num) (cfg := cfg) rfl (s_val (by norm_num))
    (le900 (by rw [abs_of_nonneg (Nat.cast_nonneg _)]; norm_num)) H (t := 4) (by norm_num)
example : ∃ st, Backtest cfg d (fun t => if t = 1 then some .long else none) 5 st :=
  let ⟨_, h⟩ := C57_strategy_complete cfg (fun t => if t = 1 then some .long else none) (bars_ofSeries 5 _ _ _ _ _)
  ⟨_, h⟩

private theorem wide : 1 ≤ b64u * (2 : ℝ) ^ (1023 : ℤ) := by
  unfold b64u
  rw [← zpow_add₀ (by norm_num : (2 : ℝ) ≠ 0)]
  exact one_le_zpow₀ (by norm_num) (by norm_num)

/-- The two-bar averages of the gains of 10, 12, 13, 15, 14 are 3/2, 7/4, 7/8 and of the losses 0, 0, 1/2. -/
private noncomputable abbrev closes : Nat → ℝ := sourceValue .close (fun t => (o t : ℝ)) (fun t => (h t : ℝ)) (fun t => (l t : ℝ)) (fun t => (c t : ℝ)) (fun _ => ((1 : ℕ) : ℝ))
private theorem averages : ∀ t, t < 5 → 2 ≤ t → avgGain 2 closes t = [0, 0, 3 / 2, 7 / 4, 7 / 8].getD t 0 ∧ avgLoss 2 closes t = [0, 0, 0, 0, 1 / 2].getD t 0 := by
  intro t ht hs
  interval_cases t <;>
    norm_num [closes, avgGain, avgLoss, wilder, smoothed, mean, gain, loss, sourceValue, c, List.range_succ]
private theorem moves : ∀ t, t < 5 → 2 ≤ t → 1 ≤ avgGain 2 closes t + avgLoss 2 closes t := by
  intro t ht hs
  rw [(averages t ht hs).1, (averages t ht hs).2]
  interval_cases t <;> norm_num
private theorem little : 4 * ((13 + 54 * ((2 : ℕ) : ℝ)) * (b64u * 17 + b64η)) ≤ 1 := by
  obtain ⟨t1, t2, t3, t4⟩ := tiny
  norm_num at *
  linarith
private theorem clear : ∀ t, t < 5 → 2 ≤ t → 200 * ((13 + 54 * ((2 : ℕ) : ℝ)) * (b64u * 17 + b64η)) / 1 + 1500 * b64u < |rsiLine 2 closes t - (30 : ℕ)| ∧
    200 * ((13 + 54 * ((2 : ℕ) : ℝ)) * (b64u * 17 + b64η)) / 1 + 1500 * b64u < |rsiLine 2 closes t - (70 : ℕ)| := by
  obtain ⟨t1, t2, t3, t4⟩ := tiny
  intro t ht hs
  have small : 200 * ((13 + 54 * ((2 : ℕ) : ℝ)) * (b64u * 17 + b64η)) / 1 + 1500 * b64u < 6 := by
    norm_num at *
    linarith
  unfold rsiLine
  rw [(averages t ht hs).1, (averages t ht hs).2]
  refine ⟨small.trans ?_, small.trans ?_⟩ <;> interval_cases t <;> norm_num [abs_lt, lt_abs]

example := C93_rsi acc ℓ wide hb (by norm_num) (src := .close) (by decide) (n := 2) (by norm_num) (k := 100) (by norm_num) room (m := 1) (by norm_num) little moves
example := C93_rsi_program acc ℓ wide hb (by norm_num) hx (src := .close) (by decide) (n := 2) (by norm_num) (k := 100) (by norm_num) room (m := 1)
  (by norm_num) little moves (th := ⟨s 30, s 70⟩) (thx := ⟨fin ((30 : ℕ) : ℝ), fin ((70 : ℕ) : ℝ)⟩) (lo := (30 : ℕ)) (hi := (70 : ℕ))
  (s_val (by norm_num)) (s_val (by norm_num)) rfl rfl clear cfg cfgx (s 0) (fin 0)

/-- A line known up to 1/4, with all errors of the averages within 3/4. -/
example := C93_rsi_of_near acc ℓ wide d (n := 2) (k := 8) (N := 5) (by norm_num) (by norm_num) (by norm_num)
  (by obtain ⟨t1, t2, t3, t4⟩ := tiny; norm_num at *; linarith) near (E := 3 / 4) (m := 3) (M := 8) (by norm_num) (by norm_num)
  (fun t ht => by interval_cases t <;> norm_num [w, abs_le])
  (by
    obtain ⟨t1, t2, t3, t4⟩ := tiny
    have big : (2 : ℝ) ^ (14 : ℤ) ≤ (2 : ℝ) ^ (1023 : ℤ) := zpow_le_zpow_right₀ (by norm_num) (by norm_num)
    have e14 : (2 : ℝ) ^ (14 : ℤ) = 16384 := by norm_num
    rw [e14] at big
    generalize (2 : ℝ) ^ (1023 : ℤ) = T at *
    norm_num at *
    linarith)
  (by
    obtain ⟨t1, t2, t3, t4⟩ := tiny
    have : b64u * b64u ≤ b64u * (1 / 2 ^ 20) := mul_le_mul_of_nonneg_left t1 t2
    have : b64u * b64η ≤ b64u * (1 / 2 ^ 20) := mul_le_mul_of_nonneg_left t3 t2
    norm_num at *
    nlinarith)
  (by norm_num) (by norm_num) (fun t ht hs => by
    interval_cases t <;> norm_num [w, avgGain, avgLoss, wilder, smoothed, mean, gain, loss, List.range_succ])

/-- Sixteen rows of a market that falls by 1 and then jumps: 100, 99, .., 86, 200. -/
private def cl (t : Nat) : Nat := if t ≤ 14 then 100 - t else 200
private theorem cl_le (t : Nat) : cl t ≤ 200 := by unfold cl; split <;> omega
private noncomputable abbrev col : List (Option B64) := hist (fun k => some (s (cl k))) 16
private noncomputable def rows : Frame B64 :=
  ⟨[("time", hist (fun _ => none) 16), ("open", col), ("high", col), ("low", col), ("close", col), ("volume", hist (fun _ => some (s 1)) 16)]⟩
private theorem averages14 : avgGain 14 (fun t => (cl t : ℝ)) 14 = 0 ∧ avgLoss 14 (fun t => (cl t : ℝ)) 14 = 1 ∧
    avgGain 14 (fun t => (cl t : ℝ)) 15 = 114 / 14 ∧ avgLoss 14 (fun t => (cl t : ℝ)) 15 = 13 / 14 := by
  refine ⟨?_, ?_, ?_, ?_⟩ <;> norm_num [avgGain, avgLoss, wilder, smoothed, mean, gain, loss, cl, List.range_succ]
example := C93_example (fromSecs := fun _ => .ok 0) (df := rows) (N := 16) (by norm_num) (by norm_num) (o' := fun t => s (cl t)) (h' := fun t => s (cl t))
  (l' := fun t => s (cl t)) (c' := fun t => s (cl t)) (v' := fun _ => s 1) ⟨rfl, rfl, rfl, rfl, rfl, rfl⟩ (fun _ _ _ => ⟨0, rfl⟩)
  (o := fun t => (cl t : ℝ)) (h := fun t => (cl t : ℝ)) (l := fun t => (cl t : ℝ)) (c := fun t => (cl t : ℝ)) (v := fun _ => ((1 : ℕ) : ℝ)) (M := 200)
  (by norm_num)
  (fun t _ => ⟨s_val ((cl_le t).trans (by norm_num)), s_val ((cl_le t).trans (by norm_num)), s_val ((cl_le t).trans (by norm_num)),
    s_val ((cl_le t).trans (by norm_num)), s_val (by norm_num)⟩)
  (fun t _ => by
    have : |(cl t : ℝ)| ≤ 200 := by rw [abs_of_nonneg (Nat.cast_nonneg _)]; exact_mod_cast cl_le t
    exact ⟨this, this, this, this⟩)
  (le_trans (by norm_num : (1000 + 2 * 200 * ((16 : ℕ) : ℝ) + 2 * 200) ≤ (2 : ℝ) ^ (14 : ℤ)) (zpow_le_zpow_right₀ (by norm_num) (by norm_num)))
  (m := 1) (by norm_num) (by obtain ⟨t1, t2, t3, t4⟩ := tiny; norm_num at *; linarith)
  (fun t ht hs => by
    obtain ⟨e1, e2, e3, e4⟩ := averages14
    interval_cases t
    · rw [e1, e2]; norm_num
    · rw [e3, e4]; norm_num)
  (fun t ht hs => by
    have small : 153800 * (b64u * 200 + b64η) / 1 + 1500 * b64u < 30 := by
      obtain ⟨t1, t2, t3, t4⟩ := tiny
      norm_num at *
      linarith
    refine small.trans ?_
    obtain ⟨e1, e2, e3, e4⟩ := averages14
    interval_cases t
    · rw [e1, e2]; norm_num [abs_lt, lt_abs]
    · rw [e3, e4]; norm_num [abs_lt, lt_abs])

end Pace.Cases
