import Verif.Cases.Rounded
import Verif.Props.AccuracyConnors

/-! # The theorems on the Connors RSI in floats (C100) at concrete cases

Nine closes 10, 12, 13, 15, 14, 11, 10, 12, 15 with streaks -1, 1, 2, 3, -1, -2, -3, 1, 2; lengths 2, 2 and 2. -/

namespace Pace.Cases
open Pace Spec

private theorem ℓ : (Rounding.binary64 ℝ).Lawful := binary64_lawful ℝ
private theorem acc : (Rounding.binary64 ℝ).Accurate b64u b64η ((2 : ℝ) ^ (1023 : ℤ)) := binary64_accurate ℝ

private def o (t : Nat) : Nat := [9, 10, 12, 14, 15, 14, 11, 10, 12].getD t 0
private def h (t : Nat) : Nat := [11, 13, 14, 16, 17, 15, 12, 13, 16].getD t 0
private def l (t : Nat) : Nat := [8, 9, 11, 13, 12, 10, 9, 9, 11].getD t 0
private def c (t : Nat) : Nat := [10, 12, 13, 15, 14, 11, 10, 12, 15].getD t 0

private def v (t : Nat) : Nat := [1, 3, 2, 5, 1, 2, 4, 2, 3].getD t 0

private noncomputable def d : DataProvider B64 :=
  .ofSeries 9 (fun t => some (s (o t))) (fun t => some (s (h t))) (fun t => some (s (l t))) (fun t => some (s (c t))) (fun t => some (s (v t)))
private noncomputable def dx : DataProvider (Ex ℝ) :=
  .ofSeries 9 (fun t => some (fin (o t : ℝ))) (fun t => some (fin (h t : ℝ))) (fun t => some (fin (l t : ℝ))) (fun t => some (fin (c t : ℝ)))
    (fun t => some (fin (v t : ℝ)))
private theorem hx : ExBars dx 9 (fun t => (o t : ℝ)) (fun t => (h t : ℝ)) (fun t => (l t : ℝ)) (fun t => (c t : ℝ)) (fun t => (v t : ℝ)) :=
  bars_ofSeries 9 _ _ _ _ _

private theorem small : ∀ t, t < 9 → o t ≤ 17 ∧ h t ≤ 17 ∧ l t ≤ 17 ∧ c t ≤ 17 ∧ v t ≤ 5 := by decide

private theorem hb : PricedBars (Sf.valued (Rounding.binary64 ℝ)) d 9 (fun t => (o t : ℝ)) (fun t => (h t : ℝ)) (fun t => (l t : ℝ)) (fun t => (c t : ℝ))
    (fun t => (v t : ℝ)) 17 := by
  refine ⟨⟨_, _, _, _, _, bars_ofSeries 9 _ _ _ _ _, fun t ht => ?_⟩, fun t ht => ?_⟩
  · obtain ⟨h1, h2, h3, h4, h5⟩ := small t ht
    exact ⟨s_val (by omega), s_val (by omega), s_val (by omega), s_val (by omega), s_val (by omega)⟩
  · obtain ⟨h1, h2, h3, h4, h5⟩ := small t ht
    have key : ∀ n : Nat, n ≤ 17 → |(n : ℝ)| ≤ 17 := fun n hn => by rw [abs_of_nonneg (Nat.cast_nonneg _)]; exact_mod_cast hn
    exact ⟨key _ h1, key _ h2, key _ h3, key _ h4⟩

private theorem le900 {x : ℝ} (hx : x ≤ 1024) : x ≤ (2 : ℝ) ^ (900 : ℤ) :=
  hx.trans (le_trans (by norm_num : (1024 : ℝ) ≤ (2 : ℝ) ^ (10 : ℤ)) (zpow_le_zpow_right₀ (by norm_num) (by norm_num)))
private theorem room : Room b64u b64η ((2 : ℝ) ^ (1023 : ℤ)) 100 17 := room_binary64 (by norm_num) (by norm_num) (le900 (by norm_num))

private theorem tiny : b64u ≤ 1 / 2 ^ 20 ∧ 0 ≤ b64u ∧ b64η ≤ 1 / 2 ^ 20 ∧ 0 ≤ b64η := by
  have key : ∀ z : ℤ, z ≤ -20 → (2 : ℝ) ^ z ≤ 1 / 2 ^ 20 := fun z hz => by
    have := zpow_le_zpow_right₀ (by norm_num : (1 : ℝ) ≤ 2) hz
    refine this.trans (le_of_eq ?_)
    norm_num
  unfold b64u b64η
  exact ⟨key _ (by norm_num), (Binary64.two_zpow_pos _).le, key _ (by norm_num), (Binary64.two_zpow_pos _).le⟩


private theorem big {x : ℝ} (hx : x ≤ 16777216) : x ≤ (2 : ℝ) ^ (1023 : ℤ) :=
  hx.trans (le_trans (by norm_num : (16777216 : ℝ) ≤ (2 : ℝ) ^ (24 : ℤ)) (zpow_le_zpow_right₀ (by norm_num) (by norm_num)))
private theorem η1 : b64η ≤ 1 := tiny.2.2.1.trans (by norm_num)

private noncomputable def cfg : StrategyConfig B64 := ⟨true, true, s 100, false⟩
private noncomputable def cfgx : StrategyConfig (Ex ℝ) := ⟨true, true, fin ((100 : ℕ) : ℝ), false⟩

private theorem finer : b64u ≤ 1 / 2 ^ 50 ∧ b64η ≤ 1 / 2 ^ 50 := by
  have key : ∀ z : ℤ, z ≤ -50 → (2 : ℝ) ^ z ≤ 1 / 2 ^ 50 := fun z hz => by
    have := zpow_le_zpow_right₀ (by norm_num : (1 : ℝ) ≤ 2) hz
    refine this.trans (le_of_eq ?_)
    norm_num
  unfold b64u b64η
  exact ⟨key _ (by norm_num), key _ (by norm_num)⟩
private theorem room9 : Room b64u b64η ((2 : ℝ) ^ (1023 : ℤ)) 100 ((9 : ℕ) : ℝ) := room_binary64 (by norm_num) (by norm_num) (le900 (by norm_num))
private theorem hT : 1 ≤ b64u * (2 : ℝ) ^ (1023 : ℤ) := by
  unfold b64u
  rw [← zpow_add₀ (by norm_num : (2 : ℝ) ≠ 0)]
  exact one_le_zpow₀ (by norm_num) (by norm_num)

private def ups (x : Nat → Nat) : Nat → Int
  | 0 => -1
  | t + 1 => if x t = x (t + 1) then 0 else if x t < x (t + 1) then max (ups x t) 0 + 1 else min (ups x t) 0 - 1
private theorem ups_eq (x : Nat → Nat) (t : Nat) : streakSeries (fun t => (x t : ℝ)) t = (ups x t : ℝ) := by
  unfold streakSeries
  congr 1
  induction t with
  | zero => rfl
  | succ t ih =>
    have e1 : sameValue (some (fin (x t : ℝ) : Ex ℝ)) (some (fin (x (t + 1) : ℝ))) = decide (x t = x (t + 1)) := by
      show (false || F64.feq (fin (x t : ℝ) : Ex ℝ) (fin (x (t + 1) : ℝ))) = _
      simp
    have e2 : rises (some (fin (x t : ℝ) : Ex ℝ)) (some (fin (x (t + 1) : ℝ))) = decide (x t < x (t + 1)) := by
      show decide ((x t : ℝ) < (x (t + 1) : ℝ)) = _
      simp
    rw [streak, ups, e1, e2, ih]
    simp

private theorem ups_c : ∀ t, t < 9 → ups c t = [-1, 1, 2, 3, -1, -2, -3, 1, 2].getD t 0 := by decide
private theorem streak_c : ∀ t, t < 9 → streakSeries (fun t => (c t : ℝ)) t = ([-1, 1, 2, 3, -1, -2, -3, 1, 2].getD t 0 : ℝ) := by
  intro t ht
  rw [ups_eq, ups_c t ht]
  interval_cases t <;> norm_num

private noncomputable abbrev p : Nat → ℝ := fun t => (c t : ℝ)
private theorem wilder2 {g v : Nat → ℝ} (h2 : v 2 = (g 1 + g 2) / 2) (hs : ∀ t, 2 ≤ t → t < 8 → v (t + 1) = (v t + g (t + 1)) / 2) :
    ∀ t, t < 9 → 2 ≤ t → wilder 2 g (t - 2) = v t := by
  intro t
  induction t with
  | zero => intro _ h; omega
  | succ t ih =>
    intro h1 h3
    by_cases h : t = 1
    · subst h
      rw [h2]
      norm_num [wilder, smoothed, mean, List.range_succ]
    · have h4 := ih (by omega) (by omega)
      rw [show t + 1 - 2 = t - 2 + 1 by omega, wilder, smoothed_succ, ← wilder, h4, hs t (by omega) (by omega), show 2 + 1 + (t - 2) = t + 1 by omega]
      push_cast
      ring
private theorem gains : ∀ t, t < 9 → 2 ≤ t → avgGain 2 p t = [0, 0, 3 / 2, 7 / 4, 7 / 8, 7 / 16, 7 / 32, 71 / 64, 263 / 128].getD t 0 ∧
    avgLoss 2 p t = [0, 0, 0, 0, 1 / 2, 7 / 4, 11 / 8, 11 / 16, 11 / 32].getD t 0 := by
  intro t ht hs
  refine ⟨wilder2 (g := gain p) (v := fun t => [0, 0, 3 / 2, 7 / 4, 7 / 8, 7 / 16, 7 / 32, 71 / 64, 263 / 128].getD t 0) ?_ (fun k h1 h2 => ?_) t ht hs,
    wilder2 (g := loss p) (v := fun t => [0, 0, 0, 0, 1 / 2, 7 / 4, 11 / 8, 11 / 16, 11 / 32].getD t 0) ?_ (fun k h1 h2 => ?_) t ht hs⟩
  · norm_num [gain, p, c]
  · interval_cases k <;> norm_num [gain, p, c]
  · norm_num [loss, p, c]
  · interval_cases k <;> norm_num [loss, p, c]
private theorem turnsAt : ∀ t, t < 9 → 2 ≤ t → avgGain 2 (streakSeries p) t = [0, 0, 3 / 2, 5 / 4, 5 / 8, 5 / 16, 5 / 32, 133 / 64, 197 / 128].getD t 0 ∧
    avgLoss 2 (streakSeries p) t = [0, 0, 0, 0, 2, 3 / 2, 5 / 4, 5 / 8, 5 / 16].getD t 0 := by
  intro t ht hs
  refine ⟨wilder2 (g := gain (streakSeries p)) (v := fun t => [0, 0, 3 / 2, 5 / 4, 5 / 8, 5 / 16, 5 / 32, 133 / 64, 197 / 128].getD t 0) ?_ (fun k h1 h2 => ?_) t ht hs,
    wilder2 (g := loss (streakSeries p)) (v := fun t => [0, 0, 0, 0, 2, 3 / 2, 5 / 4, 5 / 8, 5 / 16].getD t 0) ?_ (fun k h1 h2 => ?_) t ht hs⟩
  · norm_num [gain, streak_c]
  · unfold gain
    rw [streak_c (k + 1) (by omega), streak_c (k + 1 - 1) (by omega)]
    interval_cases k <;> norm_num
  · norm_num [loss, streak_c]
  · unfold loss
    rw [streak_c (k + 1) (by omega), streak_c (k + 1 - 1) (by omega)]
    interval_cases k <;> norm_num
private theorem ranks : ∀ t, t < 9 → 2 ≤ t → rankLine 2 (rateLine 1 p) t = [0, 0, 0, 50, 0, 0, 50, 100, 100].getD t 0 := by
  intro t ht hs
  interval_cases t <;> norm_num [rankLine, rateLine, p, c, List.range_succ, List.countP_cons]

private theorem moves : ∀ t, t < 9 → 2 ≤ t → 1 ≤ avgGain 2 p t + avgLoss 2 p t := by
  intro t ht hs
  rw [(gains t ht hs).1, (gains t ht hs).2]
  interval_cases t <;> norm_num
private theorem changes : ∀ t, t + 1 < 9 → p (t + 1) ≠ p t := by
  have h : ∀ t, t < 8 → c (t + 1) ≠ c t := by decide
  exact fun t ht e => h t (by omega) (Nat.cast_injective e)
private theorem away : ∀ t, t < 9 → 10 ≤ |p t| := by
  intro t ht
  have h : ∀ t, t < 9 → 10 ≤ c t := by decide
  rw [abs_of_nonneg (Nat.cast_nonneg _)]
  exact_mod_cast h t ht
private theorem below : ∀ t, t < 9 → |p t| ≤ 17 := by
  intro t ht
  rw [abs_of_nonneg (Nat.cast_nonneg _)]
  exact_mod_cast (small t ht).2.2.2.1
private theorem clear : ClearRanks 2 p (820 * ((3 * (b64u * 17 + b64η) / 10 + b64u) * (1 + 2 * 17 / 10))) 9 := by
  obtain ⟨f1, f2⟩ := finer
  have small : 820 * ((3 * (b64u * 17 + b64η) / 10 + b64u) * (1 + 2 * 17 / 10)) < 1 := by norm_num at *; linarith
  intro t ht h1 j h2 h3 h4
  refine .inr (.inr (small.trans_le ?_))
  generalize 820 * ((3 * (b64u * 17 + b64η) / 10 + b64u) * (1 + 2 * 17 / 10)) = e at *
  have hj : j < 8 := by omega
  obtain h5 | h5 : t = j + 1 ∨ t = j + 2 := by omega
  · subst h5
    clear h1 h3 h4
    interval_cases j <;> norm_num [rateLine, p, c, abs]
  · subst h5
    have hj : j < 7 := by omega
    clear h1 h3 h4
    interval_cases j <;> norm_num [rateLine, p, c, abs]

private noncomputable abbrev E : ℝ := (3 + 54 * (2 : ℕ)) * (b64u * 17 + b64η)
private noncomputable abbrev F : ℝ := (3 + 54 * (2 : ℕ)) * (b64u * ((9 : ℕ) : ℝ) + b64η)
private theorem errors : 4 * E ≤ 1 ∧ 4 * F ≤ 1 ∧ 6 * (b64u * 17 + b64η) ≤ 10 ∧ 68 * (E / 1 + F / 1) + 2000 * b64u < 1 := by
  obtain ⟨f1, f2⟩ := finer
  unfold E F
  norm_num at *
  refine ⟨?_, ?_, ?_, ?_⟩ <;> linarith

private theorem reads : StaysNear (Sf.valued (Rounding.binary64 ℝ)) (fun t => some (s (c t))) 0 p 0 9 := fun t ht =>
  ⟨_, rfl, near_of_val (s_val (by have := small t ht; omega))⟩

/-- The streak of a price that changes on every bar. -/
example : ∀ t, t < 9 → 2 ≤ t → 1 ≤ avgGain 2 (streakSeries p) t + avgLoss 2 (streakSeries p) t := fun _ h1 h2 => C100_turns changes (by norm_num) h1 h2

/-- The line. -/
example := C100_connors acc ℓ hT d (n := 2) (m := 2) (k := 2) (w := 100) (by norm_num) (by norm_num) (by norm_num) (by norm_num) (by norm_num) room room9
  reads below rfl (μ := 1) (by norm_num) errors.1 moves rfl (ν := 1) (by norm_num) errors.2.1 (fun _ h1 h2 => C100_turns changes (by norm_num) h1 h2)
  (m₀ := 10) (by norm_num) errors.2.2.1 away (big (by norm_num)) clear

private theorem far : ∀ t, t < 9 → 2 ≤ t → 1 ≤ |connorsLine 2 2 2 p t - 20| ∧ 1 ≤ |connorsLine 2 2 2 p t - 70| := by
  intro t ht hs
  unfold connorsLine rsiLine
  rw [ranks t ht hs, (gains t ht hs).1, (gains t ht hs).2, (turnsAt t ht hs).1, (turnsAt t ht hs).2]
  interval_cases t <;> norm_num [abs]

private noncomputable def th : Thresholds B64 := ⟨s 20, s 70⟩
private noncomputable def thx : Thresholds (Ex ℝ) := ⟨fin ((20 : ℕ) : ℝ), fin ((70 : ℕ) : ℝ)⟩

/-- The program on the closes with thresholds 20 and 70. -/
example := C100_connors_program acc ℓ hT hb (by norm_num) hx (src := .close) (.inr (.inr (.inr rfl))) (p := p) rfl (n := 2) (m := 2) (k := 2) (w := 100)
  (by norm_num) (by norm_num) (by norm_num) (by norm_num) room room9 rfl (μ := 1) (by norm_num) errors.1 moves rfl (ν := 1) (by norm_num) errors.2.1
  (fun _ h1 h2 => C100_turns changes (by norm_num) h1 h2) (m₀ := 10) (by norm_num) errors.2.2.1 away (big (by norm_num)) clear
  (th := th) (thx := thx) (lo := ((20 : ℕ) : ℝ)) (hi := ((70 : ℕ) : ℝ)) (s_val (by norm_num)) (s_val (by norm_num)) rfl rfl
  (fun t ht hs => ⟨errors.2.2.2.trans_le (by exact_mod_cast (far t ht (by omega)).1), errors.2.2.2.trans_le (by exact_mod_cast (far t ht (by omega)).2)⟩)
  cfg cfgx (s 0) (fin 0)

private theorem values : connorsLine 2 2 2 p 3 = 250 / 3 ∧ connorsLine 2 2 2 p 4 < 30 ∧ 20 < connorsLine 2 2 2 p 4 ∧ connorsLine 2 2 2 p 5 < 13 ∧ 24 < connorsLine 2 2 2 p 6 := by
  refine ⟨?_, ?_, ?_, ?_, ?_⟩ <;> unfold connorsLine rsiLine <;>
    rw [ranks _ (by norm_num) (by norm_num), (gains _ (by norm_num) (by norm_num)).1, (gains _ (by norm_num) (by norm_num)).2,
      (turnsAt _ (by norm_num) (by norm_num)).1, (turnsAt _ (by norm_num) (by norm_num)).2] <;> norm_num

/-- It goes Short on bar 4 and Long on bar 6. -/
example : lineSignal 2 (connorsLine 2 2 2 p) ((20 : ℕ) : ℝ) ((70 : ℕ) : ℝ) 4 = some .short ∧
    lineSignal 2 (connorsLine 2 2 2 p) ((20 : ℕ) : ℝ) ((70 : ℕ) : ℝ) 6 = some .long := by
  obtain ⟨v3, v4, v4', v5, v6⟩ := values
  unfold lineSignal
  constructor
  · rw [if_neg (fun h => by have := h.2.1; norm_num [v3] at this), if_pos ⟨by norm_num, by norm_num [v3], by push_cast; linarith⟩]
  · rw [if_pos ⟨by norm_num, by push_cast; norm_num; linarith, by push_cast; linarith⟩]

end Pace.Cases
