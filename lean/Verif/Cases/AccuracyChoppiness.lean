import Verif.Cases.Rounded
import Verif.Props.AccuracyChoppiness

/-! # The theorems on the choppiness index in floats (C102) at a concrete case: nine bars, windows of two -/

namespace Pace.Cases
open Pace Spec

private theorem ℓ : (Rounding.binary64 ℝ).Lawful := binary64_lawful ℝ
private theorem acc : (Rounding.binary64 ℝ).Accurate b64u b64η ((2 : ℝ) ^ (1023 : ℤ)) := binary64_accurate ℝ

private def o (t : Nat) : Nat := [9, 10, 12, 14, 15, 14, 11, 10, 12].getD t 0
private def h (t : Nat) : Nat := [11, 13, 14, 16, 17, 15, 12, 13, 16].getD t 0
private def l (t : Nat) : Nat := [8, 9, 11, 13, 12, 10, 9, 9, 11].getD t 0
private def c (t : Nat) : Nat := [10, 12, 13, 15, 14, 11, 10, 12, 15].getD t 0

private def v (t : Nat) : Nat := [1, 3, 2, 5, 1, 2, 4, 2, 3].getD t 0

private noncomputable def d : DataProvider B64 :=
  .ofSeries 9 (fun t => some (s (o t))) (fun t => some (s (h t))) (fun t => some (s (l t))) (fun t => some (s (c t))) (fun t => some (s (v t)))
private theorem small : ∀ t, t < 9 → o t ≤ 17 ∧ h t ≤ 17 ∧ l t ≤ 17 ∧ c t ≤ 17 ∧ v t ≤ 5 := by decide

private theorem hb : PricedBars (Sf.valued (Rounding.binary64 ℝ)) d 9 (fun t => (o t : ℝ)) (fun t => (h t : ℝ)) (fun t => (l t : ℝ)) (fun t => (c t : ℝ))
    (fun t => (v t : ℝ)) 17 := by
  refine ⟨⟨_, _, _, _, _, bars_ofSeries 9 _ _ _ _ _, fun t ht => ?_⟩, fun t ht => ?_⟩
  · obtain ⟨h1, h2, h3, h4, h5⟩ := small t ht
    exact ⟨s_val (by omega), s_val (by omega), s_val (by omega), s_val (by omega), s_val (by omega)⟩
  · obtain ⟨h1, h2, h3, h4, h5⟩ := small t ht
    have key : ∀ n : Nat, n ≤ 17 → |(n : ℝ)| ≤ 17 := fun n hn => by rw [abs_of_nonneg (Nat.cast_nonneg _)]; exact_mod_cast hn
    exact ⟨key _ h1, key _ h2, key _ h3, key _ h4⟩

private theorem le900 {x : ℝ} (hx : x ≤ 1024) : x ≤ (2 : ℝ) ^ (900 : ℤ) :=
  hx.trans (le_trans (by norm_num : (1024 : ℝ) ≤ (2 : ℝ) ^ (10 : ℤ)) (zpow_le_zpow_right₀ (by norm_num) (by norm_num)))
private theorem room : Room b64u b64η ((2 : ℝ) ^ (1023 : ℤ)) 100 17 := room_binary64 (by norm_num) (by norm_num) (le900 (by norm_num))

private theorem tiny : b64u ≤ 1 / 2 ^ 20 ∧ 0 ≤ b64u ∧ b64η ≤ 1 / 2 ^ 20 ∧ 0 ≤ b64η := by
  have key : ∀ z : ℤ, z ≤ -20 → (2 : ℝ) ^ z ≤ 1 / 2 ^ 20 := fun z hz => by
    have := zpow_le_zpow_right₀ (by norm_num : (1 : ℝ) ≤ 2) hz
    refine this.trans (le_of_eq ?_)
    norm_num
  unfold b64u b64η
  exact ⟨key _ (by norm_num), (Binary64.two_zpow_pos _).le, key _ (by norm_num), (Binary64.two_zpow_pos _).le⟩


private theorem big {x : ℝ} (hx : x ≤ 16777216) : x ≤ (2 : ℝ) ^ (1023 : ℤ) :=
  hx.trans (le_trans (by norm_num : (16777216 : ℝ) ≤ (2 : ℝ) ^ (24 : ℤ)) (zpow_le_zpow_right₀ (by norm_num) (by norm_num)))
private theorem η1 : b64η ≤ 1 := tiny.2.2.1.trans (by norm_num)

private theorem finer : b64u ≤ 1 / 2 ^ 50 ∧ b64η ≤ 1 / 2 ^ 50 := by
  have key : ∀ z : ℤ, z ≤ -50 → (2 : ℝ) ^ z ≤ 1 / 2 ^ 50 := fun z hz => by
    have := zpow_le_zpow_right₀ (by norm_num : (1 : ℝ) ≤ 2) hz
    refine this.trans (le_of_eq ?_)
    norm_num
  unfold b64u b64η
  exact ⟨key _ (by norm_num), key _ (by norm_num)⟩

private theorem shaped : WellFormed (fun t => (o t : ℝ)) (fun t => (h t : ℝ)) (fun t => (l t : ℝ)) (fun t => (c t : ℝ)) := by
  have key : ∀ t, t < 9 → l t ≤ o t ∧ o t ≤ h t ∧ l t ≤ c t ∧ c t ≤ h t := by decide
  intro t
  rcases lt_or_ge t 9 with ht | ht
  · obtain ⟨h1, h2, h3, h4⟩ := key t ht
    exact ⟨Nat.cast_le.mpr h1, Nat.cast_le.mpr h2, Nat.cast_le.mpr h3, Nat.cast_le.mpr h4⟩
  · obtain ⟨k, rfl⟩ := Nat.exists_eq_add_of_le ht
    rw [Nat.add_comm]
    exact ⟨le_rfl, le_rfl, le_rfl, le_rfl⟩

private theorem extremes : ∀ t, t < 9 → 1 ≤ t →
    Spec.highest (fun t => some (h t : ℝ)) 2 t = some ([0, 13, 14, 16, 17, 17, 15, 13, 16].getD t 0) ∧
      Spec.lowest (fun t => some (l t : ℝ)) 2 t = some ([0, 8, 9, 11, 12, 10, 9, 9, 9].getD t 0) := by
  intro t ht h0
  interval_cases t <;> norm_num [Spec.highest, Spec.lowest, h, l, win, List.range_succ, List.reduceOption_cons_of_some, List.reduceOption_nil, List.max?, List.min?]
private theorem apart : ∀ t, t < 9 → ∀ hi lo, Spec.highest (fun t => some (h t : ℝ)) 2 t = some hi → Spec.lowest (fun t => some (l t : ℝ)) 2 t = some lo → 4 ≤ hi - lo := by
  intro t ht hi lo h1 h2
  rcases Nat.eq_zero_or_pos t with rfl | h0
  · simp [Spec.highest] at h1
  · rw [(extremes t ht h0).1] at h1
    rw [(extremes t ht h0).2] at h2
    cases h1
    cases h2
    interval_cases t <;> norm_num

private theorem logs : NearLogs (Rounding.binary64 ℝ) b64u ((2 : ℝ) ^ (1023 : ℤ)) := C102_rounded_logs acc fun _ _ => rfl
example : NearLogs (Rounding.binary64 ℝ) b64u ((2 : ℝ) ^ (1023 : ℤ)) := C102_rounded_logs acc fun _ _ => rfl

private theorem log17 : Real.logb 10 17 ≤ 17 := (logb_le_self (by norm_num)).2

private theorem fine : 2 * (((2 : ℕ) : ℝ) * (62 + 12 * ((9 : ℕ) : ℝ)) * (b64u * 17 + b64η)) ≤ 1 / 2 ^ 30 := by
  obtain ⟨f1, f2⟩ := finer
  norm_num at *
  linarith

/-- The index of length 2. -/
example := C102_choppiness acc ℓ tiny.2.1 (by have := tiny.1; norm_num at *; linarith) logs hb (by norm_num) shaped (len := 2) (k := 100) (by norm_num) (by norm_num) room
  (m := 4) (by norm_num) (fine.trans (by norm_num)) apart (Q := 17) (by norm_num) rfl rfl
  (by
    have f := fine
    have := log17
    obtain ⟨t1, t2, t3, t4⟩ := tiny
    have g := mul_le_mul_of_nonneg_left this t2
    norm_num at *
    linarith)
  (big (by norm_num)) (big (by norm_num))

/-- On bar 1 the ranges of the two bars are 3 and 4 and both lie between 8 and 13. -/
example : choppinessLine 2 (fun t => (h t : ℝ)) (fun t => (l t : ℝ)) (fun t => (c t : ℝ)) 1 = 100 * Real.logb 10 (7 / 5) / Real.logb 10 2 := by
  unfold choppinessLine
  rw [(extremes 1 (by norm_num) (by norm_num)).1, (extremes 1 (by norm_num) (by norm_num)).2]
  norm_num [win, List.range_succ, barRange, h, l, c, abs]

end Pace.Cases
