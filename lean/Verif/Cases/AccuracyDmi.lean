import Verif.Cases.Rounded
import Verif.Props.AccuracyDmi

/-! # The theorems on the directional movement index in floats (C99) at concrete cases

Nine bars; highs 11, 13, 14, 16, 17, 15, 12, 13, 16, lows 8, 9, 11, 13, 12, 10, 9, 9, 11. On bar 4 the high rises as much as the low falls. With
length 2 the lines cross on bars 5 and 7. -/

namespace Pace.Cases
open Pace Spec

private theorem ℓ : (Rounding.binary64 ℝ).Lawful := binary64_lawful ℝ
private theorem acc : (Rounding.binary64 ℝ).Accurate b64u b64η ((2 : ℝ) ^ (1023 : ℤ)) := binary64_accurate ℝ

private def o (t : Nat) : Nat := [9, 10, 12, 14, 15, 14, 11, 10, 12].getD t 0
private def h (t : Nat) : Nat := [11, 13, 14, 16, 17, 15, 12, 13, 16].getD t 0
private def l (t : Nat) : Nat := [8, 9, 11, 13, 12, 10, 9, 9, 11].getD t 0
private def c (t : Nat) : Nat := [10, 12, 13, 15, 14, 11, 10, 12, 15].getD t 0

private def v (t : Nat) : Nat := [1, 3, 2, 5, 1, 2, 4, 2, 3].getD t 0

private noncomputable def d : DataProvider B64 :=
  .ofSeries 9 (fun t => some (s (o t))) (fun t => some (s (h t))) (fun t => some (s (l t))) (fun t => some (s (c t))) (fun t => some (s (v t)))
private noncomputable def dx : DataProvider (Ex ℝ) :=
  .ofSeries 9 (fun t => some (fin (o t : ℝ))) (fun t => some (fin (h t : ℝ))) (fun t => some (fin (l t : ℝ))) (fun t => some (fin (c t : ℝ)))
    (fun t => some (fin (v t : ℝ)))
private theorem hx : ExBars dx 9 (fun t => (o t : ℝ)) (fun t => (h t : ℝ)) (fun t => (l t : ℝ)) (fun t => (c t : ℝ)) (fun t => (v t : ℝ)) :=
  bars_ofSeries 9 _ _ _ _ _

private theorem small : ∀ t, t < 9 → o t ≤ 17 ∧ h t ≤ 17 ∧ l t ≤ 17 ∧ c t ≤ 17 ∧ v t ≤ 5 := by decide

private theorem hb : PricedBars (Sf.valued (Rounding.binary64 ℝ)) d 9 (fun t => (o t : ℝ)) (fun t => (h t : ℝ)) (fun t => (l t : ℝ)) (fun t => (c t : ℝ))
    (fun t => (v t : ℝ)) 17 := by
  refine ⟨⟨_, _, _, _, _, bars_ofSeries 9 _ _ _ _ _, fun t ht => ?_⟩, fun t ht => ?_⟩
  · obtain ⟨h1, h2, h3, h4, h5⟩ := small t ht
    exact ⟨s_val (by omega), s_val (by omega), s_val (by omega), s_val (by omega), s_val (by omega)⟩
  · obtain ⟨h1, h2, h3, h4, h5⟩ := small t ht
    have key : ∀ n : Nat, n ≤ 17 → |(n : ℝ)| ≤ 17 := fun n hn => by rw [abs_of_nonneg (Nat.cast_nonneg _)]; exact_mod_cast hn
    exact ⟨key _ h1, key _ h2, key _ h3, key _ h4⟩

private theorem le900 {x : ℝ} (hx : x ≤ 1024) : x ≤ (2 : ℝ) ^ (900 : ℤ) :=
  hx.trans (le_trans (by norm_num : (1024 : ℝ) ≤ (2 : ℝ) ^ (10 : ℤ)) (zpow_le_zpow_right₀ (by norm_num) (by norm_num)))
private theorem room : Room b64u b64η ((2 : ℝ) ^ (1023 : ℤ)) 100 17 := room_binary64 (by norm_num) (by norm_num) (le900 (by norm_num))

private theorem tiny : b64u ≤ 1 / 2 ^ 20 ∧ 0 ≤ b64u ∧ b64η ≤ 1 / 2 ^ 20 ∧ 0 ≤ b64η := by
  have key : ∀ z : ℤ, z ≤ -20 → (2 : ℝ) ^ z ≤ 1 / 2 ^ 20 := fun z hz => by
    have := zpow_le_zpow_right₀ (by norm_num : (1 : ℝ) ≤ 2) hz
    refine this.trans (le_of_eq ?_)
    norm_num
  unfold b64u b64η
  exact ⟨key _ (by norm_num), (Binary64.two_zpow_pos _).le, key _ (by norm_num), (Binary64.two_zpow_pos _).le⟩


private theorem big {x : ℝ} (hx : x ≤ 16777216) : x ≤ (2 : ℝ) ^ (1023 : ℤ) :=
  hx.trans (le_trans (by norm_num : (16777216 : ℝ) ≤ (2 : ℝ) ^ (24 : ℤ)) (zpow_le_zpow_right₀ (by norm_num) (by norm_num)))
private theorem η1 : b64η ≤ 1 := tiny.2.2.1.trans (by norm_num)

private noncomputable def cfg : StrategyConfig B64 := ⟨true, true, s 100, false⟩
private noncomputable def cfgx : StrategyConfig (Ex ℝ) := ⟨true, true, fin ((100 : ℕ) : ℝ), false⟩

private theorem hw : WellFormed (fun t => (o t : ℝ)) (fun t => (h t : ℝ)) (fun t => (l t : ℝ)) (fun t => (c t : ℝ)) := by
  have key : ∀ t, l t ≤ o t ∧ l t ≤ c t ∧ o t ≤ h t ∧ c t ≤ h t := by
    intro t
    by_cases ht : t < 9
    · revert t; decide
    · have e : ∀ L : List Nat, L.length = 9 → L.getD t 0 = 0 := fun L hL => by
        rw [List.getD_eq_getElem?_getD, List.getElem?_eq_none (by omega)]; rfl
      simp only [o, h, l, c]
      rw [e _ rfl, e _ rfl, e _ rfl, e _ rfl]
      simp
  intro t
  obtain ⟨h1, h2, h3, h4⟩ := key t
  exact ⟨Nat.cast_le.mpr h1, Nat.cast_le.mpr h3, Nat.cast_le.mpr h2, Nat.cast_le.mpr h4⟩

private theorem finer : b64u ≤ 1 / 2 ^ 50 ∧ b64η ≤ 1 / 2 ^ 50 := by
  have key : ∀ z : ℤ, z ≤ -50 → (2 : ℝ) ^ z ≤ 1 / 2 ^ 50 := fun z hz => by
    have := zpow_le_zpow_right₀ (by norm_num : (1 : ℝ) ≤ 2) hz
    refine this.trans (le_of_eq ?_)
    norm_num
  unfold b64u b64η
  exact ⟨key _ (by norm_num), key _ (by norm_num)⟩
private theorem room1 : Room b64u b64η ((2 : ℝ) ^ (1023 : ℤ)) 100 1 := room_binary64 (by norm_num) (by norm_num) (le900 (by norm_num))

private theorem clear : ClearMoves (fun t => (h t : ℝ)) (fun t => (l t : ℝ)) (4 * (b64u * 17 + b64η)) 9 := by
  obtain ⟨f1, f2⟩ := finer
  have small : 4 * (b64u * 17 + b64η) < 1 := by norm_num at *; linarith
  intro t ht h1
  generalize 4 * (b64u * 17 + b64η) = e at *
  have h2 : t = 1 ∨ t = 2 ∨ t = 3 ∨ t = 4 ∨ t = 5 ∨ t = 6 ∨ t = 7 ∨ t = 8 := by omega
  rcases h2 with rfl | rfl | rfl | rfl | rfl | rfl | rfl | rfl
  · exact .inr (.inr (small.trans_le (by norm_num [h, l, abs])))
  · exact .inr (.inr (small.trans_le (by norm_num [h, l, abs])))
  · exact .inr (.inr (small.trans_le (by norm_num [h, l, abs])))
  · exact .inl (by norm_num [h, l])
  · exact .inr (.inr (small.trans_le (by norm_num [h, l, abs])))
  · exact .inr (.inr (small.trans_le (by norm_num [h, l, abs])))
  · exact .inr (.inr (small.trans_le (by norm_num [h, l, abs])))
  · exact .inr (.inr (small.trans_le (by norm_num [h, l, abs])))

private theorem plus : ∀ t, t < 9 → 2 ≤ t → smoothPlus 2 (fun t => (h t : ℝ)) (fun t => (l t : ℝ)) t = [0, 0, 3 / 2, 7 / 4, 7 / 8, 7 / 16, 7 / 32, 39 / 64, 231 / 128].getD t 0 := by
  intro t ht hs
  interval_cases t <;> norm_num [smoothPlus, runningMean, plusMove, h, l, List.range_succ]
private theorem minus : ∀ t, t < 9 → 2 ≤ t → smoothMinus 2 (fun t => (h t : ℝ)) (fun t => (l t : ℝ)) t = [0, 0, 0, 0, 0, 1, 1, 1 / 2, 1 / 4].getD t 0 := by
  intro t ht hs
  interval_cases t <;> norm_num [smoothMinus, runningMean, minusMove, h, l, List.range_succ]
private theorem range : ∀ t, t < 9 → 2 ≤ t → smoothRange 2 (fun t => (h t : ℝ)) (fun t => (l t : ℝ)) (fun t => (c t : ℝ)) t = [0, 0, 7 / 2, 13 / 4, 33 / 8, 73 / 16, 121 / 32, 249 / 64, 569 / 128].getD t 0 := by
  intro t ht hs
  interval_cases t <;> norm_num [smoothRange, runningMean, barRange, h, l, c, List.range_succ, abs]
private theorem index : ∀ t, t < 9 → 2 ≤ t → directionalIndex 2 (fun t => (h t : ℝ)) (fun t => (l t : ℝ)) t = [0, 0, 1, 1, 1, 9 / 23, 25 / 39, 7 / 71, 199 / 263].getD t 0 := by
  intro t ht hs
  unfold directionalIndex
  rw [plus t ht hs, minus t ht hs]
  interval_cases t <;> norm_num [abs]

private noncomputable abbrev E : ℝ := 606 * ((2 + 54 * (2 : ℕ)) * (b64u * 17 + b64η) / 3) + 303 * b64u
private theorem errors : 8 * ((2 + 54 * (2 : ℕ)) * (b64u * 17 + b64η)) ≤ 3 ∧ 24 * E ≤ 20 ∧ 2 * E < 1 ∧ 1818 * (E / 20) + (303 + 3838 * (2 : ℕ)) * b64u < 1 := by
  obtain ⟨f1, f2⟩ := finer
  unfold E
  norm_num at *
  refine ⟨?_, ?_, ?_, ?_⟩ <;> linarith

private theorem ranges : ∀ t, t < 9 → 2 ≤ t → 3 ≤ smoothRange 2 (fun t => (h t : ℝ)) (fun t => (l t : ℝ)) (fun t => (c t : ℝ)) t := by
  intro t ht hs
  rw [range t ht hs]
  interval_cases t <;> norm_num
private theorem moves : ∀ t, t < 9 → 2 ≤ t → 20 ≤ plusLine 2 (fun t => (h t : ℝ)) (fun t => (l t : ℝ)) (fun t => (c t : ℝ)) t +
    minusLine 2 (fun t => (h t : ℝ)) (fun t => (l t : ℝ)) (fun t => (c t : ℝ)) t := by
  intro t ht hs
  unfold plusLine minusLine
  rw [range t ht hs, plus t ht hs, minus t ht hs]
  interval_cases t <;> norm_num

/-- The three lines, lengths 2 and 2. -/
example := C99_dmi acc ℓ hb (by norm_num) hw (len := 2) (sig := 2) (k := 100) (by norm_num) (by norm_num) (by norm_num) room room1 (big (by norm_num)) clear rfl
  (m := 3) (by norm_num) errors.1 ranges rfl (ν := 20) (by norm_num) errors.2.1 moves

private theorem adx : ∀ t, t < 9 → 3 ≤ t → 35 ≤ adxLine 2 2 (fun t => (h t : ℝ)) (fun t => (l t : ℝ)) t := by
  intro t ht hs
  have i2 := index 2 (by norm_num) (by norm_num)
  have i3 := index 3 (by norm_num) (by norm_num)
  have i4 := index 4 (by norm_num) (by norm_num)
  have i5 := index 5 (by norm_num) (by norm_num)
  have i6 := index 6 (by norm_num) (by norm_num)
  have i7 := index 7 (by norm_num) (by norm_num)
  have i8 := index 8 (by norm_num) (by norm_num)
  unfold adxLine
  interval_cases t <;> norm_num [runningMean, List.range_succ, i2, i3, i4, i5, i6, i7, i8]

/-- The program with a strong-trend threshold of 25. -/
example (rfr : B64) (rfrx : Ex ℝ) := C99_dmi_program acc ℓ hb (by norm_num) hw hx (len := 2) (sig := 2) (k := 100) (by norm_num) (by norm_num) (by norm_num) room room1 (big (by norm_num)) clear rfl
  (m := 3) (by norm_num) errors.1 ranges rfl (ν := 20) (by norm_num) errors.2.1 moves (strong := s 25) (S := (25 : ℕ)) (s_val (by norm_num))
  (fun t ht hs => errors.2.2.1.trans_le (by
    unfold plusLine minusLine
    rw [range t ht hs, plus t ht hs, minus t ht hs]
    interval_cases t <;> norm_num [abs]))
  (fun t ht hs => errors.2.2.2.trans_le (by
    have := adx t ht hs
    rw [abs_of_nonneg (by push_cast; linarith)]
    push_cast
    linarith))
  cfg cfgx rfr rfrx

/-- It goes long on tick 7, where the lines cross back. -/
example : strongSignal 2 3 (plusLine 2 (fun t => (h t : ℝ)) (fun t => (l t : ℝ)) (fun t => (c t : ℝ)))
    (minusLine 2 (fun t => (h t : ℝ)) (fun t => (l t : ℝ)) (fun t => (c t : ℝ))) (adxLine 2 2 (fun t => (h t : ℝ)) (fun t => (l t : ℝ))) 25 7 = some .long := by
  have a7 := adx 7 (by norm_num) (by norm_num)
  have r := range 6 (by norm_num) (by norm_num)
  have r' := range 7 (by norm_num) (by norm_num)
  have p := plus 6 (by norm_num) (by norm_num)
  have p' := plus 7 (by norm_num) (by norm_num)
  have m := minus 6 (by norm_num) (by norm_num)
  have m' := minus 7 (by norm_num) (by norm_num)
  unfold strongSignal
  rw [if_pos ⟨by norm_num, by linarith⟩]
  unfold crossSignal plusLine minusLine
  norm_num [r, r', p, p', m, m']

end Pace.Cases
