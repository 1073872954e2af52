import Verif.Cases.Rounded
import Verif.Props.AccuracyAroon

/-! # The theorems on Aroon in floats (C97) at concrete cases

Nine bars; highs 11, 13, 14, 16, 17, 15, 12, 13, 16, lows 8, 9, 11, 13, 12, 10, 9, 9, 11. -/

namespace Pace.Cases
open Pace Spec

private theorem ℓ : (Rounding.binary64 ℝ).Lawful := binary64_lawful ℝ
private theorem acc : (Rounding.binary64 ℝ).Accurate b64u b64η ((2 : ℝ) ^ (1023 : ℤ)) := binary64_accurate ℝ

private def o (t : Nat) : Nat := [9, 10, 12, 14, 15, 14, 11, 10, 12].getD t 0
private def h (t : Nat) : Nat := [11, 13, 14, 16, 17, 15, 12, 13, 16].getD t 0
private def l (t : Nat) : Nat := [8, 9, 11, 13, 12, 10, 9, 9, 11].getD t 0
private def c (t : Nat) : Nat := [10, 12, 13, 15, 14, 11, 10, 12, 15].getD t 0

private def v (t : Nat) : Nat := [1, 3, 2, 5, 1, 2, 4, 2, 3].getD t 0

private noncomputable def d : DataProvider B64 :=
  .ofSeries 9 (fun t => some (s (o t))) (fun t => some (s (h t))) (fun t => some (s (l t))) (fun t => some (s (c t))) (fun t => some (s (v t)))
private noncomputable def dx : DataProvider (Ex ℝ) :=
  .ofSeries 9 (fun t => some (fin (o t : ℝ))) (fun t => some (fin (h t : ℝ))) (fun t => some (fin (l t : ℝ))) (fun t => some (fin (c t : ℝ)))
    (fun t => some (fin (v t : ℝ)))
private theorem hx : ExBars dx 9 (fun t => (o t : ℝ)) (fun t => (h t : ℝ)) (fun t => (l t : ℝ)) (fun t => (c t : ℝ)) (fun t => (v t : ℝ)) :=
  bars_ofSeries 9 _ _ _ _ _

private theorem small : ∀ t, t < 9 → o t ≤ 17 ∧ h t ≤ 17 ∧ l t ≤ 17 ∧ c t ≤ 17 ∧ v t ≤ 5 := by decide

private theorem hb : PricedBars (Sf.valued (Rounding.binary64 ℝ)) d 9 (fun t => (o t : ℝ)) (fun t => (h t : ℝ)) (fun t => (l t : ℝ)) (fun t => (c t : ℝ))
    (fun t => (v t : ℝ)) 17 := by
  refine ⟨⟨_, _, _, _, _, bars_ofSeries 9 _ _ _ _ _, fun t ht => ?_⟩, fun t ht => ?_⟩
  · obtain ⟨h1, h2, h3, h4, h5⟩ := small t ht
    exact ⟨s_val (by omega), s_val (by omega), s_val (by omega), s_val (by omega), s_val (by omega)⟩
  · obtain ⟨h1, h2, h3, h4, h5⟩ := small t ht
    have key : ∀ n : Nat, n ≤ 17 → |(n : ℝ)| ≤ 17 := fun n hn => by rw [abs_of_nonneg (Nat.cast_nonneg _)]; exact_mod_cast hn
    exact ⟨key _ h1, key _ h2, key _ h3, key _ h4⟩

private theorem big : (200 : ℝ) ≤ (2 : ℝ) ^ (1023 : ℤ) :=
  le_trans (by norm_num : (200 : ℝ) ≤ (2 : ℝ) ^ (8 : ℤ)) (zpow_le_zpow_right₀ (by norm_num) (by norm_num))
private noncomputable def cfg : StrategyConfig B64 := ⟨true, true, s 100, false⟩
private noncomputable def cfgx : StrategyConfig (Ex ℝ) := ⟨true, true, fin ((100 : ℕ) : ℝ), false⟩

example := C97_aroon acc ℓ big hb (len := 3) (by norm_num) (by norm_num)

/-- With a length of 3 the order of the ages changes on tick 8 (2 and 1 bars, then 0 and 2), and bar 8 has the highest high: both programs go
long on it. -/
example : ∃ sig, SameSignals d dx 9 Aroon.next (Aroon.new 3) AroonStrategy.next AroonStrategy.new cfg (s 0)
    Aroon.next (Aroon.new 3) AroonStrategy.next AroonStrategy.new cfgx (fin 0) sig ∧ sig 8 = some .long := by
  obtain ⟨sig, ⟨a, b, h1, h2⟩, same⟩ := C97_aroon_binary64 hb hx (len := 3) (by norm_num) (by norm_num) cfg cfgx (s 0) (fin 0)
  refine ⟨sig, same, (h2 8 (by norm_num)).1.mpr ?_⟩
  have lo : ∀ t i j, OldestLowest (fun t => (l t : ℝ)) 3 t i → OldestLowest (fun t => (l t : ℝ)) 3 t j → i = j := by
    intro t i j hi hj
    rcases Nat.lt_trichotomy i j with h | h | h
    · exact absurd ((hi.2 j hj.1).2 h) (not_lt.mpr (hj.2 i hi.1).1)
    · exact h
    · exact absurd ((hj.2 i hi.1).2 h) (not_lt.mpr (hi.2 j hj.1).1)
  have a8 : a 8 = 0 := oldestHighest_unique (h1 8 (by norm_num) (by norm_num)).1 ⟨by norm_num, fun i hi => by interval_cases i <;> norm_num [h]⟩
  have a7 : a 7 = 2 := oldestHighest_unique (h1 7 (by norm_num) (by norm_num)).1 ⟨by norm_num, fun i hi => by interval_cases i <;> norm_num [h]⟩
  have b8 : b 8 = 2 := lo _ _ _ (h1 8 (by norm_num) (by norm_num)).2 ⟨by norm_num, fun i hi => by interval_cases i <;> norm_num [l]⟩
  have b7 : b 7 = 1 := lo _ _ _ (h1 7 (by norm_num) (by norm_num)).2 ⟨by norm_num, fun i hi => by interval_cases i <;> norm_num [l]⟩
  refine ⟨⟨8, le_refl _, ⟨by norm_num, Or.inl ⟨by norm_num [a7, b7], by norm_num [a8, b8]⟩⟩, fun k k1 k2 => by omega⟩, a8, by norm_num [b8]⟩

example := C97_aroon_program (V := Sf.valued (Rounding.binary64 ℝ)) acc ℓ big
  (by
    have h := Binary64.mag_fixed (K := ℝ) (m := 1) (q := -1) (by norm_num) (by norm_num) (by norm_num)
    rw [show ((1 : ℤ) : ℝ) * (2 : ℝ) ^ (-1 : ℤ) = 1 / 2 by norm_num] at h
    refine (Binary64.round_pos (by norm_num)).trans ?_
    rw [h, if_neg]
    have : (2 : ℝ) ^ (0 : ℤ) ≤ (2 : ℝ) ^ (1024 : ℤ) := Binary64.two_zpow_mono (by norm_num)
    rw [zpow_zero] at this
    exact not_le.mpr (lt_of_lt_of_le (by norm_num) this))
  hb hx (len := 3) (by norm_num) (by norm_num) (by unfold b64u; norm_num) cfg cfgx (s 0) (fin 0)

end Pace.Cases
