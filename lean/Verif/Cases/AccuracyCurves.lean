import Verif.Cases.Rounded
import Verif.Props.AccuracyCci

/-! # The theorems on rates of change, weighted averages and the Coppock curve and the commodity channel index in floats (C96) at concrete cases

Nine bars; closes 10, 12, 13, 15, 14, 11, 10, 12, 15. -/

namespace Pace.Cases
open Pace Spec

private theorem ℓ : (Rounding.binary64 ℝ).Lawful := binary64_lawful ℝ
private theorem acc : (Rounding.binary64 ℝ).Accurate b64u b64η ((2 : ℝ) ^ (1023 : ℤ)) := binary64_accurate ℝ

private def o (t : Nat) : Nat := [9, 10, 12, 14, 15, 14, 11, 10, 12].getD t 0
private def h (t : Nat) : Nat := [11, 13, 14, 16, 17, 15, 12, 13, 16].getD t 0
private def l (t : Nat) : Nat := [8, 9, 11, 13, 12, 10, 9, 9, 11].getD t 0
private def c (t : Nat) : Nat := [10, 12, 13, 15, 14, 11, 10, 12, 15].getD t 0

private def v (t : Nat) : Nat := [1, 3, 2, 5, 1, 2, 4, 2, 3].getD t 0

private noncomputable def d : DataProvider B64 :=
  .ofSeries 9 (fun t => some (s (o t))) (fun t => some (s (h t))) (fun t => some (s (l t))) (fun t => some (s (c t))) (fun t => some (s (v t)))
private noncomputable def dx : DataProvider (Ex ℝ) :=
  .ofSeries 9 (fun t => some (fin (o t : ℝ))) (fun t => some (fin (h t : ℝ))) (fun t => some (fin (l t : ℝ))) (fun t => some (fin (c t : ℝ)))
    (fun t => some (fin (v t : ℝ)))
private theorem hx : ExBars dx 9 (fun t => (o t : ℝ)) (fun t => (h t : ℝ)) (fun t => (l t : ℝ)) (fun t => (c t : ℝ)) (fun t => (v t : ℝ)) :=
  bars_ofSeries 9 _ _ _ _ _

private theorem small : ∀ t, t < 9 → o t ≤ 17 ∧ h t ≤ 17 ∧ l t ≤ 17 ∧ c t ≤ 17 ∧ v t ≤ 5 := by decide

private theorem hb : PricedBars (Sf.valued (Rounding.binary64 ℝ)) d 9 (fun t => (o t : ℝ)) (fun t => (h t : ℝ)) (fun t => (l t : ℝ)) (fun t => (c t : ℝ))
    (fun t => (v t : ℝ)) 17 := by
  refine ⟨⟨_, _, _, _, _, bars_ofSeries 9 _ _ _ _ _, fun t ht => ?_⟩, fun t ht => ?_⟩
  · obtain ⟨h1, h2, h3, h4, h5⟩ := small t ht
    exact ⟨s_val (by omega), s_val (by omega), s_val (by omega), s_val (by omega), s_val (by omega)⟩
  · obtain ⟨h1, h2, h3, h4, h5⟩ := small t ht
    have key : ∀ n : Nat, n ≤ 17 → |(n : ℝ)| ≤ 17 := fun n hn => by rw [abs_of_nonneg (Nat.cast_nonneg _)]; exact_mod_cast hn
    exact ⟨key _ h1, key _ h2, key _ h3, key _ h4⟩

private theorem le900 {x : ℝ} (hx : x ≤ 1024) : x ≤ (2 : ℝ) ^ (900 : ℤ) :=
  hx.trans (le_trans (by norm_num : (1024 : ℝ) ≤ (2 : ℝ) ^ (10 : ℤ)) (zpow_le_zpow_right₀ (by norm_num) (by norm_num)))
private theorem room : Room b64u b64η ((2 : ℝ) ^ (1023 : ℤ)) 100 17 := room_binary64 (by norm_num) (by norm_num) (le900 (by norm_num))

private theorem tiny : b64u ≤ 1 / 2 ^ 20 ∧ 0 ≤ b64u ∧ b64η ≤ 1 / 2 ^ 20 ∧ 0 ≤ b64η := by
  have key : ∀ z : ℤ, z ≤ -20 → (2 : ℝ) ^ z ≤ 1 / 2 ^ 20 := fun z hz => by
    have := zpow_le_zpow_right₀ (by norm_num : (1 : ℝ) ≤ 2) hz
    refine this.trans (le_of_eq ?_)
    norm_num
  unfold b64u b64η
  exact ⟨key _ (by norm_num), (Binary64.two_zpow_pos _).le, key _ (by norm_num), (Binary64.two_zpow_pos _).le⟩


private theorem big {x : ℝ} (hx : x ≤ 16777216) : x ≤ (2 : ℝ) ^ (1023 : ℤ) :=
  hx.trans (le_trans (by norm_num : (16777216 : ℝ) ≤ (2 : ℝ) ^ (24 : ℤ)) (zpow_le_zpow_right₀ (by norm_num) (by norm_num)))
private theorem η1 : b64η ≤ 1 := tiny.2.2.1.trans (by norm_num)

private theorem formed : WellFormed (fun t => (o t : ℝ)) (fun t => (h t : ℝ)) (fun t => (l t : ℝ)) (fun t => (c t : ℝ)) := by
  intro t
  by_cases ht : t < 9
  · interval_cases t <;> norm_num [o, h, l, c]
  · have : ∀ xs : List Nat, xs.length = 9 → xs.getD t 0 = 0 := fun xs hx => by simp [List.getD, List.getElem?_eq_none (by omega : xs.length ≤ t)]
    simp only [o, h, l, c]
    rw [this _ rfl, this _ rfl, this _ rfl, this _ rfl]
    norm_num

private noncomputable def cfg : StrategyConfig B64 := ⟨true, true, s 100, false⟩
private noncomputable def cfgx : StrategyConfig (Ex ℝ) := ⟨true, true, fin ((100 : ℕ) : ℝ), false⟩
private noncomputable abbrev zero : Thresholds B64 := ⟨s 0, s 0⟩
private noncomputable abbrev zerox : Thresholds (Ex ℝ) := ⟨fin ((0 : ℕ) : ℝ), fin ((0 : ℕ) : ℝ)⟩


private noncomputable abbrev closes : Nat → ℝ := sourceValue .close (fun t => (o t : ℝ)) (fun t => (h t : ℝ)) (fun t => (l t : ℝ)) (fun t => (c t : ℝ)) (fun t => (v t : ℝ))
private theorem δ {x : ℝ} (hx : x ≤ 2 ^ 13) : x * (b64u * 17 + b64η) ≤ 1 := by
  obtain ⟨t1, t2, t3, t4⟩ := tiny
  have h1 : 0 ≤ b64u * 17 + b64η := by positivity
  have := mul_le_mul_of_nonneg_right hx h1
  norm_num at *; linarith
private theorem finer : b64u ≤ 1 / 2 ^ 50 ∧ b64η ≤ 1 / 2 ^ 50 := by
  have key : ∀ z : ℤ, z ≤ -50 → (2 : ℝ) ^ z ≤ 1 / 2 ^ 50 := fun z hz => by
    have := zpow_le_zpow_right₀ (by norm_num : (1 : ℝ) ≤ 2) hz
    refine this.trans (le_of_eq ?_)
    norm_num
  unfold b64u b64η
  exact ⟨key _ (by norm_num), key _ (by norm_num)⟩


private theorem near0 : StaysNear (Sf.valued (Rounding.binary64 ℝ)) (fun t => some (s (c t))) 0 (fun t => (c t : ℝ)) (0 * (b64u * 17 + b64η)) 9 := fun t ht => by
  unfold startAt; rw [if_neg (by omega)]; exact ⟨_, rfl, _, s_val ((small t ht).2.2.2.1.trans (by norm_num)), by norm_num⟩
private theorem ten : ∀ t, t < 9 → (10 : ℝ) ≤ |(c t : ℝ)| := fun t ht => by interval_cases t <;> norm_num [c]

/-! ## Rate of change over two bars -/

example := C96_roc acc ℓ (by norm_num) (by norm_num) near0 (fun t ht => (hb.bound t ht).2.2.2) (n := 2) (by norm_num) (m := 10) (by norm_num)
  (by have := δ (x := 6) (by norm_num); linarith) ten (big (by have := η1; linarith)) (big (by norm_num))
/-- Two ticks apart, from 15 to 11: -80/3 percent. -/
example : rateLine 2 (fun t => (c t : ℝ)) 5 = -80 / 3 := by norm_num [rateLine, c]

/-! ## Weighted average of three bars -/

example := C96_wma acc ℓ d (len := 3) (by norm_num) (by norm_num) (by obtain ⟨t1, t2⟩ := finer; norm_num at *; linarith) near0 (M := 17) (by norm_num)
  (by norm_num) (fun t ht _ => (hb.bound t ht).2.2.2) (big (by have := η1; norm_num; linarith))
example : weightedMean (win (fun t => (c t : ℝ)) 3 3) = 83 / 6 := by norm_num [weightedMean_win, c, List.range_succ]

/-! ## Coppock curve of lengths 2, 1 and 2 -/

private theorem curve : ∀ t, t < 9 → 3 ≤ t → 1 ≤ |coppockLine 2 1 2 closes t| := by
  intro t ht h3
  interval_cases t <;> norm_num [coppockLine, weightedMean_win, rateLine, sourceValue, c, List.range_succ, le_abs]
private theorem away : ∀ t, t < 9 → (10 : ℝ) ≤ |closes t| := ten
example := C96_coppock acc ℓ hb (by norm_num) (src := .close) (by decide) (len := 2) (a := 1) (b := 2) (by norm_num) (by norm_num) (by norm_num) (by norm_num)
  (by obtain ⟨t1, t2⟩ := finer; norm_num at *; linarith) (m := 10) (by norm_num) (by have := δ (x := 26) (by norm_num); linarith) away
  (big (by have := η1; linarith)) (big (by norm_num))
example := C92_same_signals_binary64 hb (by norm_num) hx (by norm_num) (cfg := cfg) (cfgx := cfgx) rfl rfl rfl rfl (s_val (by norm_num)) rfl
  (le900 (by rw [abs_of_nonneg (Nat.cast_nonneg _)]; norm_num))
  (C96_coppock_program acc ℓ hb (by norm_num) hx (src := .close) (by decide) (len := 2) (a := 1) (b := 2) (by norm_num) (by norm_num) (by norm_num) (by norm_num)
    (by obtain ⟨t1, t2⟩ := finer; norm_num at *; linarith) (m := 10) (by norm_num) (by have := δ (x := 26) (by norm_num); linarith) away
    (big (by have := η1; linarith)) (big (by norm_num)) (th := zero) (thx := zerox) (lo := (0 : ℕ)) (hi := (0 : ℕ)) (s_val (by norm_num)) (s_val (by norm_num)) rfl rfl
    (fun t ht h3 => by
      have small : (13390 * ((b64u * 17 + b64η) / 10) + (3200 + 2900 * ((2 : ℕ) : ℝ)) * b64u) * (1 + 2 * 17 / 10) < 1 := by
        obtain ⟨t1, t2⟩ := finer; norm_num at *; linarith
      have key := curve t ht h3
      refine ⟨small.trans_le ?_, small.trans_le ?_⟩ <;> simpa using key)
    cfg cfgx (s 0) (fin 0))
/-- It goes Short on tick 5. -/
example : lineSignal 3 (coppockLine 2 1 2 closes) (0 : ℕ) (0 : ℕ) 5 = some .short := by
  norm_num [lineSignal, coppockLine, weightedMean_win, rateLine, sourceValue, c, List.range_succ]

/-! ## Commodity channel index of length 3: 80, 100, 0, -100, -500/7, 100, 100 from tick 2 on -/

private theorem near5 : StaysNear (Sf.valued (Rounding.binary64 ℝ)) (fun t => some (s (c t))) 0 (fun t => (c t : ℝ)) (5 * (b64u * 17 + b64η)) 9 :=
  near0.mono (by obtain ⟨t1, t2, t3, t4⟩ := tiny; rw [zero_mul]; positivity)
example := C96_dev acc ℓ d (len := 3) (k := 100) (by norm_num) (by norm_num) (by norm_num) room near5 (fun t ht => (hb.bound t ht).2.2.2)
private theorem spread : ∀ t, t < 9 → 3 ≤ t + 1 → meanAbsDev (win closes 3 t) = [0, 0, 10 / 9, 10 / 9, 2 / 3, 14 / 9, 14 / 9, 2 / 3, 16 / 9].getD t 0 := by
  intro t ht h2
  interval_cases t <;> first | omega | norm_num [meanAbsDev, mean, win, sourceValue, c, List.range_succ, abs]
private theorem line : ∀ t, t < 9 → 2 ≤ t → channelLine 3 closes t = [0, 0, 80, 100, 0, -100, -500 / 7, 100, 100].getD t 0 := by
  intro t ht h2
  unfold channelLine
  rw [spread t ht (by omega)]
  interval_cases t <;> norm_num [mean, win, sourceValue, c, List.range_succ]
private theorem spread2 : ∀ t, t < 9 → 3 ≤ t + 1 → 1 / 2 ≤ meanAbsDev (win closes 3 t) := by
  intro t ht h2
  rw [spread t ht h2]
  interval_cases t <;> first | omega | norm_num
private theorem fine : 8 * ((24 + 6 * ((9 : ℕ) : ℝ) + 3 * ((3 : ℕ) : ℝ)) * (b64u * 17 + b64η)) ≤ 1 / 2 := by
  have := δ (x := 16 * (24 + 6 * 9 + 9)) (by norm_num); push_cast; linarith
example := C96_cci acc ℓ hb (by norm_num) (src := .close) (by decide) (len := 3) (k := 100) (by norm_num) (by norm_num) room (big (by norm_num)) (m := 1 / 2) (by norm_num)
  fine spread2
private noncomputable abbrev band : Thresholds B64 := ⟨s 10, s 50⟩
private noncomputable abbrev bandx : Thresholds (Ex ℝ) := ⟨fin ((10 : ℕ) : ℝ), fin ((50 : ℕ) : ℝ)⟩
example := C92_same_signals_binary64 hb (by norm_num) hx (by norm_num) (cfg := cfg) (cfgx := cfgx) rfl rfl rfl rfl (s_val (by norm_num)) rfl
  (le900 (by rw [abs_of_nonneg (Nat.cast_nonneg _)]; norm_num))
  (C96_cci_program acc ℓ hb (by norm_num) hx (src := .close) (by decide) (len := 3) (k := 100) (by norm_num) (by norm_num) room (big (by norm_num)) (m := 1 / 2) (by norm_num)
    fine spread2 (th := band) (thx := bandx) (lo := (10 : ℕ)) (hi := (50 : ℕ)) (s_val (by norm_num)) (s_val (by norm_num)) rfl rfl
    (fun t ht h2 => by
      have small : 610 * (((3 : ℕ) : ℝ) * ((24 + 6 * ((9 : ℕ) : ℝ) + 3 * ((3 : ℕ) : ℝ)) * (b64u * 17 + b64η) / (1 / 2))) + 150 * (((3 : ℕ) : ℝ) * b64u) < 1 := by
        obtain ⟨t1, t2⟩ := finer; norm_num at *; linarith
      have h2' : 2 ≤ t := h2
      rw [line t ht h2']
      refine ⟨small.trans_le ?_, small.trans_le ?_⟩ <;> interval_cases t <;> norm_num [abs])
    cfg cfgx (s 0) (fin 0))
/-- It goes Long on tick 7. -/
example : lineSignal 2 (channelLine 3 closes) (10 : ℕ) (50 : ℕ) 7 = some .long := by
  simp only [lineSignal, line 7 (by norm_num) (by norm_num), line 6 (by norm_num) (by norm_num)]
  norm_num

end Pace.Cases
