import Verif.Cases.Rounded
import Verif.Props.AccuracyPrograms

/-! # The theorems on sums and ratios of sums in floats (C95) at concrete cases

Nine bars; closes 10, 12, 13, 15, 14, 11, 10, 12, 15. -/

namespace Pace.Cases
open Pace Spec

private theorem ℓ : (Rounding.binary64 ℝ).Lawful := binary64_lawful ℝ
private theorem acc : (Rounding.binary64 ℝ).Accurate b64u b64η ((2 : ℝ) ^ (1023 : ℤ)) := binary64_accurate ℝ

private def o (t : Nat) : Nat := [9, 10, 12, 14, 15, 14, 11, 10, 12].getD t 0
private def h (t : Nat) : Nat := [11, 13, 14, 16, 17, 15, 12, 13, 16].getD t 0
private def l (t : Nat) : Nat := [8, 9, 11, 13, 12, 10, 9, 9, 11].getD t 0
private def c (t : Nat) : Nat := [10, 12, 13, 15, 14, 11, 10, 12, 15].getD t 0

private def v (t : Nat) : Nat := [1, 3, 2, 5, 1, 2, 4, 2, 3].getD t 0

private noncomputable def d : DataProvider B64 :=
  .ofSeries 9 (fun t => some (s (o t))) (fun t => some (s (h t))) (fun t => some (s (l t))) (fun t => some (s (c t))) (fun t => some (s (v t)))
private noncomputable def dx : DataProvider (Ex ℝ) :=
  .ofSeries 9 (fun t => some (fin (o t : ℝ))) (fun t => some (fin (h t : ℝ))) (fun t => some (fin (l t : ℝ))) (fun t => some (fin (c t : ℝ)))
    (fun t => some (fin (v t : ℝ)))
private theorem hx : ExBars dx 9 (fun t => (o t : ℝ)) (fun t => (h t : ℝ)) (fun t => (l t : ℝ)) (fun t => (c t : ℝ)) (fun t => (v t : ℝ)) :=
  bars_ofSeries 9 _ _ _ _ _

private theorem small : ∀ t, t < 9 → o t ≤ 17 ∧ h t ≤ 17 ∧ l t ≤ 17 ∧ c t ≤ 17 ∧ v t ≤ 5 := by decide

private theorem hb : PricedBars (Sf.valued (Rounding.binary64 ℝ)) d 9 (fun t => (o t : ℝ)) (fun t => (h t : ℝ)) (fun t => (l t : ℝ)) (fun t => (c t : ℝ))
    (fun t => (v t : ℝ)) 17 := by
  refine ⟨⟨_, _, _, _, _, bars_ofSeries 9 _ _ _ _ _, fun t ht => ?_⟩, fun t ht => ?_⟩
  · obtain ⟨h1, h2, h3, h4, h5⟩ := small t ht
    exact ⟨s_val (by omega), s_val (by omega), s_val (by omega), s_val (by omega), s_val (by omega)⟩
  · obtain ⟨h1, h2, h3, h4, h5⟩ := small t ht
    have key : ∀ n : Nat, n ≤ 17 → |(n : ℝ)| ≤ 17 := fun n hn => by rw [abs_of_nonneg (Nat.cast_nonneg _)]; exact_mod_cast hn
    exact ⟨key _ h1, key _ h2, key _ h3, key _ h4⟩

private theorem le900 {x : ℝ} (hx : x ≤ 1024) : x ≤ (2 : ℝ) ^ (900 : ℤ) :=
  hx.trans (le_trans (by norm_num : (1024 : ℝ) ≤ (2 : ℝ) ^ (10 : ℤ)) (zpow_le_zpow_right₀ (by norm_num) (by norm_num)))
private theorem room : Room b64u b64η ((2 : ℝ) ^ (1023 : ℤ)) 100 17 := room_binary64 (by norm_num) (by norm_num) (le900 (by norm_num))

private theorem tiny : b64u ≤ 1 / 2 ^ 20 ∧ 0 ≤ b64u ∧ b64η ≤ 1 / 2 ^ 20 ∧ 0 ≤ b64η := by
  have key : ∀ z : ℤ, z ≤ -20 → (2 : ℝ) ^ z ≤ 1 / 2 ^ 20 := fun z hz => by
    have := zpow_le_zpow_right₀ (by norm_num : (1 : ℝ) ≤ 2) hz
    refine this.trans (le_of_eq ?_)
    norm_num
  unfold b64u b64η
  exact ⟨key _ (by norm_num), (Binary64.two_zpow_pos _).le, key _ (by norm_num), (Binary64.two_zpow_pos _).le⟩


private theorem big {x : ℝ} (hx : x ≤ 16777216) : x ≤ (2 : ℝ) ^ (1023 : ℤ) :=
  hx.trans (le_trans (by norm_num : (16777216 : ℝ) ≤ (2 : ℝ) ^ (24 : ℤ)) (zpow_le_zpow_right₀ (by norm_num) (by norm_num)))
private theorem η1 : b64η ≤ 1 := tiny.2.2.1.trans (by norm_num)

private theorem formed : WellFormed (fun t => (o t : ℝ)) (fun t => (h t : ℝ)) (fun t => (l t : ℝ)) (fun t => (c t : ℝ)) := by
  intro t
  by_cases ht : t < 9
  · interval_cases t <;> norm_num [o, h, l, c]
  · have : ∀ xs : List Nat, xs.length = 9 → xs.getD t 0 = 0 := fun xs hx => by simp [List.getD, List.getElem?_eq_none (by omega : xs.length ≤ t)]
    simp only [o, h, l, c]
    rw [this _ rfl, this _ rfl, this _ rfl, this _ rfl]
    norm_num

private noncomputable def cfg : StrategyConfig B64 := ⟨true, true, s 100, false⟩
private noncomputable def cfgx : StrategyConfig (Ex ℝ) := ⟨true, true, fin ((100 : ℕ) : ℝ), false⟩
private noncomputable abbrev zero : Thresholds B64 := ⟨s 0, s 0⟩
private noncomputable abbrev zerox : Thresholds (Ex ℝ) := ⟨fin ((0 : ℕ) : ℝ), fin ((0 : ℕ) : ℝ)⟩


private noncomputable abbrev closes : Nat → ℝ := sourceValue .close (fun t => (o t : ℝ)) (fun t => (h t : ℝ)) (fun t => (l t : ℝ)) (fun t => (c t : ℝ)) (fun t => (v t : ℝ))
private theorem δ {x : ℝ} (hx : x ≤ 2 ^ 13) : x * (b64u * 17 + b64η) ≤ 1 := by
  obtain ⟨t1, t2, t3, t4⟩ := tiny
  have h1 : 0 ≤ b64u * 17 + b64η := by positivity
  have := mul_le_mul_of_nonneg_right hx h1
  norm_num at *; linarith
private theorem finer : b64u ≤ 1 / 2 ^ 50 ∧ b64η ≤ 1 / 2 ^ 50 := by
  have key : ∀ z : ℤ, z ≤ -50 → (2 : ℝ) ^ z ≤ 1 / 2 ^ 50 := fun z hz => by
    have := zpow_le_zpow_right₀ (by norm_num : (1 : ℝ) ≤ 2) hz
    refine this.trans (le_of_eq ?_)
    norm_num
  unfold b64u b64η
  exact ⟨key _ (by norm_num), key _ (by norm_num)⟩

/-! ## Sums -/

example := C95_sum acc ℓ d (len := 3) (by norm_num) (x := fun t => some (s (c t))) (s := 0) (w := fun t => (c t : ℝ)) (e := 0) (N := 9) (V := Sf.valued (Rounding.binary64 ℝ))
  (fun t ht => by unfold startAt; rw [if_neg (by omega)]; exact ⟨_, rfl, _, s_val ((small t ht).2.2.2.1.trans (by norm_num)), by norm_num⟩)
  (M := 17) (by norm_num) (by norm_num) (fun t ht _ => (hb.bound t ht).2.2.2) (by have := finer; norm_num at *; linarith) (big (by have := η1; norm_num; linarith))

/-! ## Chande momentum oscillator: 100, 100, 100/3, -100, -100, 100/3, 100 from tick 2 on -/

private theorem momentum : ∀ t, t < 9 → 2 ≤ t → (win (gain closes) 2 t).sum = [0, 0, 3, 3, 2, 0, 0, 2, 5].getD t 0 ∧ (win (loss closes) 2 t).sum = [0, 0, 0, 0, 1, 4, 4, 1, 0].getD t 0 := by
  intro t ht h2
  interval_cases t <;> norm_num [win, gain, loss, sourceValue, c, List.range_succ]
private theorem moved : ∀ t, t < 9 → 2 ≤ t → 3 ≤ (win (gain closes) 2 t).sum + (win (loss closes) 2 t).sum := by
  intro t ht h2
  obtain ⟨e1, e2⟩ := momentum t ht h2
  rw [e1, e2]
  interval_cases t <;> norm_num
private theorem cmoRoom : 6 * (((2 : ℕ) : ℝ) * (19 + 12 * ((9 : ℕ) : ℝ)) * (b64u * 17 + b64η)) ≤ 3 := by
  have := δ (x := 6 * (2 * (19 + 12 * 9))) (by norm_num); push_cast; linarith
example := C95_cmo acc ℓ hb (by norm_num) (src := .close) (by decide) (len := 2) (k := 100) (by norm_num) (by norm_num) room (big (by norm_num)) (m := 3) (by norm_num)
  cmoRoom moved
example := C92_same_signals_binary64 hb (by norm_num) hx (by norm_num) (cfg := cfg) (cfgx := cfgx) rfl rfl rfl rfl (s_val (by norm_num)) rfl
  (le900 (by rw [abs_of_nonneg (Nat.cast_nonneg _)]; norm_num))
  (C95_cmo_program acc ℓ hb (by norm_num) hx (src := .close) (by decide) (len := 2) (k := 100) (by norm_num) (by norm_num) room (big (by norm_num)) (m := 3) (by norm_num)
    cmoRoom moved (th := zero) (thx := zerox) (lo := (0 : ℕ)) (hi := (0 : ℕ)) (s_val (by norm_num)) (s_val (by norm_num)) rfl rfl
    (fun t ht h2 => by
      have small : 1400 * (((2 : ℕ) : ℝ) * (19 + 12 * ((9 : ℕ) : ℝ)) * (b64u * 17 + b64η) / 3) + 102 * b64u < 1 := by
        obtain ⟨t1, t2⟩ := finer; norm_num at *; linarith
      unfold momentumLine
      obtain ⟨e1, e2⟩ := momentum t ht h2
      rw [e1, e2]
      refine ⟨small.trans_le ?_, small.trans_le ?_⟩ <;> interval_cases t <;> norm_num [abs_le, le_abs])
    cfg cfgx (s 0) (fin 0))
/-- It goes Short on tick 5. -/
example : lineSignal 2 (momentumLine 2 closes) (0 : ℕ) (0 : ℕ) 5 = some .short := by
  simp only [lineSignal, momentumLine, momentum 5 (by norm_num) (by norm_num), momentum 4 (by norm_num) (by norm_num)]
  norm_num

/-! ## Ultimate oscillator -/

private theorem spreads : ∀ t, t < 9 → ∀ n, n = 1 ∨ n = 2 ∨ n = 3 → n ≤ t → 3 ≤ (win (trueSpread (fun t => (h t : ℝ)) (fun t => (l t : ℝ)) (fun t => (c t : ℝ))) n t).sum := by
  intro t ht n hn hnt
  rcases hn with rfl | rfl | rfl <;> interval_cases t <;> norm_num [win, trueSpread, h, l, c, List.range_succ]
example := C95_ultimate acc ℓ hb (by norm_num) formed (n1 := 1) (n2 := 2) (n3 := 3) (k := 100) (by norm_num) (by norm_num) (by norm_num) (by norm_num) room
  (big (by norm_num)) (m := 3) (by norm_num) (by have := δ (x := 8 * (6 * (8 + 12 * 9))) (by norm_num); push_cast; linarith) spreads

/-! ## Chaikin money flow -/

private theorem room5 : Room b64u b64η ((2 : ℝ) ^ (1023 : ℤ)) 100 5 := room_binary64 (by norm_num) (by norm_num) (le900 (by norm_num))
private theorem v5 : ∀ t, t < 9 → (v t : ℝ) ≤ 5 := fun t ht => by exact_mod_cast (small t ht).2.2.2.2
private theorem heights : ∀ t, t < 9 → (h t : ℝ) = l t ∨ (3 : ℝ) ≤ (h t : ℝ) - l t := by intro t ht; right; interval_cases t <;> norm_num [h, l]
private theorem traded : ∀ t, t < 9 → 2 ≤ t + 1 → 3 ≤ (win (fun t => (v t : ℝ)) 2 t).sum := by
  intro t ht h2
  interval_cases t
  · omega
  all_goals norm_num [win, v, List.range_succ]
private theorem cmfRoom : 8 * (((2 : ℕ) : ℝ) * (31 * 5 * ((b64u * 17 + b64η) / 3) + (9 + 8 * ((9 : ℕ) : ℝ)) * (b64u * 5 + b64η))) ≤ 3 := by
  obtain ⟨t1, t2⟩ := finer; norm_num at *; linarith
private theorem flows : ∀ t, t < 9 → 1 ≤ t → (1 : ℝ) / 18 ≤ |moneyFlowLine 2 (fun t => (h t : ℝ)) (fun t => (l t : ℝ)) (fun t => (c t : ℝ)) (fun t => (v t : ℝ)) t| := by
  intro t ht h1
  interval_cases t <;> norm_num [moneyFlowLine, win, flowVolume, h, l, c, v, List.range_succ, abs_le, le_abs]
example := C95_cmf acc ℓ hb (by norm_num) formed (fun _ => Nat.cast_nonneg _) v5 (len := 2) (k := 100) (by norm_num) (by norm_num) room5 (big (by norm_num))
  (big (by have := η1; linarith)) (r := 3) (by norm_num) ((δ (x := 40) (by norm_num)).trans (by norm_num)) heights (m := 3) (by norm_num) cmfRoom traded
example := C95_cmf_program acc ℓ hb (by norm_num) hx formed (fun _ => Nat.cast_nonneg _) v5 (len := 2) (k := 100) (by norm_num) (by norm_num) room5 (big (by norm_num))
  (big (by have := η1; linarith)) (r := 3) (by norm_num) ((δ (x := 40) (by norm_num)).trans (by norm_num)) heights (m := 3) (by norm_num) cmfRoom traded
  (th := zero) (thx := zerox) (lo := (0 : ℕ)) (hi := (0 : ℕ)) (s_val (by norm_num)) (s_val (by norm_num)) rfl rfl
  (fun t ht h2 => by
    have small : 6 * (((2 : ℕ) : ℝ) * (31 * 5 * ((b64u * 17 + b64η) / 3) + (9 + 8 * ((9 : ℕ) : ℝ)) * (b64u * 5 + b64η)) / 3) + 2 * b64u < 1 / 18 := by
      obtain ⟨t1, t2⟩ := finer; norm_num at *; linarith
    have := flows t ht (by omega)
    rw [Nat.cast_zero, sub_zero]
    exact ⟨small.trans_le this, small.trans_le this⟩)
  cfg cfgx (s 0) (fin 0)

/-! ## Vortex -/

private theorem ranged : ∀ t, t < 9 → 2 ≤ t → 3 ≤ (win (barRange (fun t => (h t : ℝ)) (fun t => (l t : ℝ)) (fun t => (c t : ℝ))) 2 t).sum := by
  intro t ht h2
  interval_cases t <;> norm_num [win, barRange, h, l, c, List.range_succ]
private theorem vortexRoom : 2 * (((2 : ℕ) : ℝ) * (62 + 12 * ((9 : ℕ) : ℝ)) * (b64u * 17 + b64η)) ≤ 3 := by
  have := δ (x := 2 * (2 * (62 + 12 * 9))) (by norm_num); push_cast; linarith
private theorem lines : ∀ t, t < 9 → 2 ≤ t → (1 : ℝ) / 10 ≤ |vortexLine 2 (fun t => (h t : ℝ)) (fun t => (l t : ℝ)) (fun t => (h t : ℝ)) (fun t => (l t : ℝ)) (fun t => (c t : ℝ)) t -
    vortexLine 2 (fun t => (l t : ℝ)) (fun t => (h t : ℝ)) (fun t => (h t : ℝ)) (fun t => (l t : ℝ)) (fun t => (c t : ℝ)) t| := by
  intro t ht h2
  interval_cases t <;> norm_num [vortexLine, win, barRange, h, l, c, List.range_succ, abs_le, le_abs]
example := C95_vortex acc ℓ hb (by norm_num) (len := 2) (k := 100) (by norm_num) (by norm_num) room (m := 3) (by norm_num) vortexRoom (big (by norm_num)) ranged
example := C95_vortex_program acc ℓ hb (by norm_num) hx (len := 2) (k := 100) (by norm_num) (by norm_num) room (m := 3) (by norm_num) vortexRoom (big (by norm_num)) ranged
  (fun t ht h2 => lt_of_lt_of_le (by obtain ⟨t1, t2⟩ := finer; have := tiny.2.1; have := tiny.2.2.2; norm_num at *; linarith) (lines t ht h2)) cfg cfgx (s 0) (fin 0)

/-! ## Relative vigor: 2/5, 5/21, -1/12, -4/13, -7/25, 1/12 from tick 3 on -/

private theorem vigors : ∀ t, t < 9 → 3 ≤ t → (win (sym4 fun t => (c t : ℝ) - o t) 1 t).sum = [0, 0, 0, 8 / 6, 5 / 6, -1 / 3, -4 / 3, -7 / 6, 1 / 3].getD t 0 ∧
    (win (sym4 fun t => (h t : ℝ) - l t) 1 t).sum = [0, 0, 0, 10 / 3, 7 / 2, 4, 13 / 3, 25 / 6, 4].getD t 0 := by
  intro t ht h2
  interval_cases t <;> norm_num [win, sym4, o, h, l, c, List.range_succ]
private theorem tall : ∀ t, t < 9 → 1 + 2 ≤ t → 3 ≤ (win (sym4 fun t => (h t : ℝ) - l t) 1 t).sum := by
  intro t ht h2
  rw [(vigors t ht h2).2]
  interval_cases t <;> norm_num
private theorem room1 : Room b64u b64η ((2 : ℝ) ^ (1023 : ℤ)) 100 1 := room_binary64 (by norm_num) (by norm_num) (le900 (by norm_num))
private theorem vigorRoom : 8 * (((1 : ℕ) : ℝ) * (35 + 12 * ((9 : ℕ) : ℝ)) * (b64u * 17 + b64η)) ≤ 3 := by
  have := δ (x := 8 * (35 + 12 * 9)) (by norm_num); push_cast; linarith
example := C95_vigor acc ℓ hb (by norm_num) formed (len := 1) (k := 100) (by norm_num) (by norm_num) room room1 (m := 3) (by norm_num) vigorRoom tall
private theorem vigorValues : ∀ t, t < 9 → 3 ≤ t → vigorLine 1 (fun t => (o t : ℝ)) (fun t => (h t : ℝ)) (fun t => (l t : ℝ)) (fun t => (c t : ℝ)) t =
    [0, 0, 0, 2 / 5, 5 / 21, -1 / 12, -4 / 13, -7 / 25, 1 / 12].getD t 0 := by
  intro t ht h2
  obtain ⟨e1, e2⟩ := vigors t ht h2
  unfold vigorLine
  rw [e1, e2]
  interval_cases t <;> norm_num
example := C95_vigor_program acc ℓ hb (by norm_num) hx formed (len := 1) (k := 100) (by norm_num) (by norm_num) room room1 (m := 3) (by norm_num) vigorRoom tall
  (fun t ht h2 => by
    have small : 13 * (((1 : ℕ) : ℝ) * (35 + 12 * ((9 : ℕ) : ℝ)) * (b64u * 17 + b64η) / 3) + 24 * b64u < 1 / 10 := by
      obtain ⟨t1, t2⟩ := finer; norm_num at *; linarith
    refine small.trans_le ?_
    unfold sym4
    rw [vigorValues t ht (by omega), vigorValues (t - 1) (by omega) (by omega), vigorValues (t - 2) (by omega) (by omega), vigorValues (t - 3) (by omega) (by omega)]
    interval_cases t <;> norm_num [abs_le, le_abs]) cfg cfgx (s 0) (fin 0)

/-- Any two lines: 12 and 11. -/
example := C92_cross_program (d := d) (bars_ofSeries 9 _ _ _ _ _) hx (ind := fun _ s => .ok ((some s.1, some s.2), s)) (ind0 := .ok (s 12, s 11))
  (Runs.of_trace (fun _ => (s 12, s 11)) rfl fun _ _ => rfl) (y := fun _ => some (s 12)) (z := fun _ => some (s 11)) (s1 := 0) (s2 := 0) (p := fun _ => ((12 : ℕ) : ℝ))
  (q := fun _ => ((11 : ℕ) : ℝ)) (e := 0) (f := 0) (V := Sf.valued (Rounding.binary64 ℝ))
  (fun t _ => by unfold startAt; rw [if_neg (by omega)]; exact ⟨_, rfl, _, s_val (by norm_num), by norm_num⟩)
  (fun t _ => by unfold startAt; rw [if_neg (by omega)]; exact ⟨_, rfl, _, s_val (by norm_num), by norm_num⟩) (indx := fun _ s => .ok ((some s.1, some s.2), s))
  (indx0 := .ok (fin ((12 : ℕ) : ℝ), fin ((11 : ℕ) : ℝ))) (Runs.of_trace (fun _ => (fin ((12 : ℕ) : ℝ), fin ((11 : ℕ) : ℝ))) rfl fun _ _ => rfl)
  (fun t _ _ => by norm_num) cfg cfgx (s 0) (fin 0)

end Pace.Cases
