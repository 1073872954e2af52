import Verif.Cases.Rounded
import Verif.Props.AccuracyLines

/-! # The theorems on ranges, channels and oscillators in floats (C94) at concrete cases

Five bars; closes 10, 12, 13, 15, 14. -/

namespace Pace.Cases
open Pace Spec

private theorem ℓ : (Rounding.binary64 ℝ).Lawful := binary64_lawful ℝ
private theorem acc : (Rounding.binary64 ℝ).Accurate b64u b64η ((2 : ℝ) ^ (1023 : ℤ)) := binary64_accurate ℝ

private def o (t : Nat) : Nat := [9, 10, 12, 14, 15].getD t 0
private def h (t : Nat) : Nat := [11, 13, 14, 16, 17].getD t 0
private def l (t : Nat) : Nat := [8, 9, 11, 13, 12].getD t 0
private def c (t : Nat) : Nat := [10, 12, 13, 15, 14].getD t 0

private def v (t : Nat) : Nat := [1, 3, 2, 5, 1].getD t 0

private noncomputable def d : DataProvider B64 :=
  .ofSeries 5 (fun t => some (s (o t))) (fun t => some (s (h t))) (fun t => some (s (l t))) (fun t => some (s (c t))) (fun t => some (s (v t)))
private noncomputable def dx : DataProvider (Ex ℝ) :=
  .ofSeries 5 (fun t => some (fin (o t : ℝ))) (fun t => some (fin (h t : ℝ))) (fun t => some (fin (l t : ℝ))) (fun t => some (fin (c t : ℝ)))
    (fun t => some (fin (v t : ℝ)))
private theorem hx : ExBars dx 5 (fun t => (o t : ℝ)) (fun t => (h t : ℝ)) (fun t => (l t : ℝ)) (fun t => (c t : ℝ)) (fun t => (v t : ℝ)) :=
  bars_ofSeries 5 _ _ _ _ _

private theorem small : ∀ t, t < 5 → o t ≤ 17 ∧ h t ≤ 17 ∧ l t ≤ 17 ∧ c t ≤ 17 ∧ v t ≤ 5 := by decide

private theorem hb : PricedBars (Sf.valued (Rounding.binary64 ℝ)) d 5 (fun t => (o t : ℝ)) (fun t => (h t : ℝ)) (fun t => (l t : ℝ)) (fun t => (c t : ℝ))
    (fun t => (v t : ℝ)) 17 := by
  refine ⟨⟨_, _, _, _, _, bars_ofSeries 5 _ _ _ _ _, fun t ht => ?_⟩, fun t ht => ?_⟩
  · obtain ⟨h1, h2, h3, h4, h5⟩ := small t ht
    exact ⟨s_val (by omega), s_val (by omega), s_val (by omega), s_val (by omega), s_val (by omega)⟩
  · obtain ⟨h1, h2, h3, h4, h5⟩ := small t ht
    have key : ∀ n : Nat, n ≤ 17 → |(n : ℝ)| ≤ 17 := fun n hn => by rw [abs_of_nonneg (Nat.cast_nonneg _)]; exact_mod_cast hn
    exact ⟨key _ h1, key _ h2, key _ h3, key _ h4⟩

private theorem le900 {x : ℝ} (hx : x ≤ 1024) : x ≤ (2 : ℝ) ^ (900 : ℤ) :=
  hx.trans (le_trans (by norm_num : (1024 : ℝ) ≤ (2 : ℝ) ^ (10 : ℤ)) (zpow_le_zpow_right₀ (by norm_num) (by norm_num)))
private theorem room : Room b64u b64η ((2 : ℝ) ^ (1023 : ℤ)) 100 17 := room_binary64 (by norm_num) (by norm_num) (le900 (by norm_num))

private theorem tiny : b64u ≤ 1 / 2 ^ 20 ∧ 0 ≤ b64u ∧ b64η ≤ 1 / 2 ^ 20 ∧ 0 ≤ b64η := by
  have key : ∀ z : ℤ, z ≤ -20 → (2 : ℝ) ^ z ≤ 1 / 2 ^ 20 := fun z hz => by
    have := zpow_le_zpow_right₀ (by norm_num : (1 : ℝ) ≤ 2) hz
    refine this.trans (le_of_eq ?_)
    norm_num
  unfold b64u b64η
  exact ⟨key _ (by norm_num), (Binary64.two_zpow_pos _).le, key _ (by norm_num), (Binary64.two_zpow_pos _).le⟩


private theorem big {x : ℝ} (hx : x ≤ 16777216) : x ≤ (2 : ℝ) ^ (1023 : ℤ) :=
  hx.trans (le_trans (by norm_num : (16777216 : ℝ) ≤ (2 : ℝ) ^ (24 : ℤ)) (zpow_le_zpow_right₀ (by norm_num) (by norm_num)))
private theorem η1 : b64η ≤ 1 := tiny.2.2.1.trans (by norm_num)

/-! ## Extremes, ranges, channels -/

/-- Three ticks of a line with a gap, known up to 1/4. -/
private theorem approx : ∀ t, t < 5 → Within (Sf.valued (Rounding.binary64 ℝ)) (if t = 0 then none else some (s (h t)))
    (if t = 0 then none else some ((h t : ℝ) + 1 / 4)) (1 / 4) := by
  intro t ht
  by_cases h0 : t = 0
  · simp [h0, Within]
  · rw [if_neg h0, if_neg h0]
    exact ⟨_, rfl, h t, s_val ((small t ht).2.1.trans (by norm_num)), by rw [abs_le]; constructor <;> linarith⟩
example := C94_highest d (n := 2) (by norm_num) approx
example := C94_lowest d (n := 2) (by norm_num) approx
example := C94_range acc hb (by norm_num) (big (by norm_num))
example := C94_atr acc ℓ hb (by norm_num) (n := 2) (k := 100) (by norm_num) (by norm_num) room
example := C94_donchian acc ℓ hb (by norm_num) (big (by have := η1; linarith)) (n := 2) (by norm_num)
example := C94_chande_kroll acc ℓ hb (by norm_num) (p := 2) (q := 3) (k := 100) (by norm_num) (by norm_num) (by norm_num) room (f := s 3)
  (φ := (3 : ℕ)) (F := 3) (s_val (by norm_num)) (by norm_num) (big (by have := η1; push_cast; linarith))

/-! ## Oscillators -/

private theorem formed : WellFormed (fun t => (o t : ℝ)) (fun t => (h t : ℝ)) (fun t => (l t : ℝ)) (fun t => (c t : ℝ)) := by
  intro t
  by_cases ht : t < 5
  · interval_cases t <;> norm_num [o, h, l, c]
  · have : ∀ xs : List Nat, xs.length = 5 → xs.getD t 0 = 0 := fun xs hx => by simp [List.getD, List.getElem?_eq_none (by omega : xs.length ≤ t)]
    simp only [o, h, l, c]
    rw [this _ rfl, this _ rfl, this _ rfl, this _ rfl]
    norm_num

private noncomputable def cfg : StrategyConfig B64 := ⟨true, true, s 100, false⟩
private noncomputable def cfgx : StrategyConfig (Ex ℝ) := ⟨true, true, fin ((100 : ℕ) : ℝ), false⟩
private noncomputable abbrev zero : Thresholds B64 := ⟨s 0, s 0⟩
private noncomputable abbrev zerox : Thresholds (Ex ℝ) := ⟨fin ((0 : ℕ) : ℝ), fin ((0 : ℕ) : ℝ)⟩

/-- Balance of power is 1/3, 1/2, 1/3, 1/3, -1/5. -/
private theorem ranges : ∀ t, t < 5 → (3 : ℝ) ≤ (h t : ℝ) - l t := by intro t ht; interval_cases t <;> norm_num [h, l]
private theorem δ3 : 16 * (b64u * 17 + b64η) ≤ 3 := by obtain ⟨t1, t2, t3, t4⟩ := tiny; norm_num at *; linarith
example := C94_balance_of_power acc hb formed (big (by norm_num)) (big (by norm_num)) (m := 3) (by norm_num) δ3 ranges
private theorem farBop : ∀ t, t < 5 → 12 * ((b64u * 17 + b64η) / 3) + 2 * b64u < |((c t : ℝ) - o t) / (h t - l t) - (0 : ℕ)| ∧
    12 * ((b64u * 17 + b64η) / 3) + 2 * b64u < |((c t : ℝ) - o t) / (h t - l t) - (0 : ℕ)| := by
  intro t ht
  have small : 12 * ((b64u * 17 + b64η) / 3) + 2 * b64u < 1 / 5 := by obtain ⟨t1, t2, t3, t4⟩ := tiny; norm_num at *; linarith
  refine ⟨small.trans_le ?_, small.trans_le ?_⟩ <;> interval_cases t <;> norm_num [o, h, l, c, abs_le, le_abs]
example := C92_same_signals_binary64 hb (by norm_num) hx (by norm_num) (cfg := cfg) (cfgx := cfgx) rfl rfl rfl rfl (s_val (by norm_num)) rfl
  (le900 (by rw [abs_of_nonneg (Nat.cast_nonneg _)]; norm_num))
  (C94_balance_of_power_program acc hb hx formed (big (by norm_num)) (big (by norm_num)) (m := 3) (by norm_num) δ3 ranges
    (th := zero) (thx := zerox) (lo := (0 : ℕ)) (hi := (0 : ℕ)) (s_val (by norm_num)) (s_val (by norm_num)) rfl rfl farBop cfg cfgx (s 0) (fin 0))
/-- It goes Short on the last bar. -/
example : lineSignal 0 (fun t => ((c t : ℝ) - o t) / (h t - l t)) (0 : ℕ) (0 : ℕ) 4 = some .short := by norm_num [lineSignal, o, h, l, c]

/-- Williams %R of two bars is -20, -20, -20, -60 from tick 1 on. -/
private theorem extremes : ∀ t, t < 5 → 2 ≤ t + 1 →
    Spec.highest (fun t => some (h t : ℝ)) 2 t = some ([0, 13, 14, 16, 17].getD t 0) ∧ Spec.lowest (fun t => some (l t : ℝ)) 2 t = some ([0, 8, 9, 11, 12].getD t 0) := by
  intro t ht hp
  interval_cases t
  · omega
  all_goals norm_num [Spec.highest, Spec.lowest, h, l, win, List.range_succ]
private theorem apart : ∀ t, t < 5 → ∀ hi lo, Spec.highest (fun t => some (h t : ℝ)) 2 t = some hi → Spec.lowest (fun t => some (l t : ℝ)) 2 t = some lo → 5 ≤ hi - lo := by
  intro t ht hi lo h1 h2
  have h3 := highest_full h1
  obtain ⟨e1, e2⟩ := extremes t ht h3
  rw [e1] at h1; rw [e2] at h2
  obtain rfl := Option.some.inj h1
  obtain rfl := Option.some.inj h2
  interval_cases t
  · omega
  all_goals norm_num
private theorem δ5 : 40 * (b64u * 17 + b64η) ≤ 5 := by obtain ⟨t1, t2, t3, t4⟩ := tiny; norm_num at *; linarith
example := C94_williams acc ℓ hb (by norm_num) formed (big (by have := η1; linarith)) (big (by norm_num)) (src := .close) (by decide) (n := 2) (by norm_num)
  (m := 5) (by norm_num) δ5 apart
private theorem neg50 : (Sf.valued (Rounding.binary64 ℝ)).val (-(s 50)) = Fl.of _ (.fin (-((50 : ℕ) : ℝ))) := by
  rw [Valued.neg]
  exact congrArg (- ·) (s_val (by norm_num) : (Sf.valued (Rounding.binary64 ℝ)).val (s 50) = _)
example := C94_williams_program acc ℓ hb (by norm_num) hx formed (big (by have := η1; linarith)) (big (by norm_num)) (src := .close) (by decide) (n := 2)
  (by norm_num) (m := 5) (by norm_num) δ5 apart (th := ⟨-(s 50), -(s 50)⟩) (thx := ⟨fin (-((50 : ℕ) : ℝ)), fin (-((50 : ℕ) : ℝ))⟩) neg50 neg50 rfl rfl
  (fun t ht hp => by
    have small : 3030 * ((b64u * 17 + b64η) / 5) + 303 * b64u < 1 := by obtain ⟨t1, t2, t3, t4⟩ := tiny; norm_num at *; linarith
    unfold williamsLine
    obtain ⟨e1, e2⟩ := extremes t ht (by omega)
    rw [e1, e2]
    refine ⟨small.trans_le ?_, small.trans_le ?_⟩ <;> interval_cases t <;> norm_num [c, sourceValue, abs_le, le_abs])
  cfg cfgx (s 0) (fin 0)

/-- The close against its two-bar average: 1, 1/2, 1, -1/2 from tick 1 on. -/
private noncomputable abbrev closes : Nat → ℝ := sourceValue .close (fun t => (o t : ℝ)) (fun t => (h t : ℝ)) (fun t => (l t : ℝ)) (fun t => (c t : ℝ)) (fun t => (v t : ℝ))
private theorem averages : ∀ t, t < 5 → 1 ≤ t → average .sma 1 0 closes t = c t ∧ average .sma 2 0 closes t = [0, 11, 25 / 2, 14, 29 / 2].getD t 0 := by
  intro t ht hp
  interval_cases t
  all_goals norm_num [average, win, mean, sourceValue, c, List.range_succ]
example := C94_awesome acc ℓ hb (by norm_num) (ss := .close) (sl := .hl2) (by decide) (by decide) .sma .ema (a := 1) (b := 2) (k := 100) (by norm_num) (by norm_num) (by norm_num) room
example := C94_awesome_program acc ℓ hb (by norm_num) hx (ss := .close) (sl := .close) (by decide) (by decide) .sma .sma (a := 1) (b := 2) (k := 100)
  (by norm_num) (by norm_num) (by norm_num) room (th := zero) (thx := zerox) (lo := (0 : ℕ)) (hi := (0 : ℕ)) (s_val (by norm_num)) (s_val (by norm_num)) rfl rfl
  (fun t ht hp => by
    have small : (38 + 4 * (slack .sma 1 5 + slack .sma 2 5)) * (b64u * 17 + b64η) < 1 / 4 := by
      obtain ⟨t1, t2, t3, t4⟩ := tiny; simp only [slack]; norm_num at *; linarith
    simp only [maLength] at hp
    have hp' : 2 ≤ t := by omega
    obtain ⟨e1, e2⟩ := averages t ht (by omega)
    obtain ⟨e3, e4⟩ := averages (t - 1) (by omega) (by omega)
    dsimp only
    rw [e1, e2, e3, e4]
    refine ⟨small.trans_le ?_, small.trans_le ?_⟩ <;> interval_cases t <;> norm_num [c, abs_le, le_abs])
  cfg cfgx (s 0) (fin 0)

private theorem away11 : ∀ t, t < 5 → max (maLength .sma 1) (maLength .sma 2) ≤ t + 1 → 11 ≤ |average .sma 2 0 closes t| := by
  intro t ht hp
  simp only [maLength] at hp
  rw [(averages t ht (by omega)).2]
  interval_cases t
  · omega
  all_goals norm_num [abs_le, le_abs]
private theorem δ11 : 2 * ((16 + 2 * (slack .sma 1 5 + slack .sma 2 5)) * (b64u * 17 + b64η)) ≤ 11 := by
  obtain ⟨t1, t2, t3, t4⟩ := tiny; simp only [slack]; norm_num at *; linarith
example := C94_price_oscillator acc ℓ hb (by norm_num) (src := .close) (by decide) .sma .sma (a := 1) (b := 2) (k := 100) (by norm_num) (by norm_num) (by norm_num)
  room (m := 11) (by norm_num) δ11 (big (by norm_num)) away11
example := C94_price_oscillator_program acc ℓ hb (by norm_num) hx (src := .close) (by decide) .sma .sma (a := 1) (b := 2) (k := 100) (by norm_num) (by norm_num)
  (by norm_num) room (m := 11) (by norm_num) δ11 (big (by norm_num)) away11 (th := zero) (thx := zerox) (lo := (0 : ℕ)) (hi := (0 : ℕ))
  (s_val (by norm_num)) (s_val (by norm_num)) rfl rfl
  (fun t ht hp => by
    have small : 202 * (((16 + 2 * (slack .sma 1 5 + slack .sma 2 5)) * (b64u * 17 + b64η) / 11 + b64u) * (1 + 2 * 17 / 11)) < 1 := by
      obtain ⟨t1, t2, t3, t4⟩ := tiny; simp only [slack]; norm_num at *; linarith
    simp only [maLength] at hp
    obtain ⟨e1, e2⟩ := averages t ht (by omega)
    rw [e1, e2]
    have hp' : 1 ≤ t := by omega
    refine ⟨small.trans_le ?_, small.trans_le ?_⟩ <;> interval_cases t <;> norm_num [c, abs_le, le_abs])
  cfg cfgx (s 0) (fin 0)

/-- The volumes 1, 3, 2, 5, 1 against their two-bar averages 2, 5/2, 7/2, 3. -/
private theorem volumes : ∀ t, t < 5 → 1 ≤ t → average .sma 1 0 (fun t => (v t : ℝ)) t = v t ∧
    average .sma 2 0 (fun t => (v t : ℝ)) t = [0, 2, 5 / 2, 7 / 2, 3].getD t 0 := by
  intro t ht hp
  interval_cases t
  all_goals norm_num [average, win, mean, v, List.range_succ]
private theorem away2 : ∀ t, t < 5 → max (maLength .sma 1) (maLength .sma 2) ≤ t + 1 → 2 ≤ |average .sma 2 0 (fun t => (v t : ℝ)) t| := by
  intro t ht hp
  simp only [maLength] at hp
  rw [(volumes t ht (by omega)).2]
  interval_cases t
  · omega
  all_goals norm_num [abs_le, le_abs]
private theorem δ2 : 2 * ((6 + 2 * (slack .sma 1 5 + slack .sma 2 5)) * (b64u * 5 + b64η)) ≤ 2 := by
  obtain ⟨t1, t2, t3, t4⟩ := tiny; simp only [slack]; norm_num at *; linarith
private theorem room5 : Room b64u b64η ((2 : ℝ) ^ (1023 : ℤ)) 100 5 := room_binary64 (by norm_num) (by norm_num) (le900 (by norm_num))
private theorem v5 : ∀ t, t < 5 → |(v t : ℝ)| ≤ 5 := fun t ht => by
  rw [abs_of_nonneg (Nat.cast_nonneg _)]; exact_mod_cast (small t ht).2.2.2.2
example := C94_volume_oscillator acc ℓ hb (by norm_num) v5 .sma .sma (a := 1) (b := 2) (k := 100) (by norm_num) (by norm_num) (by norm_num)
  room5 (m := 2) (by norm_num) δ2 (big (by norm_num)) away2
example := C94_volume_oscillator_program acc ℓ hb (by norm_num) hx v5 .sma .sma (a := 1) (b := 2) (k := 100) (by norm_num) (by norm_num)
  (by norm_num) room5 (m := 2) (by norm_num) δ2 (big (by norm_num)) away2 (th := zero) (thx := zerox) (lo := (0 : ℕ)) (hi := (0 : ℕ))
  (s_val (by norm_num)) (s_val (by norm_num)) rfl rfl
  (fun t ht hp => by
    have small : 202 * (((6 + 2 * (slack .sma 1 5 + slack .sma 2 5)) * (b64u * 5 + b64η) / 2 + b64u) * (1 + 2 * 5 / 2)) < 1 := by
      obtain ⟨t1, t2, t3, t4⟩ := tiny; simp only [slack]; norm_num at *; linarith
    simp only [maLength] at hp
    obtain ⟨e1, e2⟩ := volumes t ht (by omega)
    rw [e1, e2]
    have hp' : 1 ≤ t := by omega
    refine ⟨small.trans_le ?_, small.trans_le ?_⟩ <;> interval_cases t <;> norm_num [v, abs_le, le_abs])
  cfg cfgx (s 0) (fin 0)

/-- Any indicator: one that always says 12, on the five bars. -/
example := C92_line_program (d := d) (bars_ofSeries 5 _ _ _ _ _) hx (ind := fun _ s => .ok (some s, s)) (ind0 := .ok (s 12))
  (Runs.of_trace (fun _ => s 12) rfl fun _ _ => rfl) (y := fun _ => some (s 12)) (s := 0) (w := fun _ => ((12 : ℕ) : ℝ)) (e := 0) (V := Sf.valued (Rounding.binary64 ℝ))
  (fun t _ => by unfold startAt; rw [if_neg (by omega)]; exact ⟨_, rfl, _, s_val (by norm_num), by norm_num⟩) (indx := fun _ s => .ok (some s, s))
  (indx0 := .ok (fin ((12 : ℕ) : ℝ))) (Runs.of_trace (fun _ => fin ((12 : ℕ) : ℝ)) rfl fun _ _ => rfl) (th := ⟨s 11, s 17⟩)
  (thx := ⟨fin ((11 : ℕ) : ℝ), fin ((17 : ℕ) : ℝ)⟩) (lo := (11 : ℕ)) (hi := (17 : ℕ)) (s_val (by norm_num)) (s_val (by norm_num)) rfl rfl
  (fun t _ _ => by norm_num) cfg cfgx (s 0) (fin 0)

end Pace.Cases
