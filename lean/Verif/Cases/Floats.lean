import Verif.Cases.Rounded
import Verif.Props.Flat
import Verif.Props.FlatFloat
import Verif.Props.FlatFloat2
import Verif.Props.FloatRange
import Verif.Props.Accuracy
import Verif.Props.Calendar

/-! # The theorems on flat markets and rounding (C31, C68, C69, C84) at concrete cases -/

namespace Pace.Cases
open Pace Spec

private theorem ℓ : (Rounding.binary64 ℝ).Lawful := binary64_lawful ℝ

/-! ## A market that stands still -/

private noncomputable def still : DataProvider (Ex ℝ) :=
  .ofSeries 30 (fun _ => some (fin 5)) (fun _ => some (fin 5)) (fun _ => some (fin 5)) (fun _ => some (fin 5)) (fun t => some (fin (t : ℝ)))
private theorem flat : FlatBars still 30 5 (fun t => (t : ℝ)) := bars_ofSeries 30 _ _ _ _ _

example : Runs (noInput fun t => withSrc .hl2 Ma.next ⟨still, t⟩) (Ma.new .ema 4) unit 30 (flo (startAt 3 fun _ => 5)) :=
  (C84_averages flat (s := .hl2) (by decide) .ema (by norm_num : 2 ≤ 4) true).1
example : Runs (noInput fun t => withSrc .close CommodityChannelIndex.next ⟨still, t⟩) (CommodityChannelIndex.new 3) unit 30 (fun _ => none) :=
  (C84_undefined flat (s := .close) (by decide) (by norm_num : 2 ≤ 3) (le_refl 1) (le_refl 1) 2).2.2.2.1
example : Runs (noInput fun t => withSrc2 .close .close Macd.next ⟨still, t⟩)
      (do let s ← Ma.new .ema 12; let l ← Ma.new .ema 26; let g ← Ma.new .ema 9; return ⟨s, l, g⟩) unit 30
      (fun t => (flo (startAt 25 fun _ => 0) t, flo (startAt 33 fun _ => 0) t)) :=
  (C84_zero flat (s := .close) (s' := .close) (by decide) (by decide) .ema .ema .ema (by norm_num : 1 ≤ 12) (by norm_num : 1 ≤ 26) (by norm_num : 1 ≤ 9)).1
example : Runs (noInput fun t => withSrc .close Rsi.next ⟨still, t⟩) (Rsi.new 14) unit 30 (fun t => if t < 14 then none else some (Fl.of _ .nan)) :=
  (C84_nan flat (s := .close) (by decide) (by norm_num : 2 ≤ 14) (le_refl 1) (le_refl 1) (le_refl 1)).1
example : Runs (noInput fun t => Aroon.next ⟨still, t⟩) (Aroon.new 4) unit 30 (fun t =>
      (flo (startAt 3 fun _ => 100 / (4 : ℕ)) t, flo (startAt 3 fun _ => 100 / (4 : ℕ)) t)) :=
  (C84_lines flat (by norm_num : 1 ≤ 4) (le_refl 1)).2
/-- A line that is first missing, then NaN, then 7. -/
private noncomputable def seven (t : Nat) : Option (Ex ℝ) := if t < 2 then none else if t < 5 then some (Fl.of _ .nan) else some (fin 7)
private theorem seven_still : Still 30 seven := ⟨7, fun t _ => by
  unfold seven NoNumber
  by_cases h : t < 2
  · simp [h]
  · by_cases h' : t < 5 <;> simp [h, h']⟩
example : Runs (total ThresholdStrategy.next) (.ok (ThresholdStrategy.mk' (fin 7) (fin 7))) seven 30 (fun _ => none) :=
  C84_no_signal.1 (fin 7) (fin 7) seven_still
example : ∃ st, Backtest exCfg (bars 9) (fun _ => none) 9 st ∧ (st 8).trades = [] ∧ (st 8).metrics.equity = q 100 :=
  let ⟨st, h⟩ := C57_strategy_complete exCfg (fun _ => none) (bars_ok 9)
  have k := C84_idle h (fun _ _ => rfl) (by norm_num : 8 < 9)
  ⟨st, h, k.1, k.2.2.2.2.2.2.trans (by decide +kernel)⟩
example : SitsOut still 30 (withSrc .close Rsi.next) (Rsi.new 14) ThresholdStrategy.next (ThresholdStrategy.mk' (fin 50) (fin 50)) :=
  (C84_sits_out flat (s := .close) (s' := .close) (by decide) (by decide) .ema .ema .ema (by norm_num : 2 ≤ 14) (le_refl 1) (le_refl 1) (le_refl 1)
    (fin 50) (fin 50) (fin 20) 2).2.2.2.2.2.2.2.2.2.2.2.1

/-! ## ... in binary64 -/

private noncomputable def still64 : DataProvider B64 :=
  .ofSeries 30 (fun _ => some (s 5)) (fun _ => some (s 5)) (fun _ => some (s 5)) (fun _ => some (s 5)) (fun t => some (s (t % 7)))
private theorem bars64 : Bars still64 30 (fun _ => s 5) (fun _ => s 5) (fun _ => s 5) (fun _ => s 5) (fun t => s (t % 7)) := bars_ofSeries 30 _ _ _ _ _
private theorem flat64 : StandsStill (Sf.valued (Rounding.binary64 ℝ)) ((5 : Nat) : ℝ) (fun _ => s 5) (fun _ => s 5) (fun _ => s 5) (fun _ => s 5) :=
  fun _ => ⟨s_val (by norm_num), s_val (by norm_num), s_val (by norm_num), s_val (by norm_num)⟩

example : Runs (noInput fun t => Vortex.next ⟨still64, t⟩) (Vortex.new 4) unit 30 (fun _ => (none, none)) :=
  (C84_ieee_undefined ℓ bars64 flat64 (s := .close) (by decide) (le_refl 2) (by norm_num : 1 ≤ 4) (le_refl 1)).2.2.2.2.1
example : ∃ y, Runs (noInput fun t => withSrc .close Rsi.next ⟨still64, t⟩) (Rsi.new 14) unit 30 y ∧ StartsAt 14 y ∧ ∀ t, NotNumber (Sf.valued _) (y t) :=
  (C84_ieee_nan ℓ bars64 flat64 (s := .close) (by decide) (by norm_num : 2 ≤ 14) (le_refl 1) (le_refl 1) (le_refl 1)).1
example := (C84_ieee_zero ℓ bars64 flat64 (s := .close) (by decide) (by norm_num : 1 ≤ 4) (le_refl 1) (le_refl 1)).1
example := C84_ieee_aroon ℓ bars64 flat64 (by norm_num : 1 ≤ 14)
private theorem zeros : OnlyZeros (Sf.valued (Rounding.binary64 ℝ)) 30 (fun t => if t < 2 then none else some (s 0)) := fun t w _ hw => by
  by_cases h : t < 2
  · simp [h] at hw
  · simp only [h, if_false] at hw
    obtain rfl := Option.some.inj hw
    exact .inl ((s_val (by norm_num)).trans (by push_cast; rfl))
example := (C84_ieee_no_signal (V := Sf.valued (Rounding.binary64 ℝ)) (N := 30)).1 (s 0) (s 0) zeros
example := (C84_ieee_sits_out ℓ bars64 flat64 (s := .close) (by decide) (by norm_num : 2 ≤ 14) (le_refl 1) (le_refl 1) (le_refl 1) (s 50) (s 50) (s 20)).2.2.2.2.2.1

/-! ## Ranges -/

private theorem fh (N : Nat) : HasCol (fbars N).high N (fun t => some (f (bh t))) := (fbars_ok N).high
private theorem fl (N : Nat) : HasCol (fbars N).low N (fun t => some (f (bl t))) := (fbars_ok N).low
private theorem notNan {N : Nat} {g : Nat → ℚ} (t : Nat) (v : Fl (Rounding.binary64 ℝ)) (_ : t < N) (h : some (f (g t)) = some v) :
    (Valued.unsigned (Rounding.binary64 ℝ)).val v ≠ Fl.of _ .nan := by
  obtain rfl := Option.some.inj h
  exact f_ne_nan _
example := C31_ieee (Valued.unsigned _) (fbars 9) (by norm_num : 1 ≤ 4) (fh 9) (fl 9) notNan notNan
example : ∃ y, Runs (fun t => Prank.next ⟨fbars 9, t⟩) (Prank.new 4) fgap 9 y ∧
      ∀ t, t < 9 → ∀ z, y t = some z → F64.le (lit 0) z = true ∧ F64.le z (lit 100) = true :=
  C69_percent_rank (Valued.unsigned _) ℓ (fbars 9) (by norm_num : 1 ≤ 4) (by norm_num) fgap 9
example := C69_aroon (Valued.unsigned _) ℓ (d := fbars 9) (by norm_num : 1 ≤ 4) (by norm_num) (fh 9) (fl 9) notNan notNan
example := C69_cmf_is_2
example := C69_stoch_over_100

/-! ## Accuracy -/

private theorem A : (Rounding.binary64 ℝ).Accurate b64u b64η ((2 : ℝ) ^ (1023 : ℤ)) := binary64_accurate ℝ
private theorem nine : (9 : ℝ) ≤ (2 : ℝ) ^ (900 : ℤ) :=
  le_trans (by norm_num : (9 : ℝ) ≤ (2 : ℝ) ^ (4 : ℤ)) (zpow_le_zpow_right₀ (by norm_num) (by norm_num))
private theorem room : 10000 * b64u ≤ 1 / 64 ∧ 10000 * (9 : ℝ) ≤ (2 : ℝ) ^ (1023 : ℤ) / 1024 ∧ 10000 * b64η ≤ (2 : ℝ) ^ (1023 : ℤ) / 1024 := by
  simpa using b64_room (n := 10000) (by norm_num) (by norm_num) nine

/-- Digits of pi. -/
private def dig (t : Nat) : Nat := [3, 1, 4, 1, 5, 9, 2, 6, 5, 3].getD (t % 10) 0
private theorem dig_le (t : Nat) : dig t ≤ 9 := (by decide : ∀ k, k < 10 → [3, 1, 4, 1, 5, 9, 2, 6, 5, 3].getD k 0 ≤ 9) _ (Nat.mod_lt _ (by norm_num))
private theorem dig_abs (t : Nat) : |(dig t : ℝ)| ≤ 9 := by
  rw [abs_of_nonneg (by positivity)]
  exact_mod_cast dig_le t
/-- From tick 2 on. -/
private theorem reads : Reads (Sf.valued (Rounding.binary64 ℝ)) (startAt 2 fun t => s (dig t)) (startAt 2 fun t => (dig t : ℝ)) := fun t => by
  unfold startAt
  by_cases h : t < 2
  · simp [h]
  · simp only [h, if_false, Option.map_some]
    exact congrArg some (s_val ((dig_le t).trans (by norm_num)))
private theorem bound (t : Nat) (k : ℝ) (h : startAt 2 (fun t => (dig t : ℝ)) t = some k) : |k| ≤ 9 := by
  unfold startAt at h
  by_cases h' : t < 2
  · simp [h'] at h
  · simp only [h', if_false] at h
    obtain rfl := Option.some.inj h
    exact dig_abs t
private theorem early (t : Nat) (h : t < 2) : startAt 2 (fun t => (dig t : ℝ)) t = none := if_pos h

example := C68_sum A ℓ b64Bars (by norm_num : 1 ≤ 4) reads (by norm_num) bound early (N := 52)
  (by have := room.1; norm_num; linarith) (by
    obtain ⟨_, h2, h3⟩ := room
    have h0 : (0 : ℝ) < (2 : ℝ) ^ (1023 : ℤ) := Binary64.two_zpow_pos _
    have hη : 0 ≤ b64η := (Binary64.two_zpow_pos _).le
    generalize (2 : ℝ) ^ (1023 : ℤ) = T at *
    norm_num; linarith)
example := C68_sma A ℓ b64Bars (by norm_num : 1 ≤ 4) (by norm_num) reads (by norm_num) bound early (N := 52)
  (by have := room.1; norm_num; linarith) (by
    obtain ⟨_, h2, h3⟩ := room
    have h0 : (0 : ℝ) < (2 : ℝ) ^ (1023 : ℤ) := Binary64.two_zpow_pos _
    have hη : 0 ≤ b64η := (Binary64.two_zpow_pos _).le
    generalize (2 : ℝ) ^ (1023 : ℤ) = T at *
    norm_num; linarith)
private theorem top : 40 * ((4 : ℕ) : ℝ) * (9 + b64η) ≤ (2 : ℝ) ^ (1023 : ℤ) := by
  obtain ⟨_, h2, h3⟩ := room
  have h0 : (0 : ℝ) < (2 : ℝ) ^ (1023 : ℤ) := Binary64.two_zpow_pos _
  have hη : 0 ≤ b64η := (Binary64.two_zpow_pos _).le
  generalize (2 : ℝ) ^ (1023 : ℤ) = T at *
  push_cast; linarith
private theorem u4 : 6 * (((4 : ℕ) : ℝ) + 1) * b64u ≤ 1 ∧ 12 * ((4 : ℕ) : ℝ) * b64u ≤ 1 ∧ 2 * ((4 : ℕ) : ℝ) * b64u ≤ 1 := by
  have := room.1
  have h0 : 0 ≤ b64u := A.u_nonneg
  push_cast
  exact ⟨by linarith, by linarith, by linarith⟩
/-- At every tick, however late. -/
example : ∃ y, Runs (fun t => Ema.next ⟨b64Bars, t⟩) (Ema.new 4) (startAt 2 fun t => s (dig t)) 1000000 y ∧ ∀ t, t < 1000000 →
    Within (Sf.valued _) (y t) (startAt 5 (average .ema 4 2 fun t => (dig t : ℝ)) t) (9 * ((4 : ℕ) + 1) * (b64u * 9 + b64η)) :=
  C68_ema A ℓ b64Bars (by norm_num : 1 ≤ 4) (by norm_num) u4.1 reads (fun t _ => dig_abs t) top 1000000
example := C68_rma A ℓ b64Bars (by norm_num : 1 ≤ 4) (by norm_num) u4.2.1 reads (fun t _ => dig_abs t) top 1000000
example := C68_wma A ℓ b64Bars (by norm_num : 1 ≤ 4) (by norm_num) u4.2.2 reads (by norm_num) bound (by
    obtain ⟨_, h2, h3⟩ := room
    have h0 : (0 : ℝ) < (2 : ℝ) ^ (1023 : ℤ) := Binary64.two_zpow_pos _
    have hη : 0 ≤ b64η := (Binary64.two_zpow_pos _).le
    generalize (2 : ℝ) ^ (1023 : ℤ) = T at *
    push_cast; linarith) 1000000
example := C68_swma A ℓ b64Bars reads (by norm_num) bound (by
    obtain ⟨_, h2, h3⟩ := room
    have h0 : (0 : ℝ) < (2 : ℝ) ^ (1023 : ℤ) := Binary64.two_zpow_pos _
    have hη : 0 ≤ b64η := (Binary64.two_zpow_pos _).le
    generalize (2 : ℝ) ^ (1023 : ℤ) = T at *
    linarith) 1000000
example := (C68_averages_binary64 b64Bars (by norm_num : 1 ≤ 4) (by norm_num) (by norm_num : 2 * 1000000 ≤ 2 ^ 40) reads (fun t _ => dig_abs t) nine).1
example := (C68_weighted_binary64 b64Bars (by norm_num : 1 ≤ 4) (by norm_num) 1000000 reads (by norm_num) bound nine).1

/-- The oscillator of 2 between 1 and 3. -/
example := C69_stoch (Sf.valued (Rounding.binary64 ℝ)) ℓ A b64Bars (by norm_num : 1 ≤ 4) (v := fun _ => s 2) (h := fun _ => s 3) (l := fun _ => s 1)
  (v' := fun _ => ((2 : Nat) : ℝ)) (h' := fun _ => ((3 : Nat) : ℝ)) (l' := fun _ => ((1 : Nat) : ℝ)) 30
  (fun _ => ⟨s_val (by norm_num), s_val (by norm_num), s_val (by norm_num)⟩) (fun _ => ⟨by norm_num, by norm_num⟩)
  (by have := room.2.1; generalize (2 : ℝ) ^ (1023 : ℤ) = T at *; linarith)
  (fun _ _ => by have := room.2.1; generalize (2 : ℝ) ^ (1023 : ℤ) = T at *; push_cast; linarith)
  (fun _ _ => .inr (by
    have h1 := A.η_small
    have h2 := A.u_small
    have h3 := A.u_nonneg
    rw [show ((3 : Nat) : ℝ) - ((1 : Nat) : ℝ) = 2 by norm_num, abs_of_pos (by norm_num)]
    nlinarith))

/-- A dated market has a year on every bar, so the Cobra metrics run. -/
example : ∀ t, t < 5 → Ctx.barYear ⟨datedBars, t⟩ ≠ none := by
  obtain ⟨st, co, hb, h⟩ := datedBars_run.2.2.2
  have b := bars_ofSeries (α := Ex ℚ) 5 (fun t => (fin ([9, 10, 12, 14, 15].getD t 0))) (fun t => (fin ([11, 13, 14, 16, 17].getD t 0)))
    (fun t => (fin ([8, 9, 11, 13, 12].getD t 0))) (fun t => (fin ([10, 12, 13, 15, 14].getD t 0))) (fun _ => (fin 1))
  exact (C74_runs (Bars.mk b.open_ b.high b.low b.close b.volume : Bars datedBars 5 _ _ _ _ _) hb false 2018).mp ⟨co, h⟩

/-- In binary64 the average of equal prices is not that price: some average of nine equal prices compares greater than the price. -/
example : ∃ l, (outputs (fun t => Sma.next ⟨stillAt (1 / 10) 9, t⟩) (fun _ => some (q64 (1 / 10))) 9 (Sma.new 3)).toOption = some l ∧
    some true ∈ l.map (Option.map fun v => F64.lt (q64 (1 / 10)) v) := by
  have h := C84_binary64_average
  rw [Option.map_eq_some_iff] at h
  obtain ⟨l, h1, h2⟩ := h
  exact ⟨l, h1, h2 ▸ by decide⟩
example := C84_binary64_cci
example := C84_binary64_macd

end Pace.Cases
