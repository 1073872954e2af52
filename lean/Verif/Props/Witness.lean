import Verif.Props.Content8
import Verif.Props.Dmi
import Verif.Props.Fresh
import Verif.Props.FloatRange
import Verif.Props.Metrics4

/-!
# Concrete cases

Forty bars of a price that goes up and down (whole numbers, so the same bars exist over the rationals, the reals and as IEEE
binary64 numbers) meet the hypotheses of the theorems on indicators: each `example` below is the theorem itself, applied.
-/

set_option linter.unusedSectionVars false

namespace Pace
open Spec
namespace Witness

/-- Opens `10 + (7 t mod 5)`, closes `10 + (3 t mod 7)`. -/
def openN (t : Nat) : Nat := 10 + 7 * t % 5
def closeN (t : Nat) : Nat := 10 + 3 * t % 7
def highN (t : Nat) : Nat := max (openN t) (closeN t) + 1
def lowN (t : Nat) : Nat := min (openN t) (closeN t) - 1
def volumeN (t : Nat) : Nat := 100 + t % 3

section exact
variable {K : Type} [Field K] [LinearOrder K] [IsStrictOrderedRing K]

def o (t : Nat) : K := (openN t : K)
def h (t : Nat) : K := (highN t : K)
def l (t : Nat) : K := (lowN t : K)
def c (t : Nat) : K := (closeN t : K)
def v (t : Nat) : K := (volumeN t : K)

theorem wf : WellFormed (o : Nat → K) h l c := by
  intro t
  have a1 : lowN t ≤ openN t := by simp only [lowN, openN, closeN]; omega
  have a2 : openN t ≤ highN t := by simp only [highN, openN, closeN]; omega
  have a3 : lowN t ≤ closeN t := by simp only [lowN, openN, closeN]; omega
  have a4 : closeN t ≤ highN t := by simp only [highN, openN, closeN]; omega
  exact ⟨Nat.cast_le.mpr a1, Nat.cast_le.mpr a2, Nat.cast_le.mpr a3, Nat.cast_le.mpr a4⟩

theorem low_le_high (t : Nat) : (l t : K) ≤ h t := (wf t).1.trans (wf t).2.1

theorem close_pos (t : Nat) : (0 : K) < c t := by
  have : 0 < closeN t := by simp only [closeN]; omega
  exact Nat.cast_pos.mpr this

theorem volume_nonneg (t : Nat) : (0 : K) ≤ v t := Nat.cast_nonneg _

theorem source_pos (src : SrcKind) (t : Nat) : (0 : K) < sourceValue src o h l c v t := by
  have e1 : (0 : K) < o t := Nat.cast_pos.mpr (by simp only [openN]; omega)
  have e2 : (0 : K) < h t := Nat.cast_pos.mpr (by simp only [highN]; omega)
  have e3 : (0 : K) < l t := Nat.cast_pos.mpr (by simp only [lowN, openN, closeN]; omega)
  have e4 : (0 : K) < c t := close_pos t
  have e5 : (0 : K) < v t := Nat.cast_pos.mpr (by simp only [volumeN]; omega)
  cases src <;> simp only [sourceValue] <;> positivity

theorem moves {n : Nat} (hn : 2 ≤ n) : Moves (c : Nat → K) n :=
  ⟨1, by omega, by simp [c, closeN]⟩

theorem dmi_moves {n : Nat} (hn : 2 ≤ n) :
    ∃ k, 1 ≤ k ∧ k ≤ n ∧ (plusMove (h : Nat → K) l k ≠ 0 ∨ minusMove (h : Nat → K) l k ≠ 0) := by
  refine ⟨1, by omega, by omega, Or.inl ?_⟩
  simp only [plusMove, h, l, highN, lowN, openN, closeN]
  norm_num

variable [RootOps K]

/-- The data set: the first forty bars. -/
def data : DataProvider (Ex K) :=
  .ofSeries 40 (fun t => some (fin (o t))) (fun t => some (fin (h t))) (fun t => some (fin (l t))) (fun t => some (fin (c t)))
    (fun t => some (fin (v t)))

theorem bars : ExBars (data : DataProvider (Ex K)) 40 o h l c v := bars_ofSeries 40 _ _ _ _ _

end exact

/-! ## Identities and ranges of the indicators, exact real arithmetic (C33, C34, C53, C54, C56) -/
section real

local notation "D" => (data : DataProvider (Ex ℝ))

example := C33_atr_bars (K := ℝ) bars (len := 14) (by omega)
example := C33_tr (K := ℝ) D bars false (t := 7) (by omega)
example := C33_tr_first (K := ℝ) D bars (by omega)
example : ∃ y, Runs (noInput fun t => Atr.next ⟨D, t⟩) (Atr.new 3) unit 40 y ∧ (∀ t, t < 40 → t + 1 < 3 → y t = none) := by
  obtain ⟨r, hr⟩ : ∃ r : Nat → ℝ, ∀ t, t < 40 → Tr.next ⟨D, t⟩ true = .ok (some (fin (r t))) := by
    have : ∀ t, ∃ r : ℝ, t < 40 → Tr.next ⟨D, t⟩ true = .ok (some (fin r)) := by
      intro t
      cases t with
      | zero => exact ⟨_, fun _ => (C33_tr_first D bars (by omega)).1⟩
      | succ t =>
        by_cases ht : t + 1 < 40
        · obtain ⟨r, h1, _⟩ := C33_tr D bars true ht
          exact ⟨r, fun _ => h1⟩
        · exact ⟨0, fun h => absurd h ht⟩
    choose r hr using this
    exact ⟨r, hr⟩
  obtain ⟨y, h1, h2, _⟩ := C33_atr_exact D (len := 3) (by omega) bars low_le_high r hr
  exact ⟨y, h1, h2⟩
example := C34_rsi_constant D (len := 14) (by omega) 12 40
example := C34_rsi_exact D (len := 14) (by omega) c 40
example := C34_rsi_exact_range D (len := 14) (by omega) c 40
example := C34_rsi_moving (K := ℝ) D (n := 14) (by omega) (moves (by omega)) 40
example := C34_rsi_nan_iff D (len := 14) (by omega) c 40
example := C34_rsi_only_gains D (len := 14) (by omega) (fun t => (t : ℝ)) 40 (fun t => by push_cast; linarith) (by norm_num)

example := C53_aroon_exact (K := ℝ) bars (len := 14) (by omega)
example := C53_awesome_oscillator_exact (K := ℝ) bars .hl2 .close .sma .ema (a := 5) (b := 34) (by omega) (by omega)
example := C53_bollinger_percent_b_exact (d := D) (N := 40) (len := 20) (by omega) 2 c
example := C53_bollinger_width_exact (d := D) (N := 40) (len := 20) (by omega) 2 c
example := C53_cci_exact (d := D) (N := 40) (len := 20) (by omega) c
example := C53_chande_kroll_exact (K := ℝ) bars (p := 10) (q := 9) (by omega) (by omega) 1
example := C53_choppiness_exact (K := ℝ) bars (len := 14) (by omega)
example := C53_cmf_exact (K := ℝ) bars (len := 20) (by omega)
example := C53_cmo_exact (d := D) (N := 40) (len := 9) (by omega) c
example := C53_connors_exact D (n := 3) (m := 2) (k := 20) (by omega) (by omega) (by omega) (moves (by omega)) (N := 40) (by norm_num)
example := C53_coppock_exact (K := ℝ) bars .close (len := 10) (a := 14) (b := 11) (by omega) (by omega) (by omega)
example := C53_defaults_bars (K := ℝ) bars
example := C53_defaults_rest (K := ℝ) bars
example := C53_defaults_source (K := ℝ) bars
example := C53_dmi_exact (K := ℝ) bars wf (len := 14) (sig := 14) (by omega) (by omega)
example := C53_dmi_moving (K := ℝ) bars wf (len := 14) (sig := 14) (by omega) (by omega) (dmi_moves (by omega))
example := C53_donchian_exact (K := ℝ) bars (len := 20) (by omega)
example := C53_macd_exact (K := ℝ) bars .close .close .ema .ema .ema (a := 12) (b := 26) (g := 9) (by omega) (by omega) (by omega)
example := C53_price_oscillator_default (K := ℝ) bars close_pos
example := C53_price_oscillator_exact (K := ℝ) bars .close .sma .sma (a := 10) (b := 21) (by omega) (by omega)
example := C53_relative_vigor_exact (K := ℝ) bars (len := 10) (by omega)
example := C53_relative_volatility_exact D (n := 10) (m := 14) (by omega) (by omega) (by omega) c 40
example := C53_stoch_rsi_exact D (n := 14) (m := 14) (k := 3) (q := 3) (by omega) (by omega) (by omega) (by omega) (p := c) (moves (by omega)) 40
example := C53_ultimate_oscillator_exact (K := ℝ) bars (n1 := 7) (n2 := 14) (n3 := 28) (by omega) (by omega) (by omega)
example := C53_volume_oscillator_exact (K := ℝ) bars .ema .ema (a := 5) (b := 10) (by omega) (by omega)
example := C53_vortex_exact (K := ℝ) bars (len := 14) (by omega)
example := C53_williams_exact (K := ℝ) bars (len := 14) (by omega)

example := C54_aroon (K := ℝ) bars (len := 14) (by omega)
example := C54_balance_of_power (K := ℝ) bars wf (t := 7) (by omega)
example := C54_bollinger_width (d := D) (N := 40) (len := 20) (by omega) (k := 2) (by norm_num) close_pos
example := C54_choppiness bars wf (len := 14) (by omega)
example := C54_cmf (K := ℝ) bars wf volume_nonneg (len := 20) (by omega)
example := C54_cmo (d := D) (N := 40) (len := 9) (by omega) c
example := C54_connors D (n := 3) (m := 2) (k := 20) (by omega) (by omega) (by omega) (p := c) (moves (by omega)) (N := 40) (by norm_num)
example := C54_dmi (K := ℝ) bars wf (len := 14) (sig := 14) (by omega) (by omega)
example := C54_donchian (K := ℝ) bars wf (len := 20) (by omega)
example := C54_price_oscillator (K := ℝ) bars .close (source_pos .close) .sma .sma (a := 10) (b := 21) (by omega) (by omega)
example := C54_relative_vigor (K := ℝ) bars wf (len := 10) (by omega)
example := C54_relative_volatility D (n := 10) (m := 14) (by omega) (by omega) (by omega) c 40
example := C54_stoch_rsi D (n := 14) (m := 14) (k := 3) (q := 3) (by omega) (by omega) (by omega) (by omega) (p := c) (moves (by omega)) 40
example := C54_ultimate_oscillator (K := ℝ) bars wf (n1 := 7) (n2 := 14) (n3 := 28) (by omega) (by omega) (by omega)
example := C54_volume_oscillator (K := ℝ) bars volume_nonneg .ema .ema (a := 5) (b := 10) (by omega) (by omega)
example := C54_vortex (K := ℝ) bars wf (len := 14) (by omega)
example := C54_williams (K := ℝ) bars wf (len := 14) (by omega)

example := C56_adx (K := ℝ) bars wf (len := 14) (sig := 14) (by omega) (by omega)
example := C56_nan_forever (K := ℝ) bars wf (len := 14) (sig := 14) (by omega) (by omega)
example := C56_number (K := ℝ) bars wf (len := 14) (sig := 14) (by omega) (by omega) (dmi_moves (by omega))

end real

/-! ## The same indicators as programs over their parts (level 0: any number type; here the reals)

`C53_dmi`, `C53_relative_volatility`, `C53_connors`, `C53_macd`, `C53_awesome_oscillator`, `C53_price_oscillator` and
`C53_volume_oscillator` are applied to arbitrary complete bars in the proofs of the corresponding `C63_*`. -/
section parts

local notation "D" => (data : DataProvider (Ex ℝ))

noncomputable abbrev C (t : Nat) : Option (Ex ℝ) := some (fin (c t))
noncomputable abbrev H (t : Nat) : Option (Ex ℝ) := some (fin (h t))
noncomputable abbrev L (t : Nat) : Option (Ex ℝ) := some (fin (l t))
noncomputable abbrev O (t : Nat) : Option (Ex ℝ) := some (fin (o t))
noncomputable abbrev V (t : Nat) : Option (Ex ℝ) := some (fin (v t))

theorem high : HasCol (data : DataProvider (Ex ℝ)).high 40 H := bars.high
theorem low : HasCol (data : DataProvider (Ex ℝ)).low 40 L := bars.low
theorem close : HasCol (data : DataProvider (Ex ℝ)).close 40 C := bars.close
theorem open_ : HasCol (data : DataProvider (Ex ℝ)).open_ 40 O := bars.open_
theorem volume : HasCol (data : DataProvider (Ex ℝ)).volume 40 V := bars.volume

example := C53_aroon D (len := 14) (by omega) high low (highestBars_runs (by omega) high) (lowestBars_runs (by omega) low)
example := C53_balance_of_power D (t := 7) open_ high low close (by omega)
example := C53_bollinger_percent_b D (mult := fin 2) (sma_runs D (len := 20) (by omega) C 40) (stdev_runs D (by omega) true C 40)
example := C53_bollinger_width D (mult := fin 2) (sma_runs D (len := 20) (by omega) C 40) (stdev_runs D (by omega) true C 40)
example := C53_cci D (sma_runs D (len := 20) (by omega) C 40) (dev_runs D (by omega) C 40)
example := C53_chande_kroll D (p := 10) (q := 9) (f := fin 1) high low (atr_runs (by omega) bars.high bars.low bars.close)
  (highest_runs D (by omega) H 40) (lowest_runs D (by omega) L 40) (highest_runs D (by omega) _ 40) (lowest_runs D (by omega) _ 40)
example := C53_choppiness D (len := 14) high low (atr_runs (by omega) bars.high bars.low bars.close) (sum_runs D (by omega) _ 40)
  (highest_runs D (by omega) H 40) (lowest_runs D (by omega) L 40)
example := C53_cmf D (len := 20) high low close volume (sum_runs D (by omega) _ 40) (sum_runs D (by omega) V 40)
example := C53_cmo D (len := 9) (by omega) (x := C) (sum_runs D (by omega) _ 40) (sum_runs D (by omega) _ 40)
example := C53_coppock D (len := 10) (roc_runs 14 (by omega) C 40) (roc_runs 11 (by omega) C 40) (wma_runs D (by omega) _ 40)
example := C53_donchian D (len := 20) high low (highest_runs D (by omega) H 40) (lowest_runs D (by omega) L 40)
example := C53_relative_vigor D (len := 10) open_ high low close (swma_runs D _ 40) (swma_runs D _ 40) (sum_runs D (by omega) _ 40)
  (sum_runs D (by omega) _ 40) (swma_runs D _ 40)
example := C53_stoch_rsi D (n := 14) (m := 14) (k := 3) (q := 3) (rsi_runs D (by omega) C 40 (fun _ _ _ => rfl))
  (stoch_runs D (by omega) _ _ _ 40) (sma_runs D (by omega) _ 40) (sma_runs D (by omega) _ 40)
example := C53_ultimate_oscillator D (n1 := 7) (n2 := 14) (n3 := 28) high low close (fun _ _ => rfl) (fun _ _ => rfl)
  (sum_runs D (by omega) _ 40) (sum_runs D (by omega) _ 40) (sum_runs D (by omega) _ 40) (sum_runs D (by omega) _ 40)
  (sum_runs D (by omega) _ 40) (sum_runs D (by omega) _ 40)
example := C53_vortex D (len := 14) high low (atr_runs (by omega) bars.high bars.low bars.close) (sum_runs D (by omega) _ 40)
  (sum_runs D (by omega) _ 40) (sum_runs D (by omega) _ 40)
example := C53_williams D (len := 14) (x := C) high low (highest_runs D (by omega) H 40) (lowest_runs D (by omega) L 40)

end parts

/-! ## The same bars as IEEE binary64 numbers -/
section binary64

noncomputable def ob (t : Nat) : B64 := lit (openN t : ℚ)
noncomputable def hb (t : Nat) : B64 := lit (highN t : ℚ)
noncomputable def lb (t : Nat) : B64 := lit (lowN t : ℚ)
noncomputable def cb (t : Nat) : B64 := lit (closeN t : ℚ)
noncomputable def vb (t : Nat) : B64 := lit (volumeN t : ℚ)

noncomputable def data64 : DataProvider B64 :=
  .ofSeries 40 (fun t => some (ob t)) (fun t => some (hb t)) (fun t => some (lb t)) (fun t => some (cb t)) (fun t => some (vb t))

theorem bars64 : Bars data64 40 ob hb lb cb vb := bars_ofSeries 40 _ _ _ _ _

theorem val64 {n : Nat} (hn : n ≤ 1000) : (Sf.valued (Rounding.binary64 ℝ)).val (lit (n : ℚ)) = Fl.of _ (.fin (n : ℝ)) :=
  val_lit_nat (V := Sf.valued _) (binary64_lawful ℝ) (by omega)

theorem sound64 : SoundBars (Sf.valued (Rounding.binary64 ℝ)) ob hb lb cb :=
  ⟨o, h, l, c, wf, fun t => ⟨val64 (by simp only [openN]; omega), val64 (by simp only [highN, openN, closeN]; omega),
    val64 (by simp only [lowN, openN, closeN]; omega), val64 (by simp only [closeN]; omega)⟩⟩

theorem le64 (t : Nat) : F64.le (lb t) (hb t) = true := by
  rw [(Sf.valued (Rounding.binary64 ℝ)).le]
  unfold lb hb
  rw [val64 (by simp only [lowN, openN, closeN]; omega), val64 (by simp only [highN, openN, closeN]; omega)]
  have h1 : (lowN t : ℝ) ≤ (highN t : ℝ) := low_le_high (K := ℝ) t
  show Ext.le (.fin (lowN t : ℝ)) (.fin (highN t : ℝ)) = true
  simp [Ext.le, h1]

theorem notNan64 {n : Nat} (hn : n ≤ 1000) : (Sf.valued (Rounding.binary64 ℝ)).val (lit (n : ℚ)) ≠ Fl.of _ .nan := by
  rw [val64 hn]
  intro h
  have : (Ext.fin (n : ℝ)) = Ext.nan := h
  cases this

example := C33_atr_nonneg_ieee (Sf.valued (Rounding.binary64 ℝ)) (binary64_lawful ℝ) data64 (len := 14) (by omega) bars64
  fun t _ => le64 t
example := C33_atr_is_rma data64 (len := 14) (by omega) bars64
example := C34_rsi_range_binary64 data64 (len := 14) (N := 40) (by omega) (fun t => some (cb t)) fun _ _ _ => rfl
example := C30_ieee (Sf.valued (Rounding.binary64 ℝ)) data64 (len := 14) (by omega) (fun t => some (cb t)) 40 fun t w _ hw => by
  cases hw
  exact notNan64 (by simp only [closeN]; omega)
example := C57_strategy_complete StrategyConfig.default (fun t => if t % 3 = 0 then some .long else some .short) bars64
example := C63_defaults bars64
example := C63_relative_volatility bars64 .hlc3 (n := 10) (m := 14) (by omega) (by omega) (by omega)
example := C69_balance_of_power (Sf.valued (Rounding.binary64 ℝ)) (binary64_lawful ℝ) bars64 sound64 (t := 7) (by omega)
example := C69_williams (Sf.valued (Rounding.binary64 ℝ)) (binary64_lawful ℝ) bars64 sound64 (len := 14) (by omega)
example := C69_ranges_binary64 bars64 sound64 (len := 14) (by omega) (by omega)

end binary64

end Witness
end Pace
