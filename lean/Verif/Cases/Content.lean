import Verif.Props.Content4
import Verif.Props.Content6
import Verif.Props.Content8
import Verif.Props.Fresh
import Verif.Props.Warmup
import Verif.Props.Signals
import Verif.Props.Witness
import Verif.Cases.FloatData

/-!
# Concrete cases of the theorems on indicators and signals (C52–C64)

The remaining theorems of these groups are applied in `Props/Witness.lean`.
-/

namespace Pace.Cases
open Pace Spec

/-! ## Indicators over their parts, on binary64 bars -/

private noncomputable abbrev D := fbars 40

private noncomputable abbrev x : Nat → Option (Fl (Rounding.binary64 ℝ)) := fun t => some (f (bc t))

/-- `C53_price_oscillator_any`, `C53_volume_oscillator_any`, `C53_awesome_oscillator_any` with a weighted and a simple
average, kinds of average that have no constructor of their own. -/
example := C53_price_oscillator_any D (wma_runs D (len := 5) (by omega) x 40) (sma_runs D (len := 10) (by omega) x 40)
example := C53_volume_oscillator_any D (fbars_ok 40).volume (wma_runs D (len := 5) (by omega) _ 40) (sma_runs D (len := 10) (by omega) _ 40)
example := C53_awesome_oscillator_any D (wma_runs D (len := 5) (by omega) x 40) (sma_runs D (len := 10) (by omega) x 40)

/-- An average with its state. -/
private theorem averages (k : MaKind) (n : Nat) (hn : 1 ≤ n) {s : Nat} {x : Nat → Option (Fl (Rounding.binary64 ℝ))} (hx : StartsAt s x) :
    ∃ m y, Runs (fun t => Ma.next ⟨D, t⟩) (.ok m) x 40 y ∧ ∃ s, StartsAt s y := by
  obtain ⟨y, h, h'⟩ := ma_runs D k hn 40 hx
  obtain ⟨p, e, _⟩ := h.trace
  exact ⟨p 0, y, by rw [← e]; exact h, _, h'⟩

/-- `C53_macd`, `C53_price_oscillator`, `C53_volume_oscillator`, `C53_awesome_oscillator` with an exponential average over
5 and a simple one over 10 ticks. -/
example : ∃ (m : Macd (Fl (Rounding.binary64 ℝ))) (y : Nat → _), Runs (fun t => Macd.next ⟨D, t⟩) (.ok m) (fun t => (x t, x t)) 40 y := by
  obtain ⟨a, ya, ha, _, sa⟩ := averages .ema 5 (by omega) (StartsAt.some fun t => f (bc t))
  obtain ⟨b, yb, hb, _, sb⟩ := averages .sma 10 (by omega) (StartsAt.some fun t => f (bc t))
  obtain ⟨c, yc, hc, _⟩ := averages .ema 9 (by omega) (sa.opt2 sb (· - ·))
  exact ⟨_, _, C53_macd D ha hb hc⟩

example : ∃ (m : MaPair (Fl (Rounding.binary64 ℝ))) (y : Nat → _), Runs (fun t => PriceOscillator.next ⟨D, t⟩) (.ok m) x 40 y := by
  obtain ⟨a, ya, ha, _⟩ := averages .ema 5 (by omega) (StartsAt.some fun t => f (bc t))
  obtain ⟨b, yb, hb, _⟩ := averages .sma 10 (by omega) (StartsAt.some fun t => f (bc t))
  exact ⟨_, _, C53_price_oscillator D ha hb⟩

example : ∃ (m : MaPair (Fl (Rounding.binary64 ℝ))) (y : Nat → _),
    Runs (noInput fun t => VolumeOscillator.next ⟨D, t⟩) (.ok m) unit 40 y := by
  obtain ⟨a, ya, ha, _⟩ := averages .ema 5 (by omega) (StartsAt.some fun t => f (bv t))
  obtain ⟨b, yb, hb, _⟩ := averages .sma 10 (by omega) (StartsAt.some fun t => f (bv t))
  exact ⟨_, _, C53_volume_oscillator D (fbars_ok 40).volume ha hb⟩

example : ∃ (m : AwesomeOscillator (Fl (Rounding.binary64 ℝ))) (y : Nat → _),
    Runs (fun t => AwesomeOscillator.next ⟨D, t⟩) (.ok m) (fun t => (x t, x t)) 40 y := by
  obtain ⟨a, ya, ha, _⟩ := averages .ema 5 (by omega) (StartsAt.some fun t => f (bc t))
  obtain ⟨b, yb, hb, _⟩ := averages .sma 10 (by omega) (StartsAt.some fun t => f (bc t))
  exact ⟨_, _, C53_awesome_oscillator D ha hb⟩

/-- `C53_relative_volatility` with lengths 2 and 14. -/
example : ∃ (y : Nat → _), Runs (fun t => RelativeVolatilityIndex.next ⟨D, t⟩) (RelativeVolatilityIndex.new 2 14) x 40 y := by
  have hs := (StartsAt.some fun t => f (bc t)).stdev0 (b := true) (len := 2) (by omega)
  have hp := (StartsAt.some fun t => f (bc t)).prev
  have key : ∀ g : Nat → Fl (Rounding.binary64 ℝ) → Fl (Rounding.binary64 ℝ) → Option (Fl (Rounding.binary64 ℝ)),
      (∀ t a b, (stdev0 2 true x t).isSome → (g t a b).isSome) → StartsAt 1 (fun t => (opt2 (g t) (x t) (prev x t)).join) := by
    intro g hg t
    rcases t with _ | t
    · exact ⟨fun h => absurd h (by simp [Spec.prev, opt2]), fun h => by omega⟩
    · refine ⟨fun _ => by omega, fun _ => ?_⟩
      exact hg (t + 1) _ _ ((hs (t + 1)).mpr (by omega))
  exact ⟨_, C53_relative_volatility D (stdev_runs D (by omega) true x 40)
    (ema_runs D (by omega) _ _ 40 ((key _ fun t a b ht => by split; rfl; exact ht).stays.emaOk _ _ (by omega)))
    (ema_runs D (by omega) _ _ 40 ((key _ fun t a b ht => by split; rfl; exact ht).stays.emaOk _ _ (by omega)))⟩

/-- `C53_dmi` with lengths 14 and 14. -/
example : ∃ (y : Nat → _), Runs (noInput fun t => Dmi.next ⟨D, t⟩) (Dmi.new 14 14) unit 40 y := by
  have htr := startsAt_tr0_false (fun t => f (bh t)) (fun t => f (bl t)) (fun t => f (bc t))
  have hup := (StartsAt.some fun t => f (bh t)).opt2 (StartsAt.some fun t => f (bh t)).prev fun a b => (a - b)
  have hdn := (StartsAt.some fun t => f (bl t)).prev.opt2 (StartsAt.some fun t => f (bl t)) fun a b => (a - b)
  have hp := hup.opt2 hdn fun u w => if fgt u w && fgt u (lit 0) then u else lit 0
  have hm := hup.opt2 hdn fun u w => if fgt w u && fgt w (lit 0) then w else lit 0
  have silent : ∀ y : Nat → Option (Fl (Rounding.binary64 ℝ)), SilentBefore 0 y := fun _ _ h => absurd h (by omega)
  obtain ⟨p, rp, _, tp⟩ := fixNan_runs _ 40 (silent _)
  obtain ⟨m, rm, _, tm⟩ := fixNan_runs _ 40 (silent _)
  have tdx : Stays fun t => opt2 (fun p m => F64.abs (p - m) / (if F64.feq p (-m) then lit 0 else p + m)) (p t) (m t) := fun t ht => by
    simp only [isSome_opt2, Bool.and_eq_true] at ht ⊢
    exact ⟨tp t ht.1, tm t ht.2⟩
  exact ⟨_, C53_dmi D (fbars_ok 40).high (fbars_ok 40).low
    (fun t ht => tr_step (fbars_ok 40).high (fbars_ok 40).low (fbars_ok 40).close ht false) (fun _ _ => rfl) (fun _ _ => rfl)
    (rma_runs D (by omega) _ 40 (htr.stays.emaOk _ _ (by omega))) (rma_runs D (by omega) _ 40 (hp.stays.emaOk _ _ (by omega)))
    (rma_runs D (by omega) _ 40 (hm.stays.emaOk _ _ (by omega))) rp rm (rma_runs D (by omega) _ 40 (tdx.emaOk _ _ (by omega)))⟩

/-- `C62_streak`, `C53_connors` with lengths 3, 2 and 100, and `C62_unchanged`, `C62_rises`, `C62_falls` on 3, 4, 5, 6,
then 6, then 5, 4. -/
example := C62_streak (binary64_lawful ℝ) x (t := 39) (by norm_num)
example := C53_connors (binary64_lawful ℝ) (d := D) (n := 3) (m := 2) (k := 100) (x := x) (by norm_num : 40 ≤ 2 ^ 53)
  (rsi_runs D (by omega) x 40 (fun _ _ _ => rfl)) (rsi_runs D (by omega) _ 40 (fun _ _ _ => rfl)) (roc_runs 1 (by omega) x 40)
  (prank_runs D (by omega) _ 40)

private def hill (t : Nat) : Option (Ex ℚ) := some (q (([3, 4, 5, 6, 6, 5, 4] : List ℚ).getD t 0))

example : streak hill 3 = 3 ∧ streak hill 4 = 0 ∧ streak hill 6 = -2 :=
  ⟨C62_rises hill 0 2 (by decide +kernel) (by decide +kernel), C62_unchanged hill 3 (by decide +kernel),
   C62_falls hill 4 1 (by decide +kernel) (by decide +kernel)⟩

/-! ## Averages -/

/-- `C64_average` and `C64_constant`: an exponential average over 3 ticks of a series that starts at tick 2. -/
example := C64_average (bars 12) .ema (n := 3) (by omega) 2 pi 12
example : average .rma 7 3 (fun _ => (5 : ℚ)) 20 = 5 := C64_constant .rma (by omega) (by decide) 5

/-- `C54_volume_oscillator_exceeds`. -/
example : ∃ (d : DataProvider (Ex ℚ)) (y : Nat → Option ℚ),
    Runs (noInput fun t => VolumeOscillator.next ⟨d, t⟩) VolumeOscillator.default unit 10 (flo y) ∧ ∃ v, y 9 = some v ∧ 100 < v :=
  let ⟨d, _, _, _, y, h, h'⟩ := C54_volume_oscillator_exceeds (K := ℚ)
  ⟨d, y, h, _, h', by norm_num⟩

/-- `C28_roc_complete`. -/
example : outputs (fun _ => Roc.next) (fun t => some (q (pi t))) 4 (Roc.new 2) = .ok [none, none, some (q (100 / 3)), some (q 0)] :=
  Eq.trans (C28_roc_complete pi (n := 2) (by omega) 4) (by decide +kernel)

/-- `C53_ma`. -/
example := C53_ma D 7 x 40

/-! ## Trades -/

/-- `C36_new_trade`, `C42_start`. -/
example := C36_new_trade .short 7 (q 3)
example : (Strategy.new (⟨false, true, q 1000, false⟩ : StrategyConfig (Ex ℚ))).metrics.equity = q 1000 := (C42_start _).1

/-! ## First values, on binary64 bars -/

private theorem B : Bars D 40 (fun t => f (bo t)) (fun t => f (bh t)) (fun t => f (bl t)) (fun t => f (bc t)) (fun t => f (bv t)) :=
  fbars_ok 40

example := C63_rsi B .hlc3 (len := 14) (by omega)
example := C63_bollinger B .close (len := 20) (by omega) (f 2)
example := C63_cci B .hlc3 (len := 20) (by omega)
example := C63_coppock B .close (len := 10) (a := 14) (b := 11) (by omega) (by omega) (by omega)
example := C63_cmo B .close (len := 9) (by omega)
example := C63_connors B .close (n := 3) (m := 2) (k := 20) (by omega) (by omega) (by omega)
example := C63_stoch_rsi B .close (n := 14) (m := 14) (k := 3) (q := 3) (by omega) (by omega) (by omega) (by omega)
example := C63_williams B .close (len := 14) (by omega)
example := C63_awesome_oscillator B .hl2 .hl2 .sma .ema (a := 5) (b := 34) (by omega) (by omega)
example := C63_price_oscillator B .close .swma .rma (a := 5) (b := 10) (by omega) (by omega)
example := C63_volume_oscillator B .ema .ema (a := 5) (b := 10) (by omega) (by omega)
example := C63_cmf B (len := 20) (by omega)
example := C63_chande_kroll B (p := 10) (q := 9) (by omega) (by omega) (f 1)
example := C63_choppiness B (len := 14) (by omega)
example := C63_donchian B (len := 20) (by omega)
example := C63_relative_vigor B (len := 10) (by omega)
example := C63_ultimate_oscillator B (n1 := 7) (n2 := 14) (n3 := 28) (by omega) (by omega) (by omega)
example := C63_vortex B (len := 14) (by omega)
example := C63_dmi B (len := 14) (sig := 14) (by omega) (by omega)
example := C63_balance_of_power B (t := 39) (by omega)

/-! ## Signals -/

/-- `C52_from_f64`, `C52_roundtrip`, `C52_opposite`, `C52_timeframe`. -/
example : tradeDirectionFromF64 (some (f 1)) = some .long ∧ tradeDirectionFromF64 (some (f 2)) ≠ some .short :=
  ⟨(C52_from_f64 (binary64_lawful ℝ) _).1.mpr (by simp [f]), fun h => by
    have h' := Option.some.inj ((C52_from_f64 (binary64_lawful ℝ) (some (f 2))).2.mp h)
    have h'' := Ext.fin.inj h'
    norm_num at h''⟩

example : tradeDirectionFromF64 (some (tradeDirectionToF64 (some .short) : Fl (Rounding.binary64 ℝ))) = some .short :=
  C52_roundtrip (binary64_lawful ℝ) _

example : TradeDirection.long.getOpposite ≠ .long := (C52_opposite .long).2

example : Timeframe.tryFrom 7 = none := C52_timeframe.2.2 7 (by omega)

/-- `C55_threshold`, `C55_williams`, `C55_macd`, `C55_no_conflict`: the digits of pi rise through 2 at tick 2 and fall
through 4 at tick 6. -/
private theorem rises2 : RisesThrough fdense (f 2) 2 :=
  ⟨1, _, _, rfl, rfl, rfl, f_le (by decide +kernel), f_lt (by decide +kernel)⟩

private theorem falls4 : FallsThrough fdense (f 4) 6 :=
  ⟨5, _, _, rfl, rfl, rfl, f_le (by decide +kernel), f_lt (by decide +kernel)⟩

example : ∃ y, Runs (total ThresholdStrategy.next) (.ok (RelativeStrengthIndexStrategy.new ⟨f 2, f 4⟩)) fdense 9 y ∧
    y 2 = some .long ∧ y 6 = some .short :=
  let ⟨y, h, h'⟩ := C55_threshold (⟨f 2, f 4⟩ : Thresholds (Fl (Rounding.binary64 ℝ))) fdense 9 RelativeStrengthIndexStrategy.new (by simp)
  ⟨y, h, (h' 2 (by omega)).1.mpr rises2, (C55_no_conflict (f_le (by norm_num)) h' 6 (by omega)).mpr falls4⟩

example : ∃ y, Runs (total ThresholdStrategy.next) (.ok (WilliamsPercentRankStrategy.new ⟨f 4, f 2⟩)) fdense 9 y ∧ y 2 = some .long :=
  let ⟨y, h, h'⟩ := C55_williams (⟨f 4, f 2⟩ : Thresholds (Fl (Rounding.binary64 ℝ))) fdense 9
  ⟨y, h, (h' 2 (by omega)).1.mpr rises2⟩

example : ∃ y, Runs (total ThresholdStrategy.next) (.ok MacdStrategy.new) (fun t => some (f (pi t - 2))) 9 y ∧ y 2 = some .long :=
  let ⟨y, h, h'⟩ := C55_macd (binary64_lawful ℝ) (fun t => some (f (pi t - 2))) 9
  ⟨y, h, (h' 2 (by omega)).1.mpr ⟨1, _, _, rfl, rfl, rfl, decide_eq_true (by norm_num [pi]), decide_eq_true (by norm_num [pi])⟩⟩

/-- `C55_cross`: the same against a constant. -/
example : ∃ y, Runs (total CrossStrategy.next) (.ok CrossState.new) (fun t => (fdense t, some (f 2))) 9 y ∧ y 2 = some .long :=
  let ⟨y, h, h'⟩ := C55_cross fdense (fun _ => some (f 2)) 9
  ⟨y, h, (h' 2 (by omega)).1.mpr ⟨1, _, _, _, _, rfl, rfl, rfl, rfl, rfl, f_le (by decide +kernel), f_lt (by decide +kernel)⟩⟩

/-- `C55_dmi` and `C55_dmi_default`: the plus line crosses the minus line while the index is 30. -/
private noncomputable abbrev dmi (t : Nat) : DmiData (Fl (Rounding.binary64 ℝ)) := ⟨fdense t, some (f 2), some (f 30)⟩

example : ∃ y, Runs (total DmiStrategy.next) (.ok (DmiStrategy.new (f 20))) dmi 9 y ∧ y 2 = some .long :=
  let ⟨y, h, h'⟩ := C55_dmi (f 20) dmi 9
  ⟨y, h, (h' 2 (by omega)).1.mpr ⟨⟨_, rfl, f_lt (by norm_num)⟩,
    ⟨1, _, _, _, _, rfl, rfl, rfl, rfl, rfl, f_le (by decide +kernel), f_lt (by decide +kernel)⟩⟩⟩

example : ∃ y, Runs (total DmiStrategy.next) (.ok DmiStrategy.default) dmi 9 y ∧ y 2 = some .long :=
  let ⟨y, h, h'⟩ := C55_dmi_default (binary64_lawful ℝ) dmi 9
  ⟨y, h, (h' 2 (by omega)).1.mpr ⟨⟨_, rfl, decide_eq_true (by norm_num)⟩,
    ⟨1, _, _, _, _, rfl, rfl, rfl, rfl, rfl, f_le (by decide +kernel), f_lt (by decide +kernel)⟩⟩⟩

/-- `C55_aroon`: up 100 and down 40 after a strong down. -/
example : ∃ y, Runs (total AroonStrategy.next) (.ok AroonStrategy.new)
      (fun t => (flo (fun t => some (if t = 0 then 40 else (100 : ℚ))) t, flo (fun t => some (if t = 0 then (100 : ℚ) else 40)) t)) 3 y ∧
    ∀ t, t < 3 → (y t = some .long → t ≠ 0) :=
  let ⟨y, h, h'⟩ := C55_aroon (fun t => some (if t = 0 then 40 else (100 : ℚ))) (fun t => some (if t = 0 then (100 : ℚ) else 40)) 3
  ⟨y, h, fun t ht hl h0 => by
    subst h0
    obtain ⟨_, u, w, hu, _, h1, _⟩ := (h' 0 ht).1.mp hl
    rw [← Option.some.inj hu] at h1
    norm_num at h1⟩

/-- `C55_aroon_any`: the lines are missing, NaN and infinite on some ticks; there is no signal on the tick with a NaN. -/
example : ∃ y, Runs (total AroonStrategy.next) (.ok AroonStrategy.new)
      (fun t => (([some (q 40), some (q 100), none, some (Fl.of _ .pinf)] : List (Option (Ex ℚ))).getD t none,
        ([some (q 100), some qnan, some (q 3), some (q 7)] : List (Option (Ex ℚ))).getD t none)) 4 y ∧
    y 1 ≠ some .long :=
  let ⟨y, h, h'⟩ := C55_aroon_any (fun t => ([some (q 40), some (q 100), none, some (Fl.of _ .pinf)] : List (Option (Ex ℚ))).getD t none)
    (fun t => ([some (q 100), some qnan, some (q 3), some (q 7)] : List (Option (Ex ℚ))).getD t none) 4
  ⟨y, h, fun hl => by
    obtain ⟨_, u, w, hu, hw, _, h1⟩ := (h' 1 (by norm_num)).1.mp hl
    rw [← Option.some.inj hw] at h1
    exact Bool.noConfusion (show false = true from h1)⟩

/-- `C55_defaults`: the default bands of the RSI strategy are 30 and 70. -/
example : ∃ y, Runs (total ThresholdStrategy.next) (.ok (RelativeStrengthIndexStrategy.new .rsi)) fdense 9 y ∧
    ThresholdRule fdense (Fl.of (Rounding.binary64 ℝ) (.fin 30)) (Fl.of _ (.fin 70)) 9 y :=
  C55_defaults (binary64_lawful ℝ) fdense 9 (RelativeStrengthIndexStrategy.new .rsi, 30, 70) (by simp)

end Pace.Cases
