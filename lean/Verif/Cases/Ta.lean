import Verif.Props.Ta
import Verif.Props.Ta2
import Verif.Cases.FloatData

/-!
# Concrete cases of the theorems on the building blocks (C21–C35)

The input is mostly `gap`, the digits of pi with a missing value at tick 4: 3, 1, 4, 1, none, 9, 2, 6, 5, 3.
-/

namespace Pace.Cases
open Pace Spec

/-- `C21_sma` and `C22_sum` of length 2: the result is missing while the gap is in the window. -/
example : outputs (fun t => Sma.next ⟨bars 7, t⟩) (flo gap) 7 (Sma.new 2)
    = .ok [none, some (q 2), some (q (5 / 2)), some (q (5 / 2)), none, none, some (q (11 / 2))] :=
  Eq.trans (C21_sma (bars 7) (by decide) gap 7) (by decide +kernel)

example : outputs (fun t => Sum.next ⟨bars 7, t⟩) (flo gap) 7 (Sum.new 2)
    = .ok [none, some (q 4), some (q 5), some (q 5), none, none, some (q 11)] :=
  Eq.trans (C22_sum (bars 7) (by decide) gap 7) (by decide +kernel)

/-- `C21_nan_is_permanent`, `C22_nan_is_permanent`: NaN at tick 1 in binary64, looked at on tick 8. -/
example : ∃ y, Runs (fun t => Sma.next ⟨fbars 9, t⟩) (Sma.new 2) (fun t => if t = 1 then some (Fl.of _ .nan) else fdense t) 9 y ∧
    ∀ v, y 8 = some v → v = Fl.of _ .nan :=
  let ⟨y, h, h'⟩ := C21_nan_is_permanent _ (fbars 9) (len := 2) (by decide) (fun t => if t = 1 then some (Fl.of _ .nan) else fdense t) 9 1 rfl
  ⟨y, h, h' 8 (by decide) (by decide)⟩

example : ∃ y, Runs (fun t => Sum.next ⟨fbars 9, t⟩) (Sum.new 2) (fun t => if t = 1 then some (Fl.of _ .nan) else fdense t) 9 y ∧
    ∀ v, y 8 = some v → v = Fl.of _ .nan :=
  let ⟨y, h, h'⟩ := C22_nan_is_permanent _ (fbars 9) (len := 2) (by decide) (fun t => if t = 1 then some (Fl.of _ .nan) else fdense t) 9 1 rfl
  ⟨y, h, h' 8 (by decide) (by decide)⟩

/-- `C23_ema_unseeded`: length 6, no six consecutive values in the first eight ticks. -/
example : outputs (fun t => Ema.next ⟨bars 8, t⟩) (flo gap) 8 (Ema.withAlpha 6 (q (1 / 3))) = .ok (List.replicate 8 none) :=
  Eq.trans (C23_ema_unseeded (bars 8) (by decide) (1 / 3) gap 8 (by decide +kernel)) rfl

/-- `C23_ema`: length 2, a gap at tick 1 before the seed (the mean of 2 and 3 at tick 3). -/
example : outputs (fun t => Ema.next ⟨bars 6, t⟩) (flo fun t => if t = 1 then none else some (t : ℚ)) 6 (Ema.withAlpha 2 (q (1 / 2)))
    = .ok [none, none, none, some (q (5 / 2)), some (q (13 / 4)), some (q (33 / 8))] :=
  Eq.trans (C23_ema (bars 6) (by decide) (1 / 2) (fun t => if t = 1 then none else some (t : ℚ)) 6 3 [2, 3]
    ⟨by decide +kernel, by decide +kernel⟩ (by decide +kernel) (fun i => ((4 + i : Nat) : ℚ)) (fun i _ => by
      simp only [show 3 + 1 + i ≠ 1 by omega, if_false])) (by decide +kernel)

/-- `C23_recurrence`, `C23_weights`, `C23_between`, `C23_alpha`. -/
example : smoothed (1 / 3) 2 pi 4 = 1 / 3 * 1 + (1 - 1 / 3) * smoothed (1 / 3) 2 pi 3 ∧ smoothed (1 / 3) (7 : ℚ) (fun _ => 7) 100 = 7 :=
  ⟨(C23_recurrence (1 / 3) 2 pi 3).2, C23_weights _ _ _⟩

example : (1 : ℚ) ≤ smoothed (1 / 3) (mean [3, 1]) pi 3 ∧ smoothed (1 / 3) (mean [3, 1]) pi 3 ≤ 4 :=
  C23_between (by norm_num) (by norm_num) (by simp) (by decide +kernel) (by decide +kernel)

example : (Ema.new 9 : Res (Ema (Ex ℚ))) = Ema.withAlpha 9 (q (1 / 5)) :=
  (C23_alpha (K := ℚ) (len := 9) (by decide)).1.trans (by norm_num)

/-- `C23_ema_one`: an average over one tick is its input, gap and all. -/
example : Runs (fun t => Ema.next ⟨fbars 9, t⟩) (Ema.withAlpha 1 (f (1 / 2))) fgap 9 fgap := C23_ema_one _ _ _ _

/-- `C23_float` and `C24_ema_panics_iff` in binary64: no gap after the seed is fine, the gap at tick 4 is not. -/
example : ∃ y, Runs (fun t => Ema.next ⟨fbars 9, t⟩) (Ema.withAlpha 2 (f (1 / 2))) fdense 9 y ∧
    ∀ p, y 3 = some p → ∃ v, fdense 4 = some v ∧ y 4 = some (f (1 / 2) * v + (lit 1 - f (1 / 2)) * p) :=
  let ⟨y, h, h'⟩ := C23_float (fbars 9) (len := 2) (by decide) (f (1 / 2)) fdense 9 (fun _ _ _ => rfl)
  ⟨y, h, h' 3 (by decide)⟩

example : ¬ ∃ y, Runs (fun t => Ema.next ⟨fbars 9, t⟩) (Ema.withAlpha 2 (f (1 / 2))) fgap 9 y := fun h =>
  absurd ((C24_ema_panics_iff (fbars 9) (len := 2) (by decide) (f (1 / 2)) fgap 9).mp h 4 (by decide)
    ⟨1, by decide, by rfl⟩) (by decide +kernel)

/-- `C24_example_panic`: so a moving average can abort a program. -/
example : ∃ (d : DataProvider (Ex ℚ)) (x : Nat → Option (Ex ℚ)) (N : Nat) (e : Panic),
    outputs (fun t => Ema.next ⟨d, t⟩) x N (Ema.new 2) = .error e := ⟨_, _, _, _, C24_example_panic⟩

/-- `C24_window_components` on the series with a gap. -/
example : ∃ y, Runs (fun t => Stdev.next ⟨fbars 9, t⟩) (Stdev.new 3 true) fgap 9 y :=
  (C24_window_components (fbars 9) fgap 9 (len := 3) (by decide) true).2.2.2.2.2.1

/-- `C25_wma` of length 3 and `C25_swma`. -/
example : outputs (fun t => Wma.next ⟨bars 6, t⟩) (flo gap) 6 (Wma.new 3)
    = .ok [none, none, some (q (17 / 6)), some (q 2), none, none] :=
  Eq.trans (C25_wma (bars 6) (by decide) gap 6) (by decide +kernel)

example : outputs (fun t => Swma.next ⟨bars 9, t⟩) (flo gap) 9 Swma.new
    = .ok [none, none, none, some (q (7 / 3)), none, none, none, none, some (q 5)] :=
  Eq.trans (C25_swma (bars 9) gap 9) (by decide +kernel)

/-- `C26_dev` and `C26_stdev` of length 2, biased and not. -/
example : outputs (fun t => Dev.next ⟨bars 6, t⟩) (flo gap) 6 (Dev.new 2)
    = .ok [none, some (q 1), some (q (3 / 2)), some (q (3 / 2)), none, none] :=
  Eq.trans (C26_dev (bars 6) (by decide) gap 6) (by decide +kernel)

example : outputs (fun t => Stdev.next ⟨bars 6, t⟩) (flo gap) 6 (Stdev.new 2 true)
    = .ok [none, some (q 1), some (q (3 / 2)), some (q (3 / 2)), none, none] :=
  Eq.trans (C26_stdev (bars 6) (by decide) true gap 6) (by decide +kernel)

/-- `C26_cut` and `C26_nonneg`: on prices that are far from their mean nothing is cut. -/
example : cutSqDev [(1 : ℚ), 3] = sqDev [1, 3] := (C26_cut [(1 : ℚ), 3]).2 (by decide +kernel)

example : 0 ≤ meanAbsDev [(1 : ℝ), 5] ∧ 0 ≤ Real.sqrt (cutSqDev [(1 : ℝ), 5] / 2) := C26_nonneg [(1 : ℝ), 5] 2

/-- `C26_length_one`: constantly 0, 0 and missing. -/
example : outputs (fun t => Stdev.next ⟨bars 2, t⟩) (flo gap) 2 (Stdev.new 1 false) = .ok [none, none] :=
  (C26_length_one (bars 2) (flo gap) 2).2.2

/-- `C27_change`, `C27_zero_is_missing` and `C28_roc` over 2 ticks. -/
example : outputs (fun _ => Change.next) (flo gap) 7 (Change.new 2)
    = .ok [none, none, some (q 1), some (q 0), none, some (q 8), none] :=
  Eq.trans (C27_change 2 (by decide) gap 7) (by decide +kernel)

example : ∃ x : Nat → Option (Ex ℚ), (∀ t, (x t).isSome) ∧ ∃ o, outputs (fun _ => Change.next) x 3 (Change.new 1) = .ok [none, none, o] :=
  ⟨_, fun _ => rfl, _, C27_zero_is_missing⟩

example : outputs (fun _ => Roc.next) (flo gap) 7 (Roc.new 2)
    = .ok [none, none, some (q (100 / 3)), some (q 0), none, some (q 800), none] :=
  Eq.trans (C28_roc 2 (by decide) gap 7) (by decide +kernel)

/-- `C29_prank` and `C29_range`: how many of the last three values are at most the present one. -/
example : outputs (fun t => Prank.next ⟨bars 6, t⟩) (flo gap) 6 (Prank.new 3)
    = .ok [none, none, none, some (q (100 / 3)), none, some (q (200 / 3))] :=
  Eq.trans (C29_prank (bars 6) (by decide) gap 6) (by decide +kernel)

example : 100 * (((List.range 7).countP (· < 3) : Nat) : ℚ) / 7 ≤ 100 := (C29_range (K := ℚ) (len := 7) (by decide) _).2

/-- `C30_highest`, `C30_lowest` and `C30_bounds` of length 3: gaps are skipped. -/
example : outputs (fun t => Highest.next ⟨bars 7, t⟩) (flo gap) 7 (Highest.new 3)
    = .ok [none, none, some (q 4), some (q 4), some (q 4), some (q 9), some (q 9)] :=
  Eq.trans (C30_highest (bars 7) (by decide) gap 7) (by decide +kernel)

example : outputs (fun t => Lowest.next ⟨bars 7, t⟩) (flo gap) 7 (Lowest.new 3)
    = .ok [none, none, some (q 1), some (q 1), some (q 1), some (q 1), some (q 2)] :=
  Eq.trans (C30_lowest (bars 7) (by decide) gap 7) (by decide +kernel)

example : Spec.highest gap 3 6 = some 9 :=
  (C30_bounds gap (by decide) 9).1.mpr ⟨⟨5, by decide, by decide, by decide +kernel⟩, fun k v h1 h2 hv => by
    obtain rfl | rfl | rfl : k = 4 ∨ k = 5 ∨ k = 6 := by omega
    · cases hv
    · rw [← Option.some.inj hv]; decide +kernel
    · rw [← Option.some.inj hv]; decide +kernel⟩

/-- `C30_float` in binary64, on the series with a gap. -/
example : ∃ hi lo, Runs (fun t => Highest.next ⟨fbars 9, t⟩) (Highest.new 3) fgap 9 hi ∧
    Runs (fun t => Lowest.next ⟨fbars 9, t⟩) (Lowest.new 3) fgap 9 lo ∧ hi 1 = none ∧ (hi 5).isSome := by
  obtain ⟨hi, lo, h1, h2, h3⟩ := C30_float _ (fbars 9) (len := 3) (by decide) fgap 9 (fun t _ h => by
    simp only [fgap] at h
    generalize gap t = g at h
    rcases g with _ | v
    · cases h
    · exact f_ne_nan v (Option.some.inj h))
  refine ⟨hi, lo, h1, h2, ((h3 1 (by decide)).1 (by decide)).1, ?_⟩
  rcases (h3 5 (by decide)).2 (by decide) with ⟨h, _⟩ | ⟨h, l, e, _⟩
  · exact absurd (h 5 (by decide) (by decide)) (by simp [fgap, gap])
  · rw [e]; rfl

/-- `C31_highest_bars`, `C31_lowest_bars` on binary64 bars. -/
example : ∃ y, Runs (noInput fun t => HighestBars.next ⟨fbars 9, t⟩) (HighestBars.new 3) unit 9 y ∧ ∃ dd : Nat, dd < 3 ∧ y 7 = some (-(dd : Int)) :=
  let ⟨y, h, h'⟩ := C31_highest_bars _ (fbars 9) (len := 3) (by decide) (fbars_ok 9).high (fun _ _ h => f_ne_nan _ (Option.some.inj h))
  let ⟨dd, h1, h2, _⟩ := (h' 7 (by decide)).2 (by decide)
  ⟨y, h, dd, h1, h2⟩

example : ∃ y, Runs (noInput fun t => LowestBars.next ⟨fbars 9, t⟩) (LowestBars.new 3) unit 9 y ∧ y 1 = none :=
  let ⟨y, h, h'⟩ := C31_lowest_bars _ (fbars 9) (len := 3) (by decide) (fbars_ok 9).low (fun _ _ h => f_ne_nan _ (Option.some.inj h))
  ⟨y, h, (h' 1 (by decide)).1 (by decide)⟩

/-- `C32_stoch`: closes in the range of the last two bars; at tick 1 it goes from 10 to 15 and the close is 11. -/
example : ∃ y, Runs (fun t => Stoch.next ⟨bars 5, t⟩) (Stoch.new 2)
      (fun t => (flo (fun t => some (bc t)) t, flo (fun t => some (bh t)) t, flo (fun t => some (bl t)) t)) 5 y ∧
    y 0 = none ∧ y 1 = some (q 20) := by
  obtain ⟨y, h, h'⟩ := C32_stoch (bars 5) (len := 2) (by decide) (fun t => some (bc t)) (fun t => some (bh t)) (fun t => some (bl t)) 5
  refine ⟨y, h, (h' 0 (by decide)).1 (.inr (.inl (by decide +kernel))), ?_⟩
  rw [((h' 1 (by decide)).2 11 15 10 (by decide +kernel) (by decide +kernel) (by decide +kernel)).1 (by norm_num)]
  decide +kernel

/-- `C32_stoch_range` and `C32_close_between` on the same bars. -/
example : ∃ y, Runs (fun t => Stoch.next ⟨bars 9, t⟩) (Stoch.new 4)
      (fun t => (flo (fun t => some (bc t)) t, flo (fun t => some (bh t)) t, flo (fun t => some (bl t)) t)) 9 y ∧
    ∀ o, y 8 = some o → ∃ k, o = q k ∧ 0 ≤ k ∧ k ≤ 100 :=
  let ⟨y, h, h'⟩ := C32_stoch_range (bars 9) (len := 4) (by decide) (fun t => some (bc t)) (fun t => some (bh t)) (fun t => some (bl t)) 9
    (fun t _ _ _ _ hw h1 h2 => C32_close_between (by decide) ⟨(bars_sound t).2.1, (bars_sound t).2.2.2.1⟩ hw h1 h2)
  ⟨y, h, h' 8 (by decide)⟩

/-- `C33_atr_nonneg` and `C34_rsi_range` in binary64. -/
example : ∃ y, Runs (noInput fun t => Atr.next ⟨fbars 9, t⟩) (Atr.new 3) unit 9 y ∧
    ∀ w, y 8 = some w → w = Fl.of _ .nan ∨ F64.le (Fl.of _ (.fin 0)) w = true :=
  let ⟨y, h, h'⟩ := C33_atr_nonneg (binary64_lawful ℝ) (fbars 9) (len := 3) (by decide) (fbars_ok 9)
    (fun t _ => f_le (bars_sound t).2.2.2.2.le)
  ⟨y, h, h' 8 (by decide)⟩

example : ∃ y, Runs (fun t => Rsi.next ⟨fbars 9, t⟩) (Rsi.new 3) fdense 9 y ∧ ∀ t, t < 9 → ∀ v, y t = some v →
      v = Fl.of _ .nan ∨ (F64.le (Fl.of _ (.fin 0)) v = true ∧ F64.le v (Fl.of _ (.fin 100)) = true) :=
  C34_rsi_range (binary64_lawful ℝ) (fbars 9) (len := 3) (by decide) fdense (fun _ _ _ => rfl)

/-- `C35_cross`, `C35_cross_over_under`, `C35_threshold`, `C35_over_separated`: the digits of pi and the level 2 in
binary64; at tick 2 the digits cross it upwards, at tick 3 downwards. -/
private theorem crosses : CrossesOver fdense (fun _ => some (f 2)) 2 ∧ CrossesOver (fun _ => some (f 2)) fdense 3 :=
  ⟨⟨1, _, _, _, _, rfl, rfl, rfl, rfl, rfl, f_le (by decide +kernel), f_lt (by decide +kernel)⟩,
   ⟨2, _, _, _, _, rfl, rfl, rfl, rfl, rfl, f_le (by decide +kernel), f_lt (by decide +kernel)⟩⟩

example : ∃ y, Runs (total Cross.next) (.ok CrossState.new) (fun t => (fdense t, some (f 2))) 9 y ∧
    y 2 = some .over ∧ y 3 = some .under :=
  let ⟨y, h, h'⟩ := C35_cross fdense (fun _ => some (f 2)) 9
  ⟨y, h, (h' 2 (by decide)).1.mpr crosses.1, (h' 3 (by decide)).2.1.mpr crosses.2⟩

example : ∃ y, Runs (total CrossOver.next) (.ok CrossState.new) (fun t => (fdense t, some (f 2))) 9 y ∧ y 2 = true :=
  let ⟨y, h, h'⟩ := (C35_cross_over_under fdense (fun _ => some (f 2)) 9).1
  ⟨y, h, (h' 2 (by decide)).mpr crosses.1⟩

example : ∃ y, Runs (total CrossThreshold.next) (.ok (CrossThresholdState.new (f 2))) fdense 9 y ∧
    Runs (total Cross.next) (.ok CrossState.new) (fun t => (fdense t, some (f 2))) 9 y := (C35_threshold (f 2) fdense 9).1

/-- Between the upward crossing at tick 2 and the one at tick 4 the digits were at most 2. -/
example : ∃ r va vb, 2 < r ∧ r < 4 ∧ fdense r = some va ∧ some (f 2) = some vb ∧ F64.le va vb = true :=
  (C35_over_separated fdense (fun _ => some (f 2))).2 2 4 (by decide) crosses.1
    ⟨3, _, _, _, _, rfl, rfl, rfl, rfl, rfl, f_le (by decide +kernel), f_lt (by decide +kernel)⟩

end Pace.Cases
