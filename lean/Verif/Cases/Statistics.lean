import Verif.Props.Statistics
import Verif.Cases.Data

/-!
# Concrete cases of the theorems on statistics (C13–C20)

Every theorem is applied to concrete, non-trivial arguments that meet its hypotheses; where it says what a component
computes, the value it gives is written out.
-/

namespace Pace.Cases
open Pace Spec

/-- `C13_mean`. -/
example : outputs (total Mean.next) (fun t => (fin (pi t) : Ex ℚ)) 4 (.ok Mean.new) = .ok [fin 3, fin 2, fin (8 / 3), fin (9 / 4)] :=
  Eq.trans (C13_mean pi 4) (by decide +kernel)

/-- `C14_var`. -/
example : outputs (total Var.next) (fun t => (fin (pi t) : Ex ℚ)) 3 (.ok (Var.build false)) = .ok [fin 0, fin 1, fin (14 / 9)] :=
  Eq.trans (C14_var pi 3) (by decide +kernel)

/-- `C14_stdev`: of 3, 1. -/
example : outputs (total StatStdev.next) (fun t => (fin (pi t) : Ex ℚ)) 2 (.ok (StatStdev.build false)) = .ok [fin 0, fin 1] :=
  Eq.trans (C14_stdev pi 2) (by decide +kernel)

/-- `C14_list_functions`. -/
example : Stats.var ([1, 3, 5, 7].map (fin : ℚ → Ex ℚ)) = fin 5 ∧ Stats.stdev ([3, 1].map (fin : ℚ → Ex ℚ)) = fin 1 :=
  ⟨(C14_list_functions [1, 3, 5, 7] (by simp)).2.1.trans (by decide +kernel), (C14_list_functions [3, 1] (by simp)).2.2.trans (by decide +kernel)⟩

/-- `C14_nonneg`: the list 1, 2 has a value other than its mean, so its variance is positive. -/
example : 0 < popVar [(1 : ℚ), 2] :=
  lt_of_le_of_ne (C14_nonneg _).1 fun h => absurd ((C14_nonneg [(1 : ℚ), 2]).2.mp h.symm 1 (by simp)) (by decide +kernel)

/-- `C15_welford`. -/
example : outputs (total WelfordsVar.next) (fun t => (fin (pi t) : Ex ℚ)) 3 (.ok WelfordsVar.new) = .ok [fin 0, fin 2, fin (7 / 3)] :=
  Eq.trans (C15_welford pi 3) (by decide +kernel)

/-- `C15_welford_stdev`: of 3, 11, 3 (sample variances 0, 32, 64/3); of 0, 0, 3 (0, 0, 3). -/
example : outputs (total WelfordsStdev.next) (fun t => (fin ([(0 : ℚ), 0, 0, 6].getD t 0) : Ex ℚ)) 4 (.ok WelfordsStdev.new)
    = .ok [fin 0, fin 0, fin 0, fin 3] :=
  Eq.trans (C15_welford_stdev (fun t => [(0 : ℚ), 0, 0, 6].getD t 0) 4) (by decide +kernel)

/-- `C16_fast_is_sample_variance`. -/
example : outputs (total Var.next) (fun t => (fin (pi t) : Ex ℚ)) 3 (.ok (Var.build true)) = .ok [fin 0, fin 2, fin (7 / 3)] :=
  Eq.trans (C16_fast_is_sample_variance pi 3) (by decide +kernel)

/-- `C16_relation`: after three inputs, twice the sample variance is three times the population variance, and they differ. -/
example : 2 * sampleVar (hist pi 3) = 3 * popVar (hist pi 3) ∧ sampleVar (hist pi 3) ≠ popVar (hist pi 3) :=
  ⟨by have := (C16_relation pi 2 (by decide)).1; norm_num at this; exact this,
   fun h => absurd ((C16_relation pi 2 (by decide)).2.mp h) (by decide +kernel)⟩

/-- `C16_modes_differ`: so the two modes are different functions. -/
example : ∃ x : Nat → ℚ, outputs (total Var.next) (fun t => (fin (x t) : Ex ℚ)) 2 (.ok (Var.build false)) ≠
    outputs (total Var.next) (fun t => (fin (x t) : Ex ℚ)) 2 (.ok (Var.build true)) :=
  let ⟨x, h, h'⟩ := C16_modes_differ
  ⟨x, by rw [h, h']; decide +kernel⟩

/-- `C14_stdev_sq`, over the reals. -/
example : Real.sqrt (popVar [(1 : ℝ), 3, 5, 7]) * Real.sqrt (popVar [(1 : ℝ), 3, 5, 7]) = popVar [(1 : ℝ), 3, 5, 7] :=
  (C14_stdev_sq [(1 : ℝ), 3, 5, 7]).1

/-- `C17_total`: an array of gaps gives its last index, an empty one panics, otherwise the index of a value. -/
example : findMaxIndex ([] : List (Option (Ex ℚ))) = .error .assertFailed ∧
    (∃ i, findMaxIndex [none, (none : Option (Ex ℚ))] = .ok i ∧ i = 1) ∧
    (∃ i m, findMinIndex [none, some (fin 5 : Ex ℚ), none] = .ok i ∧ [none, some (fin 5 : Ex ℚ), none][i]? = some (some m)) :=
  ⟨((C17_total (α := Ex ℚ) []).1 rfl).1,
   (let ⟨i, _, h, _, _, _, _, h'⟩ := (C17_total [none, (none : Option (Ex ℚ))]).2 (by simp); ⟨i, h, (h' (by simp)).1⟩),
   (let ⟨_, j, _, h, _, _, h', _⟩ := (C17_total [none, some (fin 5 : Ex ℚ), none]).2 (by simp)
    let ⟨_, m, hm⟩ := h' ⟨some (fin 5), by simp, by simp⟩; ⟨j, m, h, hm⟩)⟩

/-- `C17_max` and `C17_min` on an array with gaps and ties. -/
example : (∀ j v, [none, some (q 5), some (q 5), some (q 2), none][j]? = some (some v) →
      F64.le v (q 5) = true ∧ (j < 1 → F64.lt v (q 5) = true)) ∧
    (∀ j v, [none, some (q 5), some (q 5), some (q 2), none][j]? = some (some v) →
      F64.le (q 2) v = true ∧ (j < 3 → F64.lt (q 2) v = true)) :=
  ⟨C17_max _ _ (by decide +kernel) 1 _ (by decide +kernel) rfl, C17_min _ _ (by decide +kernel) 3 _ (by decide +kernel) rfl⟩

/-- `C18_range`, `C18_cases`, `C18_idempotent`, `C18_monotone` for the interval from 0 to 1 and values inside, outside
and NaN. -/
example (v : Ex ℚ) : F64.le (clipValue v (q 0) (q 1)) (q 1) = true := (C18_range _ v (q 0) (q 1) (by decide +kernel)).2

example : clipValue (q 3) (q 0) (q 1) = q 1 ∧ clipValue (q (-3)) (q 0) (q 1) = q 0 ∧
    clipValue (q (1 / 3)) (q 0) (q 1) = q (1 / 3) ∧ clipValue qnan (q 0) (q 1) = q 0 :=
  have h := fun v => C18_cases (Rounding.exact ℚ) v (q 0) (q 1) (by decide +kernel)
  ⟨(h (q 3)).2.2.1 (by decide +kernel), (h (q (-3))).2.1 (by decide +kernel),
   (h (q (1 / 3))).1 (by decide +kernel) (by decide +kernel), (h (q 3)).2.2.2⟩

example (v : Ex ℚ) : clipValue (clipValue v (q 0) (q 1)) (q 0) (q 1) = clipValue v (q 0) (q 1) :=
  C18_idempotent _ v (q 0) (q 1) (by decide +kernel)

example : F64.le (clipValue (q (1 / 2)) (q 0) (q 1)) (clipValue (q 7) (q 0) (q 1) : Ex ℚ) = true :=
  C18_monotone _ (q (1 / 2)) (q 7) (q 0) (q 1) (by decide +kernel) (by decide +kernel)

/-- `C19_range` in exact arithmetic, with a NaN threshold. -/
example (v : Ex ℚ) : F64.le (scaleValueUp v qnan (q 3)) (lit 1) = true :=
  (C19_range (Rounding.exact ℚ) rfl rfl (by norm_num) v qnan (q 3) (q 0)).1.2

/-- `C19_up`, `C19_up_cases`, `C19_down`, `C19_centered` with threshold 70 and maximum 90, threshold 30 and minimum 10. -/
example : scaleValueUp (q 75) (q 70) (q 90) = q (1 / 4) := (C19_up 75 70 90 (by norm_num)).trans (by decide +kernel)

example : scaleValueUp (q 60) (q 70) (q 90) = q 0 ∧ scaleValueUp (q 95) (q 70) (q 90) = q 1 ∧
    F64.le (scaleValueUp (q 71) (q 70) (q 90)) (scaleValueUp (q 72) (q 70) (q 90)) = true :=
  ⟨(C19_up_cases 60 60 70 90 (by norm_num)).1 (by norm_num), (C19_up_cases 95 95 70 90 (by norm_num)).2.1 (by norm_num),
   (C19_up_cases 71 72 70 90 (by norm_num)).2.2 (by norm_num)⟩

example : scaleValueDown (q 25) (q 30) (q 10) = q (1 / 4) :=
  (C19_down 25 26 30 10 (by norm_num)).1.trans (by decide +kernel)

example : scaleValueCentered (q 6) (q 5) (q 3) (q 7) = q (1 / 2) ∧
    scaleValueCentered (q 9) (q 5) (q 3) (q 7) = q 0 :=
  ⟨(C19_centered 6 5 3 7 (by norm_num)).1.trans (by decide +kernel), (C19_centered 9 5 3 7 (by norm_num)).2.2 (by decide +kernel)⟩

/-- `C20_nonpos_min`, `C20_pos_min`, `C20_pos_min_overshoots`. -/
example : scaleValueMinMax (q 5) (q (-10)) (q 10) = q (1 / 2) ∧
    scaleValueMinMax (q 15) (q 10) (q 20) = q 2 ∧
    F64.lt (q 1) (scaleValueMinMax (q 20) (q 10) (q 20)) = true :=
  ⟨(C20_nonpos_min 5 (-10) 10 (by norm_num) (by norm_num)).trans (by decide +kernel),
   (C20_pos_min 15 10 20 (by norm_num) (by norm_num)).trans (by decide +kernel), (C20_pos_min_overshoots 10 20 (by norm_num) (by norm_num)).2⟩

end Pace.Cases
