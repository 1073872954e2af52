import Verif.Num
import Mathlib.Analysis.SpecialFunctions.Log.Base

/-! # The real numbers satisfy the laws of level 2 -/

namespace Pace

/-- Real square root and decimal logarithm: the level 2 theorems apply to the real numbers. -/
noncomputable instance : LawfulRoots ℝ where
  sqrt := Real.sqrt
  log10 := Real.logb 10
  sqrt_nonneg := Real.sqrt_nonneg
  sqrt_mul_self := fun _ h => Real.mul_self_sqrt h

end Pace
