import Verif.Cases.Data
import Verif.Float.Binary64

/-! # Binary64 data used by the concrete cases -/

namespace Pace.Cases
open Pace Spec

/-- A finite binary64 number, given by its value. -/
noncomputable abbrev f (x : ℚ) : Fl (Rounding.binary64 ℝ) := Fl.of _ (.fin (x : ℝ))

theorem f_le {x y : ℚ} (h : x ≤ y) : F64.le (f x) (f y) = true := decide_eq_true (by exact_mod_cast h)

theorem f_lt {x y : ℚ} (h : x < y) : F64.lt (f x) (f y) = true := decide_eq_true (by exact_mod_cast h)

theorem f_ne_nan (x : ℚ) : f x ≠ Fl.of _ .nan := fun h => by cases h

/-- The market of `bars` in binary64. -/
noncomputable def fbars (N : Nat) : DataProvider (Fl (Rounding.binary64 ℝ)) :=
  .ofSeries N (fun t => some (f (bo t))) (fun t => some (f (bh t))) (fun t => some (f (bl t))) (fun t => some (f (bc t))) (fun t => some (f (bv t)))

theorem fbars_ok (N : Nat) : Bars (fbars N) N (fun t => f (bo t)) (fun t => f (bh t)) (fun t => f (bl t)) (fun t => f (bc t)) (fun t => f (bv t)) :=
  bars_ofSeries N _ _ _ _ _

/-- The digits of pi with a gap at tick 4. -/
noncomputable def fgap (t : Nat) : Option (Fl (Rounding.binary64 ℝ)) := (gap t).map f

/-- ... and without. -/
noncomputable def fdense (t : Nat) : Option (Fl (Rounding.binary64 ℝ)) := some (f (pi t))

end Pace.Cases
