import Verif.Spec.Content
import Verif.Lemmas.Real

/-! # Data used by the concrete cases -/

namespace Pace.Cases
open Pace Spec

/-- A number of exact arithmetic. -/
abbrev q (x : ℚ) : Ex ℚ := fin x

/-- NaN. -/
abbrev qnan : Ex ℚ := Fl.of (Rounding.exact ℚ) .nan

/-- The digits of pi, as prices. -/
def pi (t : Nat) : ℚ := ([3, 1, 4, 1, 5, 9, 2, 6, 5, 3] : List ℚ).getD (t % 10) 0

/-- The same series with a gap at tick 4. -/
def gap (t : Nat) : Option ℚ := if t = 4 then none else some (pi t)

/-- The same series without gaps, as optional values. -/
def dense (t : Nat) : Option ℚ := some (pi t)

/-- Open, high, low, close and volume of a market. -/
def bo (t : Nat) : ℚ := 10 + pi (t + 1)
@[inherit_doc bo] def bc (t : Nat) : ℚ := 10 + pi t
@[inherit_doc bo] def bh (t : Nat) : ℚ := max (bo t) (bc t) + 1
@[inherit_doc bo] def bl (t : Nat) : ℚ := min (bo t) (bc t) - 1
@[inherit_doc bo] def bv (t : Nat) : ℚ := 100 * (1 + pi (t + 2))

/-- Its first `N` bars as a data set. -/
def bars (N : Nat) : DataProvider (Ex ℚ) :=
  .ofSeries N (fun t => some (q (bo t))) (fun t => some (q (bh t))) (fun t => some (q (bl t))) (fun t => some (q (bc t))) (fun t => some (q (bv t)))

theorem bars_ok (N : Nat) : ExBars (bars N) N bo bh bl bc bv := bars_ofSeries N _ _ _ _ _

/-- The market is sound: lows are at most opens and closes, highs at least. -/
theorem bars_sound (t : Nat) : bl t ≤ bo t ∧ bl t ≤ bc t ∧ bo t ≤ bh t ∧ bc t ≤ bh t ∧ bl t < bh t := by
  have h1 := min_le_left (bo t) (bc t)
  have h2 := min_le_right (bo t) (bc t)
  have h3 := le_max_left (bo t) (bc t)
  have h4 := le_max_right (bo t) (bc t)
  refine ⟨?_, ?_, ?_, ?_, ?_⟩ <;> simp only [bl, bh] <;> linarith

end Pace.Cases
