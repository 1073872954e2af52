import Verif.Spec.Schedule

/-!
# Specification vocabulary: panics because something is missing
-/

namespace Pace.Spec
variable {α : Type}

/-- The data has the current bar. -/
structure HasBar (c : Ctx α) : Prop where
  open_ : c.index < c.data.open_.length
  high : c.index < c.data.high.length
  low : c.index < c.data.low.length
  close : c.index < c.data.close.length
  volume : c.index < c.data.volume.length

/-- A panic because something is missing: a value (`unwrap` of `None`), or the current bar (the bar index lies outside the data). -/
def Missing (c : Ctx α) (e : Panic) : Prop := e = .unwrapNone ∨ (e = .outOfBounds ∧ ¬ HasBar c)

/-- Construction panics for nothing but an illegal parameter (a failed `assert!`); after it, calls at bars that do not go back panic for
nothing but a missing value or a bar index outside the data.  So no assertion fails, no index into a buffer of the component's own is out of
range and **no subtraction of unsigned integers goes below zero**: a build without overflow checks does the same. -/
def OnlyMissing {S I O : Type} (next : Ctx α → S → I → Res (O × S)) (new : Res S) : Prop :=
  (∀ e, new = .error e → e = .assertFailed) ∧
  ∀ st, new = .ok st → ∀ (d : DataProvider α) (τ : Nat → Nat), Monotone τ → ∀ (x : Nat → I) (N : Nat) (e : Panic),
    calls next new d τ x N = .error e → ∃ i, i < N ∧ Missing ⟨d, τ i⟩ e

end Pace.Spec
