import Verif.Spec.Content
import Verif.Model.Ta

/-!
# Specification vocabulary: when an output becomes available
-/

namespace Pace.Spec

/-- The value is missing on every tick before `s` and present from tick `s` on. -/
def StartsAt {β : Type} (s : Nat) (y : Nat → Option β) : Prop := ∀ t, (y t).isSome ↔ s ≤ t

/-- The value is missing on every tick before `s`. -/
def SilentBefore {β : Type} (s : Nat) (y : Nat → Option β) : Prop := ∀ t, t < s → y t = none

/-- Once present, the value stays present. -/
def Stays {β : Type} (y : Nat → Option β) : Prop := ∀ t, (y t).isSome → (y (t + 1)).isSome

/-- How many values a moving average of the given kind and length looks at: the symmetrically weighted one always 4. -/
def maLength : MaKind → Nat → Nat
  | .swma, _ => 4
  | _, len => len

end Pace.Spec
