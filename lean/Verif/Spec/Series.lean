import Verif.Res

/-!
# Specification vocabulary: series, windows, runs

Nothing here refers to the model of the code except `Runs`, which says what an observer of a run sees.
-/

namespace Pace

/-- The values of ticks `t+1-n, ..., t` (the last `n` up to and including tick `t`), oldest first.
Meaningful when `n ≤ t + 1`. -/
def win {β : Type} (x : Nat → β) (n t : Nat) : List β :=
  (List.range n).map fun i => x (t + 1 - n + i)

/-- The values of ticks `0, ..., n-1`, oldest first. -/
def hist {β : Type} (x : Nat → β) (n : Nat) : List β := (List.range n).map x

/-- The value `i` ticks before tick `t`, if there is such a tick and the value is present. -/
def ago {β : Type} (x : Nat → Option β) (i t : Nat) : Option β := if i ≤ t then x (t - i) else none

/-- The list of values, if all are present. -/
def allSome {β : Type} : List (Option β) → Option (List β)
  | [] => some []
  | none :: _ => none
  | some b :: l => (allSome l).map (b :: ·)

/-- A series that is missing before tick `s` and equals `g` from then on. -/
def startAt {β : Type} (s : Nat) (g : Nat → β) : Nat → Option β := fun k => if k < s then none else some (g k)

/-- All inputs of the last `len` ticks up to `t` (or of all ticks, if there were fewer) are present. -/
def WindowPresent {β : Type} (x : Nat → Option β) (len t : Nat) : Prop :=
  ∀ k, k ≤ t → t < k + len → (x k).isSome

instance {β : Type} (x : Nat → Option β) (len t : Nat) : Decidable (WindowPresent x len t) :=
  decidable_of_iff (∀ k, k < t + 1 → (t < k + len → (x k).isSome))
    ⟨fun h k hk => h k (by omega), fun h k hk => h k (by omega)⟩

/-- Applying a binary operation to two possibly missing values: missing if one is missing. -/
def opt2 {β γ δ : Type} (f : β → γ → δ) : Option β → Option γ → Option δ
  | some a, some b => some (f a b)
  | _, _ => none

/-- Created by `s0` and fed `x 0, x 1, ..., x (N-1)`, one per tick from tick 0, the component does not panic and
returns exactly `y 0, y 1, ..., y (N-1)`. -/
def Runs {S I O : Type} (step : Nat → S → I → Res (O × S)) (s0 : Res S) (x : Nat → I) (N : Nat)
    (y : Nat → O) : Prop :=
  outputs step x N s0 = .ok ((List.range N).map y)

/-- A step function that cannot panic. -/
def total {S I O : Type} (f : S → I → O × S) : Nat → S → I → Res (O × S) := fun _ s i => .ok (f s i)

/-- A step function without input. -/
def noInput {S O : Type} (f : Nat → S → Res (O × S)) : Nat → S → Unit → Res (O × S) := fun t s _ => f t s

/-- The series of no inputs. -/
def unit : Nat → Unit := fun _ => ()

end Pace
