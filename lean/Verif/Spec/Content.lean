import Verif.Num
import Verif.Spec.Series
import Verif.Spec.Data

/-!
# Specification vocabulary: combinations of possibly missing values

Nothing here refers to the model of the code.
-/

namespace Pace

/-- Applying a ternary operation to three possibly missing values: missing if one is missing. -/
def opt3 {β γ δ ε : Type} (f : β → γ → δ → ε) : Option β → Option γ → Option δ → Option ε
  | some a, some b, some c => some (f a b c)
  | _, _, _ => none

/-- Applying an operation to four possibly missing values: missing if one is missing. -/
def opt4 {β γ δ ε ζ : Type} (f : β → γ → δ → ε → ζ) : Option β → Option γ → Option δ → Option ε → Option ζ
  | some a, some b, some c, some d => some (f a b c d)
  | _, _, _, _ => none

namespace Spec
variable {α : Type} [F64 α]

/-- The quotient of two possibly missing floats: missing if one is missing or the divisor equals 0. -/
def safeDiv (a b : Option α) : Option α :=
  (opt2 (fun a b => if F64.feq b (lit 0) then none else some (a / b)) a b).join

/-- The value of the previous tick, missing on the first. -/
def prev {β : Type} (x : Nat → Option β) : Nat → Option β
  | 0 => none
  | t + 1 => x t

/-- Complete bars whose prices and volume are finite numbers. -/
def ExBars {K : Type} [RootOps K] (d : DataProvider (Ex K)) (N : Nat) (o h l c v : Nat → K) : Prop :=
  Bars d N (fun t => fin (o t)) (fun t => fin (h t)) (fun t => fin (l t)) (fun t => fin (c t)) (fun t => fin (v t))

/-- Well-formed bars: open and close lie between low and high. -/
def WellFormed {K : Type} [LE K] (o h l c : Nat → K) : Prop :=
  ∀ t, l t ≤ o t ∧ o t ≤ h t ∧ l t ≤ c t ∧ c t ≤ h t

/-- True range of bar `t`: `high - low` on the first bar, afterwards the greatest of `high - low`,
`|high - previous close|`, `|low - previous close|`. -/
def barRange {K : Type} [Field K] [LinearOrder K] (h l c : Nat → K) : Nat → K
  | 0 => h 0 - l 0
  | t + 1 => max (max (h (t + 1) - l (t + 1)) |h (t + 1) - c t|) |l (t + 1) - c t|

/-- Wilder's running mean of length `n` of the values `u s, u (s+1), ...`, `k` ticks after it is first available: at first the
mean of the first `n` values, then at each tick moved by `1/n` of the distance to the new value. -/
def runningMean {K : Type} [Field K] (n s : Nat) (u : Nat → K) : Nat → K
  | 0 => ((List.range n).map fun i => u (s + i)).sum / n
  | k + 1 => runningMean n s u k + (u (s + n + k) - runningMean n s u k) / n

/-- Two possibly missing floats compare equal (`==`): both missing, or both present and equal. -/
def sameValue (a b : Option α) : Bool := (a.isNone && b.isNone) || ((opt2 F64.feq a b).getD false)

/-- The second of two values is present and greater than the first, which is present. -/
def rises (a b : Option α) : Bool := (opt2 (fun a b => fgt b a) a b).getD false

/-- Signed length of the run of rises (positive) or falls (negative) ending at tick `t`; 0 after an unchanged value.
The first value counts as a fall, and so does every change that is not a rise. -/
def streak (x : Nat → Option α) : Nat → Int
  | 0 => if (x 0).isSome then -1 else 0
  | t + 1 =>
    if sameValue (x t) (x (t + 1)) then 0
    else if rises (x t) (x (t + 1)) then max (streak x t) 0 + 1
    else min (streak x t) 0 - 1

end Spec
end Pace
