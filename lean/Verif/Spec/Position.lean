import Verif.Spec.Strategy
import Verif.Spec.Content
import Mathlib.Algebra.Order.Field.Basic
import Mathlib.Algebra.BigOperators.Group.Finset.Basic
import Mathlib.Data.Finset.Range

/-!
# Specification vocabulary: the position of a backtest and its value

What a backtest earns, said with the position held and the prices only: no trades, no books.
-/

namespace Pace
namespace Spec

/-- One unit long or one unit short. -/
def side : TradeDirection → ℤ
  | .long => 1
  | .short => -1

/-- The position after one more order: no order and an order in the direction of the position leave it as it is; from flat an
order opens a position; an order against the position reverses it (continuous mode) or closes it. -/
def moved (continous : Bool) (p : ℤ) : Option TradeDirection → ℤ
  | none => p
  | some dir =>
    if p = 0 then side dir
    else if p = side dir then p
    else if continous then side dir else 0

/-- The position after the ticks `0, ..., n-1`. -/
def held {α : Type} [F64 α] (cfg : StrategyConfig α) (sig : Nat → Option TradeDirection) : Nat → ℤ
  | 0 => 0
  | t + 1 => moved cfg.continous (held cfg sig t) (order cfg sig t)

/-- The prices at which orders fill: the bar's close, or the bar's open. -/
def fillSeries {α K : Type} (cfg : StrategyConfig α) (o c : Nat → K) : Nat → K := if cfg.onBarClose then c else o

/-- What positions earn up to the close of tick `t`, when `p k` is held from the fill on tick `k` on and fills happen at the
prices `f`: each position times the price change while it is held, the last one up to the close `c t`. -/
def earned {K : Type} [Field K] (p : Nat → ℤ) (f c : Nat → K) (t : Nat) : K :=
  (∑ k ∈ Finset.range t, (p k : K) * (f (k + 1) - f k)) + (p t : K) * (c t - f t)

/-- By how much a position that was entered at `entry`, for all the equity there was, has multiplied that equity at price `q`. -/
def growth {K : Type} [Field K] (dir : TradeDirection) (entry q : K) : K :=
  match dir with
  | .long => q / entry
  | .short => 2 - q / entry

/-- A position that was opened on tick `entry` and closed on tick `exit`. -/
structure Deal where
  dir : TradeDirection
  entry : Nat
  exit : Nat
  deriving DecidableEq

/-- The positions that the signals open and close on the ticks `0, ..., n-1`: the closed ones in closing order, and the open one
with its entry tick. No prices. -/
def deals {α : Type} [F64 α] (cfg : StrategyConfig α) (sig : Nat → Option TradeDirection) :
    Nat → List Deal × Option (TradeDirection × Nat)
  | 0 => ([], none)
  | t + 1 =>
    let (l, x) := deals cfg sig t
    match order cfg sig t, x with
    | none, x => (l, x)
    | some dir, none => (l, some (dir, t))
    | some dir, some (was, e) =>
      if dir = was then (l, some (was, e)) else (l ++ [⟨was, e, t⟩], if cfg.continous then some (dir, t) else none)

/-- What the equity `w` becomes when all of it is put into a position at price `entry` and the price is `q` now. Nothing is bought
without equity or without a positive price. -/
def grown {K : Type} [Field K] [LinearOrder K] (w : K) (dir : TradeDirection) (entry q : K) : K :=
  if 0 < w ∧ 0 < entry then w * growth dir entry q else w

/-- Initial capital `cap` after a series of positions, each for all the equity there was, filled at the prices `f`. -/
def wealth {K : Type} [Field K] [LinearOrder K] (cap : K) (f : Nat → K) (l : List Deal) : K :=
  l.foldl (fun w x => grown w x.dir (f x.entry) (f x.exit)) cap

/-- The same, with the open position at price `q`. -/
def worth {K : Type} [Field K] [LinearOrder K] (cap : K) (f : Nat → K) (x : List Deal × Option (TradeDirection × Nat)) (q : K) : K :=
  match x.2 with
  | none => wealth cap f x.1
  | some (dir, e) => grown (wealth cap f x.1) dir (f e) q

/-- What closed positions of one unit have earned at the fill prices `f`. -/
def booked {K : Type} [Field K] (f : Nat → K) (l : List Deal) : K := (l.map fun x => (side x.dir : K) * (f x.exit - f x.entry)).sum

end Spec
end Pace
