import Verif.Model.Strategy
import Verif.Spec.Data

/-!
# Specification vocabulary: backtests

A position state machine that says which trades a sequence of orders produces, independently of how the runner keeps its
books.  From the model only `TradeDirection`, the configuration record, the trade record and the entry point `Strategy.next`
are used.
-/

namespace Pace
namespace Spec
variable {α : Type} [F64 α]

/-- `st t` is the complete public state of the strategy runner after tick `t`, when it is created with `cfg` and given the
signals `sig 0, sig 1, ...` on the ticks `0, 1, ..., N-1`; the run does not panic. -/
def Backtest (cfg : StrategyConfig α) (d : DataProvider α) (sig : Nat → Option TradeDirection) (N : Nat)
    (st : Nat → Strategy α) : Prop :=
  Runs (fun t s dir => do let s ← Strategy.next ⟨d, t⟩ s dir; return (s, s)) (.ok (Strategy.new cfg)) sig N st

/-- The other direction. -/
def opposite : TradeDirection → TradeDirection
  | .long => .short
  | .short => .long

/-- The order that is executed on tick `t`: the signal of the same tick if orders fill at the bar's close, the signal of
the previous tick if they fill at the next bar's open. -/
def order (cfg : StrategyConfig α) (sig : Nat → Option TradeDirection) (t : Nat) : Option TradeDirection :=
  if cfg.onBarClose then sig t else if t = 0 then none else sig (t - 1)

/-- The price at which an order is executed on tick `t` (0 if it is missing). -/
def fillPrice (cfg : StrategyConfig α) (d : DataProvider α) (t : Nat) : α :=
  (((if cfg.onBarClose then d.close[t]? else d.open_[t]?).join).getD (lit 0))

/-- A position: entered on tick `tick` at `price`. -/
structure Holding (α : Type) where
  dir : TradeDirection
  tick : Nat
  price : α
  size : α

/-- Profit of a position at price `q`. -/
def Holding.profit (x : Holding α) (q : α) : α :=
  (q - x.price) * x.size * (match x.dir with | .long => lit 1 | .short => -(lit 1))

/-- A position that was closed on tick `exitTick` at `exitPrice`. -/
structure Closed (α : Type) where
  pos : Holding α
  exitTick : Nat
  exitPrice : α

/-- Realised profit. -/
def Closed.profit (x : Closed α) : α := x.pos.profit x.exitPrice

/-- The closed positions in the order in which they were closed, and the open position. -/
structure Ledger (α : Type) where
  closed : List (Closed α)
  opened : Option (Holding α)

/-- Sum of all realised profits, in closing order. -/
def Ledger.realised (L : Ledger α) : α := fsum (L.closed.map Closed.profit)

/-- Enter a position of direction `dir` at `price`: one unit, or as many units as the realised equity buys. -/
def Ledger.enter (cfg : StrategyConfig α) (L : Ledger α) (t : Nat) (price : α) (dir : TradeDirection) : Ledger α :=
  let equity := cfg.initialCapital + L.realised + lit 0
  let size :=
    if cfg.buyWithEquity then
      (if F64.le equity (lit 0) || F64.le price (lit 0) then lit 0 else equity / price)
    else lit 1
  { L with opened := some ⟨dir, t, price, size⟩ }

/-- One tick of the state machine with order `o` executed at `price`. -/
def Ledger.tick (cfg : StrategyConfig α) (L : Ledger α) (t : Nat) (price : α) (o : Option TradeDirection) : Ledger α :=
  match o, L.opened with
  | none, _ => L
  | some dir, none => L.enter cfg t price dir
  | some dir, some x =>
    if dir = x.dir then L
    else
      let flat : Ledger α := ⟨L.closed ++ [⟨x, t, price⟩], none⟩
      if cfg.continous then flat.enter cfg t price dir else flat

/-- The ledger after the ticks `0, ..., n-1`. -/
def ledger (cfg : StrategyConfig α) (d : DataProvider α) (sig : Nat → Option TradeDirection) : Nat → Ledger α
  | 0 => ⟨[], none⟩
  | t + 1 => (ledger cfg d sig t).tick cfg t (fillPrice cfg d t) (order cfg sig t)

/-- An open position as the trade record of the API. -/
def Holding.toTrade (x : Holding α) : Trade α :=
  { direction := x.dir, isClosed := false, entryTick := some x.tick, entryPrice := some x.price, exitTick := none,
    exitPrice := none, fillSize := some x.size, pnlField := lit 0 }

/-- A closed position as the trade record of the API. -/
def Closed.toTrade (x : Closed α) : Trade α :=
  { direction := x.pos.dir, isClosed := true, entryTick := some x.pos.tick, entryPrice := some x.pos.price,
    exitTick := some x.exitTick, exitPrice := some x.exitPrice, fillSize := some x.pos.size, pnlField := x.profit }

/-- The trade list of the API: closed positions, then the open one. -/
def Ledger.trades (L : Ledger α) : List (Trade α) := L.closed.map Closed.toTrade ++ (L.opened.map Holding.toTrade).toList

end Spec
end Pace
