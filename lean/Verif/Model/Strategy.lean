import Verif.Model.Statistics

/-!
# strategy: trades, strategy runner and basic metrics
-/

namespace Pace

/-- `enum TradeDirection`, strategy/trade.rs:3-7 -/
inductive TradeDirection where
  | long | short
  deriving DecidableEq, Repr

/-- strategy/trade.rs:10-15 -/
def TradeDirection.getOpposite : TradeDirection → TradeDirection
  | .long => .short
  | .short => .long

section
variable {α : Type} [F64 α]

/-- strategy/trade.rs:18-24 -/
def tradeDirectionToF64 : Option TradeDirection → α
  | some .long => lit 1
  | some .short => -(lit 1)
  | none => lit 0

/-- strategy/trade.rs:26-39 -/
def tradeDirectionFromF64 : Option α → Option TradeDirection
  | some v =>
    if F64.feq v (lit 1) then some .long
    else if F64.feq v (-(lit 1)) then some .short
    else none
  | none => none

/-- strategy/trade.rs:135-138 -/
def tradePnl (fillSize fillPrice currentPrice : α) (isLong : Bool) : α :=
  let multiplier : α := if isLong then lit 1 else -(lit 1)
  (currentPrice - fillPrice) * fillSize * multiplier

/-- strategy/trade.rs:140-145 -/
def fillSize (equity currentPrice : α) : α :=
  if F64.le equity (lit 0) || F64.le currentPrice (lit 0) then lit 0
  else equity / currentPrice
end

/-- `struct Trade`, strategy/trade.rs:42-51 -/
structure Trade (α : Type) where
  direction : TradeDirection
  isClosed : Bool
  entryTick : Option Nat
  entryPrice : Option α
  exitTick : Option Nat
  exitPrice : Option α
  fillSize : Option α
  pnlField : α
  deriving DecidableEq, Repr

namespace Trade
variable {α : Type} [F64 α]

/-- strategy/trade.rs:54-65 -/
def new (direction : TradeDirection) : Trade α :=
  { direction, isClosed := false, entryPrice := none, entryTick := none, exitPrice := none,
    exitTick := none, fillSize := none, pnlField := lit 0 }

/-- strategy/trade.rs:67-74 -/
def pnl (t : Trade α) (currentPrice : α) : Res α := do
  let fs ← unwrap t.fillSize
  let ep ← unwrap t.entryPrice
  return tradePnl fs ep currentPrice (decide (t.direction = .long))

/-- strategy/trade.rs:76-78 -/
def isAtEntry (t : Trade α) (currentTick : Nat) : Bool := t.entryTick == some currentTick
/-- strategy/trade.rs:80-82 -/
def isAtExit (t : Trade α) (currentTick : Nat) : Bool := t.exitTick == some currentTick
/-- strategy/trade.rs:84-86 -/
def isActive (t : Trade α) : Bool := t.entryTick.isSome && !t.isClosed
end Trade

/-- `struct StrategyConfig`, strategy/strategy.rs:23-32 -/
structure StrategyConfig (α : Type) where
  onBarClose : Bool
  continous : Bool
  initialCapital : α
  buyWithEquity : Bool

/-- `StrategyConfig::default`, strategy/strategy.rs:34-43 -/
def StrategyConfig.default {α : Type} [F64 α] : StrategyConfig α :=
  { buyWithEquity := false, continous := true, onBarClose := false, initialCapital := lit 1000 }

/-- `struct StrategyMetrics`, strategy/strategy.rs:46-66 -/
structure StrategyMetrics (α : Type) where
  equity : α
  netProfit : α
  openProfit : α
  grossProfit : α
  grossLoss : α
  closedTrades : Nat
  winningTrades : Nat
  losingTrades : Nat
  longNetProfit : α
  shortNetProfit : α
  deriving DecidableEq, Repr

/-- `StrategyMetrics::default`, strategy/strategy.rs:69-82 -/
def StrategyMetrics.default {α : Type} [F64 α] (initialCapital : α) : StrategyMetrics α :=
  { equity := initialCapital, netProfit := lit 0, openProfit := lit 0, closedTrades := 0,
    grossLoss := lit 0, grossProfit := lit 0, losingTrades := 0, winningTrades := 0,
    longNetProfit := lit 0, shortNetProfit := lit 0 }

/-- `struct StrategyEvents`, strategy/strategy.rs:10-21: the trades carried by the entry and exit events. -/
structure StrategyEvents (α : Type) where
  onTradeEntry : Option (Trade α)
  onTradeExit : Option (Trade α)
  deriving DecidableEq, Repr

/-- `struct Strategy`, strategy/strategy.rs:86-93.  The trades vector is in push order. -/
structure Strategy (α : Type) where
  config : StrategyConfig α
  trades : List (Trade α)
  unfilled : Option TradeDirection
  events : StrategyEvents α
  metrics : StrategyMetrics α

namespace Strategy
variable {α : Type} [F64 α]

/-- strategy/strategy.rs:96-108 -/
def new (config : StrategyConfig α) : Strategy α :=
  { config, trades := [], unfilled := none, events := ⟨none, none⟩,
    metrics := .default config.initialCapital }

/-- The metric updates of a closing trade, strategy/strategy.rs:158-175. -/
def closeMetrics (m : StrategyMetrics α) (direction : TradeDirection) (pnl : α) :
    StrategyMetrics α :=
  let m := { m with netProfit := m.netProfit + pnl }
  let m := { m with openProfit := lit 0 }
  let m :=
    if fgt pnl (lit 0) then
      { m with grossProfit := m.grossProfit + pnl, winningTrades := m.winningTrades + 1 }
    else if F64.lt pnl (lit 0) then
      { m with grossLoss := m.grossLoss + F64.abs pnl, losingTrades := m.losingTrades + 1 }
    else m
  let m :=
    if direction = .long then { m with longNetProfit := m.longNetProfit + pnl }
    else { m with shortNetProfit := m.shortNetProfit + pnl }
  { m with closedTrades := m.closedTrades + 1 }

/-- Closing the last trade, strategy/strategy.rs:148-176. -/
def closeLast (s : Strategy α) (lastTrade : Trade α) (price : Option α) (tick : Nat) :
    Res (Strategy α) := do
  let t := { lastTrade with exitPrice := price, exitTick := some tick, isClosed := true }
  let pnl ← t.pnl (← unwrap t.exitPrice)
  let t := { t with pnlField := pnl }
  return { s with
    trades := s.trades.dropLast ++ [t]
    events := { s.events with onTradeExit := some t }
    metrics := closeMetrics s.metrics t.direction pnl }

/-- Creating a trade, strategy/strategy.rs:181-199. -/
def openNew (s : Strategy α) (direction : TradeDirection) (price : Option α) (tick : Nat) :
    Res (Strategy α) := do
  let trade : Trade α := Trade.new direction
  let trade := { trade with fillSize := some (lit 1) }
  let trade ←
    if s.config.buyWithEquity then do
      let equity := s.config.initialCapital + s.metrics.netProfit + s.metrics.openProfit
      let p ← unwrap price
      pure { trade with fillSize := some (Pace.fillSize equity p) }
    else pure trade
  let trade := { trade with entryPrice := price, entryTick := some tick }
  return { s with trades := s.trades ++ [trade],
                  events := { s.events with onTradeEntry := some trade } }

/-- Filling a pending order, strategy/strategy.rs:124-202. -/
def fill (s : Strategy α) (direction : TradeDirection) (tick : Nat) (open_ close : Option α) :
    Res (Strategy α) := do
  let price := if s.config.onBarClose then close else open_
  let (s, createNew) ←
    match s.trades.getLast? with
    | some last => do
      let isSame := decide (last.direction = direction)
      let closeTrade := !isSame && !last.isClosed
      let createNew :=
        if s.config.continous then !isSame && closeTrade
        else last.isClosed && (isSame || !isSame && !closeTrade)
      let s ← if closeTrade then s.closeLast last price tick else pure s
      pure (s, createNew)
    | none => pure (s, true)
  let s ← if createNew then s.openNew direction price tick else pure s
  return { s with unfilled := none }

/-- Marking to market, strategy/strategy.rs:208-216. -/
def markToMarket (s : Strategy α) (close : Option α) : Res (Strategy α) := do
  let openProfit ←
    match s.trades.getLast? with
    | some last => if !last.isClosed then last.pnl (← unwrap close) else pure s.metrics.openProfit
    | none => pure s.metrics.openProfit
  let m := { s.metrics with openProfit := openProfit }
  return { s with metrics :=
    { m with equity := s.config.initialCapital + m.netProfit + m.openProfit } }

/-- `Strategy::next`, strategy/strategy.rs:111-217 -/
def next (c : Ctx α) (s : Strategy α) (direction : Option TradeDirection) : Res (Strategy α) := do
  let tick := c.index
  let open_ ← c.barOpen
  let close ← c.barClose
  let s := if s.config.onBarClose then { s with unfilled := direction } else s
  let s := { s with events := ⟨none, none⟩ }
  let s ←
    match s.unfilled with
    | some d => s.fill d tick open_ close
    | none => pure s
  let s := if !s.config.onBarClose then { s with unfilled := direction } else s
  s.markToMarket close

/-- A run over the first `n` ticks of the data; the observable output of a tick is the strategy itself (all its
fields are public). -/
def steps (d : DataProvider α) (t : Nat) (s : Strategy α) (dir : Option TradeDirection) :
    Res (Strategy α × Strategy α) := do
  let s ← s.next ⟨d, t⟩ dir
  return (s, s)

end Strategy
end Pace
