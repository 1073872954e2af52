import Verif.Props.Strategy

/-!
# Filling at the close and filling at the next open (C90)

Any arithmetic, any mode and any sizing.
-/

set_option linter.unusedSectionVars false

namespace Pace
open Spec

namespace Spec
variable {α : Type}

/-- The same trade one tick later. -/
def later (T : Trade α) : Trade α :=
  { T with entryTick := T.entryTick.map (· + 1), exitTick := T.exitTick.map (· + 1) }

/-- Every bar opens where the one before closed (and is missing where that is missing). -/
def NoGaps (d : DataProvider α) (N : Nat) : Prop := ∀ t, t + 1 < N → d.open_[t + 1]? = d.close[t]?

end Spec

section any
variable {α : Type} [F64 α] {cfg cfg' : StrategyConfig α} {d : DataProvider α} {sig : Nat → Option TradeDirection} {N : Nat}
  {st st' : Nat → Strategy α}

private def holdLater (x : Holding α) : Holding α := { x with tick := x.tick + 1 }
private def closedLater (c : Closed α) : Closed α := ⟨holdLater c.pos, c.exitTick + 1, c.exitPrice⟩
private def ledgerLater (L : Ledger α) : Ledger α := ⟨L.closed.map closedLater, L.opened.map holdLater⟩

private theorem realised_later (L : Ledger α) : (ledgerLater L).realised = L.realised := by
  simp only [Ledger.realised, ledgerLater, List.map_map]
  rfl

private theorem enter_later (h2 : cfg'.buyWithEquity = cfg.buyWithEquity) (h3 : cfg'.initialCapital = cfg.initialCapital) (L : Ledger α)
    (t : Nat) (p : α) (dir : TradeDirection) :
    (ledgerLater L).enter cfg' (t + 1) p dir = ledgerLater (L.enter cfg t p dir) := by
  simp only [Ledger.enter, realised_later, h2, h3]
  rfl

private theorem tick_later (h1 : cfg'.continous = cfg.continous) (h2 : cfg'.buyWithEquity = cfg.buyWithEquity)
    (h3 : cfg'.initialCapital = cfg.initialCapital) (L : Ledger α) (t : Nat) (p : α) (o : Option TradeDirection) :
    (ledgerLater L).tick cfg' (t + 1) p o = ledgerLater (L.tick cfg t p o) := by
  obtain ⟨l, x⟩ := L
  rcases o with _ | dir
  · rfl
  · rcases x with _ | x
    · exact enter_later h2 h3 ⟨l, none⟩ t p dir
    · by_cases hd : dir = x.dir
      · simp [Ledger.tick, ledgerLater, holdLater, hd]
      · have e := enter_later h2 h3 ⟨l ++ [⟨x, t, p⟩], none⟩ t p dir
        simp only [Ledger.tick, ledgerLater, holdLater, hd, Option.map_some, if_false, h1] at e ⊢
        cases cfg.continous
        · simp [closedLater, holdLater]
        · simpa [ledgerLater, holdLater, closedLater] using e

private theorem events_later (h1 : cfg'.continous = cfg.continous) (h2 : cfg'.buyWithEquity = cfg.buyWithEquity)
    (h3 : cfg'.initialCapital = cfg.initialCapital) (L : Ledger α) (t : Nat) (p : α) (o : Option TradeDirection) :
    tickEvents cfg' (ledgerLater L) (t + 1) p o =
      ⟨(tickEvents cfg L t p o).onTradeEntry.map later, (tickEvents cfg L t p o).onTradeExit.map later⟩ := by
  obtain ⟨l, x⟩ := L
  rcases o with _ | dir
  · rfl
  · rcases x with _ | x
    · have e := enter_later h2 h3 ⟨l, none⟩ t p dir
      simp only [tickEvents, ledgerLater, Option.map_none] at e ⊢
      rw [e]
      rfl
    · by_cases hd : dir = x.dir
      · simp [tickEvents, ledgerLater, holdLater, hd]
      · have e := enter_later h2 h3 ⟨l ++ [⟨x, t, p⟩], none⟩ t p dir
        simp only [tickEvents, ledgerLater, Option.map_some] at e ⊢
        rw [if_neg (show dir ≠ (holdLater x).dir from hd), if_neg hd, h1]
        simp only [List.map_append, List.map_cons, List.map_nil, closedLater, Option.map_none] at e
        cases cfg.continous
        · rfl
        · simp only [if_true, e]
          rfl

private theorem trades_later (L : Ledger α) : (ledgerLater L).trades = L.trades.map later := by
  obtain ⟨l, x⟩ := L
  cases x with
  | none => simp only [Ledger.trades, ledgerLater, List.map_map, List.map_append]; rfl
  | some x => simp only [Ledger.trades, ledgerLater, List.map_map, List.map_append]; rfl

private theorem ledger_later (hg : NoGaps d N) (h0 : cfg.onBarClose = true) (h0' : cfg'.onBarClose = false)
    (h1 : cfg'.continous = cfg.continous) (h2 : cfg'.buyWithEquity = cfg.buyWithEquity)
    (h3 : cfg'.initialCapital = cfg.initialCapital) {n : Nat} (hn : n < N) :
    ledger cfg' d sig (n + 1) = ledgerLater (ledger cfg d sig n) := by
  induction n with
  | zero => simp [ledger, order, h0', Ledger.tick, ledgerLater]
  | succ n ih =>
    rw [ledger, ih (by omega), ledger, ← tick_later h1 h2 h3]
    congr 1
    · simp [fillPrice, h0, h0', hg n hn]
    · simp [order, h0, h0']

private theorem bookMetrics_later (h3 : cfg'.initialCapital = cfg.initialCapital) (l : List (Closed α)) :
    bookMetrics cfg' (l.map closedLater) = bookMetrics cfg l := by
  rw [bookMetrics, List.foldl_map, h3]
  rfl

/-- **C90.** If every bar opens where the one before closed, then filling at the next open is filling at the close one bar later. With the
same signals and otherwise the same settings, the run that fills at the open has after tick `t+1` the trades that the run that fills at
the close has after tick `t`, with the same prices, sizes and profits and all ticks one later; it reports the same trades entered and
closed, and all its statistics are the same except those that depend on the current price: the open profit and the equity. -/
theorem C90_one_bar_later (hg : NoGaps d N) (h0 : cfg.onBarClose = true) (h0' : cfg'.onBarClose = false)
    (h1 : cfg'.continous = cfg.continous) (h2 : cfg'.buyWithEquity = cfg.buyWithEquity) (h3 : cfg'.initialCapital = cfg.initialCapital)
    (H : Backtest cfg d sig N st) (H' : Backtest cfg' d sig N st') {t : Nat} (ht : t + 1 < N) :
    (st' (t + 1)).trades = (st t).trades.map later ∧
    (st' (t + 1)).events = ⟨(st t).events.onTradeEntry.map later, (st t).events.onTradeExit.map later⟩ ∧
    (st' (t + 1)).metrics = { (st t).metrics with
      equity := (st' (t + 1)).metrics.equity, openProfit := (st' (t + 1)).metrics.openProfit } := by
  have a := backtest_done H t (by omega)
  have b := backtest_done H' (t + 1) ht
  have hp : fillPrice cfg' d (t + 1) = fillPrice cfg d t := by simp [fillPrice, h0, h0', hg t ht]
  have ho : order cfg' sig (t + 1) = order cfg sig t := by simp [order, h0, h0']
  have hL := ledger_later (sig := sig) hg h0 h0' h1 h2 h3 (show t < N by omega)
  have b1 := b.books
  have b3 := b.events
  rw [hL, hp, ho] at b1 b3
  rw [tick_later h1 h2 h3] at b1
  rw [events_later h1 h2 h3] at b3
  refine ⟨?_, ?_, ?_⟩
  · rw [b1.trades, a.books.trades, trades_later]
  · rw [b3, a.events]
  · rw [b1.metrics, a.books.metrics]
    simp only [ledgerLater, bookMetrics_later h3]

/-- **C90.** On such data the run that fills at the open sits out the first bar: it has no trade after tick 0. -/
theorem C90_first_bar (h0' : cfg'.onBarClose = false) (H' : Backtest cfg' d sig N st') (hN : 0 < N) :
    (st' 0).trades = [] ∧ (st' 0).events = ⟨none, none⟩ := by
  have b := backtest_done H' 0 hN
  have b1 := b.books.trades
  have b3 := b.events
  have ho : order cfg' sig 0 = none := by simp [order, h0']
  rw [ho] at b1 b3
  exact ⟨b1, b3⟩

end any
end Pace
