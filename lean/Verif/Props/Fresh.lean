import Verif.Props.Strategy
import Verif.Lemmas.Trace

/-!
# Newly created components (C36, C42) and the moving-average selector (C53)
-/

set_option linter.unusedSectionVars false

namespace Pace
open Spec
variable {α : Type} [F64 α]

/-- **C36.** A trade record that was never entered is not active, not closed, and at neither its entry nor its exit, on
any tick; asking for its profit panics, because it has no entry price. -/
theorem C36_new_trade (dir : TradeDirection) (tick : Nat) (price : α) :
    (Trade.new dir : Trade α).direction = dir ∧ (Trade.new dir : Trade α).isActive = false ∧
    (Trade.new dir : Trade α).isClosed = false ∧ (Trade.new dir : Trade α).isAtEntry tick = false ∧
    (Trade.new dir : Trade α).isAtExit tick = false ∧ ¬ ∃ p, (Trade.new dir : Trade α).pnl price = .ok p := by
  refine ⟨rfl, rfl, rfl, rfl, rfl, ?_⟩
  rintro ⟨p, h⟩
  cases h

/-- **C36.** The trade queries of the API on the trades of a run: a trade is at its entry on exactly its entry tick, at its
exit on exactly its exit tick, and never both on one tick. -/
theorem C36_entry_exit {cfg : StrategyConfig α} {d : DataProvider α} {sig : Nat → Option TradeDirection} {N : Nat}
    {st : Nat → Strategy α} (h : Backtest cfg d sig N st) {t : Nat} (ht : t < N) {T : Trade α} (hT : T ∈ (st t).trades)
    (k : Nat) :
    (T.isAtEntry k = true ↔ T.entryTick = some k) ∧ (T.isAtExit k = true ↔ T.exitTick = some k) ∧
    ¬ (T.isAtEntry k = true ∧ T.isAtExit k = true) := by
  have h1 : T.isAtEntry k = true ↔ T.entryTick = some k := by simp [Trade.isAtEntry]
  have h2 : T.isAtExit k = true ↔ T.exitTick = some k := by simp [Trade.isAtExit]
  refine ⟨h1, h2, ?_⟩
  rintro ⟨a, b⟩
  have := (C37_order h ht).1 T hT k k (h1.mp a) (h2.mp b)
  omega

/-- **C42.** Before the first tick the strategy holds exactly its initial capital, has no trades, no pending order, no
events, and all its counters are zero. -/
theorem C42_start (cfg : StrategyConfig α) :
    (Strategy.new cfg).metrics.equity = cfg.initialCapital ∧ (Strategy.new cfg).trades = [] ∧
    (Strategy.new cfg).unfilled = none ∧ (Strategy.new cfg).events.onTradeEntry = none ∧
    (Strategy.new cfg).events.onTradeExit = none ∧ (Strategy.new cfg).metrics.netProfit = lit 0 ∧
    (Strategy.new cfg).metrics.openProfit = lit 0 ∧ (Strategy.new cfg).metrics.grossProfit = lit 0 ∧
    (Strategy.new cfg).metrics.grossLoss = lit 0 ∧ (Strategy.new cfg).metrics.longNetProfit = lit 0 ∧
    (Strategy.new cfg).metrics.shortNetProfit = lit 0 ∧ (Strategy.new cfg).metrics.closedTrades = 0 ∧
    (Strategy.new cfg).metrics.winningTrades = 0 ∧ (Strategy.new cfg).metrics.losingTrades = 0 :=
  ⟨rfl, rfl, rfl, rfl, rfl, rfl, rfl, rfl, rfl, rfl, rfl, rfl, rfl, rfl⟩

/-! ## The selector -/

theorem runFrom_map {S S' I O : Type} {step : Nat → S → I → Res (O × S)} {step' : Nat → S' → I → Res (O × S')} (f : S → S')
    (hf : ∀ t s i, step' t (f s) i = (step t s i).map fun p => (p.1, f p.2)) (x : Nat → I) (n : Nat) :
    ∀ t s, runFrom step' x t n (f s) = (runFrom step x t n s).map fun p => (p.1, f p.2) := by
  induction n with
  | zero => intro t s; rfl
  | succ n ih =>
    intro t s
    simp only [runFrom, hf]
    cases h : step t s (x t) with
    | error e => rfl
    | ok p =>
      obtain ⟨o, s'⟩ := p
      have := ih (t + 1) s'
      simp only [Except.map, Res.ok_bind, this]
      cases runFrom step x (t + 1) n s' with
      | error e => rfl
      | ok q => rfl

theorem outputs_map {S S' I O : Type} {step : Nat → S → I → Res (O × S)} {step' : Nat → S' → I → Res (O × S')} (f : S → S')
    (hf : ∀ t s i, step' t (f s) i = (step t s i).map fun p => (p.1, f p.2)) (x : Nat → I) (n : Nat) (s0 : Res S) :
    outputs step' x n (s0.map f) = outputs step x n s0 := by
  cases s0 with
  | error e => rfl
  | ok s =>
    simp only [outputs, Except.map, Res.ok_bind, run, runFrom_map f hf]
    cases runFrom step x 0 n s with
    | error e => rfl
    | ok q => rfl

variable (d : DataProvider α)

/-- **C53.** The moving average chosen by kind behaves, panics included, exactly as the chosen average of that length (the
symmetrically weighted one has a fixed length). -/
theorem C53_ma (len : Nat) (x : Nat → Option α) (N : Nat) :
    outputs (fun t s v => Ma.next ⟨d, t⟩ s v) x N (Ma.new .sma len) =
      outputs (fun t s v => Sma.next ⟨d, t⟩ s v) x N (Sma.new len) ∧
    outputs (fun t s v => Ma.next ⟨d, t⟩ s v) x N (Ma.new .ema len) =
      outputs (fun t s v => Ema.next ⟨d, t⟩ s v) x N (Ema.new len) ∧
    outputs (fun t s v => Ma.next ⟨d, t⟩ s v) x N (Ma.new .rma len) =
      outputs (fun t s v => Rma.next ⟨d, t⟩ s v) x N (Rma.new len) ∧
    outputs (fun t s v => Ma.next ⟨d, t⟩ s v) x N (Ma.new .swma len) =
      outputs (fun t s v => Swma.next ⟨d, t⟩ s v) x N Swma.new := by
  refine ⟨?_, ?_, ?_, ?_⟩
  · rw [← outputs_map (step' := fun t s v => Ma.next ⟨d, t⟩ s v) Ma.sma (fun t s i => ?_)]
    · congr 1
    · dsimp only [Ma.next]; cases Sma.next ⟨d, t⟩ s i <;> rfl
  · rw [← outputs_map (step' := fun t s v => Ma.next ⟨d, t⟩ s v) Ma.ema (fun t s i => ?_)]
    · congr 1
    · dsimp only [Ma.next]; cases Ema.next ⟨d, t⟩ s i <;> rfl
  · rw [← outputs_map (step' := fun t s v => Ma.next ⟨d, t⟩ s v) Ma.rma (fun t s i => ?_)]
    · congr 1
    · dsimp only [Ma.next]; cases Rma.next ⟨d, t⟩ s i <;> rfl
  · rw [← outputs_map (step' := fun t s v => Ma.next ⟨d, t⟩ s v) Ma.swma (fun t s i => ?_)]
    · congr 1
    · dsimp only [Ma.next]; cases Swma.next ⟨d, t⟩ s i <;> rfl

end Pace
