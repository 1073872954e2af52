import Verif.Model.Metrics
import Verif.Spec.Strategy
import Verif.Spec.Stats

/-!
# Specification vocabulary: metrics of a backtest

The metrics components are stepped once per tick with the strategy runner of the same tick; all their fields are public, so
the output of a tick is the component itself.
-/

namespace Pace
namespace Spec
variable {α : Type} [F64 α]

/-- `em t` is the equity metrics component after tick `t` of a run over the strategy states `st`. -/
def EquityRun (d : DataProvider α) (cap : α) (st : Nat → Strategy α) (N : Nat) (em : Nat → EquityMetrics α) : Prop :=
  Runs (fun t s x => do let s ← EquityMetrics.next ⟨d, t⟩ s x; return (s, s)) (.ok (EquityMetrics.new cap)) st N em

/-- `tv t` is the TradingView metrics component after tick `t`. -/
def TvRun (d : DataProvider α) (cfg : StrategyConfig α) (rfr : α) (st : Nat → Strategy α) (N : Nat) (tv : Nat → TvMetrics α) : Prop :=
  Runs (fun t s x => do let s ← TvMetrics.next ⟨d, t⟩ s x; return (s, s)) (.ok (TvMetrics.new (Strategy.new cfg) rfr)) st N tv

/-- `co t` is the Cobra metrics component after tick `t`; `year t` is the year of bar `t` (missing if the bar has no time). -/
def CobraRun (d : DataProvider α) (cfg : StrategyConfig α) (estimated : Bool) (startYear : Option Int) (year : Nat → Option Int)
    (st : Nat → Strategy α) (N : Nat) (co : Nat → CobraMetrics α) : Prop :=
  Runs (fun t s x => do let s ← CobraMetrics.next ⟨d, t⟩ (year t) s x; return (s, s))
    (.ok (CobraMetrics.new (Strategy.new cfg) estimated startYear)) st N co

/-- A trade was closed on tick `t`. -/
def exited (st : Nat → Strategy α) (t : Nat) : Bool := (st t).events.onTradeExit.isSome

/-- The ticks up to `t` on which a trade was closed. -/
def exits (st : Nat → Strategy α) (t : Nat) : List Nat := (List.range (t + 1)).filter (exited st)

/-- Least element in the sense of `f64::min`, starting from `a`. -/
def runMin (a : α) (l : List α) : α := l.foldl F64.fmin a
/-- Greatest element in the sense of `f64::max`, starting from `a`. -/
def runMax (a : α) (l : List α) : α := l.foldl F64.fmax a
/-- The same with the arguments of `f64::max` the other way round. -/
def runMax' (a : α) (l : List α) : α := l.foldl (fun m x => F64.fmax x m) a
/-- The same with the arguments of `f64::min` the other way round. -/
def runMin' (a : α) (l : List α) : α := l.foldl (fun m x => F64.fmin x m) a

/-- The capital plus the realised profit after tick `t`; the capital itself before the first closed trade. -/
def netEquity (cfg : StrategyConfig α) (s : Strategy α) : α :=
  if s.metrics.closedTrades = 0 then cfg.initialCapital else cfg.initialCapital + s.metrics.netProfit

/-- A quotient that is 0 for a zero denominator. -/
def ratio {K : Type} [Field K] [DecidableEq K] (a b : K) : K := if b = 0 then 0 else a / b

/-- Relative change from `p` to `c`; 0 if one of them is 0. -/
def relChange {K : Type} [Field K] [DecidableEq K] (c p : K) : K := if p = 0 ∨ c = 0 then 0 else c / p - 1

/-- The variance a statistics component reports: population variance, or (estimated) sample variance, 0 for one value. -/
def variance {K : Type} [Field K] (estimated : Bool) (l : List K) : K :=
  if estimated then (if l.length ≤ 1 then 0 else sampleVar l) else popVar l

end Spec

/-- A bar counts for the returns: there is no start year or the bar's year is not before it. -/
def counted (startYear : Option Int) (year : Option Int) : Bool :=
  match startYear, year with
  | none, _ => true
  | some y, some b => decide (y ≤ b)
  | some _, none => false

end Pace
