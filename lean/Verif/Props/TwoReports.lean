import Verif.Props.Metrics3

/-!
# The TradingView report and the Cobra report of the same run (C89)

Any arithmetic in which zero equals itself.
-/

set_option linter.unusedSectionVars false

namespace Pace
open Spec
variable {α : Type} [F64 α] {cfg : StrategyConfig α} {d : DataProvider α} {sig : Nat → Option TradeDirection} {N : Nat}
  {st : Nat → Strategy α} {tv : Nat → TvMetrics α} {co : Nat → CobraMetrics α} {em : Nat → EquityMetrics α} {rfr : α} {est : Bool}
  {sy : Option Int} {year : Nat → Option Int}

private theorem tv_done (h : TvRun d cfg rfr st N tv) (t : Nat) (ht : t < N) :
    TvStep d t (st t) (prior (TvMetrics.new (Strategy.new cfg) rfr) tv t) (tv t) :=
  tv_step (selfRun_step (next := fun t s x => TvMetrics.next ⟨d, t⟩ s x) h t ht)

private theorem em_done (h : EquityRun d cfg.initialCapital st N em) (t : Nat) (ht : t < N) :
    EquityMetrics.next ⟨d, t⟩ (prior (EquityMetrics.new cfg.initialCapital) em t) (st t) = .ok (em t) :=
  selfRun_step (next := fun t s x => EquityMetrics.next ⟨d, t⟩ s x) h t ht

/-- **C89.** Both reports keep the same equity figures, whatever the risk-free rate, the estimator of the deviation and the start year: those
of an equity component of its own. -/
theorem C89_equity (htv : TvRun d cfg rfr st N tv) (hco : CobraRun d cfg est sy year st N co)
    (hem : EquityRun d cfg.initialCapital st N em) {t : Nat} (ht : t < N) :
    (tv t).equityMetrics = em t ∧ (co t).equityMetrics = em t := by
  induction t with
  | zero =>
    have h1 := (tv_done htv 0 ht).em
    have h2 := (cobraRun_step hco ht).em
    have h3 := em_done hem 0 ht
    exact ⟨Except.ok.inj (h1.symm.trans h3), Except.ok.inj (h2.symm.trans h3)⟩
  | succ t ih =>
    obtain ⟨i1, i2⟩ := ih (by omega)
    have h1 := (tv_done htv (t + 1) ht).em
    have h2 := (cobraRun_step hco ht).em
    have h3 := em_done hem (t + 1) ht
    simp only [prior] at h1 h2 h3
    rw [i1] at h1
    rw [i2] at h2
    exact ⟨Except.ok.inj (h1.symm.trans h3), Except.ok.inj (h2.symm.trans h3)⟩

/-- **C89.** After every tick the two reports show the same number of closed trades, the same share of profitable trades and the same
profit factor, although one of them recomputes them on every tick and the other one only when a trade is closed. -/
theorem C89_counts (h0 : F64.feq (lit 0 : α) (lit 0) = true) (H : Backtest cfg d sig N st) (htv : TvRun d cfg rfr st N tv)
    (hco : CobraRun d cfg est sy year st N co) {t : Nat} (ht : t < N) :
    (co t).data.trades = (tv t).data.totalClosedTrades ∧ (co t).data.profitable = (tv t).data.percentProfitable ∧
      (co t).data.profitFactor = (tv t).data.profitFactor := by
  obtain ⟨c1, c2, c3⟩ := C59_counts H hco ht
  have s := tv_done htv t ht
  refine ⟨c1.trans s.total.symm, ?_, ?_⟩
  · rw [s.percentProfitable]
    by_cases hz : (st t).metrics.closedTrades = 0
    · rw [(c2 hz).1, if_pos hz]
    · rw [(c3 hz).1, if_neg hz]
  · rw [s.profitFactor]
    by_cases hz : (st t).metrics.closedTrades = 0
    · rw [(c2 hz).2.1, if_pos]
      have hs := C40_statistics H ht
      have hl := hs.closedTrades
      rw [hz] at hl
      rw [hs.grossLoss, List.length_eq_zero_iff.mp hl.symm]
      exact h0
    · rw [(c3 hz).2.1]

end Pace
