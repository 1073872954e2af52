import Verif.Props.Metrics
import Verif.Props.Statistics

/-!
# Metrics of a backtest: C47 (exact), C48 – C50, C58, C59
-/

set_option linter.unusedSectionVars false

namespace Pace
open Spec

section
variable {α : Type} [F64 α] {cfg : StrategyConfig α} {d : DataProvider α} {sig : Nat → Option TradeDirection} {N : Nat}
  {st : Nat → Strategy α} {rfr : α} {tv : Nat → TvMetrics α}

/-! ## C49 -/

/-- **C49.** After every tick the TradingView metrics show the runner's own sums and counts. -/
theorem C49_counters (h : TvRun d cfg rfr st N tv) {t : Nat} (ht : t < N) :
    (tv t).data.netProfit = (st t).metrics.netProfit ∧ (tv t).data.grossProfit = (st t).metrics.grossProfit ∧
    (tv t).data.grossLoss = (st t).metrics.grossLoss ∧ (tv t).data.openPl = (st t).metrics.openProfit ∧
    (tv t).data.totalClosedTrades = (st t).metrics.closedTrades ∧
    (tv t).data.numberWinningTrades = (st t).metrics.winningTrades ∧
    (tv t).data.numberLosingTrades = (st t).metrics.losingTrades := by
  have s := tv_step (selfRun_step h t ht)
  exact ⟨s.netProfit, s.grossProfit, s.grossLoss, s.openPl, s.total, s.winning, s.losing⟩

/-- **C49.** Percentages are relative to the initial capital; averages are the quotients by the counts, 0 for a zero count;
the profit factor is the quotient, 0 for a zero loss. -/
theorem C49_ratios (hb : Backtest cfg d sig N st) (h : TvRun d cfg rfr st N tv) {t : Nat} (ht : t < N) :
    (tv t).data.netProfitPercent = (st t).metrics.netProfit / cfg.initialCapital ∧
    (tv t).data.grossProfitPercent = (st t).metrics.grossProfit / cfg.initialCapital ∧
    (tv t).data.grossLossPercent = (st t).metrics.grossLoss / cfg.initialCapital ∧
    (tv t).data.profitFactor = (if F64.feq (st t).metrics.grossLoss (lit 0) then lit 0
      else (st t).metrics.grossProfit / (st t).metrics.grossLoss) ∧
    (tv t).data.percentProfitable = (if (st t).metrics.closedTrades = 0 then lit 0
      else lit ((st t).metrics.winningTrades : ℚ) / lit ((st t).metrics.closedTrades : ℚ)) ∧
    (tv t).data.avgTrade = (if (st t).metrics.closedTrades = 0 then lit 0
      else (st t).metrics.netProfit / lit ((st t).metrics.closedTrades : ℚ)) ∧
    (tv t).data.avgWinningTrade = (if (st t).metrics.winningTrades = 0 then lit 0
      else (st t).metrics.grossProfit / lit ((st t).metrics.winningTrades : ℚ)) ∧
    (tv t).data.avgLosingTrade = (if (st t).metrics.losingTrades = 0 then lit 0
      else (st t).metrics.grossLoss / lit ((st t).metrics.losingTrades : ℚ)) ∧
    (tv t).data.ratioAvgWinAvgLoss = (if F64.feq (tv t).data.avgLosingTrade (lit 0) then lit 0
      else (tv t).data.avgWinningTrade / (tv t).data.avgLosingTrade) := by
  have s := tv_step (selfRun_step h t ht)
  have hc := (backtest_done hb t ht).books.config
  rw [← hc]
  exact ⟨s.netProfitPercent, s.grossProfitPercent, s.grossLossPercent, s.profitFactor, s.percentProfitable, s.avgTrade,
    s.avgWinningTrade, s.avgLosingTrade, s.ratioAvgWinAvgLoss⟩

/-- **C49.** The equity history is the capital followed by the equity of every tick; the net equity and drawdown histories
have one entry for the start and one for each closed trade, taken on the tick it was closed. -/
theorem C49_histories (hb : Backtest cfg d sig N st) (h : TvRun d cfg rfr st N tv) {t : Nat} (ht : t < N) :
    (tv t).data.equityHistory = cfg.initialCapital :: (List.range (t + 1)).map (fun k => (st k).metrics.equity) ∧
    (tv t).data.netEquityHistory = cfg.initialCapital :: (exits st t).map (fun k => (tv k).equityMetrics.netEquity) ∧
    (tv t).data.maxDrawdownHistory = lit 0 :: (exits st t).map (fun k => (tv k).data.maxDrawdown) ∧
    (tv t).data.equityHistory.length = t + 2 ∧
    (tv t).data.netEquityHistory.length = (st t).metrics.closedTrades + 1 ∧
    (tv t).data.maxDrawdownHistory.length = (st t).metrics.closedTrades + 1 := by
  have key : ∀ t, t < N →
      (tv t).data.equityHistory = cfg.initialCapital :: (List.range (t + 1)).map (fun k => (st k).metrics.equity) ∧
      (tv t).data.netEquityHistory = cfg.initialCapital :: (exits st t).map (fun k => (tv k).equityMetrics.netEquity) ∧
      (tv t).data.maxDrawdownHistory = lit 0 :: (exits st t).map (fun k => (tv k).data.maxDrawdown) := by
    intro t
    induction t with
    | zero =>
      intro ht
      have s := tv_step (selfRun_step h 0 ht)
      rw [s.equityHistory, s.netEquityHistory, s.maxDrawdownHistory, exits_zero, (em_step s.em).equity]
      cases hx : exited st 0 <;> rw [exited] at hx <;> simp [hx, prior, TvMetrics.new, TvData.default, Strategy.new]
    | succ t ih =>
      intro ht
      obtain ⟨i1, i2, i3⟩ := ih (by omega)
      have s := tv_step (selfRun_step h (t + 1) ht)
      rw [s.equityHistory, s.netEquityHistory, s.maxDrawdownHistory, exits_succ, (em_step s.em).equity]
      simp only [prior, i1, i2, i3]
      rw [List.range_succ (n := t + 1)]
      cases hx : exited st (t + 1) <;> rw [exited] at hx <;> simp [hx]
  obtain ⟨k1, k2, k3⟩ := key t ht
  refine ⟨k1, k2, k3, ?_, ?_, ?_⟩
  · rw [k1]; simp
  · rw [k2]; simp [closed_exits hb ht]
  · rw [k3]; simp [closed_exits hb ht]

/-! ## C48 -/

/-- **C48.** In floating point: the maximal drawdown is the `f64::max` of 0 and `net_equity_max - bar_equity_min` of every
tick so far; the maximal run-up of 0 and `bar_equity_max - net_equity_min`; their percentages are relative to the current
`net_equity_max` and `bar_equity_max`. -/
theorem C48_values (h : TvRun d cfg rfr st N tv) {t : Nat} (ht : t < N) :
    (tv t).data.maxDrawdown = runMax' (lit 0) ((List.range (t + 1)).map fun k =>
      (tv k).equityMetrics.netEquityMax - (tv k).equityMetrics.barEquityMin) ∧
    (tv t).data.maxRunUp = runMax' (lit 0) ((List.range (t + 1)).map fun k =>
      (tv k).equityMetrics.barEquityMax - (tv k).equityMetrics.netEquityMin) ∧
    (tv t).data.maxDrawdownPercent = (tv t).data.maxDrawdown / (tv t).equityMetrics.netEquityMax ∧
    (tv t).data.maxRunUpPercent = (tv t).data.maxRunUp / (tv t).equityMetrics.barEquityMax := by
  have key : ∀ t, t < N → (tv t).data.maxDrawdown = runMax' (lit 0) ((List.range (t + 1)).map fun k =>
      (tv k).equityMetrics.netEquityMax - (tv k).equityMetrics.barEquityMin) ∧
    (tv t).data.maxRunUp = runMax' (lit 0) ((List.range (t + 1)).map fun k =>
      (tv k).equityMetrics.barEquityMax - (tv k).equityMetrics.netEquityMin) := by
    intro t
    induction t with
    | zero =>
      intro ht
      have s := tv_step (selfRun_step h 0 ht)
      rw [s.maxDrawdown, s.maxRunUp]
      simp [runMax', prior, TvMetrics.new, TvData.default]
    | succ t ih =>
      intro ht
      obtain ⟨i1, i2⟩ := ih (by omega)
      have s := tv_step (selfRun_step h (t + 1) ht)
      rw [s.maxDrawdown, s.maxRunUp, List.range_succ, List.map_append, List.map_append, List.map_singleton, List.map_singleton,
        runMax'_snoc, runMax'_snoc, ← i1, ← i2]
      exact ⟨rfl, rfl⟩
  have s := tv_step (selfRun_step h t ht)
  exact ⟨(key t ht).1, (key t ht).2, s.maxDrawdownPercent, s.maxRunUpPercent⟩

/-! ## Cobra -/

section cobra
variable {est : Bool} {sy : Option Int} {year : Nat → Option Int} {co : Nat → CobraMetrics α}

theorem cobraRun_step (h : CobraRun d cfg est sy year st N co) {t : Nat} (ht : t < N) :
    CobraStep d t (year t) (st t) (prior (CobraMetrics.new (Strategy.new cfg) est sy) co t) (co t) :=
  cobra_step (selfRun_step (next := fun t s x => CobraMetrics.next ⟨d, t⟩ (year t) s x) h t ht)

/-- **C48.** In floating point the Cobra equity-curve drawdown is the `f64::min` of 0 and `equity / equity_max - 1` of every
tick so far. -/
theorem C48_cobra_values (h : CobraRun d cfg est sy year st N co) {t : Nat} (ht : t < N) :
    (co t).data.equityCurveMaxDd = runMin' (lit 0) ((List.range (t + 1)).map fun k =>
      (co k).equityMetrics.equity / (co k).equityMetrics.equityMax - lit 1) := by
  induction t with
  | zero =>
    rw [(cobraRun_step h ht).curve]
    simp [runMin', prior, CobraMetrics.new, CobraData.default]
  | succ t ih =>
    rw [(cobraRun_step h ht).curve, List.range_succ, List.map_append, List.map_singleton, runMin'_snoc, ← ih (by omega)]
    rfl

/-- The ticks up to `t` after, or on, the last exit. -/
def sinceExit (st : Nat → Strategy α) (t : Nat) : List Nat :=
  (List.range (t + 1)).filter fun k => decide (∀ j, j ≤ t → k < j → exited st j = false)

theorem sinceExit_succ (t : Nat) :
    sinceExit st (t + 1) = (if exited st (t + 1) then [] else sinceExit st t) ++ [t + 1] := by
  unfold sinceExit
  rw [List.range_succ, List.filter_append]
  congr 1
  · cases hx : exited st (t + 1) with
    | true =>
      simp only [if_true, List.filter_eq_nil_iff, decide_eq_true_eq]
      intro k hk hh
      have := hh (t + 1) le_rfl (by have := List.mem_range.mp hk; omega)
      rw [hx] at this; simp at this
    | false =>
      simp only [Bool.false_eq_true, if_false]
      refine List.filter_congr fun k hk => ?_
      have hk := List.mem_range.mp hk
      congr 1
      refine propext ⟨fun H j hj hkj => H j (by omega) hkj, fun H j hj hkj => ?_⟩
      rcases Nat.lt_or_ge j (t + 1) with h1 | h1
      · exact H j (by omega) hkj
      · rw [show j = t + 1 by omega]; exact hx
  · simp only [List.filter_cons, List.filter_nil]
    rw [if_pos]
    simp only [decide_eq_true_eq]
    intro j h1 h2; omega

theorem sinceExit_zero : sinceExit st 0 = [0] := by
  unfold sinceExit
  simp only [zero_add, List.range_one, List.filter_cons, List.filter_nil]
  rw [if_pos]
  simp only [decide_eq_true_eq]
  intro j h1 h2; omega

/-- **C59.** In floating point: the current trade's drawdown is the `f64::max` of 0 and `net_equity - bar_equity_min` of
every tick since (and including) the last exit; when a trade is closed, its drawdown up to the tick before, divided by its
entry price, enters the running maximum of the intra-trade drawdown, which otherwise does not change. -/
theorem C59_intra_trade (hb : Backtest cfg d sig N st) (h : CobraRun d cfg est sy year st N co) {t : Nat} (ht : t < N) :
    (co t).currentTradeMaxDrawdown = runMax' (lit 0) ((sinceExit st t).map fun k =>
      (co k).equityMetrics.netEquity - (co k).equityMetrics.barEquityMin) ∧
    ((∀ T ∈ (st t).trades, T.exitTick ≠ some t) →
      (co t).data.intraTradeMaxDd = if t = 0 then lit 0 else (co (t - 1)).data.intraTradeMaxDd) ∧
    (∀ T ∈ (st t).trades, T.exitTick = some t → 0 < t ∧ ∃ entry, T.entryPrice = some entry ∧
      (co t).data.intraTradeMaxDd =
        F64.fmax ((co (t - 1)).currentTradeMaxDrawdown / entry) (co (t - 1)).data.intraTradeMaxDd) := by
  have s := cobraRun_step h ht
  refine ⟨?_, fun hno => ?_, fun T hT hx => ?_⟩
  · induction t with
    | zero =>
      rw [sinceExit_zero]
      cases hx : (st 0).events.onTradeExit with
      | none => rw [(s.noExit hx).2.1]; simp [runMax', prior, CobraMetrics.new]
      | some T => obtain ⟨_, _, _, h3, _⟩ := s.exit T hx; rw [h3]; simp [runMax']
    | succ t ih =>
      rw [sinceExit_succ]
      cases hx : (st (t + 1)).events.onTradeExit with
      | none =>
        rw [(s.noExit hx).2.1]
        simp only [exited, hx, Option.isSome_none, Bool.false_eq_true, if_false, List.map_append, List.map_singleton, runMax'_snoc]
        rw [← ih (by omega) (cobraRun_step h (by omega))]
        rfl
      | some T =>
        obtain ⟨_, _, _, h3, _⟩ := s.exit T hx
        rw [h3]
        simp [exited, hx, runMax']
  · have hx : (st t).events.onTradeExit = none := by
      cases hx : (st t).events.onTradeExit with
      | none => rfl
      | some T =>
        have := ((C43_events hb ht T).2.mp hx)
        exact absurd this.2 (hno T this.1)
    rw [(s.noExit hx).1]
    cases t <;> simp [prior, CobraMetrics.new, CobraData.default]
  · obtain ⟨e, he, _⟩ := C39_first_opposite hb ht hT
    have hpos : 0 < t := by have := (C37_order hb ht).1 T hT e t he hx; omega
    obtain ⟨ep, h1, h2, _⟩ := s.exit T ((C43_events hb ht T).2.mpr ⟨hT, hx⟩)
    refine ⟨hpos, ep, h1, ?_⟩
    rw [h2]
    obtain ⟨t, rfl⟩ := Nat.exists_eq_succ_of_ne_zero hpos.ne'
    rfl

/-- **C59.** The counts and ratios of the Cobra metrics are those of the runner after the last exit (initially 0): the share
of winning trades, the profit factor (0 for a zero loss) and minus the ratio of long to short net profit (0 for a zero short
profit). -/
theorem C59_counts (hb : Backtest cfg d sig N st) (h : CobraRun d cfg est sy year st N co) {t : Nat} (ht : t < N) :
    (co t).data.trades = (st t).metrics.closedTrades ∧
    ((st t).metrics.closedTrades = 0 → (co t).data.profitable = lit 0 ∧ (co t).data.profitFactor = lit 0 ∧
      (co t).data.netProfitLSRatio = lit 0) ∧
    ((st t).metrics.closedTrades ≠ 0 →
      (co t).data.profitable = lit ((st t).metrics.winningTrades : ℚ) / lit ((st t).metrics.closedTrades : ℚ) ∧
      (co t).data.profitFactor = (if F64.feq (st t).metrics.grossLoss (lit 0) then lit 0
        else (st t).metrics.grossProfit / (st t).metrics.grossLoss) ∧
      (co t).data.netProfitLSRatio = (if F64.feq (st t).metrics.shortNetProfit (lit 0) then lit 0
        else (st t).metrics.longNetProfit / (st t).metrics.shortNetProfit * -(lit 1))) := by
  induction t with
  | zero =>
    have s := cobraRun_step h ht
    cases hx : (st 0).events.onTradeExit with
    | none =>
      obtain ⟨_, _, h1, h2, h3, h4⟩ := s.noExit hx
      have hc := (noExit_metrics hb ht (by simp [exited, hx])).1
      rw [h1, h2, h3, h4, hc]
      simp [prior, CobraMetrics.new, CobraData.default, Strategy.new, StrategyMetrics.default]
    | some T =>
      obtain ⟨hT, hxx⟩ := (C43_events hb ht T).2.mp hx
      have := (C59_intra_trade hb h ht).2.2 T hT hxx
      omega
  | succ t ih =>
    have s := cobraRun_step h ht
    have ih := ih (by omega)
    cases hx : (st (t + 1)).events.onTradeExit with
    | none =>
      obtain ⟨_, _, h1, h2, h3, h4⟩ := s.noExit hx
      have he : exited st (t + 1) = false := by simp [exited, hx]
      have hm : (st (t + 1)).metrics.closedTrades = (st t).metrics.closedTrades ∧
          (st (t + 1)).metrics.winningTrades = (st t).metrics.winningTrades ∧
          (st (t + 1)).metrics.grossLoss = (st t).metrics.grossLoss ∧
          (st (t + 1)).metrics.grossProfit = (st t).metrics.grossProfit ∧
          (st (t + 1)).metrics.longNetProfit = (st t).metrics.longNetProfit ∧
          (st (t + 1)).metrics.shortNetProfit = (st t).metrics.shortNetProfit := by
        have hd := backtest_done hb (t + 1) ht
        have hp := prior_books hb (show t + 1 ≤ N by omega)
        rw [exited, hd.events] at he
        have hm := hd.books.metrics
        have hm' := hp.metrics
        simp only [prior] at hm'
        rcases tick_closed (cfg := cfg) (ledger cfg d sig (t + 1)) (t + 1) (fillPrice cfg d (t + 1)) (order cfg sig (t + 1)) with
          ⟨_, h2⟩ | ⟨c, h1, _⟩
        · rw [h2] at hm
          rw [hm, hm']
          exact ⟨rfl, rfl, rfl, rfl, rfl, rfl⟩
        · rw [h1] at he; simp at he
      obtain ⟨m1, m2, m3, m4, m5, m6⟩ := hm
      rw [h1, h2, h3, h4, m1, m2, m3, m4, m5, m6]
      exact ih
    | some T =>
      obtain ⟨_, _, _, _, h1, h2, h3, h4⟩ := s.exit T hx
      have hc := exit_metrics hb ht (by simp [exited, hx])
      rw [h1, h2, h3, h4]
      refine ⟨rfl, fun h0 => by omega, fun hne => ⟨?_, ?_, ?_⟩⟩
      · simp [Metrics.percentProfitable, hne]
      · simp only [Metrics.profitFactor]; split <;> rfl
      · simp only [Metrics.longNetProfitRatio]; split <;> rfl

end cobra

/-! ## C50 -/

/-- **C50.** In floating point, for every history of values: the reported change of a tick is the difference between its
value and the *initial* value, not the previous one. -/
theorem C50_delta (initial : α) (fast : Bool) (v : Nat → α) (N : Nat) {r : Nat → Returns α}
    (h : Runs (total fun s x => (Returns.next s x, Returns.next s x)) (.ok (Returns.build initial fast)) v N r) :
    ∀ t, t < N → (r t).delta = v t - initial := by
  have h' : Runs (fun t s i => do let s ← (fun _ s x => (.ok (Returns.next s x) : Res _)) t s i; return (s, s))
      (.ok (Returns.build initial fast)) v N r := h
  have hstep := selfRun_step h'
  have hp := selfRun_induct h' (fun _ s => s.prevValue = initial) rfl (by
    intro t s _ hi s' hs'
    cases hs'
    exact hi)
  intro t ht
  have := hstep t ht
  simp only [Except.ok.injEq] at this
  rw [← this]
  show v t - _ = _
  rw [hp t ht.le]

end

/-! ## Level 1 -/
section rounded
variable {K : Type} [Field K] [LinearOrder K] [IsStrictOrderedRing K] {R : Rounding K}
variable {cfg : StrategyConfig (Fl R)} {d : DataProvider (Fl R)} {sig : Nat → Option TradeDirection} {N : Nat}
  {st : Nat → Strategy (Fl R)} {rfr : Fl R} {tv : Nat → TvMetrics (Fl R)}

theorem runMax'_mono {a : Fl R} (f : Nat → Fl R) {k t : Nat} (hk : k ≤ t) (hn : NotNan (runMax' a ((List.range (k + 1)).map f))) :
    F64.le (runMax' a ((List.range (k + 1)).map f)) (runMax' a ((List.range (t + 1)).map f)) = true := by
  have h1 := (runMax'_spec a ((List.range (k + 1)).map f)).1
  refine (runMax'_spec a ((List.range (t + 1)).map f)).2 _ ?_ hn
  rcases List.mem_cons.mp h1 with h1 | h1
  · rw [h1]; simp
  · obtain ⟨j, hj, hj'⟩ := List.mem_map.mp h1
    exact List.mem_cons_of_mem _ (List.mem_map.mpr ⟨j, List.mem_range.mpr (by have := List.mem_range.mp hj; omega), hj'⟩)

/-- **C48.** For every lawful rounding, on any data: the maximal drawdown and run-up are never NaN, never negative, never
decrease, and are at least `net_equity_max - bar_equity_min` (`bar_equity_max - net_equity_min`) of every tick so far on which
that is not NaN. -/
theorem C48_monotone (L : R.Lawful) (h : TvRun d cfg rfr st N tv) {t : Nat} (ht : t < N) :
    F64.le (lit 0) (tv t).data.maxDrawdown = true ∧ F64.le (lit 0) (tv t).data.maxRunUp = true ∧
    ∀ k, k ≤ t →
      F64.le (tv k).data.maxDrawdown (tv t).data.maxDrawdown = true ∧ F64.le (tv k).data.maxRunUp (tv t).data.maxRunUp = true ∧
      (NotNan ((tv k).equityMetrics.netEquityMax - (tv k).equityMetrics.barEquityMin) →
        F64.le ((tv k).equityMetrics.netEquityMax - (tv k).equityMetrics.barEquityMin) (tv t).data.maxDrawdown = true) ∧
      (NotNan ((tv k).equityMetrics.barEquityMax - (tv k).equityMetrics.netEquityMin) →
        F64.le ((tv k).equityMetrics.barEquityMax - (tv k).equityMetrics.netEquityMin) (tv t).data.maxRunUp = true) := by
  have h0 : NotNan (lit 0 : Fl R) := by
    rw [lit_zero L]; exact fun hh => absurd (show (Ext.fin (0 : K)) = .nan from hh) (by simp)
  have pos (f : Nat → Fl R) (t : Nat) : F64.le (lit 0) (runMax' (lit 0) ((List.range (t + 1)).map f)) = true :=
    (runMax'_spec (lit 0) _).2 _ (by simp) h0
  have bnd (f : Nat → Fl R) {k t : Nat} (hk : k ≤ t) (hn : NotNan (f k)) :
      F64.le (f k) (runMax' (lit 0) ((List.range (t + 1)).map f)) = true :=
    (runMax'_spec (lit 0) _).2 _ (List.mem_cons_of_mem _ (List.mem_map.mpr ⟨k, List.mem_range.mpr (by omega), rfl⟩)) hn
  have v := C48_values h ht
  refine ⟨by rw [v.1]; exact pos _ t, by rw [v.2.1]; exact pos _ t, fun k hk => ?_⟩
  have vk := C48_values h (show k < N by omega)
  refine ⟨?_, ?_, ?_, ?_⟩
  · rw [v.1, vk.1]; exact runMax'_mono _ hk (fl_le_notNan (pos _ k)).2
  · rw [v.2.1, vk.2.1]; exact runMax'_mono _ hk (fl_le_notNan (pos _ k)).2
  · intro hn; rw [v.1]; exact bnd (fun k => (tv k).equityMetrics.netEquityMax - (tv k).equityMetrics.barEquityMin) hk hn
  · intro hn; rw [v.2.1]; exact bnd (fun k => (tv k).equityMetrics.barEquityMax - (tv k).equityMetrics.netEquityMin) hk hn

/-- **C49.** For every lawful rounding, in runs of at most 2^53 ticks, the share of profitable trades lies in [0, 1]. -/
theorem C49_percent_range (L : R.Lawful) (hb : Backtest cfg d sig N st) (h : TvRun d cfg rfr st N tv) (hN : N ≤ 2 ^ 53) {t : Nat}
    (ht : t < N) :
    F64.le (lit 0) (tv t).data.percentProfitable = true ∧ F64.le (tv t).data.percentProfitable (lit 1) = true := by
  have hc : (st t).metrics.closedTrades ≤ t + 1 := by
    rw [closed_exits hb ht]
    exact (List.length_filter_le _ _).trans (by simp)
  have hw : (st t).metrics.winningTrades ≤ (st t).metrics.closedTrades := by
    have := (C40_counts hb ht).1; omega
  rw [(C49_ratios hb h ht).2.2.2.2.1, lit_zero L, lit_one L]
  split
  · exact ⟨decide_eq_true le_rfl, decide_eq_true (zero_le_one : (0 : K) ≤ 1)⟩
  · rename_i hne
    generalize (st t).metrics.closedTrades = c at *
    generalize (st t).metrics.winningTrades = w at *
    have lc (n : Nat) (hn : n ≤ 2 ^ 53) : (lit (n : ℚ) : Fl R) = Fl.of R (.fin (n : K)) := by
      have := L.int n (by rw [Nat.abs_cast]; exact_mod_cast hn)
      rw [Int.cast_natCast] at this
      show R.rnd ((n : ℚ) : K) = .fin (n : K)
      rw [Rat.cast_natCast]; exact this
    rw [lc c (by omega), lc w (by omega)]
    have hcK : (0 : K) < c := by exact_mod_cast Nat.pos_of_ne_zero hne
    have hdiv : Fl.of R (.fin (w : K)) / Fl.of R (.fin (c : K)) = Fl.of R (R.rnd ((w : K) / c)) :=
      (if_neg hcK.ne' : (if (c : K) = 0 then Fl.signInf (w : K) else R.rnd ((w : K) / c)) = R.rnd ((w : K) / c))
    rw [hdiv]
    constructor
    · have := L.mono 0 ((w : K) / c) (div_nonneg (Nat.cast_nonneg _) hcK.le)
      rw [rnd_zero L] at this
      exact this
    · have := L.mono ((w : K) / c) 1 (by rw [div_le_one hcK]; exact_mod_cast hw)
      rw [rnd_one L] at this
      exact this

end rounded
end Pace
