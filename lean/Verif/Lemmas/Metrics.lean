import Verif.Spec.Metrics
import Verif.Props.Strategy2

/-! # Metrics: invariants -/

set_option linter.unusedSectionVars false

namespace Pace
open Spec
variable {α : Type} [F64 α]

/-- A component that never panics has a run. -/
theorem selfRun_exists {S I : Type} {next : Nat → S → I → Res S} {x : Nat → I} {N : Nat} (s0 : S) [Inhabited S]
    (h : ∀ t s, t < N → ∃ s', next t s (x t) = .ok s') :
    ∃ st, Runs (fun t s i => do let s ← next t s i; return (s, s)) (.ok s0) x N st := by
  have key : ∀ n, n ≤ N → ∃ st : Nat → S, ∀ t, t < n → next t (prior s0 st t) (x t) = .ok (st t) := by
    intro n
    induction n with
    | zero => intro _; exact ⟨fun _ => default, fun t ht => absurd ht (by omega)⟩
    | succ n ih =>
      intro hn
      obtain ⟨st, h1⟩ := ih (by omega)
      obtain ⟨s', hs'⟩ := h n (prior s0 st n) (by omega)
      refine ⟨fun t => if t = n then s' else st t, ?_⟩
      intro t ht
      have hp : prior s0 (fun t => if t = n then s' else st t) t = prior s0 st t := by
        cases t with
        | zero => rfl
        | succ t => simp [prior, show t ≠ n by omega]
      rw [hp]
      rcases Nat.lt_succ_iff_lt_or_eq.mp ht with ht | rfl
      · simp [show t ≠ n by omega, h1 t ht]
      · simp [hs']
  obtain ⟨st, h1⟩ := key N le_rfl
  exact ⟨st, selfRun_of_step h1⟩

/-- One step of the equity metrics. -/
structure EmStep (d : DataProvider α) (t : Nat) (x : Strategy α) (s s' : EquityMetrics α) : Prop where
  equity : s'.equity = x.metrics.equity
  equityMin : s'.equityMin = F64.fmin s.equityMin x.metrics.equity
  equityMax : s'.equityMax = F64.fmax s.equityMax x.metrics.equity
  exit : x.events.onTradeExit.isSome = true → s'.netEquity = x.config.initialCapital + x.metrics.netProfit ∧
    s'.netEquityMin = F64.fmin s.netEquityMin s'.netEquity ∧ s'.netEquityMax = F64.fmax s.netEquityMax s'.netEquity
  noExit : x.events.onTradeExit.isSome = false → s'.netEquity = s.netEquity ∧ s'.netEquityMin = s.netEquityMin ∧
    s'.netEquityMax = s.netEquityMax
  open_ : ∀ T, x.trades.getLast? = some T → T.isClosed = false → ∃ lo hi mn mx, d.low[t]? = some (some lo) ∧
    d.high[t]? = some (some hi) ∧ T.pnl (if T.direction = .short then hi else lo) = .ok mn ∧
    T.pnl (if T.direction = .short then lo else hi) = .ok mx ∧ s'.barOpenProfitMin = mn ∧ s'.barOpenProfitMax = mx
  flat : (∀ T, x.trades.getLast? = some T → T.isClosed = true) → s'.barOpenProfitMin = s.barOpenProfitMin ∧
    s'.barOpenProfitMax = s.barOpenProfitMax
  barMin : s'.barEquityMin = s'.netEquity + s'.barOpenProfitMin
  barMax : s'.barEquityMax = s'.netEquity + s'.barOpenProfitMax

theorem em_step {d : DataProvider α} {t : Nat} {x : Strategy α} {s s' : EquityMetrics α}
    (h : EquityMetrics.next ⟨d, t⟩ s x = .ok s') : EmStep d t x s s' := by
  unfold EquityMetrics.next at h
  extract_lets ne s1 eq jp at h
  have hs1 : s1.equityMin = s.equityMin ∧ s1.equityMax = s.equityMax ∧ s1.barOpenProfitMin = s.barOpenProfitMin ∧
      s1.barOpenProfitMax = s.barOpenProfitMax ∧
      (x.events.onTradeExit.isSome = true → s1.netEquity = x.config.initialCapital + x.metrics.netProfit ∧
        s1.netEquityMin = F64.fmin s.netEquityMin s1.netEquity ∧ s1.netEquityMax = F64.fmax s.netEquityMax s1.netEquity) ∧
      (x.events.onTradeExit.isSome = false → s1 = s) := by
    cases he : x.events.onTradeExit <;> simp [s1, ne, he]
  clear_value s1
  obtain ⟨e1, e2, e3, e4, e5, e6⟩ := hs1
  have e7 : x.events.onTradeExit.isSome = false → s1.netEquity = s.netEquity ∧ s1.netEquityMin = s.netEquityMin ∧
      s1.netEquityMax = s.netEquityMax := fun hh => by rw [e6 hh]; exact ⟨rfl, rfl, rfl⟩
  clear e6
  simp only [jp, eq] at h
  cases hl : x.trades.getLast? with
  | none =>
    simp only [hl, Res.pure_eq, Res.ok_bind, Except.ok.injEq] at h
    subst h
    exact ⟨rfl, by simp only [e1], by simp only [e2], e5, e7, by simp [hl], fun _ => ⟨e3, e4⟩, rfl, rfl⟩
  | some T =>
    cases hc : T.isClosed with
    | true =>
      simp only [hl, hc, Bool.not_true, Bool.false_eq_true, if_false, Res.pure_eq, Res.ok_bind, Except.ok.injEq] at h
      subst h
      exact ⟨rfl, by simp only [e1], by simp only [e2], e5, e7, by simp [hl, hc], fun _ => ⟨e3, e4⟩, rfl, rfl⟩
    | false =>
      simp only [hl, hc, Bool.not_false, if_true, Ctx.barLow, Ctx.barHigh, DataProvider.getLow, DataProvider.getHigh, index] at h
      cases hlo : d.low[t]? with
      | none => simp [hlo] at h
      | some lo =>
      cases lo with
      | none => simp [hlo] at h
      | some lo =>
      cases hhi : d.high[t]? with
      | none => simp [hlo, hhi] at h
      | some hi =>
      cases hi with
      | none => simp [hlo, hhi] at h
      | some hi =>
      simp only [hlo, hhi, Res.ok_bind, unwrap_some] at h
      cases hd : T.direction with
      | long =>
        simp only [hd, reduceCtorEq, if_false] at h
        cases hmn : T.pnl lo with
        | error e => simp [hmn] at h
        | ok mn =>
        cases hmx : T.pnl hi with
        | error e => simp [hmn, hmx] at h
        | ok mx =>
        simp only [hmn, hmx, Res.pure_eq, Res.ok_bind, Except.ok.injEq] at h
        subst h
        refine ⟨rfl, by simp only [e1], by simp only [e2], e5, e7, ?_, by simp [hl, hc], rfl, rfl⟩
        rintro T' hT' _
        rw [hl] at hT'; cases hT'
        exact ⟨lo, hi, mn, mx, by first | rfl | assumption, by first | rfl | assumption, by simp [hd, hmn], by simp [hd, hmx], rfl, rfl⟩
      | short =>
        simp only [hd, if_true] at h
        cases hmn : T.pnl hi with
        | error e => simp [hmn] at h
        | ok mn =>
        cases hmx : T.pnl lo with
        | error e => simp [hmn, hmx] at h
        | ok mx =>
        simp only [hmn, hmx, Res.pure_eq, Res.ok_bind, Except.ok.injEq] at h
        subst h
        refine ⟨rfl, by simp only [e1], by simp only [e2], e5, e7, ?_, by simp [hl, hc], rfl, rfl⟩
        rintro T' hT' _
        rw [hl] at hT'; cases hT'
        exact ⟨lo, hi, mn, mx, by first | rfl | assumption, by first | rfl | assumption, by simp [hd, hmn], by simp [hd, hmx], rfl, rfl⟩

/-! ## Exits and the booked statistics -/
section
variable {cfg : StrategyConfig α} {d : DataProvider α} {sig : Nat → Option TradeDirection} {N : Nat} {st : Nat → Strategy α}

theorem tick_closed (L : Ledger α) (t : Nat) (p : α) (o : Option TradeDirection) :
    ((tickEvents cfg L t p o).onTradeExit = none ∧ (L.tick cfg t p o).closed = L.closed) ∨
    ∃ c : Closed α, (tickEvents cfg L t p o).onTradeExit = some c.toTrade ∧ (L.tick cfg t p o).closed = L.closed ++ [c] := by
  obtain ⟨l, op⟩ := L
  cases o with
  | none => left; simp [tickEvents, Ledger.tick]
  | some dir =>
    cases op with
    | none => left; simp [tickEvents, Ledger.tick, Ledger.enter]
    | some x =>
      by_cases hd : dir = x.dir
      · left; simp [tickEvents, Ledger.tick, hd]
      · right
        refine ⟨⟨x, t, p⟩, by simp [tickEvents, hd], ?_⟩
        cases hc : cfg.continous <;> simp [Ledger.tick, hd, hc, Ledger.enter]

theorem prior_books (h : Backtest cfg d sig N st) {t : Nat} (ht : t ≤ N) :
    Books cfg (ledger cfg d sig t) (prior (Strategy.new cfg) st t) := by
  cases t with
  | zero => exact (stratInv_zero cfg sig).1
  | succ t => exact (backtest_done h t (by omega)).books

theorem bookMetrics_closed (cfg : StrategyConfig α) (l : List (Closed α)) : (bookMetrics cfg l).closedTrades = l.length := by
  induction l using List.reverseRecOn with
  | nil => rfl
  | append_singleton l x ih =>
    rw [bookMetrics_snoc]
    have : (Strategy.closeMetrics (bookMetrics cfg l) x.pos.dir x.profit).closedTrades = (bookMetrics cfg l).closedTrades + 1 := by
      unfold Strategy.closeMetrics
      cases fgt x.profit (lit 0) <;> cases F64.lt x.profit (lit 0) <;> cases x.pos.dir <;> rfl
    rw [this, ih]; simp

/-- Without an exit the booked statistics do not change. -/
theorem noExit_metrics (h : Backtest cfg d sig N st) {t : Nat} (ht : t < N) (he : exited st t = false) :
    (st t).metrics.closedTrades = (prior (Strategy.new cfg) st t).metrics.closedTrades ∧
    (st t).metrics.netProfit = (prior (Strategy.new cfg) st t).metrics.netProfit := by
  have hd := backtest_done h t ht
  have hb := prior_books h ht.le
  rw [exited, hd.events] at he
  have hm := hd.books.metrics
  rcases tick_closed (cfg := cfg) (ledger cfg d sig t) t (fillPrice cfg d t) (order cfg sig t) with ⟨_, h2⟩ | ⟨c, h1, _⟩
  · rw [h2] at hm
    rw [hm, hb.metrics]
    exact ⟨rfl, rfl⟩
  · rw [h1] at he; simp at he

/-- An exit adds one closed trade. -/
theorem exit_metrics (h : Backtest cfg d sig N st) {t : Nat} (ht : t < N) (he : exited st t = true) :
    (st t).metrics.closedTrades = (prior (Strategy.new cfg) st t).metrics.closedTrades + 1 := by
  have hd := backtest_done h t ht
  have hb := prior_books h ht.le
  rw [exited, hd.events] at he
  have hm := hd.books.metrics
  rcases tick_closed (cfg := cfg) (ledger cfg d sig t) t (fillPrice cfg d t) (order cfg sig t) with ⟨h1, _⟩ | ⟨c, _, h2⟩
  · rw [h1] at he; simp at he
  · rw [h2] at hm
    rw [hm, hb.metrics]
    simp [bookMetrics_closed]

theorem closed_exits (h : Backtest cfg d sig N st) {t : Nat} (ht : t < N) :
    (st t).metrics.closedTrades = (exits st t).length := by
  induction t with
  | zero =>
    cases he : exited st 0 with
    | true => rw [exit_metrics h ht he]; simp [exits, he, prior, Strategy.new, StrategyMetrics.default]
    | false => rw [(noExit_metrics h ht he).1]; simp [exits, he, prior, Strategy.new, StrategyMetrics.default]
  | succ t ih =>
    have ih := ih (by omega)
    have hs : exits st (t + 1) = exits st t ++ (if exited st (t + 1) then [t + 1] else []) := by
      unfold exits
      rw [List.range_succ, List.filter_append]
      congr 1
      cases hh : exited st (t + 1) <;> simp [hh]
    rw [hs]
    cases he : exited st (t + 1) with
    | true => rw [exit_metrics h ht he]; simp [prior, ih]
    | false => rw [(noExit_metrics h ht he).1]; simp [prior, ih]

theorem exits_zero : exits st 0 = if exited st 0 then [0] else [] := by
  cases hh : exited st 0 <;> simp [exits, hh]

theorem exits_succ (t : Nat) : exits st (t + 1) = exits st t ++ (if exited st (t + 1) then [t + 1] else []) := by
  unfold exits
  rw [List.range_succ, List.filter_append]
  congr 1
  cases hh : exited st (t + 1) <;> simp [hh]

theorem runMin_snoc (a : α) (l : List α) (b : α) : runMin a (l ++ [b]) = F64.fmin (runMin a l) b := by simp [runMin]
theorem runMax_snoc (a : α) (l : List α) (b : α) : runMax a (l ++ [b]) = F64.fmax (runMax a l) b := by simp [runMax]
theorem runMin'_snoc (a : α) (l : List α) (b : α) : runMin' a (l ++ [b]) = F64.fmin b (runMin' a l) := by simp [runMin']
theorem runMax'_snoc (a : α) (l : List α) (b : α) : runMax' a (l ++ [b]) = F64.fmax b (runMax' a l) := by simp [runMax']

/-- What the equity metrics component holds after tick `t`. -/
structure EmFacts (cfg : StrategyConfig α) (st : Nat → Strategy α) (t : Nat) (e : EquityMetrics α) : Prop where
  equityMin : e.equityMin = runMin cfg.initialCapital (hist (fun k => (st k).metrics.equity) t)
  equityMax : e.equityMax = runMax cfg.initialCapital (hist (fun k => (st k).metrics.equity) t)
  netEquity : e.netEquity = netEquity cfg (prior (Strategy.new cfg) st t)
  netEquityMin : e.netEquityMin = runMin cfg.initialCapital (((List.range t).filter (exited st)).map fun k => Spec.netEquity cfg (st k))
  netEquityMax : e.netEquityMax = runMax cfg.initialCapital (((List.range t).filter (exited st)).map fun k => Spec.netEquity cfg (st k))

theorem em_facts (h : Backtest cfg d sig N st) {em : Nat → EquityMetrics α} (he : EquityRun d cfg.initialCapital st N em) :
    ∀ t, t ≤ N → EmFacts cfg st t (prior (EquityMetrics.new cfg.initialCapital) em t) := by
  refine selfRun_induct he (fun t e => EmFacts cfg st t e) ?_ ?_
  · constructor <;> simp [EquityMetrics.new, runMin, runMax, hist, prior, netEquity, Strategy.new, StrategyMetrics.default]
  · intro t s ht hi s' hs'
    have hstep := em_step hs'
    have hcfg : (st t).config = cfg := (backtest_done h t ht).books.config
    have hne : s'.netEquity = netEquity cfg (st t) := by
      cases hx : exited st t with
      | true =>
        rw [(hstep.exit hx).1, netEquity, exit_metrics h ht hx, hcfg]; simp
      | false =>
        rw [(hstep.noExit hx).1, hi.netEquity, netEquity, netEquity, (noExit_metrics h ht hx).1, (noExit_metrics h ht hx).2]
    constructor
    · rw [hstep.equityMin, hi.equityMin, hist_succ', runMin_snoc]
    · rw [hstep.equityMax, hi.equityMax, hist_succ', runMax_snoc]
    · exact hne
    · rw [List.range_succ, List.filter_append]
      cases hx : exited st t with
      | true => simp [hx, runMin_snoc, (hstep.exit hx).2.1, hi.netEquityMin, hne]
      | false => simp [hx, (hstep.noExit hx).2.1, hi.netEquityMin]
    · rw [List.range_succ, List.filter_append]
      cases hx : exited st t with
      | true => simp [hx, runMax_snoc, (hstep.exit hx).2.2, hi.netEquityMax, hne]
      | false => simp [hx, (hstep.noExit hx).2.2, hi.netEquityMax]

end

/-! ## TradingView metrics -/

/-- One step of the TradingView metrics. -/
structure TvStep (d : DataProvider α) (t : Nat) (x : Strategy α) (s s' : TvMetrics α) : Prop where
  em : EquityMetrics.next ⟨d, t⟩ s.equityMetrics x = .ok s'.equityMetrics
  rfr : s'.riskFreeRate = s.riskFreeRate
  returns : s'.returns = s.returns.next s'.equityMetrics.netEquity
  neg : (s.negReturnsStdev.next (F64.abs (F64.fmin (lit 0) s'.returns.delta))).2 = s'.negReturnsStdev
  maxDrawdown : s'.data.maxDrawdown =
    F64.fmax (s'.equityMetrics.netEquityMax - s'.equityMetrics.barEquityMin) s.data.maxDrawdown
  maxRunUp : s'.data.maxRunUp =
    F64.fmax (s'.equityMetrics.barEquityMax - s'.equityMetrics.netEquityMin) s.data.maxRunUp
  sharpe : s'.data.sharpeRatio = Metrics.sharpeRatio s'.returns.meanV s'.returns.stdevV s.riskFreeRate
  sortino : s'.data.sortinoRatio = Metrics.sortinoRatio s'.returns.meanV
    (s.negReturnsStdev.next (F64.abs (F64.fmin (lit 0) s'.returns.delta))).1 s.riskFreeRate
  netEquityHistory : s'.data.netEquityHistory =
    if x.events.onTradeExit.isSome then s.data.netEquityHistory ++ [s'.equityMetrics.netEquity] else s.data.netEquityHistory
  maxDrawdownHistory : s'.data.maxDrawdownHistory =
    if x.events.onTradeExit.isSome then s.data.maxDrawdownHistory ++ [s'.data.maxDrawdown] else s.data.maxDrawdownHistory
  equityHistory : s'.data.equityHistory = s.data.equityHistory ++ [s'.equityMetrics.equity]
  maxDrawdownPercent : s'.data.maxDrawdownPercent = s'.data.maxDrawdown / s'.equityMetrics.netEquityMax
  maxRunUpPercent : s'.data.maxRunUpPercent = s'.data.maxRunUp / s'.equityMetrics.barEquityMax
  netProfit : s'.data.netProfit = x.metrics.netProfit
  grossProfit : s'.data.grossProfit = x.metrics.grossProfit
  grossLoss : s'.data.grossLoss = x.metrics.grossLoss
  openPl : s'.data.openPl = x.metrics.openProfit
  netProfitPercent : s'.data.netProfitPercent = x.metrics.netProfit / x.config.initialCapital
  grossProfitPercent : s'.data.grossProfitPercent = x.metrics.grossProfit / x.config.initialCapital
  grossLossPercent : s'.data.grossLossPercent = x.metrics.grossLoss / x.config.initialCapital
  total : s'.data.totalClosedTrades = x.metrics.closedTrades
  winning : s'.data.numberWinningTrades = x.metrics.winningTrades
  losing : s'.data.numberLosingTrades = x.metrics.losingTrades
  profitFactor : s'.data.profitFactor =
    if F64.feq x.metrics.grossLoss (lit 0) then lit 0 else x.metrics.grossProfit / x.metrics.grossLoss
  percentProfitable : s'.data.percentProfitable = if x.metrics.closedTrades = 0 then lit 0
    else lit (x.metrics.winningTrades : ℚ) / lit (x.metrics.closedTrades : ℚ)
  avgTrade : s'.data.avgTrade = if x.metrics.closedTrades = 0 then lit 0
    else x.metrics.netProfit / lit (x.metrics.closedTrades : ℚ)
  avgWinningTrade : s'.data.avgWinningTrade = if x.metrics.winningTrades = 0 then lit 0
    else x.metrics.grossProfit / lit (x.metrics.winningTrades : ℚ)
  avgLosingTrade : s'.data.avgLosingTrade = if x.metrics.losingTrades = 0 then lit 0
    else x.metrics.grossLoss / lit (x.metrics.losingTrades : ℚ)
  ratioAvgWinAvgLoss : s'.data.ratioAvgWinAvgLoss = if F64.feq s'.data.avgLosingTrade (lit 0) then lit 0
    else s'.data.avgWinningTrade / s'.data.avgLosingTrade

theorem tv_step {d : DataProvider α} {t : Nat} {x : Strategy α} {s s' : TvMetrics α}
    (h : TvMetrics.next ⟨d, t⟩ s x = .ok s') : TvStep d t x s s' := by
  unfold TvMetrics.next at h
  cases he : EquityMetrics.next ⟨d, t⟩ s.equityMetrics x with
  | error e => simp [he] at h
  | ok em =>
    simp only [he, Res.ok_bind, Res.pure_eq, Except.ok.injEq] at h
    subst h
    constructor <;> try rfl
    · exact he
    · simp only [Metrics.profitFactor]; split <;> rfl
    · simp only [Metrics.percentProfitable]; split <;> rfl
    · simp only [Metrics.avgTrade]; split <;> rfl
    · simp only [Metrics.avgWinningTrade]; split <;> rfl
    · simp only [Metrics.avgLosingTrade]; split <;> rfl
    · simp only [Metrics.avgWinLossRatio]; split <;> rfl

/-- The equity metrics inside the TradingView metrics run by themselves. -/
theorem tv_em {d : DataProvider α} {cfg : StrategyConfig α} {rfr : α} {st : Nat → Strategy α} {N : Nat} {tv : Nat → TvMetrics α}
    (h : TvRun d cfg rfr st N tv) : EquityRun d cfg.initialCapital st N (fun t => (tv t).equityMetrics) := by
  refine selfRun_of_step fun t ht => ?_
  have := (tv_step (selfRun_step h t ht)).em
  cases t <;> exact this

/-! ## Cobra metrics -/

/-- One step of the Cobra metrics. -/
structure CobraStep (d : DataProvider α) (t : Nat) (year : Option Int) (x : Strategy α) (s s' : CobraMetrics α) : Prop where
  em : EquityMetrics.next ⟨d, t⟩ s.equityMetrics x = .ok s'.equityMetrics
  yearPresent : s.returnsStartYear ≠ none → year ≠ none
  startYear : s'.returnsStartYear = s.returnsStartYear
  rfr : s'.riskFreeRate = s.riskFreeRate
  annualized : s'.annualized = s.annualized
  prevEquity : s'.prevEquity = s'.equityMetrics.equity
  curve : s'.data.equityCurveMaxDd = F64.fmin (s'.equityMetrics.equity / s'.equityMetrics.equityMax - lit 1) s.data.equityCurveMaxDd
  exit : ∀ T, x.events.onTradeExit = some T → ∃ ep, T.entryPrice = some ep ∧
    s'.data.intraTradeMaxDd = F64.fmax (s.currentTradeMaxDrawdown / ep) s.data.intraTradeMaxDd ∧
    s'.currentTradeMaxDrawdown = F64.fmax (s'.equityMetrics.netEquity - s'.equityMetrics.barEquityMin) (lit 0) ∧
    s'.data.trades = x.metrics.closedTrades ∧
    s'.data.profitable = (Metrics.percentProfitable x.metrics.winningTrades x.metrics.closedTrades).getD (lit 0) ∧
    s'.data.profitFactor = (Metrics.profitFactor x.metrics.grossProfit x.metrics.grossLoss).getD (lit 0) ∧
    s'.data.netProfitLSRatio = (Metrics.longNetProfitRatio x.metrics.longNetProfit x.metrics.shortNetProfit).getD (lit 0)
  noExit : x.events.onTradeExit = none → s'.data.intraTradeMaxDd = s.data.intraTradeMaxDd ∧
    s'.currentTradeMaxDrawdown = F64.fmax (s'.equityMetrics.netEquity - s'.equityMetrics.barEquityMin) s.currentTradeMaxDrawdown ∧
    s'.data.trades = s.data.trades ∧ s'.data.profitable = s.data.profitable ∧ s'.data.profitFactor = s.data.profitFactor ∧
    s'.data.netProfitLSRatio = s.data.netProfitLSRatio
  notCounted : counted s.returnsStartYear year = false → s'.returnsMean = s.returnsMean ∧ s'.returnsStdev = s.returnsStdev ∧
    s'.negativeReturnsStdev = s.negativeReturnsStdev ∧ s'.positiveReturnsSum = s.positiveReturnsSum ∧
    s'.negativeReturnsSum = s.negativeReturnsSum ∧ s'.data.omega = s.data.omega ∧ s'.data.sharpe = s.data.sharpe ∧
    s'.data.sortino = s.data.sortino
  counted : ∀ r, counted s.returnsStartYear year = true → r = Metrics.returns s'.equityMetrics.equity s.prevEquity →
    s'.returnsMean = (s.returnsMean.next r).2 ∧ s'.returnsStdev = (s.returnsStdev.next r).2 ∧
    s'.negativeReturnsStdev = (s.negativeReturnsStdev.next (F64.abs (F64.fmin (lit 0) r))).2 ∧
    s'.positiveReturnsSum = s.positiveReturnsSum + F64.fmax (lit 0) r ∧
    s'.negativeReturnsSum = s.negativeReturnsSum + F64.abs (F64.fmin (lit 0) r) ∧
    s'.data.omega = Metrics.omegaRatio s'.positiveReturnsSum s'.negativeReturnsSum s.riskFreeRate * s.annualized ∧
    s'.data.sharpe = Metrics.sharpeRatio (s.returnsMean.next r).1 (s.returnsStdev.next r).1 s.riskFreeRate * s.annualized ∧
    s'.data.sortino = Metrics.sortinoRatio (s.returnsMean.next r).1
      (s.negativeReturnsStdev.next (F64.abs (F64.fmin (lit 0) r))).1 s.riskFreeRate * s.annualized

theorem cobra_step {d : DataProvider α} {t : Nat} {year : Option Int} {x : Strategy α} {s s' : CobraMetrics α}
    (h : CobraMetrics.next ⟨d, t⟩ year s x = .ok s') : CobraStep d t year x s s' := by
  unfold CobraMetrics.next at h
  cases hx : x.events.onTradeExit with
  | none =>
    simp only [hx, Res.pure_eq, Res.ok_bind] at h
    cases he : EquityMetrics.next ⟨d, t⟩ s.equityMetrics x with
    | error e => simp [he] at h
    | ok em =>
      simp only [he, Res.ok_bind] at h
      cases hy : s.returnsStartYear with
      | none =>
        simp only [hy, Except.ok.injEq] at h
        subst h
        constructor <;> simp_all [CobraMetrics.onReturns, counted]
      | some y =>
        simp only [hy] at h
        cases year with
        | none => simp at h
        | some b =>
          simp only [unwrap_some, Res.ok_bind] at h
          split at h <;> cases h <;> constructor <;> simp_all [CobraMetrics.onReturns, counted]
  | some T =>
    simp only [hx, CobraMetrics.onExit] at h
    cases hep : T.entryPrice with
    | none => simp [hep] at h
    | some ep =>
    simp only [hep, unwrap_some, Res.ok_bind, Res.pure_eq] at h
    cases he : EquityMetrics.next ⟨d, t⟩ s.equityMetrics x with
    | error e => simp [he] at h
    | ok em =>
      simp only [he, Res.ok_bind] at h
      cases hy : s.returnsStartYear with
      | none =>
        simp only [hy, Except.ok.injEq] at h
        subst h
        constructor <;> simp_all [CobraMetrics.onReturns, counted]
      | some y =>
        simp only [hy] at h
        cases year with
        | none => simp at h
        | some b =>
          simp only [unwrap_some, Res.ok_bind] at h
          split at h <;> cases h <;> constructor <;> simp_all [CobraMetrics.onReturns, counted]

theorem cobra_em {d : DataProvider α} {cfg : StrategyConfig α} {est : Bool} {sy : Option Int} {year : Nat → Option Int}
    {st : Nat → Strategy α} {N : Nat} {co : Nat → CobraMetrics α} (h : CobraRun d cfg est sy year st N co) :
    EquityRun d cfg.initialCapital st N (fun t => (co t).equityMetrics) := by
  refine selfRun_of_step fun t ht => ?_
  have := (cobra_step (selfRun_step (next := fun t s x => CobraMetrics.next ⟨d, t⟩ (year t) s x) h t ht)).em
  cases t <;> exact this

/-! ## Statistics components fed a list -/

/-- The state of a component after feeding it a list. -/
def feed {S I O : Type} (f : S → I → O × S) (s0 : S) (l : List I) : S := l.foldl (fun s v => (f s v).2) s0

theorem feed_snoc {S I O : Type} (f : S → I → O × S) (s0 : S) (l : List I) (a : I) :
    feed f s0 (l ++ [a]) = (f (feed f s0 l) a).2 := by simp [feed]

theorem feed_out {S I O : Type} {f : S → I → O × S} {s0 : S} {x : Nat → I} {n : Nat} {y : Nat → O}
    (h : Runs (total f) (.ok s0) x (n + 1) y) : (f (feed f s0 (hist x n)) (x n)).1 = y n := by
  have h' : Runs (total f) (.ok s0) x (n + 1) (fun t => (f (feed f s0 (hist x t)) (x t)).1) := by
    apply Impl.runs (Inv := fun t s => s = feed f s0 (hist x t))
    refine ⟨rfl, ?_⟩
    rintro t _ _ rfl
    exact ⟨_, rfl, by rw [hist_succ', feed_snoc]⟩
  exact h'.unique h n (by omega)

theorem hist_getD {β : Type} (l : List β) (r b : β) : hist (fun i => (l ++ [r]).getD i b) l.length = l ∧
    hist (fun i => (l ++ [r]).getD i b) (l.length + 1) = l ++ [r] := by
  have h1 : hist (fun i => (l ++ [r]).getD i b) l.length = l := by
    apply List.ext_getElem?
    intro i
    rw [hist_getElem?]
    split
    · rename_i hi
      simp only [List.getD_eq_getElem?_getD, List.getElem?_append_left hi, List.getElem?_eq_getElem hi, Option.getD_some]
    · rename_i hi; rw [List.getElem?_eq_none (by omega)]
  exact ⟨h1, by rw [hist_succ', h1]; simp⟩

end Pace
