import Verif.Spec.Strategy
import Verif.Lemmas.Series

/-! # The strategy runner refines the ledger -/

set_option linter.unusedSectionVars false

namespace Pace
open Spec
variable {α : Type} [F64 α]

/-! ## Stepping through a run -/

/-- The state before tick `t`. -/
def prior {S : Type} (s0 : S) (st : Nat → S) : Nat → S
  | 0 => s0
  | t + 1 => st t

/-- Runs of components whose output is their state. -/
theorem selfRun_step {S I : Type} {next : Nat → S → I → Res S} {s0 : S} {x : Nat → I} {N : Nat} {st : Nat → S}
    (h : Runs (fun t s i => do let s ← next t s i; return (s, s)) (.ok s0) x N st) :
    ∀ t, t < N → next t (prior s0 st t) (x t) = .ok (st t) := by
  obtain ⟨s, Inv, hs, hI⟩ := h.impl
  cases hs
  suffices H : ∀ t, t ≤ N → Inv t (prior s0 st t) ∧ ∀ k, k < t → next k (prior s0 st k) (x k) = .ok (st k) from
    fun t ht => (H N le_rfl).2 t ht
  intro t
  induction t with
  | zero => intro _; exact ⟨hI.init, fun k hk => absurd hk (by omega)⟩
  | succ t ih =>
    intro ht
    obtain ⟨i1, i2⟩ := ih (by omega)
    obtain ⟨s', e1, e2⟩ := hI.step t _ (by omega) i1
    cases hn : next t (prior s0 st t) (x t) with
    | error e => simp [hn] at e1
    | ok s1 =>
      simp only [hn, Res.ok_bind, Res.pure_eq, Except.ok.injEq, Prod.mk.injEq] at e1
      obtain ⟨rfl, e1'⟩ := e1
      rw [← e1'] at e2
      refine ⟨e2, ?_⟩
      intro k hk
      rcases Nat.lt_succ_iff_lt_or_eq.mp hk with h | rfl
      · exact i2 k h
      · rw [hn]

theorem selfRun_of_step {S I : Type} {next : Nat → S → I → Res S} {s0 : S} {x : Nat → I} {N : Nat} {st : Nat → S}
    (h : ∀ t, t < N → next t (prior s0 st t) (x t) = .ok (st t)) :
    Runs (fun t s i => do let s ← next t s i; return (s, s)) (.ok s0) x N st := by
  have : Impl (fun t s i => do let s ← next t s i; return (s, s)) s0 x N st (fun t s => s = prior s0 st t) := by
    refine ⟨rfl, ?_⟩
    rintro t s ht rfl
    exact ⟨st t, by simp [h t ht], rfl⟩
  exact this.runs

/-- Induction along a run. -/
theorem selfRun_induct {S I : Type} {next : Nat → S → I → Res S} {s0 : S} {x : Nat → I} {N : Nat} {st : Nat → S}
    (h : Runs (fun t s i => do let s ← next t s i; return (s, s)) (.ok s0) x N st) (P : Nat → S → Prop) (h0 : P 0 s0)
    (hstep : ∀ t s, t < N → P t s → ∀ s', next t s (x t) = .ok s' → P (t + 1) s') :
    ∀ t, t ≤ N → P t (prior s0 st t) := by
  intro t
  induction t with
  | zero => intro _; exact h0
  | succ t ih => intro ht; exact hstep t _ (by omega) (ih (by omega)) _ (selfRun_step h t (by omega))

/-! ## The books kept by the runner -/

/-- Statistics of a list of closed positions. -/
def bookMetrics (cfg : StrategyConfig α) (l : List (Closed α)) : StrategyMetrics α :=
  l.foldl (fun m x => Strategy.closeMetrics m x.pos.dir x.profit) (.default cfg.initialCapital)

theorem pnl_toTrade (x : Holding α) (q : α) :
    x.toTrade.pnl q = .ok (x.profit q) := by
  obtain ⟨dir, _, _, _⟩ := x
  cases dir <;> rfl

@[simp] theorem Spec.Ledger.trades_none (l : List (Closed α)) : (⟨l, none⟩ : Ledger α).trades = l.map Closed.toTrade := by
  simp [Ledger.trades]
@[simp] theorem Spec.Ledger.trades_some (l : List (Closed α)) (x : Holding α) :
    (⟨l, some x⟩ : Ledger α).trades = l.map Closed.toTrade ++ [x.toTrade] := by simp [Ledger.trades]

theorem getLast_closed (l : List (Closed α)) {T : Trade α} (h : (l.map Closed.toTrade).getLast? = some T) :
    T.isClosed = true := by
  obtain ⟨x, _, rfl⟩ := List.mem_map.mp (List.mem_of_getLast? h); rfl

/-- Events of a tick: the position entered and the position closed. -/
def tickEvents (cfg : StrategyConfig α) (L : Ledger α) (t : Nat) (price : α) (o : Option TradeDirection) :
    StrategyEvents α :=
  match o, L.opened with
  | none, _ => ⟨none, none⟩
  | some dir, none => ⟨((L.enter cfg t price dir).opened.map Holding.toTrade), none⟩
  | some dir, some x =>
    if dir = x.dir then ⟨none, none⟩
    else
      let flat : Ledger α := ⟨L.closed ++ [⟨x, t, price⟩], none⟩
      ⟨if cfg.continous then (flat.enter cfg t price dir).opened.map Holding.toTrade else none,
        some (Closed.toTrade ⟨x, t, price⟩)⟩


/-- The books of the runner agree with the ledger `L`. -/
structure Books (cfg : StrategyConfig α) (L : Ledger α) (s : Strategy α) : Prop where
  config : s.config = cfg
  trades : s.trades = L.trades
  metrics : s.metrics = { bookMetrics cfg L.closed with equity := s.metrics.equity, openProfit := s.metrics.openProfit }
  flat : L.opened = none → s.metrics.openProfit = lit 0
  always : cfg.continous = true → L.opened = none → L.closed = []

theorem bookMetrics_snoc (cfg : StrategyConfig α) (l : List (Closed α)) (x : Closed α) :
    bookMetrics cfg (l ++ [x]) = Strategy.closeMetrics (bookMetrics cfg l) x.pos.dir x.profit := by simp [bookMetrics]

theorem closeMetrics_with (m : StrategyMetrics α) (e o : α) (dir : TradeDirection) (p : α) :
    Strategy.closeMetrics { m with equity := e, openProfit := o } dir p =
      { Strategy.closeMetrics m dir p with equity := e } := by
  unfold Strategy.closeMetrics
  cases fgt p (lit 0) <;> cases F64.lt p (lit 0) <;> cases dir <;> rfl

theorem closeMetrics_openProfit (m : StrategyMetrics α) (dir : TradeDirection) (p : α) :
    (Strategy.closeMetrics m dir p).openProfit = lit 0 := by
  unfold Strategy.closeMetrics
  cases fgt p (lit 0) <;> cases F64.lt p (lit 0) <;> cases dir <;> rfl

theorem closeMetrics_netProfit (m : StrategyMetrics α) (dir : TradeDirection) (p : α) :
    (Strategy.closeMetrics m dir p).netProfit = m.netProfit + p := by
  unfold Strategy.closeMetrics
  cases fgt p (lit 0) <;> cases F64.lt p (lit 0) <;> cases dir <;> rfl

theorem bookMetrics_openProfit (cfg : StrategyConfig α) (l : List (Closed α)) : (bookMetrics cfg l).openProfit = lit 0 := by
  induction l using List.reverseRecOn with
  | nil => rfl
  | append_singleton l x _ => rw [bookMetrics_snoc, closeMetrics_openProfit]

theorem fsum_snoc (l : List α) (a : α) : fsum (l ++ [a]) = fsum l + a := by simp [fsum]

theorem bookMetrics_netProfit (cfg : StrategyConfig α) (l : List (Closed α)) :
    (bookMetrics cfg l).netProfit = fsum (l.map Closed.profit) := by
  induction l using List.reverseRecOn with
  | nil => rfl
  | append_singleton l x ih => rw [bookMetrics_snoc, closeMetrics_netProfit, List.map_append, List.map_singleton, fsum_snoc, ih]

/-- Entering a position. -/
theorem openNew_eq {cfg : StrategyConfig α} {s : Strategy α} {l : List (Closed α)} (hc : s.config = cfg)
    (ht : s.trades = l.map Closed.toTrade) (hn : s.metrics.netProfit = fsum (l.map Closed.profit))
    (ho : s.metrics.openProfit = lit 0) (dir : TradeDirection) (p : α) (t : Nat) :
    ∃ x, ((⟨l, none⟩ : Ledger α).enter cfg t p dir) = ⟨l, some x⟩ ∧
      s.openNew dir (some p) t = .ok { s with trades := l.map Closed.toTrade ++ [x.toTrade],
                                              events := { s.events with onTradeEntry := some x.toTrade } } := by
  refine ⟨_, rfl, ?_⟩
  unfold Strategy.openNew
  rw [ht, hn, ho, hc]
  cases hb : cfg.buyWithEquity <;> simp [Trade.new, Holding.toTrade, fillSize, Ledger.realised]

theorem Books.netProfit {cfg : StrategyConfig α} {L : Ledger α} {s : Strategy α} (h : Books cfg L s) :
    s.metrics.netProfit = L.realised := by rw [h.metrics]; exact bookMetrics_netProfit cfg L.closed

/-- An order that changes the position. -/
def fills (L : Ledger α) (dir : TradeDirection) : Prop := ∀ x, L.opened = some x → dir ≠ x.dir

/-- Entering from flat. -/
theorem fill_enter {cfg : StrategyConfig α} {l : List (Closed α)} {s : Strategy α} (h : Books cfg ⟨l, none⟩ s) (dir : TradeDirection)
    (t : Nat) (op cl : Option α) :
    s.fill dir t op cl = (do
      let s ← s.openNew dir (if cfg.onBarClose then cl else op) t
      return { s with unfilled := none }) := by
  unfold Strategy.fill
  rw [h.config, h.trades, Ledger.trades_none]
  cases hl : (l.map Closed.toTrade).getLast? with
  | none => simp
  | some T =>
    have hc := getLast_closed l hl
    have hcont : cfg.continous = false := by
      by_contra hcc
      have := h.always (by simpa using hcc) rfl
      simp only at this
      subst this
      simp at hl
    simp [hc, hcont]

/-- Closing the open position. -/
theorem closeLast_eq {cfg : StrategyConfig α} {l : List (Closed α)} {x : Holding α} {s : Strategy α} (h : Books cfg ⟨l, some x⟩ s)
    (t : Nat) (p : α) :
    s.closeLast x.toTrade (some p) t = .ok { s with
      trades := (l ++ [(⟨x, t, p⟩ : Closed α)]).map Closed.toTrade
      events := { s.events with onTradeExit := some (Closed.toTrade ⟨x, t, p⟩) }
      metrics := { bookMetrics cfg (l ++ [⟨x, t, p⟩]) with equity := s.metrics.equity } } := by
  unfold Strategy.closeLast
  have hp := pnl_toTrade x p
  unfold Trade.pnl at hp ⊢
  simp only [Holding.toTrade, unwrap_some, Res.ok_bind, Res.pure_eq, Except.ok.injEq] at hp ⊢
  rw [hp, h.trades, Ledger.trades_some, List.dropLast_concat, h.metrics, closeMetrics_with, bookMetrics_snoc]
  simp [Closed.toTrade, Closed.profit]

/-- An order of the direction held changes nothing. -/
theorem fill_same {cfg : StrategyConfig α} {l : List (Closed α)} {x : Holding α} {s : Strategy α} (h : Books cfg ⟨l, some x⟩ s)
    (t : Nat) (op cl : Option α) : s.fill x.dir t op cl = .ok { s with unfilled := none } := by
  unfold Strategy.fill
  rw [h.config, h.trades, Ledger.trades_some, List.getLast?_concat]
  simp [Holding.toTrade, h.config, h.trades]

/-- An order of the other direction. -/
theorem fill_opposite {cfg : StrategyConfig α} {l : List (Closed α)} {x : Holding α} {s : Strategy α} (h : Books cfg ⟨l, some x⟩ s)
    {dir : TradeDirection} (hd : dir ≠ x.dir) (t : Nat) (op cl : Option α) :
    s.fill dir t op cl = (do
      let s ← s.closeLast x.toTrade (if cfg.onBarClose then cl else op) t
      let s ← if cfg.continous then s.openNew dir (if cfg.onBarClose then cl else op) t else pure s
      return { s with unfilled := none }) := by
  unfold Strategy.fill
  have hd' : ¬ x.dir = dir := fun e => hd e.symm
  rw [h.config, h.trades, Ledger.trades_some, List.getLast?_concat]
  simp only [Holding.toTrade, hd', decide_false, Bool.not_false, Bool.and_true, Bool.true_and, if_true,
    Bool.false_and]
  congr 1
  funext s1
  cases cfg.continous <;> simp

/-- Filling an order at a price. -/
theorem fill_ok {cfg : StrategyConfig α} {L : Ledger α} {s : Strategy α} (h : Books cfg L s) (he : s.events = ⟨none, none⟩)
    (dir : TradeDirection) (t : Nat) {op cl : Option α} {p : α} (hp : (if cfg.onBarClose then cl else op) = some p) :
    ∃ s1, s.fill dir t op cl = .ok s1 ∧ Books cfg (L.tick cfg t p (some dir)) s1 ∧ s1.unfilled = none ∧
      s1.events = tickEvents cfg L t p (some dir) := by
  obtain ⟨l, o⟩ := L
  cases o with
  | none =>
    rw [fill_enter h, hp]
    obtain ⟨x, h1, h2⟩ := openNew_eq (l := l) h.config (by simpa using h.trades) h.netProfit (h.flat rfl) dir p t
    rw [h2]
    refine ⟨_, rfl, ⟨h.config, ?_, ?_, ?_, ?_⟩, rfl, ?_⟩
    · simp [Ledger.tick, h1]
    · simpa [Ledger.tick, h1] using h.metrics
    · simp [Ledger.tick, h1]
    · simp [Ledger.tick, h1]
    · simp [tickEvents, h1, he]
  | some x =>
    by_cases hd : dir = x.dir
    · subst hd
      rw [fill_same h]
      have ht : Ledger.tick cfg ⟨l, some x⟩ t p (some x.dir) = ⟨l, some x⟩ := by simp [Ledger.tick]
      refine ⟨_, rfl, ?_, rfl, by simp [tickEvents, he]⟩
      rw [ht]
      exact ⟨h.config, h.trades, h.metrics, h.flat, h.always⟩
    · rw [fill_opposite h hd, hp, closeLast_eq h]
      cases hc : cfg.continous with
      | false =>
        refine ⟨_, rfl, ⟨h.config, ?_, ?_, ?_, ?_⟩, rfl, ?_⟩
        · simp [Ledger.tick, hd, hc]
        · simp [Ledger.tick, hd, hc]
        · simp [bookMetrics_openProfit]
        · simp [hc]
        · simp [tickEvents, hd, hc, he]
      | true =>
        simp only [Res.ok_bind, if_true]
        obtain ⟨y, h1, h2⟩ := openNew_eq (cfg := cfg) (l := l ++ [⟨x, t, p⟩]) (s := { s with
          trades := (l ++ [(⟨x, t, p⟩ : Closed α)]).map Closed.toTrade
          events := { s.events with onTradeExit := some (Closed.toTrade ⟨x, t, p⟩) }
          metrics := { bookMetrics cfg (l ++ [⟨x, t, p⟩]) with equity := s.metrics.equity } }) h.config rfl
          (bookMetrics_netProfit cfg _) (bookMetrics_openProfit cfg _) dir p t
        rw [h2]
        refine ⟨_, rfl, ⟨h.config, ?_, ?_, ?_, ?_⟩, rfl, ?_⟩
        · simp [Ledger.tick, hd, hc, h1]
        · simp [Ledger.tick, hd, hc, h1]
        · simp [Ledger.tick, hd, hc, h1]
        · simp [Ledger.tick, hd, hc, h1]
        · simp [tickEvents, hd, hc, h1]

/-- Marking to market. -/
theorem mark_flat {cfg : StrategyConfig α} {l : List (Closed α)} {s : Strategy α} (h : Books cfg ⟨l, none⟩ s) (cl : Option α) :
    s.markToMarket cl = .ok { s with metrics :=
      { s.metrics with equity := cfg.initialCapital + s.metrics.netProfit + s.metrics.openProfit } } := by
  unfold Strategy.markToMarket
  rw [h.config, h.trades, Ledger.trades_none]
  cases hl : (l.map Closed.toTrade).getLast? with
  | none => simp
  | some T => simp [getLast_closed l hl]

theorem mark_open {cfg : StrategyConfig α} {l : List (Closed α)} {x : Holding α} {s : Strategy α} (h : Books cfg ⟨l, some x⟩ s)
    (cl : Option α) :
    s.markToMarket cl = match cl with
      | none => .error .unwrapNone
      | some c => .ok { s with metrics :=
          { s.metrics with openProfit := x.profit c, equity := cfg.initialCapital + s.metrics.netProfit + x.profit c } } := by
  unfold Strategy.markToMarket
  rw [h.config, h.trades, Ledger.trades_some, List.getLast?_concat]
  cases cl with
  | none => simp [Holding.toTrade]
  | some c => simp [pnl_toTrade]; simp [Holding.toTrade]

/-- A fill without a price ends in a panic, at the latest when the position is marked to market. -/
theorem fill_error {cfg : StrategyConfig α} {L : Ledger α} {s : Strategy α} (h : Books cfg L s) {dir : TradeDirection}
    (hf : fills L dir) (t : Nat) {op cl : Option α} (hp : (if cfg.onBarClose then cl else op) = none)
    (u : Strategy α → Option TradeDirection) :
    (do let s ← s.fill dir t op cl; Strategy.markToMarket { s with unfilled := u s } cl) = .error .unwrapNone := by
  obtain ⟨l, o⟩ := L
  cases o with
  | none =>
    rw [fill_enter h, hp]
    unfold Strategy.openNew
    rw [h.config]
    cases hb : cfg.buyWithEquity with
    | true => simp
    | false => cases cl <;> simp [Strategy.markToMarket, Trade.pnl, Trade.new]
  | some x =>
    rw [fill_opposite h (hf x rfl), hp]
    simp [Strategy.closeLast]

theorem tick_not_fills {cfg : StrategyConfig α} {L : Ledger α} {dir : TradeDirection} (hf : ¬ fills L dir) (t : Nat) (p : α) :
    L.tick cfg t p (some dir) = L ∧ tickEvents cfg L t p (some dir) = ⟨none, none⟩ ∧
      ∃ l x, L = ⟨l, some x⟩ ∧ x.dir = dir := by
  unfold fills at hf
  push Not at hf
  obtain ⟨x, hx, rfl⟩ := hf
  obtain ⟨l, o⟩ := L
  cases hx
  simp [Ledger.tick, tickEvents]

/-- What is known after tick `t`, when the ledger is `L` before and `L'` after it. -/
structure TickDone (cfg : StrategyConfig α) (d : DataProvider α) (sig : Nat → Option TradeDirection) (L : Ledger α) (t : Nat)
    (s : Strategy α) : Prop where
  books : Books cfg (L.tick cfg t (fillPrice cfg d t) (order cfg sig t)) s
  unfilled : s.unfilled = if cfg.onBarClose then none else sig t
  events : s.events = tickEvents cfg L t (fillPrice cfg d t) (order cfg sig t)
  openProfit : ∀ x, (L.tick cfg t (fillPrice cfg d t) (order cfg sig t)).opened = some x →
    ∃ c, d.close[t]? = some (some c) ∧ s.metrics.openProfit = x.profit c
  equity : s.metrics.equity = cfg.initialCapital + s.metrics.netProfit + s.metrics.openProfit
  price : ∀ dir, order cfg sig t = some dir → fills L dir →
    (if cfg.onBarClose then d.close[t]? else d.open_[t]?) = some (some (fillPrice cfg d t))

theorem mark_done {cfg : StrategyConfig α} {L : Ledger α} {s s' : Strategy α} (h : Books cfg L s) {cl : Option α}
    (hm : s.markToMarket cl = .ok s') :
    Books cfg L s' ∧ s'.unfilled = s.unfilled ∧ s'.events = s.events ∧
      (∀ x, L.opened = some x → ∃ c, cl = some c ∧ s'.metrics.openProfit = x.profit c) ∧
      s'.metrics.equity = cfg.initialCapital + s'.metrics.netProfit + s'.metrics.openProfit := by
  obtain ⟨l, o⟩ := L
  cases o with
  | none =>
    rw [mark_flat h] at hm
    cases hm
    refine ⟨⟨h.config, h.trades, ?_, h.flat, h.always⟩, rfl, rfl, by simp, rfl⟩
    have := h.metrics
    simp only at this ⊢
    rw [this]
  | some x =>
    rw [mark_open h] at hm
    cases cl with
    | none => simp at hm
    | some c =>
      cases hm
      refine ⟨⟨h.config, h.trades, ?_, by simp, by simp⟩, rfl, rfl, ?_, rfl⟩
      · have := h.metrics
        simp only at this ⊢
        rw [this]
      · rintro y hy; cases hy; exact ⟨c, rfl, rfl⟩

theorem Books.congr {cfg : StrategyConfig α} {L : Ledger α} {s s1 : Strategy α} (h : Books cfg L s) (h1 : s1.config = s.config)
    (h2 : s1.trades = s.trades) (h3 : s1.metrics = s.metrics) : Books cfg L s1 :=
  ⟨h1.trans h.config, h2.trans h.trades, by rw [h3]; exact h.metrics, by rw [h3]; exact h.flat, h.always⟩

theorem closeLast_config {s s1 : Strategy α} {T : Trade α} {p : Option α} {t : Nat} (h : s.closeLast T p t = .ok s1) :
    s1.config = s.config := by
  unfold Strategy.closeLast at h
  cases p with
  | none => simp at h
  | some p =>
    simp only [unwrap_some, Res.ok_bind] at h
    cases hq : Trade.pnl _ p with
    | error e => rw [hq] at h; simp at h
    | ok q => rw [hq] at h; simp only [Res.ok_bind, Res.pure_eq, Except.ok.injEq] at h; rw [← h]

theorem openNew_config {s s1 : Strategy α} {dir : TradeDirection} {p : Option α} {t : Nat} (h : s.openNew dir p t = .ok s1) :
    s1.config = s.config := by
  unfold Strategy.openNew at h
  cases hb : s.config.buyWithEquity with
  | false => simp [hb] at h; rw [← h]
  | true =>
    cases p with
    | none => simp [hb] at h
    | some p => simp [hb] at h; rw [← h]

theorem fill_config {s s1 : Strategy α} {dir : TradeDirection} {t : Nat} {op cl : Option α} (h : s.fill dir t op cl = .ok s1) :
    s1.config = s.config := by
  have fin {s2 : Strategy α} {b : Prop} [Decidable b] {p : Option α}
      (h : (if b then (do let s ← s2.openNew dir p t; Except.ok { s with unfilled := none })
        else Except.ok { s2 with unfilled := none }) = Except.ok s1) :
      s1.config = s2.config := by
    by_cases hb : b
    · rw [if_pos hb] at h
      cases ho : s2.openNew dir p t with
      | error e => simp [ho] at h
      | ok s3 =>
        simp only [ho, Res.ok_bind, Except.ok.injEq] at h
        rw [← h, ← openNew_config ho]
    · rw [if_neg hb] at h
      cases h; rfl
  unfold Strategy.fill at h
  cases hl : s.trades.getLast? with
  | none => simp only [hl, Res.pure_eq, Res.ok_bind] at h; exact fin h
  | some T =>
    simp only [hl, Res.pure_eq, Res.ok_bind] at h
    cases hb : (!decide (T.direction = dir) && !T.isClosed) with
    | false => simp only [hb, Bool.false_eq_true, if_false] at h; exact fin h
    | true =>
      simp only [hb, if_true] at h
      cases hc : s.closeLast T (if s.config.onBarClose then cl else op) t with
      | error e => simp [hc] at h
      | ok s2 => simp only [hc, Res.ok_bind] at h; rw [fin h]; exact closeLast_config hc

theorem next_eq {cfg : StrategyConfig α} {L : Ledger α} {s : Strategy α} (h : Books cfg L s) (d : DataProvider α)
    {sig : Nat → Option TradeDirection} {t : Nat}
    (hu : s.unfilled = if cfg.onBarClose then none else if t = 0 then none else sig (t - 1)) {op cl : Option α}
    (ho : d.open_[t]? = some op) (hc : d.close[t]? = some cl) :
    ∃ s1, Books cfg L s1 ∧ s1.events = ⟨none, none⟩ ∧
      (cfg.onBarClose = true → order cfg sig t = none → s1.unfilled = none) ∧
      Strategy.next ⟨d, t⟩ s (sig t) = (do
        let s ← match order cfg sig t with
          | some dir => s1.fill dir t op cl
          | none => pure s1
        Strategy.markToMarket { s with unfilled := if cfg.onBarClose then s.unfilled else sig t } cl) := by
  refine ⟨{ s with unfilled := order cfg sig t, events := ⟨none, none⟩ }, h.congr rfl rfl rfl, rfl, fun _ e => e, ?_⟩
  have last (s2 : Strategy α) (u : Option TradeDirection) :
      (if (!s2.config.onBarClose) = true then { s2 with unfilled := u } else s2) =
        { s2 with unfilled := if s2.config.onBarClose then s2.unfilled else u } := by
    cases hb : s2.config.onBarClose <;> simp
  obtain rfl := h.config
  have first : (if s.config.onBarClose = true then { s with unfilled := sig t } else s) =
      { s with unfilled := order s.config sig t } := by
    unfold order
    cases hb : s.config.onBarClose with
    | true => rfl
    | false =>
      simp only [hb, Bool.false_eq_true, if_false] at hu ⊢
      rw [← hu]
  unfold Strategy.next
  simp only [Ctx.barOpen, Ctx.barClose, DataProvider.getOpen, DataProvider.getClose, index, ho, hc, Res.ok_bind, first]
  generalize order s.config sig t = o
  cases o with
  | none =>
    simp only [Res.pure_eq, Res.ok_bind]
    exact congrArg (Strategy.markToMarket · cl) (last { s with unfilled := none, events := ⟨none, none⟩ } (sig t))
  | some dir =>
    simp only
    cases hf : Strategy.fill _ dir t op cl with
    | error e => rfl
    | ok s2 =>
      have := last s2 (sig t)
      have e : s2.config = s.config := (fill_config hf :)
      rw [show s2.config.onBarClose = s.config.onBarClose by rw [e]] at this
      simp only [Res.ok_bind, e]
      rw [← e]
      exact congrArg (Strategy.markToMarket · cl) (by rw [e]; simpa [e] using this)

/-- The state before tick `t`. -/
def StratInv (cfg : StrategyConfig α) (sig : Nat → Option TradeDirection) (L : Ledger α) (t : Nat) (s : Strategy α) : Prop :=
  Books cfg L s ∧ s.unfilled = if cfg.onBarClose then none else if t = 0 then none else sig (t - 1)

theorem fillPrice_eq {cfg : StrategyConfig α} {d : DataProvider α} {t : Nat} {op cl : Option α} {p : α}
    (ho : d.open_[t]? = some op) (hc : d.close[t]? = some cl) (hp : (if cfg.onBarClose then cl else op) = some p) :
    fillPrice cfg d t = p := by
  unfold fillPrice
  rw [ho, hc]
  cases hb : cfg.onBarClose <;> simp_all

theorem next_sound {cfg : StrategyConfig α} {sig : Nat → Option TradeDirection} {L : Ledger α} {t : Nat} {s s' : Strategy α}
    (h : StratInv cfg sig L t s) {d : DataProvider α} (hn : Strategy.next ⟨d, t⟩ s (sig t) = .ok s') :
    TickDone cfg d sig L t s' := by
  obtain ⟨hb, hu⟩ := h
  cases ho : d.open_[t]? with
  | none => simp [Strategy.next, Ctx.barOpen, DataProvider.getOpen, index, ho] at hn
  | some op =>
  cases hc : d.close[t]? with
  | none => simp [Strategy.next, Ctx.barOpen, Ctx.barClose, DataProvider.getOpen, DataProvider.getClose, index, ho, hc] at hn
  | some cl =>
  obtain ⟨s1, b1, e1, u1, hnext⟩ := next_eq hb d hu ho hc
  rw [hnext] at hn
  cases hord : order cfg sig t with
  | none =>
    simp only [hord, Res.pure_eq, Res.ok_bind] at hn
    obtain ⟨m1, m2, m3, m4, m5⟩ := (fun h => mark_done h hn) (b1.congr rfl rfl rfl)
    refine ⟨by rw [hord]; exact m1, ?_, ?_, ?_, m5, ?_⟩
    · rw [m2]
      show (if _ then _ else _) = _
      cases hbc : cfg.onBarClose with
      | true => simp [u1 hbc hord]
      | false => rfl
    · rw [m3, hord]; exact e1
    · rw [hord, hc]
      intro x hx
      obtain ⟨c, rfl, h2⟩ := m4 x hx
      exact ⟨c, rfl, h2⟩
    · rw [hord]; simp
  | some dir =>
    simp only [hord] at hn
    cases hp : (if cfg.onBarClose then cl else op) with
    | some p =>
      have hfp := fillPrice_eq ho hc hp
      obtain ⟨s2, f1, f2, f3, f4⟩ := fill_ok b1 e1 dir t hp
      simp only [f1, Res.ok_bind] at hn
      obtain ⟨m1, m2, m3, m4, m5⟩ := (fun h => mark_done h hn) (f2.congr rfl rfl rfl)
      refine ⟨by rw [hord, hfp]; exact m1, ?_, ?_, ?_, m5, ?_⟩
      · rw [m2]
        show (if _ then _ else _) = _
        rw [f3]
      · rw [m3, hord, hfp]; exact f4
      · rw [hord, hfp, hc]
        intro x hx
        obtain ⟨c, rfl, h2⟩ := m4 x hx
        exact ⟨c, rfl, h2⟩
      · intro _ _ _
        rw [hfp, ho, hc, ← hp]
        cases cfg.onBarClose <;> rfl
    | none =>
      by_cases hf : fills L dir
      · rw [fill_error b1 hf t hp (fun s => if cfg.onBarClose then s.unfilled else sig t)] at hn
        simp at hn
      · obtain ⟨t1, t2, l, x, rfl, rfl⟩ := tick_not_fills (cfg := cfg) hf t (fillPrice cfg d t)
        rw [fill_same b1] at hn
        simp only [Res.ok_bind] at hn
        obtain ⟨m1, m2, m3, m4, m5⟩ := (fun h => mark_done h hn) (b1.congr rfl rfl rfl)
        refine ⟨by rw [hord, t1]; exact m1, ?_, ?_, ?_, m5, ?_⟩
        · rw [m2]
        · rw [m3, hord, t2]; exact e1
        · rw [hord, t1, hc]
          intro y hy
          obtain ⟨c, rfl, h2⟩ := m4 y hy
          exact ⟨c, rfl, h2⟩
        · rw [hord]; rintro dir' h1 h2; cases h1; exact absurd h2 hf

theorem next_complete {cfg : StrategyConfig α} {sig : Nat → Option TradeDirection} {L : Ledger α} {t : Nat} {s : Strategy α}
    (h : StratInv cfg sig L t s) {d : DataProvider α} {op cl : Option α} (ho : d.open_[t]? = some op) (hc : d.close[t]? = some cl)
    (hfill : ∀ dir, order cfg sig t = some dir → fills L dir → (if cfg.onBarClose then cl else op).isSome)
    (hmark : (L.tick cfg t (fillPrice cfg d t) (order cfg sig t)).opened.isSome → cl.isSome) :
    ∃ s', Strategy.next ⟨d, t⟩ s (sig t) = .ok s' := by
  obtain ⟨hb, hu⟩ := h
  have mark {L : Ledger α} {s : Strategy α} (h : Books cfg L s) (hm : L.opened.isSome → cl.isSome) :
      ∃ s', s.markToMarket cl = .ok s' := by
    obtain ⟨l, o⟩ := L
    cases o with
    | none => exact ⟨_, mark_flat h cl⟩
    | some x =>
      obtain ⟨c, rfl⟩ := Option.isSome_iff_exists.mp (hm rfl)
      exact ⟨_, mark_open h (some c)⟩
  obtain ⟨s1, b1, e1, u1, hnext⟩ := next_eq hb d hu ho hc
  rw [hnext]
  cases hord : order cfg sig t with
  | none =>
    simp only [Res.pure_eq, Res.ok_bind]
    rw [hord] at hmark
    exact mark (b1.congr rfl rfl rfl) hmark
  | some dir =>
    rw [hord] at hmark
    simp only
    cases hp : (if cfg.onBarClose then cl else op) with
    | some p =>
      obtain ⟨s2, f1, f2, f3, f4⟩ := fill_ok b1 e1 dir t hp
      rw [fillPrice_eq ho hc hp] at hmark
      simp only [f1, Res.ok_bind]
      exact mark (f2.congr rfl rfl rfl) hmark
    | none =>
      have hf : ¬ fills L dir := fun hf => by have := hfill dir hord hf; rw [hp] at this; simp at this
      obtain ⟨t1, t2, l, x, rfl, rfl⟩ := tick_not_fills (cfg := cfg) hf t (fillPrice cfg d t)
      rw [t1] at hmark
      rw [fill_same b1]
      simp only [Res.ok_bind]
      exact mark (b1.congr rfl rfl rfl) hmark

theorem stratInv_zero (cfg : StrategyConfig α) (sig : Nat → Option TradeDirection) :
    StratInv cfg sig ⟨[], none⟩ 0 (Strategy.new cfg) := by
  refine ⟨⟨rfl, rfl, rfl, fun _ => rfl, fun _ _ => rfl⟩, ?_⟩
  simp [Strategy.new]

theorem TickDone.inv {cfg : StrategyConfig α} {d : DataProvider α} {sig : Nat → Option TradeDirection} {L : Ledger α} {t : Nat}
    {s : Strategy α} (h : TickDone cfg d sig L t s) :
    StratInv cfg sig (L.tick cfg t (fillPrice cfg d t) (order cfg sig t)) (t + 1) s :=
  ⟨h.books, by rw [h.unfilled]; simp⟩

/-- The runner after each tick of a run. -/
theorem backtest_done {cfg : StrategyConfig α} {d : DataProvider α} {sig : Nat → Option TradeDirection} {N : Nat}
    {st : Nat → Strategy α} (h : Backtest cfg d sig N st) :
    ∀ t, t < N → TickDone cfg d sig (ledger cfg d sig t) t (st t) := by
  have hinv := selfRun_induct h (fun t s => StratInv cfg sig (ledger cfg d sig t) t s) (stratInv_zero cfg sig)
    (fun t s _ hi s' hs => (next_sound hi hs).inv)
  intro t ht
  exact next_sound (hinv t (by omega)) (selfRun_step h t ht)

end Pace
