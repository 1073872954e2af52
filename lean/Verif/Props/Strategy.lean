import Verif.Lemmas.Ledger
import Verif.Lemmas.NonNeg

/-!
# Strategy runner: C36 – C45, and C57 for the runner

`Spec.Backtest cfg d sig N st` says that `st 0, ..., st (N-1)` are the public states of the runner after the ticks
`0, ..., N-1` of a run with configuration `cfg`, data `d` and signals `sig`.
-/

set_option linter.unusedSectionVars false

namespace Pace
open Spec
variable {α : Type} [F64 α]

section
variable {cfg : StrategyConfig α} {d : DataProvider α} {sig : Nat → Option TradeDirection} {N : Nat} {st : Nat → Strategy α}

/-! ## C39: the state machine -/

/-- **C39.** After every tick of every run the trade list is exactly the one of the position state machine `Spec.ledger`. -/
theorem C39_refines (h : Backtest cfg d sig N st) {t : Nat} (ht : t < N) : (st t).trades = (ledger cfg d sig (t + 1)).trades :=
  (backtest_done h t ht).books.trades

/-- What is known of each trade of the list. -/
structure TradeFacts (cfg : StrategyConfig α) (sig : Nat → Option TradeDirection) (pr : Nat → α) (t : Nat) (T : Trade α) : Prop where
  entry : ∃ e, T.entryTick = some e ∧ e ≤ t ∧ order cfg sig e = some T.direction ∧ T.entryPrice = some (pr e)
  size : T.fillSize.isSome
  closed : T.isClosed = true → ∃ e x, T.entryTick = some e ∧ T.exitTick = some x ∧ e < x ∧ x ≤ t ∧
    order cfg sig x = some (opposite T.direction) ∧ T.exitPrice = some (pr x) ∧
    ∀ k, e < k → k < x → order cfg sig k ≠ some (opposite T.direction)
  opened : T.isClosed = false → T.exitTick = none ∧ T.exitPrice = none ∧ ∃ e, T.entryTick = some e ∧
    ∀ k, e < k → k ≤ t → order cfg sig k ≠ some (opposite T.direction)

theorem tradeFacts (n : Nat) {T : Trade α} (hT : T ∈ (ledger cfg d sig (n + 1)).trades) :
    TradeFacts cfg sig (fillPrice cfg d) n T := by
  have h := ledger_inv cfg d sig (n + 1)
  rcases List.mem_append.mp hT with hT | hT
  · obtain ⟨c, hc, rfl⟩ := List.mem_map.mp hT
    obtain ⟨h1, h2, h3, h4, h5, h6, h7, _⟩ := h.closed c hc
    exact ⟨⟨_, rfl, by omega, h3, by simp [Closed.toTrade, h6]⟩, rfl,
      fun _ => ⟨_, _, rfl, rfl, h1, by omega, h4, by simp [Closed.toTrade, h7], h5⟩, by simp [Closed.toTrade]⟩
  · obtain ⟨x, hx, rfl⟩ : ∃ x, (ledger cfg d sig (n + 1)).opened = some x ∧ x.toTrade = T := by
      simpa [Option.map_eq_some_iff] using hT
    obtain ⟨h1, h2, h3, h4, _⟩ := h.opened x hx
    exact ⟨⟨_, rfl, by omega, h2, by simp [Holding.toTrade, h4]⟩, rfl, by simp [Holding.toTrade],
      fun _ => ⟨rfl, rfl, _, rfl, fun k hk1 hk2 => h3 k hk1 (by omega)⟩⟩

/-- **C39.** A closed trade was closed by the first opposite order after its entry; an open trade has seen no opposite
order since its entry. -/
theorem C39_first_opposite (h : Backtest cfg d sig N st) {t : Nat} (ht : t < N) {T : Trade α} (hT : T ∈ (st t).trades) :
    ∃ e, T.entryTick = some e ∧
      (T.isClosed = true → ∃ x, T.exitTick = some x ∧ e < x ∧ order cfg sig x = some (opposite T.direction) ∧
        ∀ k, e < k → k < x → order cfg sig k ≠ some (opposite T.direction)) ∧
      (T.isClosed = false → ∀ k, e < k → k ≤ t → order cfg sig k ≠ some (opposite T.direction)) := by
  rw [C39_refines h ht] at hT
  have f := tradeFacts t hT
  obtain ⟨e, he, _⟩ := f.entry
  refine ⟨e, he, fun hc => ?_, fun ho => ?_⟩
  · obtain ⟨e', x, h1, h2, h3, h4, h5, h6, h7⟩ := f.closed hc
    rw [he] at h1; cases h1
    exact ⟨x, h2, h3, h5, h7⟩
  · obtain ⟨_, _, e', h1, h2⟩ := f.opened ho
    rw [he] at h1; cases h1
    exact h2

/-- **C39.** Continuous mode: each trade is followed by one of the opposite direction, entered on the tick the previous one
was closed. -/
theorem C39_continuous_alternates (h : Backtest cfg d sig N st) (hc : cfg.continous = true) {t : Nat} (ht : t < N) :
    List.IsChain (fun a b => b.direction = opposite a.direction ∧ a.exitTick = b.entryTick) (st t).trades := by
  rw [C39_refines h ht]
  refine (ledger_inv cfg d sig (t + 1)).chain.imp ?_
  rintro a b ⟨x, e, h1, h2, h3, _⟩
  obtain ⟨rfl, h4⟩ := h3 hc
  exact ⟨h4, by rw [h1, h2]⟩

/-- **C39.** Continuous mode: once an order was executed there is always an open trade. -/
theorem C39_continuous_in_market (h : Backtest cfg d sig N st) (hc : cfg.continous = true) {t k : Nat} (ht : t < N) (hk : k ≤ t)
    (ho : order cfg sig k ≠ none) : ∃ T, (st t).trades.getLast? = some T ∧ T.isClosed = false := by
  rw [C39_refines h ht]
  have hi := ledger_inv cfg d sig (t + 1)
  generalize ledger cfg d sig (t + 1) = L at hi
  obtain ⟨l, op⟩ := L
  cases op with
  | some x => exact ⟨x.toTrade, by simp, rfl⟩
  | none =>
    have hl := hi.always hc rfl
    simp only at hl
    subst hl
    exact absurd (hi.flat rfl k (by omega) (by simp)) ho

/-- **C39.** Non-continuous mode: no order is missed.  Between the exit of a trade and the entry of the next there was no
order; before the first trade there was none; if the last trade is closed there was none since its exit. -/
theorem C39_flat_ignores_nothing (h : Backtest cfg d sig N st) (hc : cfg.continous = false) {t : Nat} (ht : t < N) :
    List.IsChain (fun a b => ∃ x e, a.exitTick = some x ∧ b.entryTick = some e ∧ x < e ∧
      ∀ k, x < k → k < e → order cfg sig k = none) (st t).trades ∧
    (∀ T, (st t).trades.getLast? = some T → T.isClosed = true → ∃ x, T.exitTick = some x ∧
      ∀ k, x < k → k ≤ t → order cfg sig k = none) := by
  rw [C39_refines h ht]
  have hi := ledger_inv cfg d sig (t + 1)
  refine ⟨hi.chain.imp ?_, ?_⟩
  · rintro a b ⟨x, e, h1, h2, _, h3⟩
    exact ⟨x, e, h1, h2, (h3 hc).1, (h3 hc).2⟩
  · generalize ledger cfg d sig (t + 1) = L at hi
    obtain ⟨l, op⟩ := L
    cases op with
    | some x => intro T hT; simp at hT; subst hT; simp [Holding.toTrade]
    | none =>
      intro T hT _
      obtain ⟨c, hc, rfl⟩ : ∃ c, l.getLast? = some c ∧ c.toTrade = T := by
        simpa [List.getLast?_map, Option.map_eq_some_iff] using hT
      refine ⟨c.exitTick, rfl, fun k h1 h2 => hi.flat rfl k (by omega) ?_⟩
      intro c' hc'
      simp only [hc, Option.mem_some_iff] at hc'
      exact hc' ▸ h1

/-- **C39.** In both modes the first order that is executed opens the first trade. -/
theorem C39_first_order (h : Backtest cfg d sig N st) {t : Nat} (ht : t < N) :
    (∀ T, (st t).trades.head? = some T → ∃ e, T.entryTick = some e ∧ order cfg sig e = some T.direction ∧
      ∀ k, k < e → order cfg sig k = none) ∧
    ((st t).trades = [] → ∀ k, k ≤ t → order cfg sig k = none) := by
  rw [C39_refines h ht]
  have hi := ledger_inv cfg d sig (t + 1)
  constructor
  · intro T hT
    obtain ⟨e, he, _, ho, _⟩ := (tradeFacts t (List.mem_of_head? hT)).entry
    exact ⟨e, he, ho, hi.first T hT e he⟩
  · intro hnil k hk
    generalize ledger cfg d sig (t + 1) = L at hi hnil
    obtain ⟨l, op⟩ := L
    cases op with
    | some x => simp at hnil
    | none =>
      simp at hnil
      subst hnil
      exact hi.flat rfl k (by omega) (by simp)

/-! ## C36 – C38 -/

/-- **C36.** Every trade except possibly the last is closed; closed trades have entry and exit set, the open one has its
entry set and no exit. -/
theorem C36_one_open (h : Backtest cfg d sig N st) {t : Nat} (ht : t < N) :
    (∀ T ∈ (st t).trades.dropLast, T.isClosed = true) ∧
    ∀ T ∈ (st t).trades, T.entryTick.isSome ∧ T.entryPrice.isSome ∧ T.fillSize.isSome ∧
      (T.isClosed = true → T.exitTick.isSome ∧ T.exitPrice.isSome) ∧
      (T.isClosed = false → T.exitTick = none ∧ T.exitPrice = none) := by
  rw [C39_refines h ht]
  constructor
  · generalize ledger cfg d sig (t + 1) = L
    obtain ⟨l, op⟩ := L
    have hl : ∀ T ∈ l.map Closed.toTrade, T.isClosed = true := by
      intro T hT; obtain ⟨c, _, rfl⟩ := List.mem_map.mp hT; rfl
    cases op with
    | none => rw [Ledger.trades_none]; exact fun T hT => hl T (List.mem_of_mem_dropLast hT)
    | some x => rw [Ledger.trades_some, List.dropLast_concat]; exact hl
  · intro T hT
    have f := tradeFacts t hT
    obtain ⟨e, h1, _, _, h2⟩ := f.entry
    refine ⟨by simp [h1], by simp [h2], f.size, fun hc => ?_, fun ho => ⟨(f.opened ho).1, (f.opened ho).2.1⟩⟩
    obtain ⟨_, x, _, h3, _, _, _, h4, _⟩ := f.closed hc
    exact ⟨by simp [h3], by simp [h4]⟩

/-- **C36.** `isActive` holds of exactly the trade that is not closed. -/
theorem C36_active (h : Backtest cfg d sig N st) {t : Nat} (ht : t < N) {T : Trade α} (hT : T ∈ (st t).trades) :
    T.isActive = true ↔ T.isClosed = false := by
  have := (C36_one_open h ht).2 T hT
  simp [Trade.isActive, this.1]

/-- **C37.** A trade exits strictly after its entry; the next trade enters on the exit tick in continuous mode, strictly
later otherwise. -/
theorem C37_order (h : Backtest cfg d sig N st) {t : Nat} (ht : t < N) :
    (∀ T ∈ (st t).trades, ∀ e x, T.entryTick = some e → T.exitTick = some x → e < x ∧ x ≤ t) ∧
    List.IsChain (fun a b => ∃ x e, a.exitTick = some x ∧ b.entryTick = some e ∧
      if cfg.continous then x = e else x < e) (st t).trades := by
  rw [C39_refines h ht]
  constructor
  · intro T hT e x he hx
    have f := tradeFacts t hT
    cases hc : T.isClosed with
    | true =>
      obtain ⟨e', x', h1, h2, h3, h4, _⟩ := f.closed hc
      rw [he] at h1; rw [hx] at h2; cases h1; cases h2
      exact ⟨h3, h4⟩
    | false => rw [(f.opened hc).1] at hx; simp at hx
  · refine (ledger_inv cfg d sig (t + 1)).chain.imp ?_
    rintro a b ⟨x, e, h1, h2, h3, h4⟩
    refine ⟨x, e, h1, h2, ?_⟩
    cases hc : cfg.continous with
    | true => exact (h3 hc).1
    | false => exact (h4 hc).1

/-- On a tick at which the position changes the price is present. -/
theorem price_present (h : Backtest cfg d sig N st) {t : Nat} (ht : t < N) {T : Trade α} (hT : T ∈ (st t).trades) :
    (∀ e, T.entryTick = some e → (if cfg.onBarClose then d.close[e]? else d.open_[e]?) = some T.entryPrice) ∧
    (∀ x, T.exitTick = some x → (if cfg.onBarClose then d.close[x]? else d.open_[x]?) = some T.exitPrice) := by
  rw [C39_refines h ht] at hT
  -- every entry and exit in the ledger after `n` ticks was a fill
  have key : ∀ n, n ≤ N → ∀ T ∈ (ledger cfg d sig n).trades,
      (∀ e, T.entryTick = some e → (if cfg.onBarClose then d.close[e]? else d.open_[e]?) = some (some (fillPrice cfg d e))) ∧
      (∀ x, T.exitTick = some x → (if cfg.onBarClose then d.close[x]? else d.open_[x]?) = some (some (fillPrice cfg d x))) := by
    intro n
    induction n with
    | zero => intro _ T hT; simp [ledger, Ledger.trades] at hT
    | succ n ih =>
      intro hn T hT
      have ih' := ih (by omega)
      have hp := (backtest_done h n (by omega)).price
      simp only [ledger] at hT
      have hinv := ledger_inv cfg d sig n
      generalize ledger cfg d sig n = L at *
      obtain ⟨l, op⟩ := L
      cases ho : order cfg sig n with
      | none => rw [ho] at hT; exact ih' T (by simpa [Ledger.tick] using hT)
      | some dir =>
        rw [ho] at hT
        cases op with
        | none =>
          have hpr := hp dir ho (by simp [fills])
          simp only [Ledger.tick, Ledger.enter, Ledger.trades_some, List.mem_append, List.mem_singleton] at hT
          rcases hT with hT | rfl
          · exact ih' T (by simpa using hT)
          · exact ⟨by rintro e ⟨⟩; exact hpr, by rintro x ⟨⟩⟩
        | some x =>
          by_cases hd : dir = x.dir
          · exact ih' T (by simpa [Ledger.tick, hd] using hT)
          · have hpr := hp dir ho (by rintro y ⟨⟩; exact hd)
            have hx : (∀ e, x.toTrade.entryTick = some e →
                (if cfg.onBarClose then d.close[e]? else d.open_[e]?) = some (some (fillPrice cfg d e))) :=
              (ih' x.toTrade (by simp)).1
            have hcl : ∀ T ∈ (l ++ [(⟨x, n, fillPrice cfg d n⟩ : Closed α)]).map Closed.toTrade,
                (∀ e, T.entryTick = some e → (if cfg.onBarClose then d.close[e]? else d.open_[e]?) = some (some (fillPrice cfg d e))) ∧
                (∀ x, T.exitTick = some x → (if cfg.onBarClose then d.close[x]? else d.open_[x]?) = some (some (fillPrice cfg d x))) := by
              intro T hT
              simp only [List.map_append, List.map_singleton, List.mem_append, List.mem_singleton] at hT
              rcases hT with hT | rfl
              · exact ih' T (by simp [hT])
              · exact ⟨hx, by rintro x ⟨⟩; exact hpr⟩
            cases hc : cfg.continous with
            | false =>
              simp only [Ledger.tick, hd, hc, if_false, Ledger.trades_none, Bool.false_eq_true] at hT
              exact hcl T hT
            | true =>
              simp only [Ledger.tick, hd, hc, if_false, if_true, Ledger.enter, Ledger.trades_some, List.mem_append,
                List.mem_singleton] at hT
              rcases hT with hT | rfl
              · exact hcl T hT
              · exact ⟨by rintro e ⟨⟩; exact hpr, by rintro x ⟨⟩⟩
  have f := tradeFacts t hT
  have k := key (t + 1) (by omega) T hT
  constructor
  · intro e he
    obtain ⟨e', h1, _, _, h2⟩ := f.entry
    rw [he] at h1; cases h1
    rw [k.1 e he, h2]
  · intro x hx
    cases hc : T.isClosed with
    | true =>
      obtain ⟨_, x', _, h2, _, _, _, h3, _⟩ := f.closed hc
      rw [hx] at h2; cases h2
      rw [k.2 x hx, h3]
    | false => rw [(f.opened hc).1] at hx; simp at hx

/-- **C38.** Orders filled at the bar's close: a trade was entered on the tick of a signal of its direction at that bar's
close, and left on the tick of a signal of the opposite direction at that bar's close. -/
theorem C38_bar_close (h : Backtest cfg d sig N st) (hc : cfg.onBarClose = true) {t : Nat} (ht : t < N) {T : Trade α}
    (hT : T ∈ (st t).trades) :
    (∃ e, T.entryTick = some e ∧ e ≤ t ∧ sig e = some T.direction ∧ ∃ p, T.entryPrice = some p ∧ d.close[e]? = some (some p)) ∧
    ∀ x, T.exitTick = some x → x ≤ t ∧ sig x = some (opposite T.direction) ∧
      ∃ p, T.exitPrice = some p ∧ d.close[x]? = some (some p) := by
  obtain ⟨p1, p2⟩ := price_present h ht hT
  rw [C39_refines h ht] at hT
  have f := tradeFacts t hT
  simp only [hc, if_true] at p1 p2
  constructor
  · obtain ⟨e, h1, h2, h3, h4⟩ := f.entry
    exact ⟨e, h1, h2, by simpa [order, hc] using h3, _, h4, by rw [p1 e h1, h4]⟩
  · intro x hx
    cases hcl : T.isClosed with
    | true =>
      obtain ⟨_, x', _, h2, _, h4, h5, h6, _⟩ := f.closed hcl
      rw [hx] at h2; cases h2
      exact ⟨h4, by simpa [order, hc] using h5, _, h6, by rw [p2 x hx, h6]⟩
    | false => rw [(f.opened hcl).1] at hx; simp at hx

/-- **C38.** Orders filled at the next open: a signal of tick `k` fills on tick `k + 1` at that bar's open.  In particular
the signal of the last tick is never filled. -/
theorem C38_next_open (h : Backtest cfg d sig N st) (hc : cfg.onBarClose = false) {t : Nat} (ht : t < N) {T : Trade α}
    (hT : T ∈ (st t).trades) :
    (∃ k, T.entryTick = some (k + 1) ∧ k + 1 ≤ t ∧ sig k = some T.direction ∧
      ∃ p, T.entryPrice = some p ∧ d.open_[k + 1]? = some (some p)) ∧
    ∀ x, T.exitTick = some x → ∃ k, x = k + 1 ∧ k + 1 ≤ t ∧ sig k = some (opposite T.direction) ∧
      ∃ p, T.exitPrice = some p ∧ d.open_[k + 1]? = some (some p) := by
  obtain ⟨p1, p2⟩ := price_present h ht hT
  rw [C39_refines h ht] at hT
  have f := tradeFacts t hT
  simp only [hc, Bool.false_eq_true, if_false] at p1 p2
  have ord {k : Nat} {dir : TradeDirection} (ho : order cfg sig k = some dir) : ∃ j, k = j + 1 ∧ sig j = some dir := by
    cases k with
    | zero => simp [order, hc] at ho
    | succ j => exact ⟨j, rfl, by simpa [order, hc] using ho⟩
  constructor
  · obtain ⟨e, h1, h2, h3, h4⟩ := f.entry
    obtain ⟨k, rfl, hk⟩ := ord h3
    exact ⟨k, h1, h2, hk, _, h4, by rw [p1 _ h1, h4]⟩
  · intro x hx
    cases hcl : T.isClosed with
    | true =>
      obtain ⟨_, x', _, h2, _, h4, h5, h6, _⟩ := f.closed hcl
      rw [hx] at h2; cases h2
      obtain ⟨k, rfl, hk⟩ := ord h5
      exact ⟨k, rfl, h4, hk, _, h6, by rw [p2 _ hx, h6]⟩
    | false => rw [(f.opened hcl).1] at hx; simp at hx

/-! ## C40: statistics -/

theorem filter_closed (L : Ledger α) : L.trades.filter (·.isClosed) = L.closed.map Closed.toTrade := by
  obtain ⟨l, op⟩ := L
  have hl : (l.map (Closed.toTrade (α := α))).filter (·.isClosed) = l.map Closed.toTrade :=
    List.filter_eq_self.mpr fun T hT => by obtain ⟨c, _, rfl⟩ := List.mem_map.mp hT; rfl
  cases op with
  | none => rw [Ledger.trades_none, hl]
  | some x => rw [Ledger.trades_some, List.filter_append, hl]; simp [Holding.toTrade]

/-- The statistics the runner reports, for a list of closed trades. -/
structure StatsOf (m : StrategyMetrics α) (closed : List (Trade α)) : Prop where
  netProfit : m.netProfit = fsum (closed.map (·.pnlField))
  grossProfit : m.grossProfit = fsum ((closed.map (·.pnlField)).filter fun p => fgt p (lit 0))
  grossLoss : m.grossLoss = fsum (((closed.map (·.pnlField)).filter fun p => !fgt p (lit 0) && F64.lt p (lit 0)).map F64.abs)
  longNetProfit : m.longNetProfit = fsum ((closed.filter fun T => decide (T.direction = .long)).map (·.pnlField))
  shortNetProfit : m.shortNetProfit = fsum ((closed.filter fun T => decide (T.direction = .short)).map (·.pnlField))
  closedTrades : m.closedTrades = closed.length
  winningTrades : m.winningTrades = closed.countP fun T => fgt T.pnlField (lit 0)
  losingTrades : m.losingTrades = closed.countP fun T => !fgt T.pnlField (lit 0) && F64.lt T.pnlField (lit 0)

theorem statsOf_book (cfg : StrategyConfig α) (l : List (Closed α)) : StatsOf (bookMetrics cfg l) (l.map Closed.toTrade) := by
  induction l using List.reverseRecOn with
  | nil => constructor <;> rfl
  | append_singleton l c ih =>
    rw [bookMetrics_snoc]
    unfold Strategy.closeMetrics
    have hp : (Closed.toTrade c).pnlField = c.profit := rfl
    have hd : (Closed.toTrade c).direction = c.pos.dir := rfl
    constructor <;>
      (cases h1 : fgt c.profit (lit 0) <;> cases h2 : F64.lt c.profit (lit 0) <;> cases h3 : c.pos.dir <;>
        simp [h1, h2, h3, hp, hd, List.filter_append, fsum_snoc, ih.netProfit, ih.grossProfit, ih.grossLoss, ih.longNetProfit,
          ih.shortNetProfit, ih.closedTrades, ih.winningTrades, ih.losingTrades, List.countP_append])

/-- **C40.** After every tick the statistics are, bit for bit, the sums and counts over the closed trades in closing order:
net profit over all, gross profit over those with positive profit, gross loss over the absolute values of those with negative
profit, long and short net profit over those of the direction. -/
theorem C40_statistics (h : Backtest cfg d sig N st) {t : Nat} (ht : t < N) :
    StatsOf (st t).metrics ((st t).trades.filter (·.isClosed)) := by
  have b := (backtest_done h t ht).books
  rw [b.trades, filter_closed]
  have s := statsOf_book cfg ((ledger cfg d sig t).tick cfg t (fillPrice cfg d t) (order cfg sig t)).closed
  have e := b.metrics
  constructor <;> rw [e]
  · exact s.netProfit
  · exact s.grossProfit
  · exact s.grossLoss
  · exact s.longNetProfit
  · exact s.shortNetProfit
  · exact s.closedTrades
  · exact s.winningTrades
  · exact s.losingTrades

/-- **C40.** The profit booked for a closed trade is size times price difference, negated for a short trade; an open trade
has none booked. -/
theorem C40_pnl (h : Backtest cfg d sig N st) {t : Nat} (ht : t < N) {T : Trade α} (hT : T ∈ (st t).trades) :
    (T.isClosed = true → ∃ entry exit size, T.entryPrice = some entry ∧ T.exitPrice = some exit ∧ T.fillSize = some size ∧
      T.pnlField = (exit - entry) * size * (match T.direction with | .long => lit 1 | .short => -(lit 1))) ∧
    (T.isClosed = false → T.pnlField = lit 0) := by
  rw [C39_refines h ht] at hT
  rcases List.mem_append.mp hT with hT | hT
  · obtain ⟨c, hc, rfl⟩ := List.mem_map.mp hT
    exact ⟨fun _ => ⟨_, _, _, rfl, rfl, rfl, rfl⟩, by simp [Closed.toTrade]⟩
  · obtain ⟨x, hx, rfl⟩ : ∃ x, (ledger cfg d sig (t + 1)).opened = some x ∧ x.toTrade = T := by
      simpa [Option.map_eq_some_iff] using hT
    exact ⟨by simp [Holding.toTrade], fun _ => rfl⟩

/-- **C40.** Wins and losses together are at most the closed trades, and equal to them exactly when every closed trade's
profit is greater or less than 0 (i.e. neither 0 nor NaN). -/
theorem C40_counts (h : Backtest cfg d sig N st) {t : Nat} (ht : t < N) :
    (st t).metrics.winningTrades + (st t).metrics.losingTrades ≤ (st t).metrics.closedTrades ∧
    ((st t).metrics.winningTrades + (st t).metrics.losingTrades = (st t).metrics.closedTrades ↔
      ∀ T ∈ (st t).trades, T.isClosed = true → fgt T.pnlField (lit 0) = true ∨ F64.lt T.pnlField (lit 0) = true) := by
  have s := C40_statistics h ht
  rw [s.winningTrades, s.losingTrades, s.closedTrades]
  have aux : ∀ l : List (Trade α), (l.countP fun T => fgt T.pnlField (lit 0)) +
      (l.countP fun T => !fgt T.pnlField (lit 0) && F64.lt T.pnlField (lit 0)) ≤ l.length ∧
      ((l.countP fun T => fgt T.pnlField (lit 0)) +
      (l.countP fun T => !fgt T.pnlField (lit 0) && F64.lt T.pnlField (lit 0)) = l.length ↔
        ∀ T ∈ l, fgt T.pnlField (lit 0) = true ∨ F64.lt T.pnlField (lit 0) = true) := by
    intro l
    induction l with
    | nil => simp
    | cons T l ih =>
      obtain ⟨i1, i2⟩ := ih
      cases h1 : fgt T.pnlField (lit 0) <;> cases h2 : F64.lt T.pnlField (lit 0) <;>
        simp only [List.countP_cons, h1, h2, List.length_cons, List.mem_cons, forall_eq_or_imp, ← i2] <;> simp <;> omega
  obtain ⟨a1, a2⟩ := aux ((st t).trades.filter (·.isClosed))
  refine ⟨a1, a2.trans ⟨fun H T hT hc => H T (List.mem_filter.mpr ⟨hT, hc⟩), fun H T hT => ?_⟩⟩
  obtain ⟨h1, h2⟩ := List.mem_filter.mp hT
  exact H T h1 h2

/-! ## C42, C43 -/

/-- **C42.** After every tick: equity is initial capital plus net profit plus open profit; without an open trade the open
profit is 0; with an open trade it is that trade's profit at the bar's close. -/
theorem C42_equity (h : Backtest cfg d sig N st) {t : Nat} (ht : t < N) :
    (st t).metrics.equity = cfg.initialCapital + (st t).metrics.netProfit + (st t).metrics.openProfit ∧
    ((∀ T ∈ (st t).trades, T.isClosed = true) → (st t).metrics.openProfit = lit 0) ∧
    ∀ T ∈ (st t).trades, T.isClosed = false → ∃ close entry size, d.close[t]? = some (some close) ∧
      T.entryPrice = some entry ∧ T.fillSize = some size ∧
      (st t).metrics.openProfit = (close - entry) * size * (match T.direction with | .long => lit 1 | .short => -(lit 1)) := by
  have hd := backtest_done h t ht
  refine ⟨hd.equity, ?_, ?_⟩
  · rw [C39_refines h ht]
    intro hall
    refine hd.books.flat ?_
    cases ho : ((ledger cfg d sig t).tick cfg t (fillPrice cfg d t) (order cfg sig t)).opened with
    | none => rfl
    | some x =>
      have := hall x.toTrade (List.mem_append_right _ (by rw [show (ledger cfg d sig (t + 1)).opened = some x from ho]; simp))
      simp [Holding.toTrade] at this
  · rw [C39_refines h ht]
    intro T hT hc
    rcases List.mem_append.mp hT with hT | hT
    · obtain ⟨c, _, rfl⟩ := List.mem_map.mp hT
      simp [Closed.toTrade] at hc
    · obtain ⟨x, hx, rfl⟩ : ∃ x, (ledger cfg d sig (t + 1)).opened = some x ∧ x.toTrade = T := by
        simpa [Option.map_eq_some_iff] using hT
      obtain ⟨c, h1, h2⟩ := hd.openProfit x hx
      exact ⟨c, x.price, x.size, h1, rfl, rfl, h2⟩

theorem tickEvents_spec {o : Nat → Option TradeDirection} {pr : Nat → α} {n : Nat} {L : Ledger α}
    (h : LedgerInv cfg o pr n L) (T : Trade α) :
    ((tickEvents cfg L n (pr n) (o n)).onTradeEntry = some T ↔
      T ∈ (L.tick cfg n (pr n) (o n)).trades ∧ T.entryTick = some n) ∧
    ((tickEvents cfg L n (pr n) (o n)).onTradeExit = some T ↔
      T ∈ (L.tick cfg n (pr n) (o n)).trades ∧ T.exitTick = some n) := by
  obtain ⟨l, op⟩ := L
  have hl : ∀ T ∈ l.map Closed.toTrade, T.entryTick ≠ some n ∧ T.exitTick ≠ some n := by
    intro T hT
    obtain ⟨c, hc, rfl⟩ := List.mem_map.mp hT
    obtain ⟨h1, h2, _⟩ := h.closed c hc
    exact ⟨by simp [Closed.toTrade]; omega, by simp [Closed.toTrade]; omega⟩
  have hx : ∀ x, op = some x → x.tick ≠ n := fun x hx => by have := (h.opened x hx).1; omega
  have notl {P : Prop} : (T ∈ l.map Closed.toTrade ∧ T.entryTick = some n → P) ∧
      (T ∈ l.map Closed.toTrade ∧ T.exitTick = some n → P) :=
    ⟨fun hh => absurd hh.2 (hl T hh.1).1, fun hh => absurd hh.2 (hl T hh.1).2⟩
  have same : (none = some T ↔ T ∈ (⟨l, op⟩ : Ledger α).trades ∧ T.entryTick = some n) ∧
      (none = some T ↔ T ∈ (⟨l, op⟩ : Ledger α).trades ∧ T.exitTick = some n) := by
    cases op with
    | none =>
      rw [Ledger.trades_none]
      exact ⟨⟨by simp, notl.1⟩, ⟨by simp, notl.2⟩⟩
    | some x =>
      rw [Ledger.trades_some]
      simp only [List.mem_append, List.mem_singleton]
      have := hx x rfl
      refine ⟨⟨by simp, ?_⟩, ⟨by simp, ?_⟩⟩
      · rintro ⟨h1 | rfl, h2⟩
        · exact notl.1 ⟨h1, h2⟩
        · simp [Holding.toTrade, this] at h2
      · rintro ⟨h1 | rfl, h2⟩
        · exact notl.2 ⟨h1, h2⟩
        · simp [Holding.toTrade] at h2
  cases ho : o n with
  | none => simpa [tickEvents, Ledger.tick] using same
  | some dir =>
    cases op with
    | none =>
      simp only [tickEvents, Ledger.tick, Ledger.enter, Ledger.trades_some, Option.map_some, Option.some.injEq, List.mem_append,
        List.mem_singleton]
      refine ⟨⟨?_, ?_⟩, ⟨by simp, ?_⟩⟩
      · rintro rfl; exact ⟨Or.inr rfl, rfl⟩
      · rintro ⟨h1 | h1, h2⟩
        · exact notl.1 ⟨h1, h2⟩
        · exact h1.symm
      · rintro ⟨h1 | rfl, h2⟩
        · exact notl.2 ⟨h1, h2⟩
        · simp [Holding.toTrade] at h2
    | some x =>
      have hxn := hx x rfl
      by_cases hd : dir = x.dir
      · simpa [tickEvents, Ledger.tick, hd] using same
      · cases hc : cfg.continous with
        | false =>
          simp only [tickEvents, Ledger.tick, hd, hc, if_false, Bool.false_eq_true, Ledger.trades_none, List.map_append,
            List.map_singleton, List.mem_append, List.mem_singleton, Option.some.injEq]
          refine ⟨⟨by simp, ?_⟩, ⟨?_, ?_⟩⟩
          · rintro ⟨h1 | rfl, h2⟩
            · exact notl.1 ⟨h1, h2⟩
            · simp [Closed.toTrade, hxn] at h2
          · rintro rfl; exact ⟨Or.inr rfl, rfl⟩
          · rintro ⟨h1 | h1, h2⟩
            · exact notl.2 ⟨h1, h2⟩
            · exact h1.symm
        | true =>
          simp only [tickEvents, Ledger.tick, hd, hc, if_false, if_true, Ledger.enter, Ledger.trades_some, List.map_append,
            List.map_singleton, List.mem_append, List.mem_singleton, Option.some.injEq, Option.map_some]
          refine ⟨⟨?_, ?_⟩, ⟨?_, ?_⟩⟩
          · rintro rfl; exact ⟨Or.inr rfl, rfl⟩
          · rintro ⟨(h1 | rfl) | h1, h2⟩
            · exact notl.1 ⟨h1, h2⟩
            · simp [Closed.toTrade, hxn] at h2
            · exact h1.symm
          · rintro rfl; exact ⟨Or.inl (Or.inr rfl), rfl⟩
          · rintro ⟨(h1 | h1) | rfl, h2⟩
            · exact notl.2 ⟨h1, h2⟩
            · exact h1.symm
            · simp [Holding.toTrade] at h2

/-- **C43.** After tick `t` the entry event carries exactly the trade that was entered on tick `t`, the exit event exactly
the trade that was closed on tick `t`; they are absent if there is none. -/
theorem C43_events (h : Backtest cfg d sig N st) {t : Nat} (ht : t < N) (T : Trade α) :
    ((st t).events.onTradeEntry = some T ↔ T ∈ (st t).trades ∧ T.entryTick = some t) ∧
    ((st t).events.onTradeExit = some T ↔ T ∈ (st t).trades ∧ T.exitTick = some t) := by
  rw [C39_refines h ht, (backtest_done h t ht).events]
  exact tickEvents_spec (ledger_inv cfg d sig t) T

/-! ## C44: sizes -/

/-- **C44.** Without `buy_with_equity` every trade has size 1.  With it a trade entered on tick `e` has the size bought by
the realised equity: the initial capital plus the profits of the trades closed up to and including tick `e`; 0 if that equity
or the price is not positive. -/
theorem C44_size (h : Backtest cfg d sig N st) {t : Nat} (ht : t < N) {T : Trade α} (hT : T ∈ (st t).trades) :
    (cfg.buyWithEquity = false → T.fillSize = some (lit 1)) ∧
    (cfg.buyWithEquity = true → ∃ e price, T.entryTick = some e ∧ T.entryPrice = some price ∧
      let realised := (st t).trades.filter fun S => S.isClosed && decide (∃ x, S.exitTick = some x ∧ x ≤ e)
      let equity := cfg.initialCapital + fsum (realised.map (·.pnlField)) + lit 0
      T.fillSize = some (if F64.le equity (lit 0) || F64.le price (lit 0) then lit 0 else equity / price)) := by
  rw [C39_refines h ht] at hT ⊢
  have hi := ledger_inv cfg d sig (t + 1)
  generalize ledger cfg d sig (t + 1) = L at hT hi ⊢
  have hfil (e : Nat) : (L.trades.filter fun S => S.isClosed && decide (∃ x, S.exitTick = some x ∧ x ≤ e)).map (·.pnlField) =
      (L.closed.filter fun c => decide (c.exitTick ≤ e)).map Closed.profit := by
    have h1 : (L.trades.filter fun S => S.isClosed && decide (∃ x, S.exitTick = some x ∧ x ≤ e)) =
        (L.trades.filter (·.isClosed)).filter fun S => decide (∃ x, S.exitTick = some x ∧ x ≤ e) := by
      rw [List.filter_filter]; congr 1; funext S; rw [Bool.and_comm]
    rw [h1, filter_closed, List.filter_map, List.map_map]
    congr 1
    congr 1
    funext c
    simp [Closed.toTrade]
  have hT' : ∃ e p, T.entryTick = some e ∧ T.entryPrice = some p ∧ T.fillSize = some (sizeSpec cfg L.closed e p) := by
    rcases List.mem_append.mp hT with hT | hT
    · obtain ⟨c, hc, rfl⟩ := List.mem_map.mp hT
      exact ⟨_, _, rfl, rfl, by simp [Closed.toTrade, (hi.closed c hc).2.2.2.2.2.2.2]⟩
    · obtain ⟨x, hx, rfl⟩ : ∃ x, L.opened = some x ∧ x.toTrade = T := by simpa [Option.map_eq_some_iff] using hT
      exact ⟨_, _, rfl, rfl, by simp [Holding.toTrade, ← (hi.opened x hx).2.2.2.2]⟩
  obtain ⟨e, p, h1, h2, h3⟩ := hT'
  refine ⟨fun hb => by rw [h3]; simp [sizeSpec, hb], fun hb => ⟨e, p, h1, h2, ?_⟩⟩
  simp only [hfil]
  rw [h3]
  simp [sizeSpec, hb]

/-! ## C57: when the runner panics -/

/-- **C57.** The runner panics on a run if and only if on some tick there is no bar, or the position changes and the fill
price is missing, or a position is held after the tick and the close is missing. -/
theorem C57_strategy : (∃ st, Backtest cfg d sig N st) ↔
    ∀ t, t < N → ∃ op cl, d.open_[t]? = some op ∧ d.close[t]? = some cl ∧
      (∀ dir, order cfg sig t = some dir → (∀ x, (ledger cfg d sig t).opened = some x → dir ≠ x.dir) →
        (if cfg.onBarClose then cl else op) ≠ none) ∧
      ((ledger cfg d sig (t + 1)).opened ≠ none → cl ≠ none) := by
  constructor
  · rintro ⟨st, h⟩ t ht
    have hd := backtest_done h t ht
    have hs := selfRun_step h t ht
    cases ho : d.open_[t]? with
    | none => simp [Strategy.next, Ctx.barOpen, DataProvider.getOpen, index, ho] at hs
    | some op =>
    cases hc : d.close[t]? with
    | none => simp [Strategy.next, Ctx.barOpen, Ctx.barClose, DataProvider.getOpen, DataProvider.getClose, index, ho, hc] at hs
    | some cl =>
      refine ⟨op, cl, rfl, rfl, fun dir hdir hf => ?_, fun hop => ?_⟩
      · have := hd.price dir hdir hf
        rw [ho, hc] at this
        cases hb : cfg.onBarClose <;> simp_all
      · obtain ⟨x, hx⟩ := Option.ne_none_iff_exists'.mp hop
        obtain ⟨c, h1, _⟩ := hd.openProfit x hx
        rw [hc] at h1
        simp_all
  · intro H
    have key : ∀ n, n ≤ N → ∃ st : Nat → Strategy α,
        (∀ t, t < n → Strategy.next ⟨d, t⟩ (prior (Strategy.new cfg) st t) (sig t) = .ok (st t)) ∧
        StratInv cfg sig (ledger cfg d sig n) n (prior (Strategy.new cfg) st n) := by
      intro n
      induction n with
      | zero => intro _; exact ⟨fun _ => Strategy.new cfg, fun t ht => absurd ht (by omega), stratInv_zero cfg sig⟩
      | succ n ih =>
        intro hn
        obtain ⟨st, h1, h2⟩ := ih (by omega)
        obtain ⟨op, cl, ho, hc, hf, hm⟩ := H n (by omega)
        obtain ⟨s', hs'⟩ := next_complete h2 ho hc (fun dir h1 h2 => by simpa [Option.isSome_iff_ne_none] using hf dir h1 h2)
          (fun hh => by simpa [Option.isSome_iff_ne_none] using hm (by simpa [Option.isSome_iff_ne_none, ledger] using hh))
        refine ⟨fun t => if t = n then s' else st t, ?_, ?_⟩
        · intro t ht
          have hp : prior (Strategy.new cfg) (fun t => if t = n then s' else st t) t = prior (Strategy.new cfg) st t := by
            cases t with
            | zero => rfl
            | succ t => simp [prior, show t ≠ n by omega]
          rw [hp]
          rcases Nat.lt_succ_iff_lt_or_eq.mp ht with ht | rfl
          · simp [show t ≠ n by omega, h1 t ht]
          · simp [hs']
        · have := (next_sound h2 hs').inv
          simpa [prior, ledger] using this
    obtain ⟨st, h1, _⟩ := key N le_rfl
    exact ⟨st, selfRun_of_step h1⟩

end

/-- On complete bars every configuration and every sequence of signals gives a run. -/
theorem C57_strategy_complete (cfg : StrategyConfig α) {d : DataProvider α} (sig : Nat → Option TradeDirection) {N : Nat}
    {o h l c v : Nat → α} (hb : Bars d N o h l c v) : ∃ st, Backtest cfg d sig N st :=
  C57_strategy.mpr fun t ht => ⟨_, _, hb.open_ t ht, hb.close t ht, fun _ _ _ => by split <;> simp, fun _ => by simp⟩

end Pace
