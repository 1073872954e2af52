import Verif.Model.Label
import Verif.Props.Position
import Verif.Props.Metrics2
import Verif.Props.Metrics4

/-!
# What is shown of the trades of a backtest: C85

The labels and triangles of `Trade` and the plots of the TradingView metrics, on the trades and histories of a backtest.
-/

set_option linter.unusedSectionVars false

namespace Pace
namespace Spec

/-- What a reader expects of the label on a tick before which the position was `p` and after which it is `q`. -/
def positionLabel (p q : ℤ) : Label :=
  if q = 1 then ⟨[("▲ [LONG]", some .green)], true⟩
  else if q = -1 then ⟨[("▼ [SHORT]", some .red)], true⟩
  else if p = 1 then ⟨[("▼", some .red), (" ", none), ("[LONG_EXIT]", some .green)], true⟩
  else if p = -1 then ⟨[("▲", some .green), (" ", none), ("[SHORT_EXIT]", some .red)], true⟩
  else ⟨[("No Trade", some .brightBlack)], false⟩

/-- What a reader expects of the triangle: up if something was bought, down if something was sold, otherwise a dash in the colour of
the position. -/
def positionArrow (p q : ℤ) : Label :=
  if p < q then ⟨[("▲", some .green)], true⟩
  else if q < p then ⟨[("▼", some .red)], true⟩
  else ⟨[("—", some (if q = 1 then .green else if q = -1 then .red else .black))], true⟩

end Spec

open Spec

section any
variable {α : Type} [F64 α] {cfg : StrategyConfig α} {d : DataProvider α} {sig : Nat → Option TradeDirection} {N : Nat}
  {st : Nat → Strategy α}

theorem open_label (x : Holding α) (k : Nat) : x.toTrade.toColoredString k =
    .ok (match x.dir with | .long => ⟨[("▲ [LONG]", some .green)], true⟩ | .short => ⟨[("▼ [SHORT]", some .red)], true⟩) := by
  obtain ⟨dir, _, _, _⟩ := x
  cases dir <;> rfl

theorem closed_label (x : Closed α) (k : Nat) : x.toTrade.toColoredString k =
    .ok (if k = x.exitTick then
        (match x.pos.dir with
         | .long => ⟨[("▼", some .red), (" ", none), ("[LONG_EXIT]", some .green)], true⟩
         | .short => ⟨[("▲", some .green), (" ", none), ("[SHORT_EXIT]", some .red)], true⟩)
      else ⟨[("No Trade", some .brightBlack)], false⟩) := by
  obtain ⟨⟨dir, _, _, _⟩, e, _⟩ := x
  by_cases hk : k = e <;> cases dir <;> simp [Trade.toColoredString, Closed.toTrade, hk] <;> rfl

theorem open_triangle (x : Holding α) (k : Nat) : x.toTrade.getTriangleColoredString k =
    (match x.dir with
     | .long => ⟨[(if k = x.tick then "▲" else "—", some .green)], true⟩
     | .short => ⟨[(if k = x.tick then "▼" else "—", some .red)], true⟩) := by
  obtain ⟨dir, e, _, _⟩ := x
  by_cases hk : k = e
  · subst hk; cases dir <;> simp [Trade.getTriangleColoredString, Holding.toTrade]
  · have hk' : ¬ e = k := fun h => hk h.symm
    cases dir <;> simp [Trade.getTriangleColoredString, Holding.toTrade, hk, hk']

theorem closed_triangle (x : Closed α) (k : Nat) : x.toTrade.getTriangleColoredString k =
    if k = x.exitTick then
      (match x.pos.dir with | .long => ⟨[("▼", some .red)], true⟩ | .short => ⟨[("▲", some .green)], true⟩)
    else ⟨[("—", some .black)], true⟩ := by
  obtain ⟨⟨dir, _, _, _⟩, e, _⟩ := x
  by_cases hk : k = e
  · subst hk; cases dir <;> simp [Trade.getTriangleColoredString, Closed.toTrade]
  · have hk' : ¬ e = k := fun h => hk h.symm
    cases dir <;> simp [Trade.getTriangleColoredString, Closed.toTrade, hk, hk']

/-- The last trade of a ledger after a tick, seen from the position before and after that tick. -/
theorem last_shown {cfg : StrategyConfig α} {o : Nat → Option TradeDirection} {pr : Nat → α} {t : Nat} {L : Ledger α}
    (I : LedgerInv cfg o pr t L) {T : Trade α} (hT : (L.tick cfg t (pr t) (o t)).trades.getLast? = some T) (p q : ℤ)
    (hp : p = match L.opened with | none => 0 | some x => side x.dir)
    (hq : q = match (L.tick cfg t (pr t) (o t)).opened with | none => 0 | some x => side x.dir) :
    T.toColoredString t = .ok (positionLabel p q) ∧ T.getTriangleColoredString t = positionArrow p q := by
  obtain ⟨l, x⟩ := L
  have stays : (Ledger.tick cfg ⟨l, x⟩ t (pr t) (o t) = ⟨l, x⟩) →
      T.toColoredString t = .ok (positionLabel p q) ∧ T.getTriangleColoredString t = positionArrow p q := by
    intro e
    rw [e] at hT hq
    rcases x with _ | x
    · simp only [Ledger.trades, Option.map_none, Option.toList_none, List.append_nil] at hT
      obtain ⟨c, hc, rfl⟩ := List.mem_map.mp (List.mem_of_getLast? hT)
      have : c.exitTick < t := (I.closed c hc).2.1
      rw [closed_label, closed_triangle, if_neg (by omega), if_neg (by omega), hp, hq]
      exact ⟨rfl, rfl⟩
    · simp only [Ledger.trades, Option.map_some, Option.toList_some, List.getLast?_append, List.getLast?_singleton] at hT
      obtain rfl : x.toTrade = T := by simpa using hT
      have : x.tick < t := (I.opened x rfl).1
      rw [open_label, open_triangle, if_neg (by omega), if_neg (by omega), hp, hq]
      obtain ⟨dir, _, _, _⟩ := x
      cases dir <;> exact ⟨rfl, rfl⟩
  rcases ho : o t with _ | dir
  · exact stays (by rw [ho]; rfl)
  · rcases x with _ | x
    · simp only [ho, Ledger.tick, Ledger.enter, Ledger.trades, Option.map_some, Option.toList_some, List.getLast?_append,
        List.getLast?_singleton, Option.some_or, Option.some.injEq] at hT hq
      subst hT
      rw [open_label, open_triangle, hp, hq]
      cases dir <;> simp [positionLabel, positionArrow, side]
    · by_cases hd : dir = x.dir
      · exact stays (by rw [ho]; simp [Ledger.tick, hd])
      · have hd' : dir = opposite x.dir := ne_opposite hd
        obtain ⟨was, e, pe, se⟩ := x
        cases hcont : cfg.continous with
        | false =>
          simp only [ho, Ledger.tick, if_neg hd, hcont, Ledger.trades, Option.map_none, Option.toList_none, List.append_nil,
            List.map_append, List.map_cons, List.map_nil, List.getLast?_append, List.getLast?_singleton, Option.some_or,
            Option.some.injEq, Bool.false_eq_true, if_false] at hT hq
          subst hT
          rw [closed_label, closed_triangle, hp, hq]
          cases was <;> simp [positionLabel, positionArrow, side]
        | true =>
          simp only [ho, Ledger.tick, if_neg hd, hcont, Ledger.enter, Ledger.trades, Option.map_some, Option.toList_some,
            List.getLast?_append, List.getLast?_singleton, Option.some_or, Option.some.injEq, if_true] at hT hq
          subst hT
          rw [open_label, open_triangle, hp, hq]
          cases was <;> simp [positionLabel, positionArrow, side, hd', opposite]

/-- **C85.** Look at the last trade right after each tick, as a program that prints while it runs would: the label says long or short
while a position is held, which side was left on the tick on which a position is closed without a new one, and "No Trade" while flat;
the triangle points up exactly on ticks on which something was bought, down exactly on those on which something was sold, and is
otherwise a dash in the colour of the position. The positions before and after the tick are those that the signals alone determine
(C81). It never panics. -/
theorem C85_live (H : Backtest cfg d sig N st) {t : Nat} (ht : t < N) {T : Trade α} (hT : (st t).trades.getLast? = some T) :
    T.toColoredString t = .ok (positionLabel (held cfg sig t) (held cfg sig (t + 1))) ∧
    T.getTriangleColoredString t = positionArrow (held cfg sig t) (held cfg sig (t + 1)) := by
  rw [C39_refines H ht] at hT
  exact last_shown (ledger_inv cfg d sig t) hT _ _ (ledger_held cfg d sig t) (ledger_held cfg d sig (t + 1))

/-- **C85.** There is something to look at as soon as an order was executed, and not before. -/
theorem C85_something (H : Backtest cfg d sig N st) {t : Nat} (ht : t < N) :
    (st t).trades.getLast? = none ↔ ∀ k, k ≤ t → order cfg sig k = none := by
  rw [List.getLast?_eq_none_iff, C39_refines H ht]
  have I := ledger_inv cfg d sig (t + 1)
  constructor
  · intro h k hk
    have h' : (ledger cfg d sig (t + 1)).closed = [] ∧ (ledger cfg d sig (t + 1)).opened = none := by
      simp only [Ledger.trades, List.append_eq_nil_iff, List.map_eq_nil_iff] at h
      refine ⟨h.1, ?_⟩
      rcases hx : (ledger cfg d sig (t + 1)).opened with _ | x
      · rfl
      · rw [hx] at h; simp at h
    exact I.flat h'.2 k (by omega) (by rw [h'.1]; simp)
  · intro h
    have : ∀ n, n ≤ t + 1 → ledger cfg d sig n = ⟨[], none⟩ := by
      intro n
      induction n with
      | zero => intro _; rfl
      | succ n ih => intro hn; rw [ledger, ih (by omega), h n (by omega)]; rfl
    rw [this _ (le_refl _)]; rfl

/-- **C85.** Looking back from tick `t` at any trade of the list and any tick `k`: nothing panics; a trade that is still open is
labelled with its side whatever `k` is (also before its entry), a closed one with its exit on the exit tick and "No Trade" on every
other one. -/
theorem C85_label (H : Backtest cfg d sig N st) {t : Nat} (ht : t < N) {T : Trade α} (hT : T ∈ (st t).trades) (k : Nat) :
    (T.isClosed = false → T.toColoredString k = .ok (positionLabel 0 (side T.direction))) ∧
    (T.isClosed = true → T.exitTick = some k → T.toColoredString k = .ok (positionLabel (side T.direction) 0)) ∧
    (T.isClosed = true → T.exitTick ≠ some k → T.toColoredString k = .ok (positionLabel 0 0)) := by
  rw [C39_refines H ht, Ledger.trades, List.mem_append] at hT
  rcases hT with hT | hT
  · obtain ⟨c, _, rfl⟩ := List.mem_map.mp hT
    rw [closed_label]
    obtain ⟨⟨dir, _, _, _⟩, e, _⟩ := c
    refine ⟨fun h => (by simp [Closed.toTrade] at h), fun _ h => ?_, fun _ h => ?_⟩
    · have : e = k := by simpa [Closed.toTrade] using h
      rw [if_pos this.symm]
      cases dir <;> rfl
    · have : ¬ e = k := by simpa [Closed.toTrade] using h
      rw [if_neg fun h => this h.symm]
      rfl
  · obtain ⟨x, hx, rfl⟩ : ∃ x, (ledger cfg d sig (t + 1)).opened = some x ∧ x.toTrade = T := by simpa using hT
    rw [open_label]
    obtain ⟨dir, _, _, _⟩ := x
    refine ⟨fun _ => by cases dir <;> rfl, fun h => (by simp [Holding.toTrade] at h), fun h => (by simp [Holding.toTrade] at h)⟩

/-- **C85.** Looking back with triangles: on the exit tick a trade shows the arrow of its exit, but the arrow of its entry is shown only
as long as the trade is open. Once it is closed its entry tick, like every tick except the exit, shows a black dash. -/
theorem C85_triangle (H : Backtest cfg d sig N st) {t : Nat} (ht : t < N) {T : Trade α} (hT : T ∈ (st t).trades) (k : Nat) :
    (T.isClosed = false → T.getTriangleColoredString k =
      if T.entryTick = some k then positionArrow 0 (side T.direction) else positionArrow (side T.direction) (side T.direction)) ∧
    (T.isClosed = true → T.getTriangleColoredString k =
      if T.exitTick = some k then positionArrow (side T.direction) 0 else positionArrow 0 0) ∧
    (T.isClosed = true → T.entryTick = some k → T.getTriangleColoredString k = ⟨[("—", some .black)], true⟩) := by
  rw [C39_refines H ht, Ledger.trades, List.mem_append] at hT
  rcases hT with hT | hT
  · obtain ⟨c, hc, rfl⟩ := List.mem_map.mp hT
    have hlt := ((ledger_inv cfg d sig (t + 1)).closed c hc).1
    rw [closed_triangle]
    obtain ⟨⟨dir, e, _, _⟩, x, _⟩ := c
    refine ⟨fun h => (by simp [Closed.toTrade] at h), fun _ => ?_, fun _ h => ?_⟩
    · by_cases hk : k = x
      · subst hk; cases dir <;> simp [Closed.toTrade, positionArrow, side]
      · have hk' : ¬ x = k := fun h => hk h.symm
        cases dir <;> simp [Closed.toTrade, positionArrow, hk, hk']
    · have : e = k := by simpa [Closed.toTrade] using h
      have hlt : e < x := hlt
      rw [if_neg (show ¬ k = x by omega)]
  · obtain ⟨x, hx, rfl⟩ : ∃ x, (ledger cfg d sig (t + 1)).opened = some x ∧ x.toTrade = T := by simpa using hT
    rw [open_triangle]
    obtain ⟨dir, e, _, _⟩ := x
    refine ⟨fun _ => ?_, fun h => (by simp [Holding.toTrade] at h), fun h => (by simp [Holding.toTrade] at h)⟩
    by_cases hk : k = e
    · subst hk; cases dir <;> simp [Holding.toTrade, positionArrow, side]
    · have hk' : ¬ e = k := fun h => hk h.symm
      cases dir <;> simp [Holding.toTrade, positionArrow, side, hk, hk']

/-- **C85.** In continuous mode the exit label never appears while the program runs: the last trade is the new one. -/
theorem C85_no_exit_shown (H : Backtest cfg d sig N st) (hc : cfg.continous = true) {t : Nat} (ht : t < N) {T : Trade α}
    (hT : (st t).trades.getLast? = some T) :
    T.toColoredString t = .ok ⟨[("▲ [LONG]", some .green)], true⟩ ∨ T.toColoredString t = .ok ⟨[("▼ [SHORT]", some .red)], true⟩ := by
  rw [C39_refines H ht] at hT
  rcases hx : (ledger cfg d sig (t + 1)).opened with _ | x
  · have := (ledger_inv cfg d sig (t + 1)).always hc hx
    simp [Ledger.trades, hx, this] at hT
  · simp only [Ledger.trades, hx, Option.map_some, Option.toList_some, List.getLast?_append, List.getLast?_singleton,
      Option.some_or, Option.some.injEq] at hT
    subst hT
    rw [open_label]
    obtain ⟨dir, _, _, _⟩ := x
    cases dir
    · exact .inl rfl
    · exact .inr rfl

/-! ## The plots -/

variable {rfr : α} {tv : Nat → TvMetrics α}

theorem textPlot_point {β : Type} (narrow : α → β) (l : List α) (i : Nat) :
    (textPlot narrow l).points[i]? = l[i]?.map fun v => (i + 1, narrow v) := by
  simp only [textPlot, List.getElem?_map, List.getElem?_zipIdx, Option.map_map]
  cases l[i]? <;> simp

/-- **C85.** The equity plot after tick `t` has `t + 2` points at the x coordinates 1, ..., t+2: first the initial capital, then the
equity of tick `k` at `k + 2` (so one to the right of the number of bars counted from 1). -/
theorem C85_plot_equity {β : Type} (narrow : α → β) (hb : Backtest cfg d sig N st) (h : TvRun d cfg rfr st N tv) {t : Nat} (ht : t < N) :
    ((tv t).data.plotEquity narrow).points.length = t + 2 ∧ ((tv t).data.plotEquity narrow).xmin = 1 ∧
    ((tv t).data.plotEquity narrow).xmax = t + 2 ∧ ((tv t).data.plotEquity narrow).points[0]? = some (1, narrow cfg.initialCapital) ∧
    ∀ k, k ≤ t → ((tv t).data.plotEquity narrow).points[k + 1]? = some (k + 2, narrow (st k).metrics.equity) := by
  obtain ⟨h1, _, _, h4, _, _⟩ := C49_histories hb h ht
  refine ⟨by simp [TvData.plotEquity, textPlot, h4], rfl, h4, ?_, fun k hk => ?_⟩
  · rw [TvData.plotEquity, textPlot_point, h1]; rfl
  · rw [TvData.plotEquity, textPlot_point, h1, List.getElem?_cons_succ, List.getElem?_map, List.getElem?_range (by omega)]
    rfl

/-- **C85.** The net equity and the drawdown plots have one point for the start and one for each closed trade, taken on the tick on
which it was closed: their x axis counts trades, not bars. -/
theorem C85_plot_trades {β : Type} (narrow : α → β) (hb : Backtest cfg d sig N st) (h : TvRun d cfg rfr st N tv) {t : Nat} (ht : t < N) :
    ((tv t).data.plotNetEquity narrow).points.length = (st t).metrics.closedTrades + 1 ∧
    ((tv t).data.plotMaxDrawdown narrow).points.length = (st t).metrics.closedTrades + 1 ∧
    ((tv t).data.plotNetEquity narrow).xmax = (st t).metrics.closedTrades + 1 ∧
    ((tv t).data.plotMaxDrawdown narrow).xmax = (st t).metrics.closedTrades + 1 ∧
    ((tv t).data.plotNetEquity narrow).points[0]? = some (1, narrow cfg.initialCapital) ∧
    ((tv t).data.plotMaxDrawdown narrow).points[0]? = some (1, narrow (lit 0)) ∧
    ∀ i k, (exits st t)[i]? = some k →
      ((tv t).data.plotNetEquity narrow).points[i + 1]? = some (i + 2, narrow (tv k).equityMetrics.netEquity) ∧
      ((tv t).data.plotMaxDrawdown narrow).points[i + 1]? = some (i + 2, narrow (tv k).data.maxDrawdown) := by
  obtain ⟨_, h2, h3, _, h5, h6⟩ := C49_histories hb h ht
  refine ⟨by simp [TvData.plotNetEquity, textPlot, h5], by simp [TvData.plotMaxDrawdown, textPlot, h6], h5, h6, ?_, ?_,
    fun i k hk => ⟨?_, ?_⟩⟩
  · rw [TvData.plotNetEquity, textPlot_point, h2]; rfl
  · rw [TvData.plotMaxDrawdown, textPlot_point, h3]; rfl
  · rw [TvData.plotNetEquity, textPlot_point, h2, List.getElem?_cons_succ, List.getElem?_map, hk]; rfl
  · rw [TvData.plotMaxDrawdown, textPlot_point, h3, List.getElem?_cons_succ, List.getElem?_map, hk]; rfl

end any

/-! ## The hypotheses are met -/

/-- A run of five bars in non-continuous mode: short from tick 1, left on tick 2, long from tick 3, left on tick 4. -/
theorem labels_run : ∃ st, Backtest (⟨false, false, fin 100, false⟩ : StrategyConfig (Ex ℚ)) exBars exSig 5 st :=
  C57_strategy_complete _ exSig (bars_ofSeries 5 _ _ _ _ _)

example : ∃ st : Nat → Strategy (Ex ℚ), Backtest ⟨false, false, fin 100, false⟩ exBars exSig 5 st ∧
    (∃ T, (st 2).trades.getLast? = some T ∧ T.isClosed = true ∧
      T.toColoredString 2 = .ok ⟨[("▲", some .green), (" ", none), ("[SHORT_EXIT]", some .red)], true⟩) ∧
    (∃ T, (st 3).trades.getLast? = some T ∧ T.getTriangleColoredString 3 = ⟨[("▲", some .green)], true⟩) := by
  obtain ⟨st, H⟩ := labels_run
  have some_of : ∀ t, t < 5 → (∃ k, k ≤ t ∧ order (⟨false, false, fin 100, false⟩ : StrategyConfig (Ex ℚ)) exSig k ≠ none) →
      ∃ T, (st t).trades.getLast? = some T := by
    intro t ht ⟨k, hk, hne⟩
    rcases h : (st t).trades.getLast? with _ | T
    · exact absurd ((C85_something H ht).mp h k hk) hne
    · exact ⟨T, rfl⟩
  obtain ⟨T2, e2⟩ := some_of 2 (by omega) ⟨1, by omega, by decide⟩
  obtain ⟨T3, e3⟩ := some_of 3 (by omega) ⟨1, by omega, by decide⟩
  have l2 := (C85_live H (by omega : 2 < 5) e2).1
  have l3 := (C85_live H (by omega : 3 < 5) e3).2
  have p2 : positionLabel (held (⟨false, false, fin 100, false⟩ : StrategyConfig (Ex ℚ)) exSig 2)
      (held (⟨false, false, fin 100, false⟩ : StrategyConfig (Ex ℚ)) exSig 3) =
      ⟨[("▲", some .green), (" ", none), ("[SHORT_EXIT]", some .red)], true⟩ := by decide
  have p3 : positionArrow (held (⟨false, false, fin 100, false⟩ : StrategyConfig (Ex ℚ)) exSig 3)
      (held (⟨false, false, fin 100, false⟩ : StrategyConfig (Ex ℚ)) exSig 4) = ⟨[("▲", some .green)], true⟩ := by decide
  rw [p2] at l2
  rw [p3] at l3
  refine ⟨st, H, ⟨T2, e2, ?_, l2⟩, ⟨T3, e3, l3⟩⟩
  rcases hc : T2.isClosed with _ | _
  · have := (C85_label H (by omega : 2 < 5) (List.mem_of_getLast? e2) 2).1 hc
    rw [l2] at this
    rcases hd : T2.direction with _ | _ <;> rw [hd] at this <;> exact absurd this (by decide)
  · rfl

/-- The metrics of a run exist, so that the statements about the plots are about something. -/
example : ∃ st tv, Backtest exCfg exBars exSig 5 st ∧ TvRun exBars exCfg (fin 0) st 5 tv ∧
    ((tv 4).data.plotEquity id).points[0]? = some (1, (fin 100 : Ex ℚ)) := by
  obtain ⟨st, _, tv, _, H, _, ht, _⟩ := exRun_metrics
  exact ⟨st, tv, H, ht, (C85_plot_equity id H ht (by omega : 4 < 5)).2.2.2.1⟩

end Pace
