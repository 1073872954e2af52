import Verif.Model.Report
import Verif.Props.Metrics4
import Verif.Props.Ieee
import Verif.Props.Units
import Verif.Props.FloatRange
import Verif.Lemmas.Real

/-!
# The printed tables (C75)
-/

set_option linter.unusedSectionVars false

namespace Pace
open Spec

/-! ## Vocabulary -/

namespace Spec

/-- Green above `good`, red below `bad`, neutral between. -/
def band {K : Type} [LinearOrder K] (x good bad : K) : Int := if good < x then 1 else if x < bad then -1 else 0

/-- The cell with a label. -/
def reportCell {α : Type} (table : List (ReportCell α)) (label : String) : Option (ReportCell α) := table.find? fun c => c.label == label

/-- The colour of the cell with a label. -/
def colour {α : Type} (table : List (ReportCell α)) (label : String) : Option Int := (reportCell table label).map (·.theme)

/-- What the cell with a label shows. -/
def shows {α : Type} (table : List (ReportCell α)) (label : String) : Option (Shown α) := (reportCell table label).map (·.shown)

/-- Part of a whole, 0 if there is no whole. -/
def part {K : Type} [Field K] [DecidableEq K] (a b : K) : K := if b = 0 then 0 else a / b

end Spec

/-! ## Exact arithmetic: what is shown and how it is coloured -/

section
variable {K : Type} [Field K] [LinearOrder K] [IsStrictOrderedRing K] [RootOps K]

theorem theme_exact (x g b : K) : theme (fin x : Ex K) (fin g) (fin b) = band x g b := by
  unfold theme band
  simp only [fin_fgt, fin_lt, decide_eq_true_eq]

theorem themeBelow_exact (x l : K) : themeBelow (fin x : Ex K) (fin l) = band (-x) (-l) (-l) := by
  unfold themeBelow band
  simp only [fin_fgt, fin_lt, decide_eq_true_eq, neg_lt_neg_iff]

private theorem fsum_fin_list (l : List K) : fsum (l.map fin : List (Ex K)) = fin l.sum := by
  induction l using List.reverseRecOn with
  | nil => simp [fsum]
  | append_singleton l a ih => rw [List.map_append, List.map_singleton, fsum_snoc, ih, fin_add, List.sum_append, List.sum_singleton]

/-- The profits of the closed trades after tick `t`, in the order of their exits. -/
def ClosedProfits (st : Nat → Strategy (Ex K)) (t : Nat) (p : List K) : Prop :=
  ((st t).trades.filter (·.isClosed)).map (·.pnlField) = p.map fin

variable {cfg : StrategyConfig (Ex K)} {d : DataProvider (Ex K)} {sig : Nat → Option TradeDirection} {N : Nat} {st : Nat → Strategy (Ex K)}
  {rfr : Ex K} {tv : Nat → TvMetrics (Ex K)} {cap : K}

theorem closedProfits_exists (h : Backtest cfg d sig N st) (hf : FinitePrices d) (hc : cfg.initialCapital = fin cap) {t : Nat} (ht : t < N) :
    ∃ p, ClosedProfits st t p := by
  have key : ∀ l : List (Trade (Ex K)), (∀ T ∈ l, ∃ q : K, T.pnlField = fin q) → ∃ p : List K, l.map (·.pnlField) = p.map fin := by
    intro l hl
    induction l with
    | nil => exact ⟨[], rfl⟩
    | cons T l ih =>
      obtain ⟨p, hp⟩ := ih fun T hT => hl T (by simp [hT])
      obtain ⟨q, hq⟩ := hl T (by simp)
      exact ⟨q :: p, by simp [hp, hq]⟩
  refine key _ fun T hT => ?_
  obtain ⟨_, _, q, _, _, hq⟩ := trade_fin h hf hc ht (List.mem_of_mem_filter hT)
  exact ⟨q, hq⟩

theorem stats_profits {m : StrategyMetrics (Ex K)} {l : List (Trade (Ex K))} (h : StatsOf m l) {p : List K}
    (hp : l.map (·.pnlField) = p.map fin) :
    m.netProfit = fin p.sum ∧ m.grossProfit = fin (p.filter (0 < ·)).sum ∧ m.grossLoss = fin ((p.filter (· < 0)).map abs).sum ∧
    m.closedTrades = p.length ∧ m.winningTrades = p.countP (0 < ·) ∧ m.losingTrades = p.countP (· < 0) := by
  have hc (f : Ex K → Bool) : l.countP (fun T => f T.pnlField) = p.countP fun q => f (fin q) := by
    have : l.countP (fun T => f T.pnlField) = (l.map (·.pnlField)).countP f := by rw [List.countP_map]; rfl
    rw [this, hp, List.countP_map]; rfl
  have hg (q : K) : (!fgt (fin q : Ex K) (lit 0) && F64.lt (fin q : Ex K) (lit 0)) = decide (q < 0) := by
    rw [fin_lit, fin_fgt, fin_lt, Rat.cast_zero]
    by_cases h : q < 0
    · simp [h, h.le]
    · simp [h]
  refine ⟨?_, ?_, ?_, ?_, ?_, ?_⟩
  · rw [h.netProfit, hp, fsum_fin_list]
  · rw [h.grossProfit, hp, List.filter_map, fsum_fin_list]
    simp [Function.comp_def]
  · rw [h.grossLoss, hp, List.filter_map, List.map_map]
    have : (F64.abs ∘ fin : K → Ex K) = fin ∘ abs := rfl
    rw [this, ← List.map_map, fsum_fin_list]
    congr 4
    funext q
    exact hg q
  · rw [h.closedTrades, ← List.length_map (f := (·.pnlField)), hp, List.length_map]
  · rw [h.winningTrades, hc fun v => fgt v (lit 0)]; simp
  · rw [h.losingTrades, hc fun v => !fgt v (lit 0) && F64.lt v (lit 0)]
    congr 1
    funext q
    exact hg q

theorem part_div (a : K) (n : Nat) : (if n = 0 then (lit 0 : Ex K) else fin a / lit (n : ℚ)) = fin (part a n) := by
  unfold part
  by_cases h : n = 0
  · simp [h]
  · have h' : (n : K) ≠ 0 := by exact_mod_cast h
    rw [if_neg h, if_neg h', fin_lit_nat, fin_div _ _ h']

theorem part_feq (a b : K) : (if F64.feq (fin b : Ex K) (lit 0) then (lit 0 : Ex K) else fin a / fin b) = fin (part a b) := by
  unfold part
  by_cases h : b = 0
  · simp [h]
  · simp [h, fin_div]

/-- **C75.** `print_overview` in exact arithmetic, for every run: with `p` the profits of the closed trades so far, it shows the net
profit (as money and as percentage of the capital), the number of closed trades, the percentage of winners, the quotient of the gross
profit and the gross loss (0 without losses), the maximal drawdown and the average profit per trade; net profit is green if positive and
red if negative, winners green above and red below 50%, the profit factor above and below 1. -/
theorem C75_overview (hb : Backtest cfg d sig N st) (h : TvRun d cfg rfr st N tv) (hc : cfg.initialCapital = fin cap) (hcap : cap ≠ 0)
    {t : Nat} (ht : t < N) {p : List K} (hp : ClosedProfits st t p) {dd ddp : K} (hdd : (tv t).data.maxDrawdown = fin dd)
    (hddp : (tv t).data.maxDrawdownPercent = fin ddp) (cur : String) :
    ∀ net winners factor : K, net = p.sum → winners = part (p.countP (0 < ·) : K) (p.length : K) →
      factor = part (p.filter (0 < ·)).sum ((p.filter (· < 0)).map abs).sum →
    (tv t).data.printOverview cur =
      [⟨"Net Profit", .both (fin net) cur (fin (net / cap * 100)), band net 0 0⟩,
       ⟨"Total Closed Trades", .count p.length, 0⟩,
       ⟨"Percent Profitable", .suffixed (fin (winners * 100)) "%", band winners (1 / 2) (1 / 2)⟩,
       ⟨"Profit Factor", .number (fin factor) 3, band factor 1 1⟩,
       ⟨"Max Drawdown", .both (fin dd) cur (fin (ddp * 100)), band (-dd) (-(1 / 5)) (-(1 / 5))⟩,
       ⟨"Avg Trade", .suffixed (fin (part net p.length)) (" " ++ cur), 0⟩] := by
  rintro _ _ _ rfl rfl rfl
  obtain ⟨a1, a2, a3, a4, a5, a6⟩ := stats_profits (C40_statistics hb ht) hp
  obtain ⟨c1, _, _, _, c5, _⟩ := C49_counters h ht
  obtain ⟨r1, _, _, r4, r5, r6, _⟩ := C49_ratios hb h ht
  have l1 : (lit 100 : Ex K) = fin 100 := by simp
  have l2 : (lit 0 : Ex K) = fin 0 := by simp
  have l3 : (lit (1 / 2) : Ex K) = fin (1 / 2) := by simp
  have l4 : (lit (1 / 5) : Ex K) = fin (1 / 5) := by simp
  have l5 : (lit 1 : Ex K) = fin 1 := by simp
  rw [a2, a3, part_feq] at r4
  rw [a4, a5, fin_lit_nat, part_div] at r5
  rw [a1, a4, part_div] at r6
  rw [a1, hc, fin_div _ _ hcap] at r1
  rw [a1] at c1
  rw [a4] at c5
  unfold TvData.printOverview
  rw [r1, r4, r5, r6, c1, c5, hdd, hddp, l1, l2, l3, l4, l5, theme_exact, theme_exact, theme_exact, themeBelow_exact]
  simp only [fin_mul]

/-- **C75.** `print_summary` in exact arithmetic, for every run, with `p` the profits of the closed trades so far. -/
theorem C75_summary (hb : Backtest cfg d sig N st) (h : TvRun d cfg rfr st N tv) (hc : cfg.initialCapital = fin cap) (hcap : cap ≠ 0)
    {t : Nat} (ht : t < N) {p : List K} (hp : ClosedProfits st t p) {dd ddp ru rup sharpe sortino openPl : K}
    (hdd : (tv t).data.maxDrawdown = fin dd) (hddp : (tv t).data.maxDrawdownPercent = fin ddp)
    (hru : (tv t).data.maxRunUp = fin ru) (hrup : (tv t).data.maxRunUpPercent = fin rup)
    (hsh : (tv t).data.sharpeRatio = fin sharpe) (hso : (tv t).data.sortinoRatio = fin sortino) (ho : (st t).metrics.openProfit = fin openPl)
    (cur : String) : ∀ net gross loss win lose : K, net = p.sum → gross = (p.filter (0 < ·)).sum → loss = ((p.filter (· < 0)).map abs).sum →
      win = part gross (p.countP (0 < ·) : K) → lose = part loss (p.countP (· < 0) : K) →
    (tv t).data.printSummary cur =
      [⟨"Net Profit", .both (fin net) cur (fin (net / cap * 100)), 0⟩,
       ⟨"Gross Profit", .both (fin gross) cur (fin (gross / cap * 100)), 0⟩,
       ⟨"Gross Loss", .both (fin loss) cur (fin (loss / cap * 100)), 0⟩,
       ⟨"Max Run Up", .both (fin ru) cur (fin (rup * 100)), 0⟩,
       ⟨"Max Drawdown", .both (fin dd) cur (fin (ddp * 100)), 0⟩,
       ⟨"Sharpe Ratio", .number (fin sharpe) 3, 0⟩,
       ⟨"Sortino Ratio", .number (fin sortino) 3, 0⟩,
       ⟨"Profit Factor", .number (fin (part gross loss)) 3, 0⟩,
       ⟨"Open P/L", .suffixed (fin openPl) (" " ++ cur), 0⟩,
       ⟨"Total Closed Trades", .count p.length, 0⟩,
       ⟨"Number Winning Trades", .count (p.countP (0 < ·)), 0⟩,
       ⟨"Number Losing Trades", .count (p.countP (· < 0)), 0⟩,
       ⟨"Percent Profitable", .suffixed (fin (part (p.countP (0 < ·) : K) (p.length : K) * 100)) "%", 0⟩,
       ⟨"Avg Trade", .suffixed (fin (part net p.length)) (" " ++ cur), 0⟩,
       ⟨"Avg Winning Trade", .suffixed (fin win) (" " ++ cur), 0⟩,
       ⟨"Avg Losing Trade", .suffixed (fin lose) (" " ++ cur), 0⟩,
       ⟨"Ratio Avg Win / Avg Loss", .number (fin (part win lose)) 2, 0⟩] := by
  rintro _ _ _ _ _ rfl rfl rfl rfl rfl
  obtain ⟨a1, a2, a3, a4, a5, a6⟩ := stats_profits (C40_statistics hb ht) hp
  obtain ⟨c1, c2, c3, c4, c5, c6, c7⟩ := C49_counters h ht
  obtain ⟨r1, r2, r3, r4, r5, r6, r7, r8, r9⟩ := C49_ratios hb h ht
  have l1 : (lit 100 : Ex K) = fin 100 := by simp
  rw [a2, a3, part_feq] at r4
  rw [a4, a5, fin_lit_nat, part_div] at r5
  rw [a1, a4, part_div] at r6
  rw [a2, a5, part_div] at r7
  rw [a3, a6, part_div] at r8
  rw [r7, r8, part_feq] at r9
  rw [a1, hc, fin_div _ _ hcap] at r1
  rw [a2, hc, fin_div _ _ hcap] at r2
  rw [a3, hc, fin_div _ _ hcap] at r3
  rw [a1] at c1
  rw [a2] at c2
  rw [a3] at c3
  rw [ho] at c4
  rw [a4] at c5
  rw [a5] at c6
  rw [a6] at c7
  unfold TvData.printSummary
  rw [r1, r2, r3, r4, r5, r6, r7, r8, r9, c1, c2, c3, c4, c5, c6, c7, hdd, hddp, hru, hrup, hsh, hso, l1]
  simp only [fin_mul]

variable {est : Bool} {sy : Option Int} {year : Nat → Option Int} {co : Nat → CobraMetrics (Ex K)}

/-- **C75.** Cobra's `print` in exact arithmetic, for every run: profit factor, percentage of winners and number of trades are those of
the closed trades, and the colours follow the bands in the right column. -/
theorem C75_cobra (hb : Backtest cfg d sig N st) (h : CobraRun d cfg est sy year st N co) {t : Nat} (ht : t < N) {p : List K}
    (hp : ClosedProfits st t p) {dd intra sharpe sortino omega lsr : K} (hdd : (co t).data.equityCurveMaxDd = fin dd)
    (hin : (co t).data.intraTradeMaxDd = fin intra) (hsh : (co t).data.sharpe = fin sharpe) (hso : (co t).data.sortino = fin sortino)
    (hom : (co t).data.omega = fin omega) (hls : (co t).data.netProfitLSRatio = fin lsr) : ∀ winners factor : K,
      winners = part (p.countP (0 < ·) : K) (p.length : K) → factor = part (p.filter (0 < ·)).sum ((p.filter (· < 0)).map abs).sum →
    (co t).data.print =
      [⟨"Equity Curve Max DD", .suffixed (fin (dd * 100)) "%", band dd (-(1 / 4)) (-(2 / 5))⟩,
       ⟨"Intra-trade Max DD", .suffixed (fin (intra * 100)) "%", band intra (-(1 / 4)) (-(2 / 5))⟩,
       ⟨"Sortino", .number (fin sortino) 2, band sortino 3 2⟩,
       ⟨"Sharpe", .number (fin sharpe) 2, band sharpe (3 / 2) 1⟩,
       ⟨"Profit Factor", .number (fin factor) 2, band factor 4 2⟩,
       ⟨"Profitable %", .suffixed (fin (winners * 100)) "%", band winners (1 / 2) (7 / 20)⟩,
       ⟨"Trades", .number (fin (p.length : K)) 2, if 20 ≤ p.length ∧ p.length ≤ 80 then 1 else if 15 ≤ p.length ∧ p.length < 20 then 0 else -1⟩,
       ⟨"Omega", .number (fin omega) 2, 0⟩,
       ⟨"Net Profit L/S Ratio", .number (fin lsr) 2, 0⟩] := by
  rintro _ _ rfl rfl
  obtain ⟨a1, a2, a3, a4, a5, a6⟩ := stats_profits (C40_statistics hb ht) hp
  obtain ⟨c1, c2, c3⟩ := C59_counts hb h ht
  have hw : (co t).data.profitable = fin (part (p.countP (0 < ·) : K) (p.length : K)) ∧
      (co t).data.profitFactor = fin (part (p.filter (0 < ·)).sum ((p.filter (· < 0)).map abs).sum) := by
    by_cases h0 : (st t).metrics.closedTrades = 0
    · obtain ⟨e1, e2, _⟩ := c2 h0
      rw [a4, List.length_eq_zero_iff] at h0
      subst h0
      rw [e1, e2]
      simp [part]
    · obtain ⟨e1, e2, _⟩ := c3 h0
      have := part_div (p.countP (0 < ·) : K) (st t).metrics.closedTrades
      rw [if_neg h0] at this
      rw [e1, e2, a2, a3, part_feq, a5, fin_lit_nat, this, a4]
      exact ⟨rfl, rfl⟩
  have l1 : (lit 100 : Ex K) = fin 100 := by simp
  have l2 : (-(lit (1 / 4)) : Ex K) = fin (-(1 / 4)) := by simp
  have l3 : (-(lit (2 / 5)) : Ex K) = fin (-(2 / 5)) := by simp
  have l4 : (lit 3 : Ex K) = fin 3 := by simp
  have l5 : (lit 2 : Ex K) = fin 2 := by simp
  have l6 : (lit (3 / 2) : Ex K) = fin (3 / 2) := by simp
  have l7 : (lit 1 : Ex K) = fin 1 := by simp
  have l8 : (lit 4 : Ex K) = fin 4 := by simp
  have l9 : (lit (1 / 2) : Ex K) = fin (1 / 2) := by simp
  have l10 : (lit (7 / 20) : Ex K) = fin (7 / 20) := by simp
  have tt : themeTrades p.length = if 20 ≤ p.length ∧ p.length ≤ 80 then 1 else if 15 ≤ p.length ∧ p.length < 20 then 0 else -1 := by
    unfold themeTrades
    split
    · rfl
    · split <;> split <;> omega
  unfold CobraData.print
  rw [hdd, hin, hsh, hso, hom, hls, hw.1, hw.2, c1, a4, l1, l2, l3, l4, l5, l6, l7, l8, l9, l10, tt, fin_lit_nat]
  simp only [theme_exact, fin_mul]

end
/-! ## What the tables get wrong, in floating point -/

private theorem fl_lt_le_trans {K : Type} [Field K] [LinearOrder K] (a b c : Ext K) (h1 : a.lt b = true) (h2 : b.le c = true) : a.lt c = true := by
  cases a <;> cases b <;> cases c <;> simp_all [Ext.lt, Ext.le]
  exact lt_of_lt_of_le h1 h2

section
variable {K : Type} [Field K] [LinearOrder K] [IsStrictOrderedRing K] {R : Rounding K}
variable {α : Type} [F64 α] (V : Valued R α) (L : R.Lawful)
variable {cfg : StrategyConfig α} {d : DataProvider α} {sig : Nat → Option TradeDirection} {N : Nat} {st : Nat → Strategy α}
  {est : Bool} {sy : Option Int} {year : Nat → Option Int} {co : Nat → CobraMetrics α} {rfr : α} {tv : Nat → TvMetrics α}
include V L

/-- **C75, a row that says nothing.** Cobra's "Intra-trade Max DD" is never negative, so its cell is green in every run after every
tick, however much of the money a trade lost on the way: the bands (-25%, -40%) are for the other sign. -/
theorem C75_intra_trade_always_green (hq : F64.lt (-(lit (1 / 4)) : Fl R) (lit 0) = true)
    (h : CobraRun d cfg est sy year st N co) {t : Nat} (ht : t < N) :
    F64.le (lit 0) (co t).data.intraTradeMaxDd = true ∧ colour (co t).data.print "Intra-trade Max DD" = some 1 := by
  have h0 : NotNan (lit 0 : Fl R) := by
    rw [lit_zero L]; exact fun hh => absurd (show (Ext.fin (0 : K)) = .nan from hh) (by simp)
  have base : F64.le (lit 0 : Fl R) (lit 0) = true := fl_le_refl h0
  have up (a b : α) (hb : F64.le (lit 0) b = true) : F64.le (lit 0) (F64.fmax a b) = true := by
    rw [V.le, V.lit] at hb ⊢
    rw [V.fmax]
    exact fl_le_trans hb (le_fmax_right _ (fl_le_notNan hb).2)
  have key : ∀ t, t < N → F64.le (lit 0) (co t).data.intraTradeMaxDd = true := by
    intro t
    induction t with
    | zero =>
      intro ht
      have s := cobraRun_step h ht
      cases hx : (st 0).events.onTradeExit with
      | none =>
        rw [(s.noExit hx).1]
        show F64.le (lit 0 : α) (lit 0) = true
        rw [V.le, V.lit]; exact base
      | some T =>
        obtain ⟨ep, _, e, _⟩ := s.exit T hx
        rw [e]
        refine up _ _ ?_
        show F64.le (lit 0 : α) (lit 0) = true
        rw [V.le, V.lit]; exact base
    | succ t ih =>
      intro ht
      have s := cobraRun_step h ht
      cases hx : (st (t + 1)).events.onTradeExit with
      | none => rw [(s.noExit hx).1]; exact ih (by omega)
      | some T =>
        obtain ⟨ep, _, e, _⟩ := s.exit T hx
        rw [e]
        exact up _ _ (ih (by omega))
  refine ⟨key t ht, ?_⟩
  have hk := key t ht
  have : fgt (co t).data.intraTradeMaxDd (-(lit (1 / 4))) = true := by
    unfold fgt
    rw [V.lt, V.neg, V.lit]
    rw [V.le, V.lit] at hk
    exact fl_lt_le_trans _ _ _ hq hk
  show some (theme (co t).data.intraTradeMaxDd (-(lit (1 / 4))) (-(lit (2 / 5)))) = some 1
  unfold theme
  rw [if_pos this]

/-- **C75, the best strategies look the worst.** If no closed trade has lost money, the profit factor is shown as 0 and its cell is red,
both in the overview and in Cobra's table, whatever the profits. -/
theorem C75_no_loss_is_red (hb : Backtest cfg d sig N st) (h : TvRun d cfg rfr st N tv) (hco : CobraRun d cfg est sy year st N co)
    {t : Nat} (ht : t < N) (hno : ∀ T ∈ (st t).trades, T.isClosed = true → F64.lt T.pnlField (lit 0) = false) (cur : String) :
    shows ((tv t).data.printOverview cur) "Profit Factor" = some (.number (lit 0) 3) ∧
    colour ((tv t).data.printOverview cur) "Profit Factor" = some (-1) ∧
    shows (co t).data.print "Profit Factor" = some (.number (lit 0) 2) ∧ colour (co t).data.print "Profit Factor" = some (-1) := by
  have s := C40_statistics hb ht
  have hl : (st t).metrics.grossLoss = lit 0 := by
    rw [s.grossLoss]
    have : (((st t).trades.filter (·.isClosed)).map (·.pnlField)).filter (fun p => !fgt p (lit 0) && F64.lt p (lit 0)) = [] := by
      rw [List.filter_eq_nil_iff]
      intro v hv
      obtain ⟨T, hT, rfl⟩ := List.mem_map.mp hv
      obtain ⟨h1, h2⟩ := List.mem_filter.mp hT
      simp [hno T h1 h2]
    rw [this]
    rfl
  have hf : F64.feq (lit 0 : α) (lit 0) = true := by
    rw [V.feq, V.lit, feq_zero L, lit_zero L]
  have p1 : (tv t).data.profitFactor = lit 0 := by
    have := (C49_ratios hb h ht).2.2.2.1
    rw [this, hl, if_pos hf]
  have p2 : (co t).data.profitFactor = lit 0 := by
    obtain ⟨_, c2, c3⟩ := C59_counts hb hco ht
    by_cases h0 : (st t).metrics.closedTrades = 0
    · exact (c2 h0).2.1
    · rw [(c3 h0).2.1, hl, if_pos hf]
  have cmp (n : Nat) (hn : n ≤ 4) (m : Nat) (hm : m ≤ 4) : F64.lt (lit (m : ℚ) : α) (lit (n : ℚ)) = decide (m < n) := by
    have e (n : Nat) (hn : n ≤ 4) : (lit (n : ℚ) : Fl R) = Fl.of R (.fin (n : K)) := by
      have := L.int (n : ℤ) (by rw [abs_of_nonneg (by positivity)]; norm_cast; omega)
      rw [Int.cast_natCast] at this
      rw [← this]
      show Fl.of R (R.rnd (((n : ℚ)) : K)) = _
      rw [Rat.cast_natCast]
    rw [V.lt, V.lit, V.lit, e n hn, e m hm]
    show decide ((m : K) < n) = _
    simp
  have q1 : theme (lit 0 : α) (lit 1) (lit 1) = -1 := by
    have a := cmp 0 (by omega) 1 (by omega)
    have b := cmp 1 (by omega) 0 (by omega)
    simp only [Nat.cast_zero, Nat.cast_one] at a b
    simp [theme, fgt, a, b]
  have q2 : theme (lit 0 : α) (lit 4) (lit 2) = -1 := by
    have a := cmp 0 (by omega) 4 (by omega)
    have b := cmp 2 (by omega) 0 (by omega)
    simp only [Nat.cast_zero, Nat.cast_ofNat] at a b
    simp [theme, fgt, a, b]
  refine ⟨?_, ?_, ?_, ?_⟩
  · show some (Shown.number (tv t).data.profitFactor 3) = _
    rw [p1]
  · show some (theme (tv t).data.profitFactor (lit 1) (lit 1)) = _
    rw [p1, q1]
  · show some (Shown.number (co t).data.profitFactor 2) = _
    rw [p2]
  · show some (theme (co t).data.profitFactor (lit 4) (lit 2)) = _
    rw [p2, q2]

end

theorem quarter_binary64 : F64.lt (-(lit (1 / 4)) : Fl (Rounding.binary64 ℝ)) (lit 0) = true := by
  have A : (Rounding.binary64 ℝ).Accurate b64u b64η ((2 : ℝ) ^ (1023 : ℤ)) := binary64_accurate ℝ
  obtain ⟨v, h1, h2⟩ := A.err (1 / 4) (by
    rw [abs_of_pos (by norm_num)]
    exact le_trans (by norm_num) A.top_ge)
  have hv : 0 < v := by
    have u1 := A.u_small
    have u0 := A.u_nonneg
    have e1 := A.η_small
    rw [abs_of_pos (by norm_num : (0 : ℝ) < 1 / 4)] at h2
    have h3 : b64u * (1 / 4) ≤ 1 / 8 := by linarith
    have h4 : b64η ≤ 1 / 8 := by
      refine e1.trans ?_
      have : b64u * b64u ≤ 1 / 1024 * 1 := mul_le_mul u1 (by linarith) u0 (by norm_num)
      linarith
    have h5 := (abs_le.mp (h2.trans (max_le h3 h4))).1
    linarith
  have e : (lit (1 / 4) : Fl (Rounding.binary64 ℝ)) = Fl.of _ (.fin v) := by
    rw [← h1]
    show Fl.of (Rounding.binary64 ℝ) ((Rounding.binary64 ℝ).rnd ((1 / 4 : ℚ) : ℝ)) = _
    norm_num
  rw [e, lit_zero (binary64_lawful ℝ)]
  exact decide_eq_true (by linarith : -v < 0)

/-- **C75.** In IEEE binary64 too the intra-trade row is always green. -/
theorem C75_intra_trade_binary64 {cfg : StrategyConfig B64} {d : DataProvider B64} {N : Nat} {st : Nat → Strategy B64} {est : Bool}
    {sy : Option Int} {year : Nat → Option Int} {co : Nat → CobraMetrics B64} (h : CobraRun d cfg est sy year st N co) {t : Nat} (ht : t < N) :
    colour (co t).data.print "Intra-trade Max DD" = some 1 :=
  (C75_intra_trade_always_green (Sf.valued _) (binary64_lawful ℝ) quarter_binary64 h ht).2

section
variable {K : Type} [Field K] [LinearOrder K] [IsStrictOrderedRing K] [LawfulRoots K]
variable {cfg : StrategyConfig (Ex K)} {d : DataProvider (Ex K)} {sig : Nat → Option TradeDirection} {N : Nat} {st : Nat → Strategy (Ex K)}
  {rfr : Ex K} {tv : Nat → TvMetrics (Ex K)}

/-- **C75, the colour of the drawdown depends on the currency.** The overview compares the drawdown as an amount of money with 0.2: for
any run with a drawdown, quoting the same market in a currency worth enough makes the cell green, in another one red, though the run,
the trades and the drawdown percentage are the same. -/
theorem C75_drawdown_colour (hb : Backtest cfg d sig N st) (h : TvRun d cfg rfr st N tv) {t : Nat} {dd : K}
    (hdd : (tv t).data.maxDrawdown = fin dd) (hpos : 0 < dd) (c : Int) (hc : c = 1 ∨ c = -1) (cur : String) :
    ∃ k : K, 0 < k ∧ ∃ st' tv', Backtest { cfg with initialCapital := times k cfg.initialCapital } (d.rescale (times k) id) sig N st' ∧
      TvRun (d.rescale (times k) id) { cfg with initialCapital := times k cfg.initialCapital } (times k rfr) st' N tv' ∧
      (∀ t, (tv' t).data.maxDrawdownPercent = (tv t).data.maxDrawdownPercent) ∧
      colour ((tv' t).data.printOverview cur) "Max Drawdown" = some c := by
  obtain ⟨k, hk, hcol⟩ : ∃ k : K, 0 < k ∧ band (-(k * dd)) (-(1 / 5)) (-(1 / 5)) = c := by
    rcases hc with rfl | rfl
    · refine ⟨1 / 10 / dd, by positivity, ?_⟩
      rw [div_mul_cancel₀ _ hpos.ne']
      unfold band
      rw [if_pos (by norm_num)]
    · refine ⟨1 / dd, by positivity, ?_⟩
      rw [div_mul_cancel₀ _ hpos.ne']
      unfold band
      rw [if_neg (by norm_num), if_pos (by norm_num)]
  have hk' : (Rounding.exact K).Homogeneous k := exact_homogeneous hk
  have hm : ∀ a : Ex K, (Units.of hk' (homogeneous_one _)).money.f a = times k a := fun a => by
    show Ext.scale (k * 1) a = Ext.scale k a
    rw [mul_one]
  have e : cfg.rescale (Units.of hk' (homogeneous_one _)) = { cfg with initialCapital := times k cfg.initialCapital } := by
    unfold StrategyConfig.rescale; rw [hm]
  have h1s : (Units.of hk' (homogeneous_one (Rounding.exact K))).size.f (lit 1) = lit 1 := by
    show Ext.scale 1 (Ext.fin ((1 : ℚ) : K)) = _
    rw [scale_one]
    rfl
  have h1 := C71_backtest (Units.of hk' (homogeneous_one _)) (cfg := cfg) (Or.inr h1s) id hb
  obtain ⟨tv', h2, h3⟩ := C71_tradingview (Units.of hk' (homogeneous_one _)) id h
  rw [e] at h1 h2
  rw [hm] at h2
  refine ⟨k, hk, _, tv', h1, h2, fun t => by rw [(h3 t).1]; rfl, ?_⟩
  have hd' : (tv' t).data.maxDrawdown = fin (k * dd) := by
    rw [(h3 t).1]
    show (Units.of hk' (homogeneous_one _)).money.f (tv t).data.maxDrawdown = _
    rw [hm, hdd]
    rfl
  show some (themeBelow (tv' t).data.maxDrawdown (lit (1 / 5))) = some c
  have l4 : (lit (1 / 5) : Ex K) = fin (1 / 5) := by simp
  rw [hd', l4, themeBelow_exact, hcol]

end

/-! ## A concrete run -/

/-- The strategy of `exRun` after each tick, computed. -/
def exSt (t : Nat) : Strategy (Ex ℚ) :=
  ((outputs (fun t => runner ⟨exBars, t⟩) exSig 5 (.ok (Strategy.new exCfg))).toOption.getD []).getD t (Strategy.new exCfg)

/-- Its TradingView metrics, computed. -/
def exTv (t : Nat) : TvMetrics (Ex ℚ) :=
  ((outputs (fun t s x => do let s ← TvMetrics.next ⟨exBars, t⟩ s x; return (s, s)) exSt 5
    (.ok (TvMetrics.new (Strategy.new exCfg) (fin 0)))).toOption.getD []).getD t (TvMetrics.new (Strategy.new exCfg) (fin 0))

/-- Its Cobra metrics, computed. -/
def exCo (t : Nat) : CobraMetrics (Ex ℚ) :=
  ((outputs (fun t s x => do let s ← CobraMetrics.next ⟨exBars, t⟩ none s x; return (s, s)) exSt 5
    (.ok (CobraMetrics.new (Strategy.new exCfg) false none))).toOption.getD []).getD t (CobraMetrics.new (Strategy.new exCfg) false none)

private theorem runs_computed {S I O : Type} {step : Nat → S → I → Res (O × S)} {s0 : Res S} {x : Nat → I} {N : Nat} {y : Nat → O}
    (h : Runs step s0 x N y) (o : O) : Runs step s0 x N fun t => ((outputs step x N s0).toOption.getD []).getD t o := by
  have e := h
  unfold Runs at e
  refine h.congr fun t ht => ?_
  rw [e]
  simp [Except.toOption, ht]

theorem exReport_runs : Backtest exCfg exBars exSig 5 exSt ∧ TvRun exBars exCfg (fin 0) exSt 5 exTv ∧
    CobraRun exBars exCfg false none (fun _ => none) exSt 5 exCo := by
  have hb : Backtest exCfg exBars exSig 5 exSt := by
    obtain ⟨st, h⟩ := exRun
    exact runs_computed h _
  have hc : ∀ t, t < 5 → OpenBarsComplete exBars exSt t := by
    intro t ht _
    exact ⟨⟨_, (bars_ofSeries 5 _ _ _ _ _).low t ht⟩, ⟨_, (bars_ofSeries 5 _ _ _ _ _).high t ht⟩⟩
  obtain ⟨tv, htv⟩ := (C57_tradingview_metrics hb (fin 0)).mpr hc
  obtain ⟨co, hco⟩ := (C57_cobra_metrics hb false none (fun _ => none)).mpr fun t ht => ⟨hc t ht, by simp⟩
  exact ⟨hb, runs_computed htv _, runs_computed hco _⟩

instance : DecidableEq (Ex ℚ) := inferInstanceAs (DecidableEq (Ext ℚ))

/-- The hypotheses of the theorems above are met: a loss and a gain of 20, a drawdown of 30 (30%), and all figures finite. -/
theorem exReport_facts : ClosedProfits exSt 4 [-20, 20] ∧ (∃ dd ddp : ℚ, 0 < dd ∧ (exTv 4).data.maxDrawdown = fin dd ∧
    (exTv 4).data.maxDrawdownPercent = fin ddp) ∧ (exCo 4).data.intraTradeMaxDd = fin 3 := by
  refine ⟨?_, ⟨30, 3 / 10, by norm_num, ?_, ?_⟩, ?_⟩
  · unfold ClosedProfits; decide +kernel
  · decide +kernel
  · decide +kernel
  · decide +kernel

/-- The colours of its overview. -/
example : ((exTv 4).data.printOverview "USD").map (·.theme) = [0, 0, 0, 0, -1, 0] := by decide +kernel

end Pace
