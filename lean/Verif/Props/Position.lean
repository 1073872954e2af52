import Verif.Spec.Position
import Verif.Props.Strategy2
import Verif.Lemmas.ContentExact
import Mathlib.Algebra.BigOperators.Ring.Finset
import Mathlib.Algebra.BigOperators.Intervals
import Mathlib.Algebra.Order.BigOperators.Group.Finset

/-!
# What a backtest earns, from the position and the prices (C81)

Level 2 (`Ex K`, exact arithmetic), one unit per trade (`buy_with_equity = false`).
-/

set_option linter.unusedSectionVars false

namespace Pace
open Spec

section any
variable {α : Type} [F64 α]

theorem side_ne_zero (dir : TradeDirection) : side dir ≠ 0 := by cases dir <;> simp [side]

theorem side_inj {a b : TradeDirection} : side a = side b ↔ a = b := by cases a <;> cases b <;> simp [side]

/-- The direction of the open position of a ledger. -/
theorem ledger_held (cfg : StrategyConfig α) (d : DataProvider α) (sig : Nat → Option TradeDirection) (n : Nat) :
    held cfg sig n = match (ledger cfg d sig n).opened with | none => 0 | some x => side x.dir := by
  induction n with
  | zero => rfl
  | succ n ih =>
    rw [held, ih, ledger]
    generalize ledger cfg d sig n = L
    rcases order cfg sig n with _ | dir
    · rfl
    · cases hx : L.opened with
      | none => simp [Ledger.tick, hx, moved, Ledger.enter]
      | some x =>
        simp only [Ledger.tick, hx, moved, side_ne_zero, if_false, side_inj]
        by_cases hd : dir = x.dir
        · rw [if_pos hd, if_pos hd.symm, hx]
        · rw [if_neg hd, if_neg (fun h => hd h.symm)]
          cases cfg.continous <;> simp [Ledger.enter]

/-- **C81.** In any arithmetic, on any data and with any sizes: the position is what the books say. Every open trade has the direction
of the position; without a position no trade is open; with a position exactly one is. -/
theorem C81_position {cfg : StrategyConfig α} {d : DataProvider α} {sig : Nat → Option TradeDirection} {N : Nat}
    {st : Nat → Strategy α} (H : Backtest cfg d sig N st) {t : Nat} (ht : t < N) :
    held cfg sig (t + 1) = (((st t).trades.filter fun T => !T.isClosed).map fun T => side T.direction).sum ∧
    ((st t).trades.filter fun T => !T.isClosed).length = (held cfg sig (t + 1)).natAbs := by
  rw [C39_refines H ht, ledger_held cfg d sig (t + 1)]
  have h0 : (((ledger cfg d sig (t + 1)).closed.map Closed.toTrade).filter fun T => !T.isClosed) = [] := by
    simp [List.filter_eq_nil_iff, Closed.toTrade]
  rw [Ledger.trades, List.filter_append, h0]
  cases (ledger cfg d sig (t + 1)).opened with
  | none => simp
  | some x => obtain ⟨dir, _, _, _⟩ := x; cases dir <;> simp [Holding.toTrade, side]

end any

section exact
variable {K : Type} [Field K] [LinearOrder K] [IsStrictOrderedRing K] [RootOps K]
variable {cfg : StrategyConfig (Ex K)} {d : DataProvider (Ex K)} {sig : Nat → Option TradeDirection} {N : Nat}
  {st : Nat → Strategy (Ex K)} {cap : K} {o h l c v : Nat → K}

theorem fillPrice_bars (hb : ExBars d N o h l c v) {t : Nat} (ht : t < N) :
    fillPrice cfg d t = fin (fillSeries cfg o c t) := by
  unfold fillPrice fillSeries
  cases cfg.onBarClose
  · simp [hb.open_ t ht]
  · simp [hb.close t ht]

/-- The ledger `L` holds the position `p`, one unit, and is worth `e` at the price `f`. -/
structure Tracks (L : Ledger (Ex K)) (p : ℤ) (f e : K) : Prop where
  realised : ∃ r : K, L.realised = fin r ∧ (L.opened = none → r = e ∧ p = 0) ∧
    ∀ x, L.opened = some x → p = side x.dir ∧ x.size = fin 1 ∧ ∃ a : K, x.price = fin a ∧ r + (p : K) * (f - a) = e

theorem profit_unit {x : Holding (Ex K)} {a : K} (hp : x.price = fin a) (hs : x.size = fin 1) (q : K) :
    x.profit (fin q) = fin ((side x.dir : K) * (q - a)) := by
  obtain ⟨dir, _, _, _⟩ := x
  simp only at hp hs
  subst hp hs
  cases dir <;> simp [Holding.profit, side]

theorem Tracks.move {L : Ledger (Ex K)} {p : ℤ} {f e : K} (H : Tracks L p f e) (g : K) : Tracks L p g (e + (p : K) * (g - f)) := by
  obtain ⟨r, h1, h2, h3⟩ := H.realised
  refine ⟨r, h1, fun hn => ?_, fun x hx => ?_⟩
  · obtain ⟨rfl, rfl⟩ := h2 hn
    simp
  · obtain ⟨hp, hs, a, ha, he⟩ := h3 x hx
    exact ⟨hp, hs, a, ha, by rw [← he]; ring⟩

theorem Tracks.enter {L : Ledger (Ex K)} {r : K} (hr : L.realised = fin r) (hb : cfg.buyWithEquity = false) (t : Nat) (f : K)
    (dir : TradeDirection) : Tracks (L.enter cfg t (fin f) dir) (side dir) f r := by
  refine ⟨r, hr, by simp [Ledger.enter], ?_⟩
  simp only [Ledger.enter, hb]
  rintro x ⟨⟩
  exact ⟨rfl, by simp, f, rfl, by ring⟩

theorem Tracks.tick {L : Ledger (Ex K)} {p : ℤ} {f e : K} (H : Tracks L p f e) (hb : cfg.buyWithEquity = false) (t : Nat)
    (u : Option TradeDirection) : Tracks (L.tick cfg t (fin f) u) (moved cfg.continous p u) f e := by
  obtain ⟨r, h1, h2, h3⟩ := H.realised
  rcases u with _ | dir
  · exact H
  cases hx : L.opened with
  | none =>
    obtain ⟨rfl, rfl⟩ := h2 hx
    simp only [Ledger.tick, hx, moved, if_true]
    exact Tracks.enter h1 hb t f dir
  | some x =>
    obtain ⟨rfl, hs, a, ha, he⟩ := h3 x hx
    simp only [Ledger.tick, hx, moved, side_ne_zero, if_false]
    by_cases hd : dir = x.dir
    · rw [if_pos hd, if_pos (by rw [hd])]
      exact H
    · rw [if_neg hd, if_neg (fun h => hd (side_inj.mp h).symm)]
      have hr : (⟨L.closed ++ [⟨x, t, fin f⟩], none⟩ : Ledger (Ex K)).realised = fin e := by
        have h1' : fsum (L.closed.map Closed.profit) = fin r := h1
        simp only [Ledger.realised, List.map_append, List.map_cons, List.map_nil, fsum_snoc, h1', Closed.profit, profit_unit ha hs,
          fin_add, he]
      cases cfg.continous
      · exact ⟨e, hr, fun _ => ⟨rfl, rfl⟩, by simp⟩
      · exact Tracks.enter hr hb t f dir

/-- The ledger after tick `t`. -/
theorem ledger_tracks (hb : ExBars d N o h l c v) (hf : cfg.buyWithEquity = false) {t : Nat} (ht : t < N) :
    Tracks (ledger cfg d sig (t + 1)) (held cfg sig (t + 1)) (fillSeries cfg o c t)
      (∑ k ∈ Finset.range t, (held cfg sig (k + 1) : K) * (fillSeries cfg o c (k + 1) - fillSeries cfg o c k)) := by
  induction t with
  | zero =>
    simp only [ledger, held, fillPrice_bars hb ht]
    exact Tracks.tick ⟨0, by simp [Ledger.realised, fsum], by simp, by simp⟩ hf 0 _
  | succ t ih =>
    have := (ih (by omega)).move (fillSeries cfg o c (t + 1))
    rw [Finset.sum_range_succ]
    rw [ledger, held, fillPrice_bars hb ht]
    exact this.tick hf _ _

/-- **C81.** In exact arithmetic, on complete finite bars and with one unit per trade: after every tick the equity is the
initial capital plus what the position has earned, each position times the price change while it was held. The trades in the
books do not matter beyond the position. -/
theorem C81_equity (H : Backtest cfg d sig N st) (hb : ExBars d N o h l c v) (hf : cfg.buyWithEquity = false)
    (hc : cfg.initialCapital = fin cap) {t : Nat} (ht : t < N) :
    (st t).metrics.equity = fin (cap + earned (fun k => held cfg sig (k + 1)) (fillSeries cfg o c) c t) ∧
    (st t).metrics.netProfit + (st t).metrics.openProfit = fin (earned (fun k => held cfg sig (k + 1)) (fillSeries cfg o c) c t) := by
  have hd := backtest_done H t ht
  suffices hs : (st t).metrics.netProfit + (st t).metrics.openProfit = fin (earned (fun k => held cfg sig (k + 1)) (fillSeries cfg o c) c t) ∧
      ∃ n p : K, (st t).metrics.netProfit = fin n ∧ (st t).metrics.openProfit = fin p by
    obtain ⟨h1, n, p, h2, h3⟩ := hs
    refine ⟨?_, h1⟩
    rw [hd.equity, hc]
    rw [h2, h3, fin_add, fin_inj] at h1
    rw [h2, h3, ← h1, fin_add, fin_add, add_assoc]
  obtain ⟨r, h1, h2, h3⟩ := (ledger_tracks (cfg := cfg) (sig := sig) hb hf ht).realised
  have hn : (st t).metrics.netProfit = fin r := hd.books.netProfit.trans h1
  cases hx : (ledger cfg d sig (t + 1)).opened with
  | none =>
    obtain ⟨rfl, hp⟩ := h2 hx
    have ho : (st t).metrics.openProfit = fin 0 := by rw [hd.books.flat hx]; simp
    exact ⟨by rw [hn, ho, fin_add]; simp [earned, hp], _, _, hn, ho⟩
  | some x =>
    obtain ⟨hp, hs, a, ha, he⟩ := h3 x hx
    obtain ⟨q, hq, hoq⟩ := hd.openProfit x hx
    rw [hb.close t ht] at hq
    cases hq
    rw [profit_unit ha hs] at hoq
    refine ⟨?_, _, _, hn, hoq⟩
    rw [hn, hoq, fin_add, earned, ← he, ← hp]
    congr 1
    ring

/-- **C81.** With no position after tick `t`, the net profit is what the past positions have earned and nothing is open. -/
theorem C81_flat (H : Backtest cfg d sig N st) (hb : ExBars d N o h l c v) (hf : cfg.buyWithEquity = false) {t : Nat} (ht : t < N)
    (hp : held cfg sig (t + 1) = 0) :
    (st t).metrics.netProfit =
      fin (∑ k ∈ Finset.range t, (held cfg sig (k + 1) : K) * (fillSeries cfg o c (k + 1) - fillSeries cfg o c k)) ∧
    (st t).metrics.openProfit = fin 0 := by
  have hd := backtest_done H t ht
  obtain ⟨r, h1, h2, h3⟩ := (ledger_tracks (cfg := cfg) (sig := sig) hb hf ht).realised
  have hx : (ledger cfg d sig (t + 1)).opened = none := by
    cases hx : (ledger cfg d sig (t + 1)).opened with
    | none => rfl
    | some x => exact absurd ((h3 x hx).1.symm.trans hp) (side_ne_zero _)
  exact ⟨by rw [hd.books.netProfit, ← (h2 hx).1]; exact h1, by rw [hd.books.flat hx]; simp⟩

theorem earned_succ (p : Nat → ℤ) (f c : Nat → K) (t : Nat) :
    earned p f c (t + 1) - earned p f c t = (p t : K) * (f (t + 1) - c t) + (p (t + 1) : K) * (c (t + 1) - f (t + 1)) := by
  simp only [earned, Finset.sum_range_succ]
  ring

/-- **C81.** From one bar to the next the equity changes by the old position times the price change from the close to the fill,
plus the new position times the price change from the fill to the close. -/
theorem C81_change (H : Backtest cfg d sig N st) (hb : ExBars d N o h l c v) (hf : cfg.buyWithEquity = false)
    (hc : cfg.initialCapital = fin cap) {t : Nat} (ht : t + 1 < N) :
    ∃ e e' : K, (st t).metrics.equity = fin e ∧ (st (t + 1)).metrics.equity = fin e' ∧
      e' - e = (held cfg sig (t + 1) : K) * (fillSeries cfg o c (t + 1) - c t) +
        (held cfg sig (t + 2) : K) * (c (t + 1) - fillSeries cfg o c (t + 1)) := by
  refine ⟨_, _, (C81_equity H hb hf hc (by omega)).1, (C81_equity H hb hf hc ht).1, ?_⟩
  rw [← earned_succ (fun k => held cfg sig (k + 1)) (fillSeries cfg o c) c t]
  ring

theorem held_abs_le {α : Type} [F64 α] (cfg : StrategyConfig α) (sig : Nat → Option TradeDirection) (n : Nat) :
    held cfg sig n = 0 ∨ held cfg sig n = 1 ∨ held cfg sig n = -1 := by
  induction n with
  | zero => exact Or.inl rfl
  | succ n ih =>
    rw [held]
    generalize held cfg sig n = p at ih
    rcases order cfg sig n with _ | dir
    · exact ih
    · simp only [moved]
      cases dir <;> cases cfg.continous <;> rcases ih with rfl | rfl | rfl <;> simp [side]

theorem held_mul_le (cfg : StrategyConfig (Ex K)) (sig : Nat → Option TradeDirection) (n : Nat) (x : K) :
    |(held cfg sig n : K) * x| ≤ |x| := by
  rcases held_abs_le cfg sig n with h | h | h <;> simp [h]

/-- **C81.** Neither the profit nor the loss exceeds the distance that the price has travelled, whatever the signals. -/
theorem C81_bound (H : Backtest cfg d sig N st) (hb : ExBars d N o h l c v) (hf : cfg.buyWithEquity = false)
    (hc : cfg.initialCapital = fin cap) {t : Nat} (ht : t < N) :
    ∃ e : K, (st t).metrics.equity = fin e ∧
      |e - cap| ≤ (∑ k ∈ Finset.range t, |fillSeries cfg o c (k + 1) - fillSeries cfg o c k|) + |c t - fillSeries cfg o c t| := by
  refine ⟨_, (C81_equity H hb hf hc ht).1, ?_⟩
  rw [add_sub_cancel_left, earned]
  refine (abs_add_le _ _).trans (add_le_add ((Finset.abs_sum_le_sum_abs _ _).trans (Finset.sum_le_sum fun k _ => ?_)) ?_)
  · exact held_mul_le cfg sig (k + 1) _
  · exact held_mul_le cfg sig (t + 1) _

/-- **C81.** Profits are linear in the prices: with the same signals, the profit on prices that are `a` times one series plus `b`
times another is `a` times the one profit plus `b` times the other, after every tick. -/
theorem C81_linear {d₁ d₂ d₃ : DataProvider (Ex K)} {st₁ st₂ st₃ : Nat → Strategy (Ex K)}
    {o₁ h₁ l₁ c₁ v₁ o₂ h₂ l₂ c₂ v₂ o₃ h₃ l₃ c₃ v₃ : Nat → K} (a b : K)
    (H₁ : Backtest cfg d₁ sig N st₁) (H₂ : Backtest cfg d₂ sig N st₂) (H₃ : Backtest cfg d₃ sig N st₃)
    (hb₁ : ExBars d₁ N o₁ h₁ l₁ c₁ v₁) (hb₂ : ExBars d₂ N o₂ h₂ l₂ c₂ v₂) (hb₃ : ExBars d₃ N o₃ h₃ l₃ c₃ v₃)
    (ho : ∀ t, o₃ t = a * o₁ t + b * o₂ t) (hcl : ∀ t, c₃ t = a * c₁ t + b * c₂ t)
    (hf : cfg.buyWithEquity = false) (hc : cfg.initialCapital = fin cap) {t : Nat} (ht : t < N) :
    ∃ w₁ w₂ : K, (st₁ t).metrics.equity = fin (cap + w₁) ∧ (st₂ t).metrics.equity = fin (cap + w₂) ∧
      (st₃ t).metrics.equity = fin (cap + (a * w₁ + b * w₂)) := by
  refine ⟨_, _, (C81_equity H₁ hb₁ hf hc ht).1, (C81_equity H₂ hb₂ hf hc ht).1, ?_⟩
  rw [(C81_equity H₃ hb₃ hf hc ht).1, fin_inj, add_right_inj]
  have hfs (k : Nat) : fillSeries cfg o₃ c₃ k = a * fillSeries cfg o₁ c₁ k + b * fillSeries cfg o₂ c₂ k := by
    unfold fillSeries
    cases cfg.onBarClose <;> simp [ho, hcl]
  simp only [earned, hfs, hcl, mul_add, Finset.mul_sum]
  rw [add_add_add_comm, ← Finset.sum_add_distrib]
  congr 1
  · exact Finset.sum_congr rfl fun k _ => by ring
  · ring

/-- **C81.** Profits are additive in the position: if the position of one run is always the sum of the positions of two others on the
same bars, its profit is the sum of their profits; in particular runs with the same positions have the same profit. The
capital and the kind of reversal may differ, the kind of fill may not. -/
theorem C81_additive {cfg₁ cfg₂ cfg₃ : StrategyConfig (Ex K)} {sig₁ sig₂ sig₃ : Nat → Option TradeDirection}
    {st₁ st₂ st₃ : Nat → Strategy (Ex K)} {cap₁ cap₂ cap₃ : K}
    (H₁ : Backtest cfg₁ d sig₁ N st₁) (H₂ : Backtest cfg₂ d sig₂ N st₂) (H₃ : Backtest cfg₃ d sig₃ N st₃)
    (hb : ExBars d N o h l c v)
    (hf₁ : cfg₁.buyWithEquity = false) (hf₂ : cfg₂.buyWithEquity = false) (hf₃ : cfg₃.buyWithEquity = false)
    (hc₁ : cfg₁.initialCapital = fin cap₁) (hc₂ : cfg₂.initialCapital = fin cap₂) (hc₃ : cfg₃.initialCapital = fin cap₃)
    (hk₁ : cfg₁.onBarClose = cfg₃.onBarClose) (hk₂ : cfg₂.onBarClose = cfg₃.onBarClose)
    (hp : ∀ n, n ≤ N → held cfg₃ sig₃ n = held cfg₁ sig₁ n + held cfg₂ sig₂ n) {t : Nat} (ht : t < N) :
    ∃ w₁ w₂ : K, (st₁ t).metrics.equity = fin (cap₁ + w₁) ∧ (st₂ t).metrics.equity = fin (cap₂ + w₂) ∧
      (st₃ t).metrics.equity = fin (cap₃ + (w₁ + w₂)) := by
  refine ⟨_, _, (C81_equity H₁ hb hf₁ hc₁ ht).1, (C81_equity H₂ hb hf₂ hc₂ ht).1, ?_⟩
  rw [(C81_equity H₃ hb hf₃ hc₃ ht).1, fin_inj, add_right_inj]
  have e1 : fillSeries cfg₁ o c = fillSeries cfg₃ o c := by simp only [fillSeries, hk₁]
  have e2 : fillSeries cfg₂ o c = fillSeries cfg₃ o c := by simp only [fillSeries, hk₂]
  simp only [earned, e1, e2]
  rw [add_add_add_comm, ← Finset.sum_add_distrib]
  congr 1
  · refine Finset.sum_congr rfl fun k hk => ?_
    rw [hp (k + 1) (by have := Finset.mem_range.mp hk; omega)]
    push_cast
    ring
  · rw [hp (t + 1) (by omega)]
    push_cast
    ring

/-- **C81.** Runs that hold the same position, whatever their signals, have the same profit after every tick. -/
theorem C81_same_position {cfg₁ cfg₂ : StrategyConfig (Ex K)} {sig₁ sig₂ : Nat → Option TradeDirection}
    {st₁ st₂ : Nat → Strategy (Ex K)} {cap₁ cap₂ : K}
    (H₁ : Backtest cfg₁ d sig₁ N st₁) (H₂ : Backtest cfg₂ d sig₂ N st₂) (hb : ExBars d N o h l c v)
    (hf₁ : cfg₁.buyWithEquity = false) (hf₂ : cfg₂.buyWithEquity = false)
    (hc₁ : cfg₁.initialCapital = fin cap₁) (hc₂ : cfg₂.initialCapital = fin cap₂) (hk : cfg₁.onBarClose = cfg₂.onBarClose)
    (hp : ∀ n, n ≤ N → held cfg₁ sig₁ n = held cfg₂ sig₂ n) {t : Nat} (ht : t < N) :
    ∃ w : K, (st₁ t).metrics.equity = fin (cap₁ + w) ∧ (st₂ t).metrics.equity = fin (cap₂ + w) := by
  refine ⟨_, (C81_equity H₁ hb hf₁ hc₁ ht).1, ?_⟩
  rw [(C81_equity H₂ hb hf₂ hc₂ ht).1, fin_inj, add_right_inj]
  have e1 : fillSeries cfg₁ o c = fillSeries cfg₂ o c := by simp only [fillSeries, hk]
  simp only [earned, e1]
  congr 1
  · refine Finset.sum_congr rfl fun k hk => ?_
    rw [hp (k + 1) (by have := Finset.mem_range.mp hk; omega)]
  · rw [hp (t + 1) (by omega)]

/-- The position of a run whose orders are `long` on tick `e`, nothing before, and never `short` afterwards. -/
theorem held_long {e n : Nat} (h0 : ∀ k, k < e → order cfg sig k = none) (he : order cfg sig e = some .long)
    (hn : ∀ k, e < k → k < n → order cfg sig k ≠ some .short) : ∀ k, k ≤ n → held cfg sig k = if k ≤ e then 0 else 1 := by
  intro k
  induction k with
  | zero => simp [held]
  | succ k ih =>
    intro hk
    rw [held, ih (by omega)]
    rcases lt_trichotomy k e with hlt | rfl | hgt
    · rw [h0 k hlt]
      simp [moved, hlt.le, Nat.succ_le_of_lt hlt]
    · rw [he]
      simp [moved, side]
    · have := hn k hgt (by omega)
      rcases ho : order cfg sig k with _ | dir
      · simp [moved, not_le.mpr hgt, show ¬ k + 1 ≤ e by omega]
      · cases dir
        · simp [moved, side, not_le.mpr hgt, show ¬ k + 1 ≤ e by omega]
        · exact absurd ho this

/-- **C81.** Buy and hold: if the first order, `long`, is filled on tick `e` and no `short` order follows, the equity from then on is the
capital plus the close minus the entry price. -/
theorem C81_hold (H : Backtest cfg d sig N st) (hb : ExBars d N o h l c v) (hf : cfg.buyWithEquity = false)
    (hc : cfg.initialCapital = fin cap) {e t : Nat} (h0 : ∀ k, k < e → order cfg sig k = none) (he : order cfg sig e = some .long)
    (hn : ∀ k, e < k → k ≤ t → order cfg sig k ≠ some .short) (het : e ≤ t) (ht : t < N) :
    (st t).metrics.equity = fin (cap + (c t - fillSeries cfg o c e)) := by
  rw [(C81_equity H hb hf hc ht).1, fin_inj, add_right_inj]
  have hh := held_long (n := t + 1) h0 he (fun k h1 h2 => hn k h1 (by omega))
  rw [earned, hh (t + 1) (by omega), if_neg (by omega)]
  have hsum : ∀ m, e ≤ m → m ≤ t → (∑ k ∈ Finset.range m, (held cfg sig (k + 1) : K) * (fillSeries cfg o c (k + 1) - fillSeries cfg o c k)) =
      fillSeries cfg o c m - fillSeries cfg o c e := by
    intro m
    induction m with
    | zero =>
      intro h1 _
      obtain rfl : e = 0 := by omega
      simp
    | succ m ih =>
      intro h1 h2
      rw [Finset.sum_range_succ, hh (m + 1) (by omega)]
      rcases Nat.lt_or_ge m e with hlt | hge
      · obtain rfl : e = m + 1 := by omega
        rw [if_pos le_rfl]
        rw [Finset.sum_eq_zero]
        · simp
        · intro k hk
          have := Finset.mem_range.mp hk
          rw [hh (k + 1) (by omega), if_pos (by omega)]
          simp
      · rw [ih hge (by omega), if_neg (by omega)]
        push_cast
        ring
  rw [hsum t het le_rfl]
  push_cast
  ring

end exact

/-! ## Concrete runs -/
section witness

/-- One unit per trade, continuous, filled at the next open. -/
def unitCfg : StrategyConfig (Ex ℚ) := ⟨false, true, fin 100, false⟩

theorem exBars_exact : ExBars exBars 5 (fun t => [9, 10, 12, 14, 15].getD t 0) (fun t => [11, 13, 14, 16, 17].getD t 0)
    (fun t => [8, 9, 11, 13, 12].getD t 0) (fun t => [10, 12, 13, 15, 14].getD t 0) (fun _ => (1 : ℚ)) :=
  bars_ofSeries 5 _ _ _ _ _

/-- Short one unit from 10 to 12, long from 12 to 15, short from 15: on the last close, 14, the equity is 100 - 2 + 3 + 1. -/
example : ∃ st, Backtest unitCfg exBars exSig 5 st ∧ (List.range 6).map (held unitCfg exSig) = [0, 0, -1, 1, 1, -1] ∧
    (st 4).metrics.equity = fin 102 := by
  obtain ⟨st, H⟩ : ∃ st, Backtest unitCfg exBars exSig 5 st := C57_strategy_complete unitCfg exSig (bars_ofSeries 5 _ _ _ _ _)
  refine ⟨st, H, by decide, ?_⟩
  rw [(C81_equity (cap := 100) H exBars_exact rfl rfl (by norm_num : 4 < 5)).1, fin_inj]
  decide +kernel

/-- Buying on the first bar and holding: bought at 10, the next open; on the last close, 14, the equity is 104. -/
example : ∃ st, Backtest unitCfg exBars (fun t => if t = 0 then some .long else none) 5 st ∧ (st 4).metrics.equity = fin 104 := by
  obtain ⟨st, H⟩ : ∃ st, Backtest unitCfg exBars (fun t => if t = 0 then some .long else none) 5 st :=
    C57_strategy_complete unitCfg _ (bars_ofSeries 5 _ _ _ _ _)
  refine ⟨st, H, ?_⟩
  rw [C81_hold (cap := 100) (e := 1) H exBars_exact rfl rfl (by decide) (by decide) ?_ (by norm_num) (by norm_num : 4 < 5), fin_inj]
  · decide +kernel
  · intro k h1 h2
    have : k - 1 ≠ 0 := by omega
    simp [order, unitCfg, this]

/-- A long-only run and a short-only run (closing orders in the ordinary mode) whose positions add up to those of the continuous run. -/
example : ∃ sig₁ sig₂ : Nat → Option TradeDirection, ∀ n, n ≤ 5 →
    held unitCfg exSig n = held (⟨false, false, fin 100, false⟩ : StrategyConfig (Ex ℚ)) sig₁ n +
      held (⟨false, false, fin 7, false⟩ : StrategyConfig (Ex ℚ)) sig₂ n :=
  ⟨fun t => [none, some .long, none, some .short].getD t none, fun t => [some .short, some .long, none, some .short].getD t none, by decide⟩

/-- Bars that are twice one series minus another: the runs of `C81_linear` exist. -/
example : ∃ (d₁ d₂ d₃ : DataProvider (Ex ℚ)) (st₁ st₂ st₃ : Nat → Strategy (Ex ℚ)) (o₁ o₂ : Nat → ℚ), o₁ ≠ o₂ ∧
    Backtest unitCfg d₁ exSig 9 st₁ ∧ Backtest unitCfg d₂ exSig 9 st₂ ∧ Backtest unitCfg d₃ exSig 9 st₃ ∧
    ExBars d₁ 9 o₁ o₁ o₁ o₁ o₁ ∧ ExBars d₂ 9 o₂ o₂ o₂ o₂ o₂ ∧
    ExBars d₃ 9 (fun t => 2 * o₁ t + -1 * o₂ t) o₁ o₁ (fun t => 2 * o₁ t + -1 * o₂ t) o₁ := by
  obtain ⟨st₁, h₁⟩ := C57_strategy_complete unitCfg exSig (bars_ofSeries 9 (fun t => (fin (10 + t) : Ex ℚ)) (fun t => fin (10 + t))
    (fun t => fin (10 + t)) (fun t => fin (10 + t)) (fun t => fin (10 + t)))
  obtain ⟨st₂, h₂⟩ := C57_strategy_complete unitCfg exSig (bars_ofSeries 9 (fun t => (fin (10 - t) : Ex ℚ)) (fun t => fin (10 - t))
    (fun t => fin (10 - t)) (fun t => fin (10 - t)) (fun t => fin (10 - t)))
  obtain ⟨st₃, h₃⟩ := C57_strategy_complete unitCfg exSig (bars_ofSeries 9 (fun t => (fin (2 * (10 + t) + -1 * (10 - t)) : Ex ℚ))
    (fun t => fin (10 + t)) (fun t => fin (10 + t)) (fun t => fin (2 * (10 + t) + -1 * (10 - t))) (fun t => fin (10 + t)))
  refine ⟨_, _, _, st₁, st₂, st₃, fun t => 10 + t, fun t => 10 - t, ?_, h₁, h₂, h₃, bars_ofSeries 9 _ _ _ _ _, bars_ofSeries 9 _ _ _ _ _,
    bars_ofSeries 9 _ _ _ _ _⟩
  intro h
  have := congrFun h 1
  norm_num at this

end witness
end Pace
