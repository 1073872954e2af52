import Verif.Props.Strategy
import Verif.Lemmas.Real

/-!
# Strategy runner: profit identities (C41), sizes (C44), profit of a trade (C45)

Level 2 (`Ex K`, exact arithmetic) and level 1 (`Fl R`, any monotone odd rounding).
-/

set_option linter.unusedSectionVars false

namespace Pace
open Spec

/-! ## Level 2 -/
section exact
variable {K : Type} [Field K] [LinearOrder K] [IsStrictOrderedRing K] [RootOps K]

/-- Every open and close price of the data set that is present is a finite number. -/
def FinitePrices (d : DataProvider (Ex K)) : Prop := ∀ v, some v ∈ d.open_ ∨ some v ∈ d.close → ∃ k : K, v = fin k

variable {cfg : StrategyConfig (Ex K)} {d : DataProvider (Ex K)} {sig : Nat → Option TradeDirection} {N : Nat}
  {st : Nat → Strategy (Ex K)} {cap : K}

theorem fillPrice_fin (hf : FinitePrices d) (t : Nat) : ∃ k : K, fillPrice cfg d t = fin k := by
  unfold fillPrice
  cases h : (if cfg.onBarClose then d.close[t]? else d.open_[t]?) with
  | none => exact ⟨_, fin_lit 0⟩
  | some o =>
    cases o with
    | none => exact ⟨_, fin_lit 0⟩
    | some v =>
      refine hf v ?_
      split at h
      · exact Or.inr (List.mem_of_getElem? h)
      · exact Or.inl (List.mem_of_getElem? h)

theorem profit_fin {x : Holding (Ex K)} {p s : K} (hp : x.price = fin p) (hs : x.size = fin s) (q : K) :
    ∃ k : K, x.profit (fin q) = fin k := by
  obtain ⟨dir, _, _, _⟩ := x
  simp only at hp hs
  subst hp hs
  cases dir <;> simp [Holding.profit]

/-- The ledger of a run on finite prices is finite. -/
structure LedgerFin (L : Ledger (Ex K)) : Prop where
  closed : ∀ c ∈ L.closed, ∃ p s q : K, c.pos.price = fin p ∧ c.pos.size = fin s ∧ c.exitPrice = fin q
  opened : ∀ x ∈ L.opened, ∃ p s : K, x.price = fin p ∧ x.size = fin s

theorem closed_profit_fin {c : Closed (Ex K)} (h : ∃ p s q : K, c.pos.price = fin p ∧ c.pos.size = fin s ∧ c.exitPrice = fin q) :
    ∃ k : K, c.profit = fin k := by
  obtain ⟨p, s, q, h1, h2, h3⟩ := h
  rw [Closed.profit, h3]
  exact profit_fin h1 h2 q

theorem fsum_finite {l : List (Ex K)} (h : ∀ v ∈ l, ∃ k : K, v = fin k) : ∃ k : K, fsum l = fin k := by
  induction l using List.reverseRecOn with
  | nil => exact ⟨0, by simp [fsum]⟩
  | append_singleton l a ih =>
    obtain ⟨k, hk⟩ := ih fun v hv => h v (by simp [hv])
    obtain ⟨m, rfl⟩ := h a (by simp)
    exact ⟨k + m, by rw [fsum_snoc, hk, fin_add]⟩

theorem enter_fin {L : Ledger (Ex K)} (h : LedgerFin L) (hc : cfg.initialCapital = fin cap) (t : Nat) (p : K) (dir : TradeDirection) :
    LedgerFin (L.enter cfg t (fin p) dir) := by
  obtain ⟨r, hr⟩ : ∃ k : K, L.realised = fin k := by
    refine fsum_finite fun v hv => ?_
    obtain ⟨c, hc, rfl⟩ := List.mem_map.mp hv
    exact closed_profit_fin (h.closed c hc)
  refine ⟨h.closed, ?_⟩
  simp only [Ledger.enter, hr, hc]
  rintro x ⟨⟩
  refine ⟨p, ?_⟩
  cases cfg.buyWithEquity with
  | false => exact ⟨1, rfl, by simp⟩
  | true =>
    by_cases hn : (F64.le (fin cap + fin r + lit 0) (lit 0) || F64.le (fin p) (lit 0) : Bool) = true
    · exact ⟨0, rfl, by simp only [if_true]; rw [if_pos hn]; simp⟩
    · have hp : p ≠ 0 := by
        rintro rfl; simp at hn
      exact ⟨(cap + r + 0) / p, rfl, by simp only [if_true]; rw [if_neg hn]; simp [fin_div _ _ hp]⟩

theorem ledger_fin (hf : FinitePrices d) (hc : cfg.initialCapital = fin cap) (n : Nat) : LedgerFin (ledger cfg d sig n) := by
  induction n with
  | zero => exact ⟨by simp [ledger], by simp [ledger]⟩
  | succ n ih =>
    obtain ⟨p, hp⟩ := fillPrice_fin (cfg := cfg) hf n
    simp only [ledger, hp]
    generalize ledger cfg d sig n = L at ih
    unfold Ledger.tick
    split
    · exact ih
    · exact enter_fin ih hc _ _ _
    · rename_i dir x _ hx
      split
      · exact ih
      · have hflat : LedgerFin (⟨L.closed ++ [⟨x, n, fin p⟩], none⟩ : Ledger (Ex K)) := by
          refine ⟨?_, by simp⟩
          intro c hcm
          rcases List.mem_append.mp hcm with hcm | hcm
          · exact ih.closed c hcm
          · simp only [List.mem_singleton] at hcm
            subst hcm
            obtain ⟨a, b, h1, h2⟩ := ih.opened x hx
            exact ⟨a, b, p, h1, h2, rfl⟩
        simp only
        split
        · exact enter_fin hflat hc _ _ _
        · exact hflat

/-- Finite values of the fields of every trade of a run. -/
theorem trade_fin (h : Backtest cfg d sig N st) (hf : FinitePrices d) (hc : cfg.initialCapital = fin cap) {t : Nat} (ht : t < N)
    {T : Trade (Ex K)} (hT : T ∈ (st t).trades) :
    ∃ p s q : K, T.entryPrice = some (fin p) ∧ T.fillSize = some (fin s) ∧ T.pnlField = fin q := by
  rw [C39_refines h ht] at hT
  have hl := ledger_fin (sig := sig) hf hc (t + 1)
  rcases List.mem_append.mp hT with hT | hT
  · obtain ⟨c, hcm, rfl⟩ := List.mem_map.mp hT
    obtain ⟨q, hq⟩ := closed_profit_fin (hl.closed c hcm)
    obtain ⟨p, s, _, h1, h2, _⟩ := hl.closed c hcm
    exact ⟨p, s, q, by simp [Closed.toTrade, h1], by simp [Closed.toTrade, h2], by simp [Closed.toTrade, hq]⟩
  · obtain ⟨x, hx, rfl⟩ : ∃ x, (ledger cfg d sig (t + 1)).opened = some x ∧ x.toTrade = T := by
      simpa [Option.map_eq_some_iff] using hT
    obtain ⟨p, s, h1, h2⟩ := hl.opened x hx
    exact ⟨p, s, 0, by simp [Holding.toTrade, h1], by simp [Holding.toTrade, h2], by simp [Holding.toTrade]⟩

theorem stats_identities {m : StrategyMetrics (Ex K)} {l : List (Trade (Ex K))} (h : StatsOf m l)
    (hf : ∀ T ∈ l, ∃ q : K, T.pnlField = fin q) :
    ∃ net gross loss long short : K, m.netProfit = fin net ∧ m.grossProfit = fin gross ∧ m.grossLoss = fin loss ∧
      m.longNetProfit = fin long ∧ m.shortNetProfit = fin short ∧ net = gross - loss ∧ net = long + short ∧ 0 ≤ gross ∧ 0 ≤ loss := by
  obtain ⟨h1, h2, h3, h4, h5, -, -, -⟩ := h
  rw [h1, h2, h3, h4, h5]
  clear h1 h2 h3 h4 h5
  induction l using List.reverseRecOn with
  | nil => exact ⟨0, 0, 0, 0, 0, by simp [fsum]⟩
  | append_singleton l T ih =>
    obtain ⟨net, gross, loss, long, short, e1, e2, e3, e4, e5, e6, e7, e8, e9⟩ := ih fun T hT => hf T (by simp [hT])
    obtain ⟨q, hq⟩ := hf T (by simp)
    have hsplit (f : Trade (Ex K) → Bool) : (l ++ [T]).filter f = l.filter f ++ (if f T then [T] else []) := by
      rw [List.filter_append]; cases hh : f T <;> simp [hh]
    rcases lt_trichotomy q 0 with hneg | rfl | hpos
    · cases hdir : T.direction
      · refine ⟨net + q, gross, loss + |q|, long + q, short, ?_, ?_, ?_, ?_, ?_, ?_⟩ <;>
          simp_all [fsum_snoc, not_lt.mpr hneg.le, abs_of_neg hneg]
        refine ⟨by linarith, by linarith, by linarith⟩
      · refine ⟨net + q, gross, loss + |q|, long, short + q, ?_, ?_, ?_, ?_, ?_, ?_⟩ <;>
          simp_all [fsum_snoc, not_lt.mpr hneg.le, abs_of_neg hneg]
        refine ⟨by linarith, by linarith, by linarith⟩
    · refine ⟨net, gross, loss, long, short, ?_, ?_, ?_, ?_, ?_, e6, e7, e8, e9⟩ <;>
        cases hdir : T.direction <;> simp_all [fsum_snoc]
    · cases hdir : T.direction
      · refine ⟨net + q, gross + q, loss, long + q, short, ?_, ?_, ?_, ?_, ?_, ?_⟩ <;>
          simp_all [fsum_snoc, not_lt.mpr hpos.le]
        refine ⟨by linarith, by linarith, by linarith⟩
      · refine ⟨net + q, gross + q, loss, long, short + q, ?_, ?_, ?_, ?_, ?_, ?_⟩ <;>
          simp_all [fsum_snoc, not_lt.mpr hpos.le]
        refine ⟨by linarith, by linarith, by linarith⟩

/-- **C41.** In exact arithmetic, on finite prices and capital, after every tick of every run: net profit is gross profit
minus gross loss, and also long plus short net profit; gross profit and gross loss are not negative. -/
theorem C41_identities (h : Backtest cfg d sig N st) (hf : FinitePrices d) (hc : cfg.initialCapital = fin cap) {t : Nat} (ht : t < N) :
    ∃ net gross loss long short : K, (st t).metrics.netProfit = fin net ∧ (st t).metrics.grossProfit = fin gross ∧
      (st t).metrics.grossLoss = fin loss ∧ (st t).metrics.longNetProfit = fin long ∧
      (st t).metrics.shortNetProfit = fin short ∧ net = gross - loss ∧ net = long + short ∧ 0 ≤ gross ∧ 0 ≤ loss := by
  refine stats_identities (C40_statistics h ht) fun T hT => ?_
  obtain ⟨_, _, q, _, _, hq⟩ := trade_fin h hf hc ht (List.mem_of_mem_filter hT)
  exact ⟨q, hq⟩

/-- **C44.** In exact arithmetic, with `buy_with_equity`: the size is not negative; if the realised equity (initial capital
plus the profits of the trades closed up to and including the entry tick) and the price are positive, the position costs
exactly that equity, otherwise the size is 0. -/
theorem C44_exact (h : Backtest cfg d sig N st) (hf : FinitePrices d) (hc : cfg.initialCapital = fin cap)
    (hb : cfg.buyWithEquity = true) {t : Nat} (ht : t < N) {T : Trade (Ex K)} (hT : T ∈ (st t).trades) :
    ∃ e, ∃ price size realised : K, T.entryTick = some e ∧ T.entryPrice = some (fin price) ∧ T.fillSize = some (fin size) ∧
      fsum (((st t).trades.filter fun S => S.isClosed && decide (∃ x, S.exitTick = some x ∧ x ≤ e)).map (·.pnlField)) =
        fin realised ∧
      0 ≤ size ∧ size * price = (if 0 < cap + realised ∧ 0 < price then cap + realised else 0) ∧
      (¬ (0 < cap + realised ∧ 0 < price) → size = 0) := by
  obtain ⟨e, p, h1, h2, h3⟩ := (C44_size h ht hT).2 hb
  obtain ⟨price, size, _, h4, h5, _⟩ := trade_fin h hf hc ht hT
  obtain ⟨r, hr⟩ : ∃ k : K, fsum (((st t).trades.filter fun S =>
      S.isClosed && decide (∃ x, S.exitTick = some x ∧ x ≤ e)).map (·.pnlField)) = fin k := by
    refine fsum_finite fun v hv => ?_
    obtain ⟨S, hS, rfl⟩ := List.mem_map.mp hv
    obtain ⟨_, _, q, _, _, hq⟩ := trade_fin h hf hc ht (List.mem_of_mem_filter hS)
    exact ⟨q, hq⟩
  refine ⟨e, price, size, r, h1, h4, h5, hr, ?_⟩
  rw [h2] at h4
  cases h4
  simp only [hr, hc, h5] at h3
  by_cases hpos : 0 < cap + r ∧ 0 < price
  · have hcond : (F64.le (fin cap + fin r + lit 0) (lit 0) || F64.le (fin price : Ex K) (lit 0) : Bool) = false := by
      simp [hpos.1, hpos.2]
    rw [hcond] at h3
    simp only [Bool.false_eq_true, if_false, Option.some.injEq, fin_lit, fin_add] at h3
    rw [fin_div _ _ hpos.2.ne', fin_inj] at h3
    simp only [Rat.cast_zero, add_zero] at h3
    subst h3
    refine ⟨(div_pos hpos.1 hpos.2).le, ?_, fun hn => absurd hpos hn⟩
    rw [if_pos hpos, div_mul_cancel₀ _ hpos.2.ne']
  · have hcond : (F64.le (fin cap + fin r + lit 0) (lit 0) || F64.le (fin price : Ex K) (lit 0) : Bool) = true := by
      simp only [not_and_or, not_lt] at hpos
      simpa using hpos
    rw [hcond] at h3
    simp only [if_true, Option.some.injEq, fin_lit, fin_inj, Rat.cast_zero] at h3
    subst h3
    exact ⟨le_refl _, by rw [if_neg hpos, zero_mul], fun _ => rfl⟩

/-- **C45.** In exact arithmetic and for a positive size, a long trade gains exactly when the price is above the entry, a
short trade exactly when it is below; the two profits are opposite, and both are 0 exactly at the entry price. -/
theorem C45_exact (size entry price : K) (hs : 0 < size) :
    ∃ long short : K, tradePnl (fin size : Ex K) (fin entry) (fin price) true = fin long ∧
      tradePnl (fin size : Ex K) (fin entry) (fin price) false = fin short ∧
      short = -long ∧ (0 < long ↔ entry < price) ∧ (0 < short ↔ price < entry) ∧ (long = 0 ↔ price = entry) := by
  refine ⟨(price - entry) * size, -((price - entry) * size), by simp [tradePnl], by simp [tradePnl], rfl, ?_, ?_, ?_⟩
  · rw [mul_pos_iff_of_pos_right hs, sub_pos]
  · rw [← neg_mul, mul_pos_iff_of_pos_right hs, neg_sub, sub_pos]
  · rw [mul_eq_zero_iff_right hs.ne', sub_eq_zero]

end exact

/-! ## Level 1 -/
section rounded
variable {K : Type} [Field K] [LinearOrder K] [IsStrictOrderedRing K] {R : Rounding K}

theorem le0_cases {v : Fl R} (h : F64.le (Fl.of R (.fin 0)) v = true) :
    v = Fl.of R .pinf ∨ ∃ k, 0 ≤ k ∧ v = Fl.of R (.fin k) := by
  rcases NN.cases (Or.inr h : NN v) with rfl | h' | h'
  · exact absurd h (by simp [F64.le, Fl.of, Ext.le])
  · exact Or.inl h'
  · exact Or.inr h'

/-- Sums of non-negative numbers (no NaN) are non-negative (no NaN). -/
theorem fsum_nonneg (L : R.Lawful) {l : List (Fl R)} (h : ∀ v ∈ l, F64.le (Fl.of R (.fin 0)) v = true) :
    F64.le (Fl.of R (.fin 0)) (fsum l) = true := by
  induction l using List.reverseRecOn with
  | nil => show F64.le (Fl.of R (.fin 0)) (lit 0 : Fl R) = true; rw [lit_zero L]; exact decide_eq_true (le_refl (0 : K))
  | append_singleton l a ih =>
    rw [fsum_snoc]
    rcases le0_cases (ih fun v hv => h v (by simp [hv])) with h1 | ⟨x, hx, h1⟩ <;>
      rcases le0_cases (h a (by simp)) with h2 | ⟨y, hy, h2⟩ <;> rw [h1, h2]
    · rfl
    · rfl
    · rfl
    · have := L.mono 0 (x + y) (add_nonneg hx hy)
      rw [rnd_zero L] at this
      exact this

variable {cfg : StrategyConfig (Fl R)} {d : DataProvider (Fl R)} {sig : Nat → Option TradeDirection} {N : Nat}
  {st : Nat → Strategy (Fl R)}

/-- **C41.** With any lawful rounding, on any data: gross profit and gross loss are at least 0 (so never NaN). -/
theorem C41_nonneg (L : R.Lawful) (h : Backtest cfg d sig N st) {t : Nat} (ht : t < N) :
    F64.le (lit 0) (st t).metrics.grossProfit = true ∧ F64.le (lit 0) (st t).metrics.grossLoss = true := by
  have s := C40_statistics h ht
  rw [s.grossProfit, s.grossLoss, lit_zero L]
  constructor
  · refine fsum_nonneg L fun v hv => ?_
    have := (List.mem_filter.mp hv).2
    match v, this with
    | .pinf, _ => rfl
    | .fin k, this => exact decide_eq_true (of_decide_eq_true this : (0 : K) < k).le
  · refine fsum_nonneg L fun v hv => ?_
    obtain ⟨w, hw, rfl⟩ := List.mem_map.mp hv
    have := (List.mem_filter.mp hw).2
    match w, this with
    | .pinf, _ => rfl
    | .ninf, _ => rfl
    | .fin k, this => exact decide_eq_true (abs_nonneg k)

/-- **C44.** With any lawful rounding the size of a trade is NaN or at least 0. -/
theorem C44_nonneg (L : R.Lawful) (h : Backtest cfg d sig N st) {t : Nat} (ht : t < N) {T : Trade (Fl R)} (hT : T ∈ (st t).trades) :
    ∃ s, T.fillSize = some s ∧ (s = Fl.of R .nan ∨ F64.le (lit 0) s = true) := by
  cases hb : cfg.buyWithEquity with
  | false =>
    refine ⟨_, (C44_size h ht hT).1 hb, Or.inr ?_⟩
    rw [lit_zero L, lit_one L]
    exact decide_eq_true (zero_le_one : (0 : K) ≤ 1)
  | true =>
    obtain ⟨e, p, _, _, h3⟩ := (C44_size h ht hT).2 hb
    refine ⟨_, h3, ?_⟩
    rw [lit_zero L]
    split
    · exact Or.inr (decide_eq_true (le_refl (0 : K)))
    · rename_i hn
      simp only [Bool.or_eq_true, not_or] at hn
      have nn {v : Fl R} (hv : ¬ F64.le v (Fl.of R (.fin 0)) = true) : NN v := by
        match v, hv with
        | .nan, _ => exact nn_nan
        | .pinf, _ => exact nn_pinf
        | .ninf, hv => exact absurd rfl hv
        | .fin k, hv => exact nn_fin.mpr (by
            have : ¬ k ≤ 0 := fun hk => hv (decide_eq_true hk)
            exact (not_le.mp this).le)
      exact NN.div L (nn hn.1) (nn hn.2)

/-- **C45.** With any lawful rounding the profits of a long and a short trade are exact negatives of each other, for all
sizes and prices (also infinite or NaN). -/
theorem C45_antisymmetric (L : R.Lawful) (size entry price : Fl R) :
    tradePnl size entry price false = -tradePnl size entry price true := by
  unfold tradePnl
  simp only [Bool.false_eq_true, if_false, if_true]
  generalize (price - entry) * size = x
  rw [lit_one L]
  match x with
  | .nan => rfl
  | .pinf =>
    have h1 : (Fl.signInf (1 : K)) = .pinf := by simp [Fl.signInf]
    have h2 : (Fl.signInf (-1 : K)) = .ninf := by simp [Fl.signInf]
    show Fl.signInf (-1 : K) = Ext.neg (Fl.signInf (1 : K))
    rw [h1, h2]; rfl
  | .ninf =>
    have h1 : (Fl.signInf (1 : K)) = .pinf := by simp [Fl.signInf]
    have h2 : (Fl.signInf (-1 : K)) = .ninf := by simp [Fl.signInf]
    show Ext.neg (Fl.signInf (-1 : K)) = Ext.neg (Ext.neg (Fl.signInf (1 : K)))
    rw [h1, h2]; rfl
  | .fin k =>
    show R.rnd (k * -1) = Ext.neg (R.rnd (k * 1))
    rw [mul_neg, L.odd]

/-- **C45.** With any lawful rounding, for a finite size and a finite entry price the profit at the entry price is 0. -/
theorem C45_zero_at_entry (L : R.Lawful) (size entry : K) (isLong : Bool) :
    tradePnl (Fl.of R (.fin size)) (Fl.of R (.fin entry)) (Fl.of R (.fin entry)) isLong = Fl.of R (.fin 0) := by
  have h1 : Fl.of R (.fin entry) - Fl.of R (.fin entry) = Fl.of R (.fin 0) := by
    show R.rnd (entry + -entry) = .fin 0
    rw [add_neg_cancel, rnd_zero L]
  have h2 (k : K) : Fl.of R (.fin 0) * Fl.of R (.fin k) = Fl.of R (.fin 0) := by
    show R.rnd (0 * k) = .fin 0
    rw [zero_mul, rnd_zero L]
  unfold tradePnl
  simp only [h1, h2]
  cases isLong
  · simp only [Bool.false_eq_true, if_false]; rw [lit_one L]; exact h2 (-1)
  · simp only [if_true]; rw [lit_one L]; exact h2 1

/-- **C45.** With any lawful rounding, for a finite non-negative size, a long trade never shows a loss when the price is at or
above the entry, and never a gain when it is at or below (a short one conversely, by `C45_antisymmetric`). -/
theorem C45_sign (L : R.Lawful) {size entry price : K} (hs : 0 ≤ size) :
    (entry ≤ price → F64.lt (tradePnl (Fl.of R (.fin size)) (Fl.of R (.fin entry)) (Fl.of R (.fin price)) true) (lit 0) = false) ∧
    (price ≤ entry → fgt (tradePnl (Fl.of R (.fin size)) (Fl.of R (.fin entry)) (Fl.of R (.fin price)) true) (lit 0) = false) := by
  -- the profit is `NN` when the price is not below the entry
  have key : ∀ e p : K, e ≤ p → NN (tradePnl (Fl.of R (.fin size)) (Fl.of R (.fin e)) (Fl.of R (.fin p)) true) := by
    intro e p hep
    unfold tradePnl
    simp only [if_true]
    rw [lit_one L]
    refine NN.mul L (NN.mul L ?_ (nn_fin.mpr hs)) (nn_fin.mpr zero_le_one)
    exact nn_rnd L (by linarith : 0 ≤ p + -e)
  have nlt {v : Fl R} (h : NN v) : F64.lt v (Fl.of R (.fin 0)) = false := by
    rcases h.cases with rfl | rfl | ⟨k, hk, rfl⟩
    · rfl
    · rfl
    · exact decide_eq_false (not_lt.mpr hk)
  rw [lit_zero L]
  refine ⟨fun h => nlt (key _ _ h), fun h => ?_⟩
  -- swapping entry and price negates the profit
  have hsw : tradePnl (Fl.of R (.fin size)) (Fl.of R (.fin entry)) (Fl.of R (.fin price)) true =
      -tradePnl (Fl.of R (.fin size)) (Fl.of R (.fin price)) (Fl.of R (.fin entry)) true := by
    have e1 : Fl.of R (.fin price) - Fl.of R (.fin entry) = -(Fl.of R (.fin entry) - Fl.of R (.fin price)) := by
      show R.rnd (price + -entry) = Ext.neg (R.rnd (entry + -price))
      rw [← L.odd]; congr 1; ring
    have e2 (a : Fl R) (k : K) : -a * Fl.of R (.fin k) = -(a * Fl.of R (.fin k)) := by
      match a with
      | .nan => rfl
      | .pinf => rfl
      | .ninf =>
        show Fl.signInf k = Ext.neg (Ext.neg (Fl.signInf k))
        cases Fl.signInf k <;> simp [Ext.neg]
      | .fin x =>
        show R.rnd (-x * k) = Ext.neg (R.rnd (x * k))
        rw [← L.odd, neg_mul]
    unfold tradePnl
    simp only [if_true]
    rw [lit_one L, e1, e2, e2]
  rw [hsw]
  have hnn := key _ _ h
  rcases hnn.cases with h' | h' | ⟨k, hk, h'⟩ <;> rw [h']
  · rfl
  · rfl
  · show decide ((0 : K) < -k) = false
    exact decide_eq_false (by linarith)

end rounded

/-! ## A concrete run

Five bars, equity-sized, continuous, filled at the next open: short at 10, reversed to long at 12 (a loss), reversed to short
at 15 (a gain).  It meets the hypotheses of the theorems of this file and of `Verif/Props/Strategy.lean`. -/
section witness

def exBars : DataProvider (Ex ℚ) :=
  .ofSeries 5 (fun t => some (fin ([9, 10, 12, 14, 15].getD t 0))) (fun t => some (fin ([11, 13, 14, 16, 17].getD t 0)))
    (fun t => some (fin ([8, 9, 11, 13, 12].getD t 0))) (fun t => some (fin ([10, 12, 13, 15, 14].getD t 0)))
    (fun _ => some (fin 1))

def exCfg : StrategyConfig (Ex ℚ) := ⟨false, true, fin 100, true⟩

def exSig : Nat → Option TradeDirection := fun t => [some .short, some .long, some .long, some .short].getD t none

theorem exBars_finite : FinitePrices exBars := by
  intro v hv
  rcases hv with hv | hv <;>
  · simp only [exBars, DataProvider.ofSeries, hist, List.mem_map] at hv
    obtain ⟨_, _, h⟩ := hv
    exact ⟨_, (Option.some.inj h).symm⟩

theorem exRun : ∃ st, Backtest exCfg exBars exSig 5 st :=
  C57_strategy_complete exCfg exSig (bars_ofSeries 5 _ _ _ _ _)

/-- The trades of the run: two closed (a loss of 20 and a gain of 20) and one open, sized by the equity. -/
example (st : Nat → Strategy (Ex ℚ)) (h : Backtest exCfg exBars exSig 5 st) :
    (st 4).trades.map (fun T => (T.direction, T.entryTick, T.exitTick, T.pnlField)) =
      [(.short, some 1, some 2, fin (-20)), (.long, some 2, some 4, fin 20), (.short, some 4, none, fin 0)] ∧
    (st 4).trades.map (·.fillSize) = [some (fin 10), some (fin (20/3)), some (fin (20/3))] ∧
    (st 4).metrics.netProfit = fin 0 ∧ (st 4).metrics.grossLoss = fin 20 := by
  have hm := (backtest_done h 4 (by norm_num)).books.metrics
  rw [C39_refines h (by norm_num : 4 < 5), hm]
  dsimp only
  decide +kernel

end witness
end Pace
