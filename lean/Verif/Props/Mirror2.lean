import Verif.Props.Mirror
import Verif.Props.Metrics4
import Verif.Props.Content5

/-!
# Opposite strategies are a zero-sum game (C72), in exact arithmetic; concrete runs for C72 and C73
-/

namespace Pace
open Spec

section
variable {K : Type} [Field K] [LinearOrder K] [IsStrictOrderedRing K] [LawfulRoots K]

/-- The lows and highs are numbers. -/
def FiniteBars (d : DataProvider (Ex K)) : Prop := FinitePrices d ∧ ∀ v, some v ∈ d.low ∨ some v ∈ d.high → ∃ k : K, v = fin k

/-- Equity metrics of opposite strategies: reflected in the capital. -/
private def Reflected (c : K) (e e' : EquityMetrics (Ex K)) : Prop :=
  ∃ n a b p q x y : K, e.netEquity = fin n ∧ e'.netEquity = fin (2 * c - n) ∧ e.netEquityMin = fin a ∧ e'.netEquityMax = fin (2 * c - a) ∧
    e.netEquityMax = fin b ∧ e'.netEquityMin = fin (2 * c - b) ∧ e.barOpenProfitMin = fin p ∧ e'.barOpenProfitMax = fin (-p) ∧
    e.barOpenProfitMax = fin q ∧ e'.barOpenProfitMin = fin (-q) ∧ e.barEquityMin = fin x ∧ e'.barEquityMax = fin (2 * c - x) ∧
    e.barEquityMax = fin y ∧ e'.barEquityMin = fin (2 * c - y)

private theorem reflected_bar {c : K} {e e' : EquityMetrics (Ex K)} {n a b p q : K} (h1 : e.netEquity = fin n) (h2 : e'.netEquity = fin (2 * c - n))
    (h3 : e.netEquityMin = fin a) (h4 : e'.netEquityMax = fin (2 * c - a)) (h5 : e.netEquityMax = fin b)
    (h6 : e'.netEquityMin = fin (2 * c - b)) (h7 : e.barOpenProfitMin = fin p) (h8 : e'.barOpenProfitMax = fin (-p))
    (h9 : e.barOpenProfitMax = fin q) (h10 : e'.barOpenProfitMin = fin (-q)) (h11 : e.barEquityMin = e.netEquity + e.barOpenProfitMin)
    (h12 : e.barEquityMax = e.netEquity + e.barOpenProfitMax) (h13 : e'.barEquityMin = e'.netEquity + e'.barOpenProfitMin)
    (h14 : e'.barEquityMax = e'.netEquity + e'.barOpenProfitMax) : Reflected c e e' := by
  refine ⟨n, a, b, p, q, n + p, n + q, h1, h2, h3, h4, h5, h6, h7, h8, h9, h10, ?_, ?_, ?_, ?_⟩
  · rw [h11, h1, h7, fin_add]
  · rw [h14, h2, h8, fin_add]; congr 1; ring
  · rw [h12, h1, h9, fin_add]
  · rw [h13, h2, h10, fin_add]; congr 1; ring

variable {cfg : StrategyConfig (Ex K)} {d : DataProvider (Ex K)} {sig : Nat → Option TradeDirection} {N : Nat}
  {st st' : Nat → Strategy (Ex K)} {cap : K}

private theorem reflected_run (hb : FiniteBars d) (hc : cfg.initialCapital = fin cap)
    (h : Backtest cfg d sig N st) (ho : ∀ t, t < N → OppositeBooks (Valued.unsigned (Rounding.exact K)) (st t) (st' t))
    {em em' : Nat → EquityMetrics (Ex K)} (he : EquityRun d cfg.initialCapital st N em) (he' : EquityRun d cfg.initialCapital st' N em') :
    ∀ t, t ≤ N → Reflected cap (prior (EquityMetrics.new cfg.initialCapital) em t) (prior (EquityMetrics.new cfg.initialCapital) em' t) := by
  intro t
  induction t with
  | zero =>
    intro _
    refine ⟨cap, cap, cap, 0, 0, cap, cap, ?_⟩
    have e2 : 2 * cap - cap = cap := by ring
    simp [prior, EquityMetrics.new, hc, e2]
  | succ t ih =>
    intro ht
    have hlt : t < N := by omega
    obtain ⟨n, a, b, p, q, x, y, i1, i2, i3, i4, i5, i6, i7, i8, i9, i10, i11, i12, i13, i14⟩ := ih hlt.le
    have hs := em_step (selfRun_step he t hlt)
    have hs' := em_step (selfRun_step he' t hlt)
    have hO := ho t hlt
    show Reflected cap (em t) (em' t)
    have hcfg : (st t).config = cfg := (backtest_done h t hlt).books.config
    -- the net equity
    have hnet : ∃ n1 a1 b1 : K, (em t).netEquity = fin n1 ∧ (em' t).netEquity = fin (2 * cap - n1) ∧ (em t).netEquityMin = fin a1 ∧
        (em' t).netEquityMax = fin (2 * cap - a1) ∧ (em t).netEquityMax = fin b1 ∧ (em' t).netEquityMin = fin (2 * cap - b1) := by
      have hx : (st' t).events.onTradeExit.isSome = (st t).events.onTradeExit.isSome := by
        have := hO.exit
        revert this
        cases (st t).events.onTradeExit <;> cases (st' t).events.onTradeExit <;> intro hx <;> first | rfl | cases hx
      cases hxx : (st t).events.onTradeExit.isSome with
      | false =>
        obtain ⟨k1, k2, k3⟩ := hs.noExit hxx
        obtain ⟨l1, l2, l3⟩ := hs'.noExit (hx.trans hxx)
        exact ⟨n, a, b, k1.trans i1, l1.trans i2, k2.trans i3, l3.trans i4, k3.trans i5, l2.trans i6⟩
      | true =>
        obtain ⟨k1, k2, k3⟩ := hs.exit hxx
        obtain ⟨l1, l2, l3⟩ := hs'.exit (hx.trans hxx)
        obtain ⟨net, _, _, _, _, hn, _⟩ := C41_identities h hb.1 hc hlt
        have hn' : (st' t).metrics.netProfit = fin (-net) := by
          have : (st' t).metrics.netProfit = -(st t).metrics.netProfit := hO.netProfit
          rw [this, hn, fin_neg]
        have k1' : (em t).netEquity = fin (cap + net) := by rw [k1, hcfg, hc, hn, fin_add]
        have l1' : (em' t).netEquity = fin (2 * cap - (cap + net)) := by
          rw [l1, hO.config, hcfg, hc, hn', fin_add]; congr 1; ring
        refine ⟨cap + net, min a (cap + net), max b (cap + net), k1', l1', ?_, ?_, ?_, ?_⟩
        · rw [k2, k1', i3, fin_fmin]
        · rw [l3, l1', i4, fin_fmax]
          congr 1
          rcases le_total a (cap + net) with h | h
          · rw [min_eq_left h, max_eq_left (by linarith)]
          · rw [min_eq_right h, max_eq_right (by linarith)]
        · rw [k3, k1', i5, fin_fmax]
        · rw [l2, l1', i6, fin_fmin]
          congr 1
          rcases le_total b (cap + net) with h | h
          · rw [max_eq_right h, min_eq_right (by linarith)]
          · rw [max_eq_left h, min_eq_left (by linarith)]
    -- the open profit
    have hopen : ∃ p1 q1 : K, (em t).barOpenProfitMin = fin p1 ∧ (em' t).barOpenProfitMax = fin (-p1) ∧ (em t).barOpenProfitMax = fin q1 ∧
        (em' t).barOpenProfitMin = fin (-q1) := by
      have hl := Sim.forall₂_getLast? hO.trades
      cases hT : (st t).trades.getLast? with
      | none =>
        cases hT' : (st' t).trades.getLast? with
        | some _ => rw [hT, hT'] at hl; cases hl
        | none =>
          obtain ⟨k1, k2⟩ := hs.flat (by simp [hT])
          obtain ⟨l1, l2⟩ := hs'.flat (by simp [hT'])
          exact ⟨p, q, k1.trans i7, l2.trans i8, k2.trans i9, l1.trans i10⟩
      | some T =>
        cases hT' : (st' t).trades.getLast? with
        | none => rw [hT, hT'] at hl; cases hl
        | some T' =>
          rw [hT, hT'] at hl
          have hx : OppositeTrade (Valued.unsigned (Rounding.exact K)) T T' := by cases hl; assumption
          cases hcl : T.isClosed with
          | true =>
            obtain ⟨k1, k2⟩ := hs.flat (by simp [hT, hcl])
            obtain ⟨l1, l2⟩ := hs'.flat (by simp [hT', hx.isClosed, hcl])
            exact ⟨p, q, k1.trans i7, l2.trans i8, k2.trans i9, l1.trans i10⟩
          | false =>
            obtain ⟨lo, hi, mn, mx, g1, g2, g3, g4, g5, g6⟩ := hs.open_ T hT hcl
            obtain ⟨lo', hi', mn', mx', f1, f2, f3, f4, f5, f6⟩ := hs'.open_ T' hT' (hx.isClosed.trans hcl)
            rw [g1] at f1; rw [g2] at f2
            cases f1; cases f2
            obtain ⟨l, rfl⟩ := hb.2 lo (Or.inl (List.mem_of_getElem? g1))
            obtain ⟨r, rfl⟩ := hb.2 hi (Or.inr (List.mem_of_getElem? g2))
            obtain ⟨ep, fs, _, e1, e2, _⟩ := trade_fin h hb.1 hc hlt (List.mem_of_getLast? hT)
            have p1 (z : K) : T.pnl (fin z) = .ok (fin ((z - ep) * fs * (if T.direction = .long then 1 else -1))) := by
              unfold Trade.pnl tradePnl
              rw [e1, e2]
              cases T.direction <;> simp
            have p2 (z : K) : T'.pnl (fin z) = .ok (fin (-((z - ep) * fs * (if T.direction = .long then 1 else -1)))) := by
              unfold Trade.pnl tradePnl
              rw [hx.entryPrice, hx.fillSize, hx.direction, e1, e2]
              cases T.direction <;> simp [opposite]
            rw [hx.direction] at f3 f4
            cases hd : T.direction with
            | long =>
              rw [hd] at g3 g4 f3 f4
              simp only [opposite, if_true, reduceCtorEq, if_false] at g3 g4 f3 f4
              rw [p1] at g3 g4
              rw [p2] at f3 f4
              cases g3; cases g4; cases f3; cases f4
              exact ⟨_, _, g5, f6, g6, f5⟩
            | short =>
              rw [hd] at g3 g4 f3 f4
              simp only [opposite, if_true, reduceCtorEq, if_false] at g3 g4 f3 f4
              rw [p1] at g3 g4
              rw [p2] at f3 f4
              cases g3; cases g4; cases f3; cases f4
              exact ⟨_, _, g5, f6, g6, f5⟩
    obtain ⟨n1, a1, b1, k1, k2, k3, k4, k5, k6⟩ := hnet
    obtain ⟨p1, q1, l1, l2, l3, l4⟩ := hopen
    exact reflected_bar k1 k2 k3 k4 k5 k6 l1 l2 l3 l4 hs.barMin hs.barMax hs'.barMin hs'.barMax

/-- **C72, zero sum.** In exact arithmetic, on numeric bars: a strategy that trades one unit and the strategy with the opposite signals
together keep exactly their two capitals, on every tick; the maximum drawdown of one is the maximum run-up of the other. -/
theorem C72_zero_sum (hb : FiniteBars d) (hf : cfg.buyWithEquity = false) (hc : cfg.initialCapital = fin cap)
    (h : Backtest cfg d sig N st) {rfr : Ex K} {tv : Nat → TvMetrics (Ex K)} (htv : TvRun d cfg rfr st N tv) :
    ∃ st' : Nat → Strategy (Ex K), Backtest cfg d (fun t => (sig t).map opposite) N st' ∧
      (∀ t, t < N → ∃ e e' : K, (st t).metrics.equity = fin e ∧ (st' t).metrics.equity = fin e' ∧ e + e' = 2 * cap) ∧
      ∀ tv' : Nat → TvMetrics (Ex K), TvRun d cfg rfr st' N tv' → ∀ t, t < N →
        (tv' t).data.maxRunUp = (tv t).data.maxDrawdown ∧ (tv' t).data.maxDrawdown = (tv t).data.maxRunUp := by
  obtain ⟨st', hst, ho⟩ := C72_opposite_backtest (Valued.unsigned (Rounding.exact K)) exact_lawful hf h
  refine ⟨st', hst, fun t ht => ?_, fun tv' htv' t ht => ?_⟩
  · obtain ⟨net, _, _, _, _, hn, _⟩ := C41_identities h hb.1 hc ht
    obtain ⟨e, he⟩ := equity_fin h hb.1 hc ht
    obtain ⟨e', he'⟩ := equity_fin hst hb.1 hc ht
    refine ⟨e, e', he, he', ?_⟩
    have h1 := (C42_equity h ht).1
    have h2 := (C42_equity hst ht).1
    have m1 : (st' t).metrics.netProfit = -(st t).metrics.netProfit := (ho t ht).netProfit
    have m2 : (st' t).metrics.openProfit = -(st t).metrics.openProfit := (ho t ht).openProfit
    rw [m1, m2, hn, hc, he'] at h2
    rw [hn, hc, he] at h1
    revert h1 h2
    generalize (st t).metrics.openProfit = o
    intro h1 h2
    match o with
    | .fin o =>
      have h1 : Ext.fin e = Ext.fin (cap + net + o) := h1
      have h2 : Ext.fin e' = Ext.fin (cap + -net + -o) := h2
      rw [Ext.fin.injEq] at h1 h2
      rw [h1, h2]; ring
    | .nan => have h1 : Ext.fin e = Ext.nan := h1; cases h1
    | .pinf => have h1 : Ext.fin e = Ext.pinf := h1; cases h1
    | .ninf => have h1 : Ext.fin e = Ext.ninf := h1; cases h1
  · have hr := reflected_run hb hc h ho (tv_em htv) (tv_em htv')
    have hk : ∀ k, k < N →
        (tv' k).equityMetrics.barEquityMax - (tv' k).equityMetrics.netEquityMin =
          (tv k).equityMetrics.netEquityMax - (tv k).equityMetrics.barEquityMin ∧
        (tv' k).equityMetrics.netEquityMax - (tv' k).equityMetrics.barEquityMin =
          (tv k).equityMetrics.barEquityMax - (tv k).equityMetrics.netEquityMin := by
      intro k hk
      obtain ⟨n, a, b, p, q, x, y, i1, i2, i3, i4, i5, i6, i7, i8, i9, i10, i11, i12, i13, i14⟩ := hr (k + 1) hk
      simp only [prior] at i1 i2 i3 i4 i5 i6 i7 i8 i9 i10 i11 i12 i13 i14
      rw [i3, i4, i5, i6, i11, i12, i13, i14]
      refine ⟨?_, ?_⟩ <;> simp only [fin_sub] <;> congr 1 <;> ring
    obtain ⟨a1, a2, _⟩ := C48_values htv ht
    obtain ⟨b1, b2, _⟩ := C48_values htv' ht
    rw [a1, a2, b1, b2]
    constructor <;> congr 1 <;> apply List.map_congr_left <;> intro k hkm <;> have := List.mem_range.mp hkm
    · exact (hk k (by omega)).1
    · exact (hk k (by omega)).2

/-- **C73, exactly.** In exact arithmetic another capital moves the equity of every tick by the difference of the capitals. -/
theorem C73_shift (hp : FinitePrices d) (hf : cfg.buyWithEquity = false) (hc : cfg.initialCapital = fin cap) (h : Backtest cfg d sig N st)
    (cap' : K) :
    ∃ st' : Nat → Strategy (Ex K), Backtest { (cfg : StrategyConfig (Ex K)) with initialCapital := fin cap' } d sig N st' ∧
      ∀ t, t < N → (st' t).trades = (st t).trades ∧
        ∃ e : K, (st t).metrics.equity = fin e ∧ (st' t).metrics.equity = fin (e + (cap' - cap)) := by
  obtain ⟨st', hst, hs⟩ := C73_capital_backtest hf (fin cap') h
  refine ⟨st', hst, fun t ht => ⟨(hs t ht).trades, ?_⟩⟩
  obtain ⟨net, _, _, _, _, hn, _⟩ := C41_identities h hp hc ht
  obtain ⟨e, he⟩ := equity_fin h hp hc ht
  obtain ⟨e', he'⟩ := equity_fin hst hp rfl ht
  refine ⟨e, he, ?_⟩
  have h1 := (hs t ht).equity
  have h2 := congrArg StrategyMetrics.equity (hs t ht).metrics
  simp only at h2
  rw [hn, he'] at h2
  rw [hn, hc, he] at h1
  rw [he']
  revert h1 h2
  generalize (st t).metrics.openProfit = o
  intro h1 h2
  match o with
  | .fin o =>
    have h1 : Ext.fin e = Ext.fin (cap + net + o) := h1
    have h2 : Ext.fin e' = Ext.fin (cap' + net + o) := h2
    rw [Ext.fin.injEq] at h1 h2
    congr 1
    rw [h1, h2]; ring
  | .nan => have h1 : Ext.fin e = Ext.nan := h1; cases h1
  | .pinf => have h1 : Ext.fin e = Ext.pinf := h1; cases h1
  | .ninf => have h1 : Ext.fin e = Ext.ninf := h1; cases h1

end

/-! ## With equity sizing the claims are false -/

/-- **C72, only for one unit.** A strategy that buys with its equity and its opposite are not a zero-sum game: on these five bars one ends
with a net profit of 0, its opposite with a loss of 10. -/
theorem C72_not_equity_sized : ∃ (st st' : Nat → Strategy (Ex ℚ)), Backtest exCfg exBars exSig 5 st ∧
    Backtest exCfg exBars (fun t => (exSig t).map opposite) 5 st' ∧ (st 4).metrics.netProfit = fin 0 ∧ (st' 4).metrics.netProfit = fin (-10) := by
  obtain ⟨st, h⟩ := exRun
  obtain ⟨st', h'⟩ : ∃ st', Backtest exCfg exBars (fun t => (exSig t).map opposite) 5 st' :=
    C57_strategy_complete exCfg _ (bars_ofSeries 5 _ _ _ _ _)
  refine ⟨st, st', h, h', ?_, ?_⟩
  · rw [(backtest_done h 4 (by norm_num)).books.metrics]
    dsimp only
    decide +kernel
  · rw [(backtest_done h' 4 (by norm_num)).books.metrics]
    dsimp only
    decide +kernel

/-! ## Concrete runs -/

section
open Real

noncomputable def realBars : DataProvider (Ex ℝ) :=
  .ofSeries 5 (fun t => some (fin ([9, 10, 12, 14, 15].getD t 0))) (fun t => some (fin ([11, 13, 14, 16, 17].getD t 0)))
    (fun t => some (fin ([8, 9, 11, 13, 12].getD t 0))) (fun t => some (fin ([10, 12, 13, 15, 14].getD t 0)))
    (fun _ => some (fin 1))

theorem realBars_finite : FiniteBars realBars := by
  constructor <;> intro v hv <;> rcases hv with hv | hv <;>
  · simp only [realBars, DataProvider.ofSeries, hist, List.mem_map] at hv
    obtain ⟨_, _, h⟩ := hv
    exact ⟨_, (Option.some.inj h).symm⟩

/-- The hypotheses of `C72_opposite`, `C72_mirror_metrics`, `C72_zero_sum` and `C73_shift` are met by five bars with three trades. -/
theorem realBars_run : ∃ (cfg : StrategyConfig (Ex ℝ)) (st : Nat → Strategy (Ex ℝ)) (em : Nat → EquityMetrics (Ex ℝ)) (tv : Nat → TvMetrics (Ex ℝ)),
    cfg.buyWithEquity = false ∧ cfg.initialCapital = fin 100 ∧ FiniteBars realBars ∧ Backtest cfg realBars exSig 5 st ∧
    EquityRun realBars cfg.initialCapital st 5 em ∧ TvRun realBars cfg (fin 0) st 5 tv := by
  obtain ⟨st, h⟩ : ∃ st, Backtest ⟨false, true, fin 100, false⟩ realBars exSig 5 st :=
    C57_strategy_complete _ _ (bars_ofSeries 5 _ _ _ _ _)
  have hb : ∀ t, t < 5 → OpenBarsComplete realBars st t := by
    intro t ht _
    exact ⟨⟨_, (bars_ofSeries 5 _ _ _ _ _).low t ht⟩, ⟨_, (bars_ofSeries 5 _ _ _ _ _).high t ht⟩⟩
  obtain ⟨em, hem⟩ := (C57_equity_metrics h).mpr hb
  obtain ⟨tv, htv⟩ := (C57_tradingview_metrics h (fin 0)).mpr hb
  exact ⟨_, st, em, tv, rfl, rfl, realBars_finite, h, hem, htv⟩

/-- **C72 in binary64.** The code's own arithmetic: opposite signals, opposite profits, rounding included. -/
theorem C72_binary64 {cfg : StrategyConfig (Sf (Rounding.binary64 ℝ))} (hf : cfg.buyWithEquity = false)
    {d : DataProvider (Sf (Rounding.binary64 ℝ))} {sig : Nat → Option TradeDirection} {N : Nat} {st : Nat → Strategy (Sf (Rounding.binary64 ℝ))}
    (hr : Backtest cfg d sig N st) :
    (∃ st' : Nat → Strategy (Sf (Rounding.binary64 ℝ)), Backtest cfg d (fun t => (sig t).map opposite) N st' ∧
      ∀ t, t < N → OppositeBooks (Sf.valued _) (st t) (st' t)) ∧
    ∃ st' : Nat → Strategy (Sf (Rounding.binary64 ℝ)), Backtest cfg d.mirror (fun t => (sig t).map opposite) N st' ∧
      ∀ t, t < N → MirroredBooks (Sf.valued _) (st t) (st' t) :=
  ⟨C72_opposite_backtest (Sf.valued _) (binary64_lawful ℝ) hf hr, C72_mirror_backtest (Sf.valued _) (binary64_lawful ℝ) hf hr⟩

end
end Pace
