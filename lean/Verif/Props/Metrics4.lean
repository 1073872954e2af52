import Verif.Props.Metrics3
import Verif.Props.Strategy2

/-!
# Metrics of a backtest, exact arithmetic: C47 (bracket), C50 (statistics), C60, C61
-/

set_option linter.unusedSectionVars false

namespace Pace
open Spec

section exact
variable {K : Type} [Field K] [LinearOrder K] [IsStrictOrderedRing K] [RootOps K]

/-! ## Statistics components fed a list -/

theorem feed_map_hist (l : List K) (r : K) :
    hist (fun i => (fin ((l ++ [r]).getD i 0) : Ex K)) l.length = l.map fin ∧ (fin ((l ++ [r]).getD l.length 0) : Ex K) = fin r ∧
    hist (fun i => (l ++ [r]).getD i 0) (l.length + 1) = l ++ [r] := by
  obtain ⟨h1, h2⟩ := hist_getD l r (0 : K)
  refine ⟨?_, by simp, h2⟩
  conv_rhs => rw [← h1]
  simp [hist]

/-- The mean of everything fed so far. -/
theorem mean_feed (l : List K) (r : K) :
    (Mean.next (feed Mean.next (Mean.new : Mean (Ex K)) (l.map fin)) (fin r)).1 = fin (mean (l ++ [r])) := by
  obtain ⟨h1, h2, h3⟩ := feed_map_hist l r
  have := feed_out (C13_mean (fun i => (l ++ [r]).getD i 0) (l.length + 1))
  rw [h1, h2, h3] at this
  rw [this, mean]; simp

theorem stdev_feed_var (s : StatStdev (Ex K)) (l : List (Ex K)) : feed StatStdev.next s l = ⟨feed Var.next s.variance l⟩ := by
  induction l using List.reverseRecOn with
  | nil => rfl
  | append_singleton l a ih => rw [feed_snoc, feed_snoc, ih]; rfl

theorem variance_nonneg (est : Bool) (l : List K) : 0 ≤ variance est l := by
  unfold variance
  cases est
  · exact popVar_nonneg l
  · simp only [if_true]
    split
    · exact le_refl _
    · rename_i h
      refine div_nonneg (sqDev_nonneg l) ?_
      have : (1 : K) ≤ l.length := by exact_mod_cast (by omega : 1 ≤ l.length)
      linarith

/-- The standard deviation of everything fed so far. -/
theorem stdev_feed (est : Bool) (l : List K) (r : K) :
    (StatStdev.next (feed StatStdev.next (StatStdev.build est : StatStdev (Ex K)) (l.map fin)) (fin r)).1 =
      fin (RootOps.sqrt (variance est (l ++ [r]))) := by
  obtain ⟨h1, h2, h3⟩ := feed_map_hist l r
  rw [stdev_feed_var]
  show Stats.stdevFromVar (Var.next (feed Var.next (Var.build est) (l.map fin)) (fin r)).1 = _
  have key : (Var.next (feed Var.next (Var.build est : Var (Ex K)) (l.map fin)) (fin r)).1 = fin (variance est (l ++ [r])) := by
    cases est
    · have := feed_out (C14_var (fun i => (l ++ [r]).getD i 0) (l.length + 1))
      rw [h1, h2, h3] at this
      rw [this]; rfl
    · have := feed_out (C16_fast_is_sample_variance (fun i => (l ++ [r]).getD i 0) (l.length + 1))
      rw [h1, h2, h3] at this
      rw [this]; simp [variance, Nat.le_one_iff_eq_zero_or_eq_one]
  rw [key, Stats.stdevFromVar, fin_sqrt _ (variance_nonneg est _)]

/-! ## C50 -/

theorem returns_inv (initial : Ex K) (est : Bool) (v : Nat → Ex K) (N : Nat) {r : Nat → Returns (Ex K)}
    (h : ∀ t, t < N → r t = (prior (Returns.build initial est) r t).next (v t)) (t : Nat) (ht : t ≤ N) :
    (prior (Returns.build initial est) r t).prevValue = initial ∧
    (prior (Returns.build initial est) r t).mean = feed Mean.next Mean.new (hist (fun k => v k - initial) t) ∧
    (prior (Returns.build initial est) r t).stdev = feed StatStdev.next (StatStdev.build est) (hist (fun k => v k - initial) t) := by
  induction t with
  | zero => exact ⟨rfl, rfl, rfl⟩
  | succ t ih =>
    obtain ⟨h1, h2, h3⟩ := ih (by omega)
    rw [show prior (Returns.build initial est) r (t + 1) = r t from rfl, h t (by omega), hist_succ', feed_snoc, feed_snoc, ← h2, ← h3]
    refine ⟨h1, ?_, ?_⟩ <;> simp only [Returns.next, h1]

theorem returns_stats (initial : K) (est : Bool) (v : Nat → K) {N : Nat} {w : Nat → Ex K} {r : Nat → Returns (Ex K)}
    (hw : ∀ t, t < N → w t = fin (v t))
    (h : ∀ t, t < N → r t = (prior (Returns.build (fin initial) est) r t).next (w t)) {t : Nat} (ht : t < N) :
    (r t).delta = fin (v t - initial) ∧
    (r t).meanV = fin (mean ((List.range (t + 1)).map fun k => v k - initial)) ∧
    (r t).stdevV = fin (RootOps.sqrt (variance est ((List.range (t + 1)).map fun k => v k - initial))) := by
  obtain ⟨h1, h2, h3⟩ := returns_inv (fin initial) est w N h t ht.le
  have hh : hist (fun k => w k - fin initial) t = (hist (fun k => v k - initial) t).map fin := by
    unfold hist
    rw [List.map_map]
    refine List.map_congr_left fun k hk => ?_
    rw [hw k (by have := List.mem_range.mp hk; omega)]; simp
  have hl : (List.range (t + 1)).map (fun k => v k - initial) = hist (fun k => v k - initial) t ++ [v t - initial] := hist_succ' _ _
  have hd : w t - fin initial = fin (v t - initial) := by rw [hw t ht]; simp
  rw [h t ht, hl, ← mean_feed, ← stdev_feed]
  simp only [Returns.next, h1, h2, h3, hh, hd]
  exact ⟨trivial, trivial, trivial⟩

/-- **C50.** In exact arithmetic, for every history of finite values: the reported change is the distance to the initial
value, and the reported mean and standard deviation are those of all these distances so far (population variance; sample
variance in the fast mode). -/
theorem C50_stats (initial : K) (fast : Bool) (v : Nat → K) (N : Nat) {r : Nat → Returns (Ex K)}
    (h : Runs (total fun s x => (Returns.next s x, Returns.next s x)) (.ok (Returns.build (fin initial) fast)) (fun t => fin (v t)) N r)
    {t : Nat} (ht : t < N) :
    (r t).delta = fin (v t - initial) ∧
    (r t).meanV = fin (mean ((List.range (t + 1)).map fun k => v k - initial)) ∧
    (r t).stdevV = fin (RootOps.sqrt (variance fast ((List.range (t + 1)).map fun k => v k - initial))) := by
  have h' : Runs (fun t s i => do let s ← (fun _ s x => (.ok (Returns.next s x) : Res _)) t s i; return (s, s))
      (.ok (Returns.build (fin initial) fast)) (fun t => fin (v t)) N r := h
  refine returns_stats initial fast v (w := fun t => fin (v t)) (fun _ _ => rfl) (fun t ht => ?_) ht
  exact (Except.ok.inj (selfRun_step h' t ht)).symm

/-! ## Finite equity -/

variable {cfg : StrategyConfig (Ex K)} {d : DataProvider (Ex K)} {sig : Nat → Option TradeDirection} {N : Nat}
  {st : Nat → Strategy (Ex K)} {cap : K}

theorem equity_fin (h : Backtest cfg d sig N st) (hf : FinitePrices d) (hc : cfg.initialCapital = fin cap) {t : Nat} (ht : t < N) :
    ∃ e : K, (st t).metrics.equity = fin e := by
  obtain ⟨h1, h2, h3⟩ := C42_equity h ht
  obtain ⟨net, _, _, _, _, hn, _⟩ := C41_identities h hf hc ht
  obtain ⟨o, ho⟩ : ∃ o : K, (st t).metrics.openProfit = fin o := by
    by_cases hall : ∀ T ∈ (st t).trades, T.isClosed = true
    · exact ⟨_, (h2 hall).trans (fin_lit 0)⟩
    · push Not at hall
      obtain ⟨T, hT, hTc⟩ := hall
      obtain ⟨c, e, s, hcl, he, hs, hp⟩ := h3 T hT (by simpa using hTc)
      obtain ⟨p, s', _, h4, h5, _⟩ := trade_fin h hf hc ht hT
      obtain ⟨c', rfl⟩ := hf c (Or.inr (List.mem_of_getElem? hcl))
      rw [h4] at he; rw [h5] at hs
      cases he; cases hs
      rw [hp]
      cases T.direction <;> simp
  exact ⟨cap + net + o, by rw [h1, hn, ho, hc]; simp⟩

theorem netEquity_fin (h : Backtest cfg d sig N st) (hf : FinitePrices d) (hc : cfg.initialCapital = fin cap) {t : Nat} (ht : t < N) :
    ∃ e : K, Spec.netEquity cfg (st t) = fin e := by
  unfold Spec.netEquity
  split
  · exact ⟨cap, hc⟩
  · obtain ⟨net, _, _, _, _, hn, _⟩ := C41_identities h hf hc ht
    exact ⟨cap + net, by rw [hn, hc]; simp⟩

/-- **C46, C47 (exact).** In exact arithmetic the net equity is the capital plus the net profit, and the equity is the net
equity plus the open profit. -/
theorem C46_net_equity_exact (h : Backtest cfg d sig N st) {em : Nat → EquityMetrics (Ex K)}
    (he : EquityRun d cfg.initialCapital st N em) (hc : cfg.initialCapital = fin cap) {t : Nat} (ht : t < N) :
    (em t).netEquity = cfg.initialCapital + (st t).metrics.netProfit ∧
    (em t).equity = (em t).netEquity + (st t).metrics.openProfit := by
  have hne : (em t).netEquity = cfg.initialCapital + (st t).metrics.netProfit := by
    have := (em_facts h he (t + 1) ht).netEquity
    simp only [prior] at this
    rw [this, Spec.netEquity]
    split
    · rename_i h0
      have hs := C40_statistics h ht
      have : (st t).metrics.netProfit = fin 0 := by
        rw [hs.netProfit]
        have hl : ((st t).trades.filter (·.isClosed)).length = 0 := by rw [← hs.closedTrades, h0]
        rw [List.length_eq_zero_iff.mp hl]; simp [fsum]
      rw [this, hc]; simp
    · rfl
  refine ⟨hne, ?_⟩
  rw [hne, ← (C42_equity h ht).1]
  exact (C46_values h he ht).1

/-- **C47.** In exact arithmetic, on finite prices: if a trade of non-negative size is open and the bar has
`low <= close <= high`, the bar equities bracket the equity. (Sizes are non-negative by C44.) -/
theorem C47_bracket (h : Backtest cfg d sig N st) {em : Nat → EquityMetrics (Ex K)}
    (he : EquityRun d cfg.initialCapital st N em) (hf : FinitePrices d) (hc : cfg.initialCapital = fin cap) {t : Nat} (ht : t < N)
    {T : Trade (Ex K)} (hT : T ∈ (st t).trades) (ho : T.isClosed = false)
    {lo cl hi : K} (hlo : d.low[t]? = some (some (fin lo))) (hcl : d.close[t]? = some (some (fin cl)))
    (hhi : d.high[t]? = some (some (fin hi))) (hb : lo ≤ cl ∧ cl ≤ hi) :
    ∃ mn e mx : K, (em t).barEquityMin = fin mn ∧ (em t).equity = fin e ∧ (em t).barEquityMax = fin mx ∧ mn ≤ e ∧ e ≤ mx := by
  obtain ⟨low, high, entry, size, h1, h2, h3, h4, h5, h6, h7, h8⟩ := C47_open h he ht hT ho
  rw [hlo] at h1; rw [hhi] at h2
  cases h1; cases h2
  obtain ⟨p, s, _, h9, h10, _⟩ := trade_fin h hf hc ht hT
  rw [h9] at h3; rw [h10] at h4
  cases h3; cases h4
  have hs : 0 ≤ s := by
    cases hbw : cfg.buyWithEquity with
    | false =>
      have := (C44_size h ht hT).1 hbw
      rw [h10] at this
      simp only [Option.some.injEq, fin_lit, fin_inj] at this
      rw [this]; simp
    | true =>
      obtain ⟨_, _, s', _, _, _, hs', _, hs0, _⟩ := C44_exact h hf hc hbw ht hT
      rw [h10] at hs'
      cases hs'
      exact hs0
  obtain ⟨e, hne⟩ := netEquity_fin h hf hc ht
  have hne' : (em t).netEquity = fin e := by
    rw [← hne]; exact (em_facts h he (t + 1) ht).netEquity
  obtain ⟨_, heq⟩ := C46_net_equity_exact h he hc ht
  obtain ⟨c, en, sz, g1, g2, g3, g4⟩ := (C42_equity h ht).2.2 T hT ho
  rw [hcl] at g1; rw [h9] at g2; rw [h10] at g3
  cases g1; cases g2; cases g3
  rw [h7, h8, heq, hne', h5, h6, g4]
  cases T.direction with
  | long =>
    refine ⟨e + (lo - p) * s, e + (cl - p) * s, e + (hi - p) * s, by simp, by simp, by simp, ?_, ?_⟩
    · have := mul_le_mul_of_nonneg_right (sub_le_sub_right hb.1 p) hs; linarith
    · have := mul_le_mul_of_nonneg_right (sub_le_sub_right hb.2 p) hs; linarith
  | short =>
    refine ⟨e - (hi - p) * s, e - (cl - p) * s, e - (lo - p) * s, by simp [sub_eq_add_neg], by simp [sub_eq_add_neg],
      by simp [sub_eq_add_neg], ?_, ?_⟩
    · have := mul_le_mul_of_nonneg_right (sub_le_sub_right hb.2 p) hs; linarith
    · have := mul_le_mul_of_nonneg_right (sub_le_sub_right hb.1 p) hs; linarith

/-! ## C60 -/

theorem abs_fmin_zero (x : K) : F64.abs (F64.fmin (lit 0) (fin x : Ex K)) = fin (max 0 (-x)) := by
  rw [fin_lit, fin_fmin, fin_abs, fin_inj, Rat.cast_zero]
  rcases le_total 0 x with h | h
  · rw [min_eq_left h, abs_zero, max_eq_left (by linarith)]
  · rw [min_eq_right h, abs_of_nonpos h, max_eq_right (by linarith)]

theorem sharpe_fin (a b r : K) : Metrics.sharpeRatio (fin a : Ex K) (fin b) (fin r) = fin (ratio (a - r) b) := by
  unfold Metrics.sharpeRatio ratio
  by_cases h : b = 0
  · simp [h]
  · rw [if_neg (by simpa using h), if_neg h, fin_sub, fin_div _ _ h]

theorem sortino_fin (a b r : K) : Metrics.sortinoRatio (fin a : Ex K) (fin b) (fin r) = fin (ratio (a - r) b) := sharpe_fin a b r
theorem omega_fin (a b r : K) : Metrics.omegaRatio (fin a : Ex K) (fin b) (fin r) = fin (ratio (a - r) b) := sharpe_fin a b r

/-- **C60.** In exact arithmetic, on finite prices and capital, after every tick: with `δ k` = net equity of tick `k` minus the
initial capital (not minus the net equity of the tick before), the Sharpe ratio is (mean of all `δ` so far − risk-free rate)
over their population standard deviation, and the Sortino ratio the same over the population standard deviation of
`max(0, −δ)`; 0 if the denominator is 0. -/
theorem C60_tradingview_ratios (hb : Backtest cfg d sig N st) {r : K} {tv : Nat → TvMetrics (Ex K)}
    (h : TvRun d cfg (fin r) st N tv) (hf : FinitePrices d) (hc : cfg.initialCapital = fin cap) :
    ∃ δ : Nat → K, (∀ k, k < N → (tv k).equityMetrics.netEquity = fin (cap + δ k)) ∧ ∀ t, t < N →
      (tv t).data.sharpeRatio = fin (ratio (mean ((List.range (t + 1)).map δ) - r)
        (RootOps.sqrt (popVar ((List.range (t + 1)).map δ)))) ∧
      (tv t).data.sortinoRatio = fin (ratio (mean ((List.range (t + 1)).map δ) - r)
        (RootOps.sqrt (popVar ((List.range (t + 1)).map fun k => max 0 (-δ k))))) := by
  have hne : ∀ k, ∃ e : K, k < N → (tv k).equityMetrics.netEquity = fin e := by
    intro k
    by_cases hk : k < N
    · obtain ⟨e, he⟩ := netEquity_fin hb hf hc hk
      exact ⟨e, fun _ => by rw [← he]; exact (em_facts hb (tv_em h) (k + 1) hk).netEquity⟩
    · exact ⟨0, fun hh => absurd hh hk⟩
  choose e he using hne
  refine ⟨fun k => e k - cap, fun k hk => by rw [he k hk]; congr 1; ring, ?_⟩
  have hstep : ∀ t, t < N → TvStep d t (st t) (prior (TvMetrics.new (Strategy.new cfg) (fin r)) tv t) (tv t) :=
    fun t ht => tv_step (selfRun_step h t ht)
  have hret : ∀ t, t < N → (tv t).returns =
      (prior (Returns.build (fin cap) false) (fun k => (tv k).returns) t).next ((tv t).equityMetrics.netEquity) := by
    intro t ht
    rw [(hstep t ht).returns]
    cases t with
    | zero => simp only [prior, TvMetrics.new]; rw [show (Strategy.new cfg).config.initialCapital = fin cap from hc]
    | succ t => rfl
  have hinv : ∀ t, t ≤ N → (prior (TvMetrics.new (Strategy.new cfg) (fin r)) tv t).riskFreeRate = fin r ∧
      (prior (TvMetrics.new (Strategy.new cfg) (fin r)) tv t).negReturnsStdev =
        feed StatStdev.next (StatStdev.build false) ((hist (fun k => max 0 (-(e k - cap))) t).map fin) := by
    intro t
    induction t with
    | zero => intro _; exact ⟨rfl, rfl⟩
    | succ t ih =>
      intro ht
      obtain ⟨i1, i2⟩ := ih (by omega)
      have s := hstep t (by omega)
      obtain ⟨r1, _, _⟩ := returns_stats cap false e (fun k hk => he k hk) hret (show t < N by omega)
      refine ⟨by rw [show prior _ tv (t + 1) = tv t from rfl, s.rfr, i1], ?_⟩
      rw [show prior _ tv (t + 1) = tv t from rfl, ← s.neg, i2, r1, abs_fmin_zero, hist_succ', List.map_append, List.map_singleton,
        feed_snoc]
  intro t ht
  obtain ⟨r1, r2, r3⟩ := returns_stats cap false e (fun k hk => he k hk) hret ht
  obtain ⟨i1, i2⟩ := hinv t ht.le
  have s := hstep t ht
  constructor
  · rw [s.sharpe, r2, r3, i1, sharpe_fin]; rfl
  · rw [s.sortino, r2, i1, i2, r1, abs_fmin_zero, stdev_feed, sortino_fin, ← hist_succ']; rfl

/-! ## C61 -/

theorem returns_fin (c p : K) : Metrics.returns (fin c : Ex K) (fin p) = fin (relChange c p) := C58_returns c p

/-- The ticks up to and including `t` that count for the return statistics. -/
def countedTicks (sy : Option Int) (year : Nat → Option Int) (t : Nat) : List Nat :=
  (List.range (t + 1)).filter fun k => counted sy (year k)

/-- **C61.** In exact arithmetic, on finite prices and capital, after every tick: with `ρ k` = relative change of the equity
from tick `k-1` (the capital, for `k = 0`) to tick `k`, over the ticks so far that count (all, or those from the start year
on), Omega is Σ max(0, ρ) / Σ max(0, −ρ), Sharpe is mean / standard deviation of the `ρ`, Sortino is mean / standard deviation
of max(0, −ρ), each 0 for a zero denominator and multiplied by √365; before the first tick that counts they are 0. -/
theorem C61_cobra_ratios (hb : Backtest cfg d sig N st) {est : Bool} {sy : Option Int} {year : Nat → Option Int}
    {co : Nat → CobraMetrics (Ex K)} (h : CobraRun d cfg est sy year st N co) (hf : FinitePrices d) (hc : cfg.initialCapital = fin cap) :
    ∃ e : Nat → K, (∀ k, k < N → (st k).metrics.equity = fin (e k)) ∧ ∀ t, t < N →
      ∀ ρ : List K, ρ = (countedTicks sy year t).map (fun k => relChange (e k) (if k = 0 then cap else e (k - 1))) →
      (co t).data.omega = fin (ratio (ρ.map (max 0)).sum (ρ.map fun x => max 0 (-x)).sum * RootOps.sqrt 365) ∧
      (co t).data.sharpe = fin (ratio (mean ρ) (RootOps.sqrt (variance est ρ)) * RootOps.sqrt 365) ∧
      (co t).data.sortino =
        fin (ratio (mean ρ) (RootOps.sqrt (variance est (ρ.map fun x => max 0 (-x)))) * RootOps.sqrt 365) := by
  have hne : ∀ k, ∃ e : K, k < N → (st k).metrics.equity = fin e := by
    intro k
    by_cases hk : k < N
    · obtain ⟨e, he⟩ := equity_fin hb hf hc hk
      exact ⟨e, fun _ => he⟩
    · exact ⟨0, fun hh => absurd hh hk⟩
  choose e he using hne
  refine ⟨e, he, ?_⟩
  set ρ : Nat → K := fun k => relChange (e k) (if k = 0 then cap else e (k - 1)) with hρ
  set c0 := CobraMetrics.new (Strategy.new cfg) est sy with hc0
  have hstep : ∀ t, t < N → CobraStep d t (year t) (st t) (prior c0 co t) (co t) := fun t ht => cobraRun_step h ht
  set L : Nat → List K := fun t => (((List.range t).filter fun k => counted sy (year k)).map ρ) with hL
  -- what the component holds after the ticks before `t`
  have hinv : ∀ t, t ≤ N →
      (prior c0 co t).returnsStartYear = sy ∧ (prior c0 co t).riskFreeRate = fin 0 ∧
      (prior c0 co t).annualized = fin (RootOps.sqrt 365) ∧
      (prior c0 co t).prevEquity = fin (if t = 0 then cap else e (t - 1)) ∧
      (prior c0 co t).returnsMean = feed Mean.next Mean.new ((L t).map fin) ∧
      (prior c0 co t).returnsStdev = feed StatStdev.next (StatStdev.build est) ((L t).map fin) ∧
      (prior c0 co t).negativeReturnsStdev =
        feed StatStdev.next (StatStdev.build est) (((L t).map fun x => max 0 (-x)).map fin) ∧
      (prior c0 co t).positiveReturnsSum = fin ((L t).map (max 0)).sum ∧
      (prior c0 co t).negativeReturnsSum = fin ((L t).map fun x => max 0 (-x)).sum ∧
      (prior c0 co t).data.omega =
        fin (ratio ((L t).map (max 0)).sum ((L t).map fun x => max 0 (-x)).sum * RootOps.sqrt 365) ∧
      (prior c0 co t).data.sharpe = fin (ratio (mean (L t)) (RootOps.sqrt (variance est (L t))) * RootOps.sqrt 365) ∧
      (prior c0 co t).data.sortino = fin (ratio (mean (L t))
        (RootOps.sqrt (variance est ((L t).map fun x => max 0 (-x)))) * RootOps.sqrt 365) := by
    intro t
    induction t with
    | zero =>
      intro _
      have hs : F64.sqrt (lit 365 : Ex K) = fin (RootOps.sqrt 365) := by
        rw [fin_lit, show ((365 : ℚ) : K) = 365 by norm_num, fin_sqrt _ (by norm_num)]
      refine ⟨rfl, by simp [prior, hc0, CobraMetrics.new], hs, ?_, rfl, rfl, rfl, ?_, ?_, ?_, ?_, ?_⟩
      · show cfg.initialCapital = _
        rw [hc]; simp
      all_goals simp [prior, hc0, CobraMetrics.new, hL, CobraData.default, ratio, mean]
    | succ t ih =>
      intro ht
      obtain ⟨i1, i2, i3, i4, i5, i6, i7, i8, i9, i10, i11, i12⟩ := ih (by omega)
      have s := hstep t (by omega)
      have hp : prior c0 co (t + 1) = co t := rfl
      have heq : (co t).equityMetrics.equity = fin (e t) := by rw [(em_step s.em).equity, he t (by omega)]
      rw [hp]
      refine ⟨by rw [s.startYear, i1], by rw [s.rfr, i2], by rw [s.annualized, i3], by rw [s.prevEquity, heq]; simp, ?_⟩
      cases hct : counted sy (year t) with
      | false =>
        have hLt : L (t + 1) = L t := by simp [hL, List.range_succ, List.filter_append, hct]
        obtain ⟨j1, j2, j3, j4, j5, j6, j7, j8⟩ := s.notCounted (by rw [i1, hct])
        rw [hLt, j1, j2, j3, j4, j5, j6, j7, j8]
        exact ⟨i5, i6, i7, i8, i9, i10, i11, i12⟩
      | true =>
        have hLt : L (t + 1) = L t ++ [ρ t] := by simp [hL, List.range_succ, List.filter_append, hct]
        have hr : Metrics.returns (co t).equityMetrics.equity (prior c0 co t).prevEquity = fin (ρ t) := by
          rw [heq, i4, returns_fin]
        obtain ⟨j1, j2, j3, j4, j5, j6, j7, j8⟩ := s.counted (fin (ρ t)) (by rw [i1, hct]) hr.symm
        have p4 : (co t).positiveReturnsSum = fin ((L (t + 1)).map (max 0)).sum := by
          rw [j4, i8, hLt]; simp
        have p5 : (co t).negativeReturnsSum = fin ((L (t + 1)).map fun x => max 0 (-x)).sum := by
          rw [j5, i9, abs_fmin_zero, hLt]; simp
        refine ⟨?_, ?_, ?_, p4, p5, ?_, ?_, ?_⟩
        · rw [j1, i5, hLt, List.map_append, List.map_singleton, feed_snoc]
        · rw [j2, i6, hLt, List.map_append, List.map_singleton, feed_snoc]
        · rw [j3, i7, abs_fmin_zero, hLt, List.map_append, List.map_append, List.map_singleton, List.map_singleton, feed_snoc]
        · rw [j6, p4, p5, i2, i3, omega_fin, sub_zero, fin_mul]
        · rw [j7, i5, i6, i2, i3, mean_feed, stdev_feed, sharpe_fin, sub_zero, fin_mul, hLt]
        · rw [j8, i5, i7, i2, i3, mean_feed, abs_fmin_zero, stdev_feed, sortino_fin, sub_zero, fin_mul, hLt]
          simp
  intro t ht r hr
  have := hinv (t + 1) ht
  subst hr
  exact ⟨this.2.2.2.2.2.2.2.2.2.1, this.2.2.2.2.2.2.2.2.2.2.1, this.2.2.2.2.2.2.2.2.2.2.2⟩

end exact

/-! ## Concrete runs -/
section witness

/-- The run of `Verif/Props/Strategy2.lean` meets the hypotheses of the theorems on metrics. -/
theorem exRun_metrics : ∃ st em tv co, Backtest exCfg exBars exSig 5 st ∧ EquityRun exBars exCfg.initialCapital st 5 em ∧
    TvRun exBars exCfg (fin 0) st 5 tv ∧ CobraRun exBars exCfg false none (fun _ => none) st 5 co := by
  obtain ⟨st, h⟩ := exRun
  have hb : ∀ t, t < 5 → OpenBarsComplete exBars st t := by
    intro t ht _
    exact ⟨⟨_, (bars_ofSeries 5 _ _ _ _ _).low t ht⟩, ⟨_, (bars_ofSeries 5 _ _ _ _ _).high t ht⟩⟩
  obtain ⟨em, hem⟩ := (C57_equity_metrics h).mpr hb
  obtain ⟨tv, htv⟩ := (C57_tradingview_metrics h (fin 0)).mpr hb
  obtain ⟨co, hco⟩ := (C57_cobra_metrics h false none (fun _ => none)).mpr fun t ht => ⟨hb t ht, by simp⟩
  exact ⟨st, em, tv, co, h, hem, htv, hco⟩

def exCfg2 : StrategyConfig (Ex ℚ) := ⟨true, false, fin 100, false⟩
def exSig2 : Nat → Option TradeDirection := fun t => [some .long, none, some .short].getD t none

/-- **C47, the values really are stale.** A run without reversal (long at 10, closed at 13 on tick 2): after tick 2 no trade is
open, the net equity is 103, but the bar equities are 102 and 106, i.e. 103 plus the open profits -1 and 3 of the bar
before. -/
theorem C47_stale_when_flat : ∃ st em, Backtest exCfg2 exBars exSig2 5 st ∧ EquityRun exBars exCfg2.initialCapital st 5 em ∧
    (∀ T ∈ (st 2).trades, T.isClosed = true) ∧ (st 2).trades ≠ [] ∧ (em 2).netEquity = fin 103 ∧ (em 2).equity = fin 103 ∧
    (em 2).barEquityMin = fin 102 ∧ (em 2).barEquityMax = fin 106 := by
  obtain ⟨st, h⟩ : ∃ st, Backtest exCfg2 exBars exSig2 5 st := C57_strategy_complete exCfg2 exSig2 (bars_ofSeries 5 _ _ _ _ _)
  have hb : ∀ t, t < 5 → OpenBarsComplete exBars st t := by
    intro t ht _
    exact ⟨⟨_, (bars_ofSeries 5 _ _ _ _ _).low t ht⟩, ⟨_, (bars_ofSeries 5 _ _ _ _ _).high t ht⟩⟩
  obtain ⟨em, hem⟩ := (C57_equity_metrics h).mpr hb
  have t1 : (st 1).trades = [⟨.long, false, some 0, some (fin 10), none, none, some (fin 1), fin 0⟩] := by
    rw [C39_refines h (by norm_num : 1 < 5)]; decide +kernel
  have t2 : (st 2).trades = [⟨.long, true, some 0, some (fin 10), some 2, some (fin 13), some (fin 1), fin 3⟩] := by
    rw [C39_refines h (by norm_num : 2 < 5)]; decide +kernel
  have hflat : ∀ T ∈ (st 2).trades, T.isClosed = true := by rw [t2]; simp
  obtain ⟨n1, n2⟩ := C46_net_equity_exact (cap := 100) h hem rfl (by norm_num : 2 < 5)
  have hnp : (st 2).metrics.netProfit = fin 3 := by
    rw [(C40_statistics h (by norm_num : 2 < 5)).netProfit, t2]; decide +kernel
  rw [hnp] at n1
  have n1' : (em 2).netEquity = fin 103 := by rw [n1]; decide +kernel
  rw [n1', (C42_equity h (by norm_num : 2 < 5)).2.1 hflat] at n2
  obtain ⟨f1, f2, f3, f4⟩ := C47_flat h hem (by norm_num : 2 < 5) hflat
  obtain ⟨lo, hi, en, sz, g1, g2, g3, g4, g5, g6, _⟩ := C47_open h hem (by norm_num : 1 < 5)
    (T := ⟨.long, false, some 0, some (fin 10), none, none, some (fin 1), fin 0⟩) (by rw [t1]; simp) rfl
  have g1' : some (some lo) = some (some (fin 9 : Ex ℚ)) := by rw [← g1]; decide +kernel
  have g2' : some (some hi) = some (some (fin 13 : Ex ℚ)) := by rw [← g2]; decide +kernel
  cases g1'; cases g2'; cases g3; cases g4
  refine ⟨st, em, h, hem, hflat, by rw [t2]; simp, n1', ?_, ?_, ?_⟩
  · rw [n2]; decide +kernel
  · rw [f3, n1', f1]; simp only [OfNat.ofNat_ne_zero, if_false]
    rw [show 2 - 1 = 1 from rfl, g5]; decide +kernel
  · rw [f4, n1', f2]; simp only [OfNat.ofNat_ne_zero, if_false]
    rw [show 2 - 1 = 1 from rfl, g6]; decide +kernel

end witness
end Pace
