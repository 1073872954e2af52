import Verif.Props.AccuracyFast
import Verif.Props.Flat

/-!
# C110: what the reports say of a strategy before its first signal, in floats
-/

set_option linter.unusedSectionVars false

namespace Pace
open Spec
variable {K : Type} [Field K] [LinearOrder K] [IsStrictOrderedRing K] [LawfulRoots K] {R : Rounding K}
variable {α : Type} [F64 α]
variable {cfg : StrategyConfig α} {d : DataProvider α} {sig : Nat → Option TradeDirection} {N : Nat} {st : Nat → Strategy α}

/-- A run is a run of its first ticks. -/
theorem Runs.take {S I O : Type} {step : Nat → S → I → Res (O × S)} {s0 : Res S} {x : Nat → I} {n : Nat} {y : Nat → O} (h : Runs step s0 x N y) (hn : n ≤ N) : Runs step s0 x n y := by
  obtain ⟨s, h0, hs⟩ := h.trace
  exact Runs.of_trace s h0 fun t ht => hs t (by omega)

private theorem min_same (k : K) : F64.fmin (Fl.of R (.fin k)) (Fl.of R (.fin k)) = Fl.of R (.fin k) := by
  show (if _ then _ else _) = _
  exact ite_self _

private theorem max_same (k : K) : F64.fmax (Fl.of R (.fin k)) (Fl.of R (.fin k)) = Fl.of R (.fin k) := by
  show (if _ then _ else _) = _
  exact ite_self _

section
variable (V : Valued R α) (L : R.Lawful)

include L in
private theorem lit0 : V.val (lit 0 : α) = Fl.of R (.fin 0) := by rw [V.lit, lit_zero L]

include L in
private theorem rnd0 : R.rnd 0 = .fin 0 := by have := L.int 0 (by norm_num); push_cast at this; exact this

include L in
private theorem rnd1 : R.rnd 1 = .fin 1 := by have := L.int 1 (by norm_num); push_cast at this; exact this

include L in
private theorem add0 {a b : α} {c : K} (hc : R.rnd c = .fin c) (ha : V.val a = Fl.of R (.fin c)) (hb : V.val b = Fl.of R (.fin 0)) : V.val (a + b) = Fl.of R (.fin c) := by
  rw [V.add, ha, hb]
  show R.rnd (c + 0) = _
  rw [add_zero]; exact hc

include L in
private theorem sub_same {a b : α} {c : K} (ha : V.val a = Fl.of R (.fin c)) (hb : V.val b = Fl.of R (.fin c)) : V.val (a - b) = Fl.of R (.fin 0) := by
  rw [V.sub, ha, hb]
  show R.rnd (c + -c) = _
  rw [add_neg_cancel]; exact rnd0 L

include L in
private theorem mul0 {a b : α} {w : K} (ha : V.val a = Fl.of R (.fin 0)) (hb : V.val b = Fl.of R (.fin w)) : V.val (a * b) = Fl.of R (.fin 0) := by
  rw [V.mul, ha, hb]
  show R.rnd (0 * w) = _
  rw [zero_mul]; exact rnd0 L

include L in
private theorem div0 {a b : α} {w : K} (hw : w ≠ 0) (ha : V.val a = Fl.of R (.fin 0)) (hb : V.val b = Fl.of R (.fin w)) : V.val (a / b) = Fl.of R (.fin 0) := by
  rw [V.div _ _ (by rw [hb]; intro h; injection h with h; exact hw h), ha, hb]
  refine (if_neg hw).trans ?_
  rw [zero_div]; exact rnd0 L

include L in
private theorem div_same {a b : α} {w : K} (hw : w ≠ 0) (ha : V.val a = Fl.of R (.fin w)) (hb : V.val b = Fl.of R (.fin w)) : V.val (a / b) = Fl.of R (.fin 1) := by
  rw [V.div _ _ (by rw [hb]; intro h; injection h with h; exact hw h), ha, hb]
  refine (if_neg hw).trans ?_
  rw [div_self hw]; exact rnd1 L

include L in
private theorem zsum {l : List α} (h : ∀ a ∈ l, V.val a = Fl.of R (.fin 0)) : V.val (fsum l) = Fl.of R (.fin 0) := by
  induction l using List.reverseRecOn with
  | nil => exact lit0 V L
  | append_singleton l a ih =>
    rw [fsum_append]
    exact add0 V L (rnd0 L) (ih fun b hb => h b (by simp [hb])) (h a (by simp))

include L in
private theorem feq0 {a : α} (h : V.val a = Fl.of R (.fin 0)) : F64.feq a (lit 0) = true := by
  rw [V.feq, h, lit0 V L]
  exact (val_feq_fin _ _).trans (by simp)

include L in
private theorem root0 (hroot : RoundedRoots R) {a : α} (h : V.val a = Fl.of R (.fin 0)) : V.val (F64.sqrt a) = Fl.of R (.fin 0) := by
  rw [V.sqrt, h]
  refine Eq.trans (if_neg (lt_irrefl _) : (if (0 : K) < 0 then Ext.nan else R.sqrtR 0) = R.sqrtR 0) ?_
  rw [hroot 0 le_rfl]
  have : RootOps.sqrt (0 : K) = 0 := le_antisymm (root_le le_rfl le_rfl (by simp)) (LawfulRoots.sqrt_nonneg 0)
  rw [this]; exact rnd0 L

include L in
/-- Mean and both standard deviations of a list of zeros. -/
theorem zero_stats (hroot : RoundedRoots R) {l : List α} (hl : l ≠ []) (h53 : l.length ≤ 2 ^ 53) (h : ∀ a ∈ l, V.val a = Fl.of R (.fin 0)) :
    V.val (Stats.mean l) = Fl.of R (.fin 0) ∧ V.val (Stats.stdev l) = Fl.of R (.fin 0) ∧ V.val (fastDev l) = Fl.of R (.fin 0) := by
  have n0 : ((l.length : Nat) : K) ≠ 0 := Nat.cast_ne_zero.mpr (List.length_pos_iff.mpr hl).ne'
  have vn : V.val (lit (l.length : ℚ) : α) = Fl.of R (.fin ((l.length : Nat) : K)) := val_lit_nat L h53
  have hm : V.val (Stats.mean l) = Fl.of R (.fin 0) := div0 V L n0 (zsum V L h) vn
  refine ⟨hm, ?_, ?_⟩
  · unfold Stats.stdev Stats.stdevFromVar Stats.var Stats.varFromMean
    refine root0 V L hroot (div0 V L n0 (zsum V L fun a ha => ?_) vn)
    obtain ⟨v, hv, rfl⟩ := List.mem_map.mp ha
    have := sub_same V L (h v hv) hm
    exact mul0 V L this this
  · have hx : ∀ i, i < l.length → V.val (l.getD i (lit 0)) = Fl.of R (.fin 0) := fun i hi => by
      rw [List.getD_eq_getElem?_getD, List.getElem?_eq_getElem hi, Option.getD_some]
      exact h _ (List.getElem_mem hi)
    obtain ⟨y, y1, -, y2⟩ := C108_constant V L h53 (rnd0 L) hx
    obtain ⟨f1, -, -, f2⟩ := fast_runs (fun i => l.getD i (lit 0)) l.length
    have hp := List.length_pos_iff.mpr hl
    rw [fastDev_runs f2 hl, f1.unique y1 _ (by omega)]
    exact root0 V L hroot (y2 _ (by omega))

end

section
variable {V : Valued R α} {u η top : K} (A : R.Accurate u η top) (L : R.Lawful)

include A L in
private theorem idle_cobra (hroot : RoundedRoots R) (hbig : 20 ≤ top) {c : K} (hc : V.val cfg.initialCapital = Fl.of R (.fin c)) (hrc : R.rnd c = .fin c)
    (H : Backtest cfg d sig N st) (hs : ∀ t, t < N → sig t = none) (h53 : N ≤ 2 ^ 53)
    {est : Bool} {sy : Option Int} {year : Nat → Option Int} {co : Nat → CobraMetrics α} (h : CobraRun d cfg est sy year st N co) {t : Nat} (ht : t < N) :
    V.val (st t).metrics.equity = Fl.of R (.fin c) ∧
    V.val (co t).data.omega = Fl.of R (.fin 0) ∧ V.val (co t).data.sharpe = Fl.of R (.fin 0) ∧ V.val (co t).data.sortino = Fl.of R (.fin 0) ∧
    V.val (co t).data.equityCurveMaxDd = Fl.of R (.fin 0) ∧ (co t).data.intraTradeMaxDd = lit 0 ∧ (co t).data.trades = 0 ∧
    (co t).data.profitable = lit 0 ∧ (co t).data.profitFactor = lit 0 ∧ (co t).data.netProfitLSRatio = lit 0 := by
  have z := lit0 (α := α) V L
  have eq : ∀ k, k < N → V.val (st k).metrics.equity = Fl.of R (.fin c) := fun k hk => by
    rw [(C84_idle H hs hk).2.2.2.2.2.2]
    exact add0 V L hrc (add0 V L hrc hc z) z
  have prev : ∀ k, k < N → V.val (if k = 0 then cfg.initialCapital else (st (k - 1)).metrics.equity) = Fl.of R (.fin c) := fun k hk => by
    split
    · exact hc
    · exact eq _ (by omega)
  have one : V.val (lit 1 : α) = Fl.of R (.fin 1) := by
    have := val_lit_nat (V := V) L (n := 1) (by norm_num)
    exact_mod_cast this
  have ret : ∀ k, k < N → V.val (equityReturn cfg st k) = Fl.of R (.fin 0) := fun k hk => by
    unfold equityReturn Metrics.returns
    by_cases h0 : c = 0
    · subst h0
      rw [feq0 V L (prev k hk), Bool.true_or, if_pos rfl]; exact z
    · have n1 : ∀ a : α, V.val a = Fl.of R (.fin c) → F64.feq a (lit 0) = false := fun a ha => by
        rw [V.feq, ha, z]
        exact (val_feq_fin _ _).trans (by simp [h0])
      rw [n1 _ (prev k hk), n1 _ (eq k hk), Bool.or_false, if_neg (by simp)]
      exact sub_same V L (div_same V L h0 (eq k hk) (prev k hk)) one
  -- the root of 365 is a number
  have s1 : RootOps.sqrt (365 : K) ≤ 20 := root_le (by norm_num) (by norm_num) (by norm_num)
  obtain ⟨w, hw⟩ : ∃ w, V.val (F64.sqrt (lit 365) : α) = Fl.of R (.fin w) := by
    obtain ⟨w, w1, -⟩ := A.err (RootOps.sqrt (365 : K)) (by rw [abs_of_nonneg (LawfulRoots.sqrt_nonneg _)]; linarith)
    have v1 : V.val (lit 365 : α) = Fl.of R (.fin 365) := by
      have := val_lit_nat (V := V) L (n := 365) (by norm_num)
      exact_mod_cast this
    refine ⟨w, ?_⟩
    rw [V.sqrt, v1]
    refine Eq.trans (if_neg (by norm_num) : (if (365 : K) < 0 then Ext.nan else R.sqrtR 365) = R.sqrtR 365) ?_
    rw [hroot 365 (by norm_num)]
    exact w1
  -- the lists of returns
  set ts := countedTicks sy year t with hts
  have hmem : ∀ k ∈ ts, k < N := fun k hk => by
    rw [hts] at hk
    have := List.mem_range.mp (List.mem_filter.mp hk).1
    omega
  have hlen : ts.length ≤ N := by
    have : ts.length ≤ t + 1 := by
      rw [hts]
      exact (List.length_filter_le _ _).trans (List.length_range).le
    omega
  set ρ := ts.map (equityReturn cfg st) with hρ
  have r0 : ∀ a ∈ ρ, V.val a = Fl.of R (.fin 0) := fun a ha => by
    obtain ⟨k, hk, rfl⟩ := List.mem_map.mp ha
    exact ret k (hmem k hk)
  have neg0 : ∀ a ∈ ρ.map (fun x => F64.abs (F64.fmin (lit 0) x)), V.val a = Fl.of R (.fin 0) := fun a ha => by
    obtain ⟨x, hx, rfl⟩ := List.mem_map.mp ha
    rw [V.abs, V.fmin, z, r0 x hx, min_same]
    show Fl.of R (.fin |0|) = _
    rw [abs_zero]
  have ratios : V.val (co t).data.omega = Fl.of R (.fin 0) ∧ V.val (co t).data.sharpe = Fl.of R (.fin 0) ∧ V.val (co t).data.sortino = Fl.of R (.fin 0) := by
    by_cases hne : ts = []
    · have : (co t).data.omega = lit 0 ∧ (co t).data.sharpe = lit 0 ∧ (co t).data.sortino = lit 0 := by
        cases est
        · exact (C105_ratios h ht).1 hne
        · exact (C109_ratios h ht).1 hne
      rw [this.1, this.2.1, this.2.2]
      exact ⟨z, z, z⟩
    · have hρn : ρ ≠ [] := by rw [hρ]; simpa using hne
      have hlr : ρ.length ≤ 2 ^ 53 := by rw [hρ, List.length_map]; omega
      obtain ⟨-, a2, a3⟩ := zero_stats V L hroot hρn hlr r0
      obtain ⟨-, b2, b3⟩ := zero_stats V L hroot (by simpa using hρn) (by rw [List.length_map]; exact hlr) neg0
      have b1 := zsum V L neg0
      cases est
      · obtain ⟨r1, r2, r3⟩ := (C105_ratios h ht).2 hne
        rw [r1, r2, r3]
        unfold Metrics.omegaRatio Metrics.sharpeRatio Metrics.sortinoRatio
        rw [if_pos (feq0 V L b1), if_pos (feq0 V L a2), if_pos (feq0 V L b2)]
        exact ⟨mul0 V L z hw, mul0 V L z hw, mul0 V L z hw⟩
      · obtain ⟨r1, r2, r3⟩ := (C109_ratios h ht).2 hne
        rw [r1, r2, r3]
        unfold Metrics.omegaRatio Metrics.sharpeRatio Metrics.sortinoRatio
        rw [if_pos (feq0 V L b1), if_pos (feq0 V L a3), if_pos (feq0 V L b3)]
        exact ⟨mul0 V L z hw, mul0 V L z hw, mul0 V L z hw⟩
  -- the equity curve
  have em := cobra_em h
  have emax : ∀ k, k < N → V.val (co k).equityMetrics.equityMax = Fl.of R (.fin c) := fun k hk => by
    rw [(C46_values H em hk).2.2.1]
    have : ∀ (l : List α) (a : α), V.val a = Fl.of R (.fin c) → (∀ x ∈ l, V.val x = Fl.of R (.fin c)) → V.val (runMax a l) = Fl.of R (.fin c) := by
      intro l
      induction l with
      | nil => exact fun a ha _ => ha
      | cons b l ih =>
        intro a ha hl
        refine ih _ ?_ fun x hx => hl x (by simp [hx])
        rw [V.fmax, ha, hl b (by simp), max_same]
    refine this _ _ hc fun x hx => ?_
    obtain ⟨j, hj, rfl⟩ := List.mem_map.mp hx
    exact eq j (by have := List.mem_range.mp hj; omega)
  have curve : V.val (co t).data.equityCurveMaxDd = Fl.of R (.fin 0) := by
    rw [C48_cobra_values h ht]
    have : ∀ (l : List α) (a : α), V.val a = Fl.of R (.fin 0) → (∀ x ∈ l, V.val x = Fl.of R (.fin 0) ∨ V.val x = Fl.of R .nan) → V.val (runMin' a l) = Fl.of R (.fin 0) := by
      intro l
      induction l with
      | nil => exact fun a ha _ => ha
      | cons b l ih =>
        intro a ha hl
        refine ih _ ?_ fun x hx => hl x (by simp [hx])
        rw [V.fmin, ha]
        rcases hl b (by simp) with e | e <;> rw [e]
        · exact min_same 0
        · rfl
    refine this _ _ z fun x hx => ?_
    obtain ⟨k, hk, rfl⟩ := List.mem_map.mp hx
    have hk : k < N := by have := List.mem_range.mp hk; omega
    have e1 : V.val (co k).equityMetrics.equity = Fl.of R (.fin c) := by rw [(C46_values H em hk).1]; exact eq k hk
    by_cases h0 : c = 0
    · right
      subst h0
      have : V.val ((co k).equityMetrics.equity / (co k).equityMetrics.equityMax) = Fl.of R .nan := by
        have q : Fl.of R (.fin (0 : K)) / Fl.of R (.fin 0) = Fl.of R .nan := by
          refine (if_pos rfl).trans ?_
          exact (if_neg (lt_irrefl _)).trans (if_neg (lt_irrefl _))
        rcases V.div_zero _ _ (emax k hk) with e | e
        · rw [e, e1, emax k hk, q]
        · rw [e, e1, emax k hk, q]; rfl
      rw [V.sub, this]; rfl
    · left
      exact sub_same V L (div_same V L h0 e1 (emax k hk)) one
  -- no trades
  have noTrades : ∀ k, k < N → (st k).trades = [] := fun k hk => (C84_idle H hs hk).1
  have closed0 := (C84_idle H hs ht).2.2.2.2.2.1
  have drop : ∀ k, k < N → (co k).data.intraTradeMaxDd = lit 0 := fun k => by
    induction k with
    | zero =>
      intro hk
      have := (C59_intra_trade H h hk).2.1 (by rw [noTrades _ hk]; simp)
      rwa [if_pos rfl] at this
    | succ k ih =>
      intro hk
      have := (C59_intra_trade H h hk).2.1 (by rw [noTrades _ hk]; simp)
      rw [if_neg (by omega)] at this
      rw [this]
      exact ih (by omega)
  obtain ⟨c1, c2, -⟩ := C59_counts H h ht
  obtain ⟨c3, c4, c5⟩ := c2 closed0
  exact ⟨eq t ht, ratios.1, ratios.2.1, ratios.2.2, curve, drop t ht, c1.trans closed0, c3, c4, c5⟩

include L in
private theorem idle_tradingview (hroot : RoundedRoots R) {c : K} (hc : V.val cfg.initialCapital = Fl.of R (.fin c)) (hrc : R.rnd c = .fin c)
    (H : Backtest cfg d sig N st) (hs : ∀ t, t < N → sig t = none) (h53 : N ≤ 2 ^ 53) {rfr : α} {tv : Nat → TvMetrics α} (h : TvRun d cfg rfr st N tv) {t : Nat} (ht : t < N) :
    (tv t).data.sharpeRatio = lit 0 ∧ (tv t).data.sortinoRatio = lit 0 ∧
    V.val (tv t).data.maxDrawdown = Fl.of R (.fin 0) ∧ V.val (tv t).data.maxRunUp = Fl.of R (.fin 0) ∧
    (c ≠ 0 → V.val (tv t).data.maxDrawdownPercent = Fl.of R (.fin 0) ∧ V.val (tv t).data.maxRunUpPercent = Fl.of R (.fin 0) ∧
      V.val (tv t).data.netProfitPercent = Fl.of R (.fin 0) ∧ V.val (tv t).data.grossProfitPercent = Fl.of R (.fin 0) ∧ V.val (tv t).data.grossLossPercent = Fl.of R (.fin 0)) ∧
    (tv t).data.netProfit = lit 0 ∧ (tv t).data.grossProfit = lit 0 ∧ (tv t).data.grossLoss = lit 0 ∧ (tv t).data.openPl = lit 0 ∧
    (tv t).data.totalClosedTrades = 0 ∧ (tv t).data.numberWinningTrades = 0 ∧ (tv t).data.numberLosingTrades = 0 ∧ (tv t).data.profitFactor = lit 0 ∧ (tv t).data.percentProfitable = lit 0 ∧ (tv t).data.avgTrade = lit 0 ∧
    (tv t).data.avgWinningTrade = lit 0 ∧ (tv t).data.avgLosingTrade = lit 0 ∧ (tv t).data.ratioAvgWinAvgLoss = lit 0 ∧
    (tv t).data.netEquityHistory = [cfg.initialCapital] ∧ (tv t).data.maxDrawdownHistory = [lit 0] ∧
    (tv t).data.equityHistory.length = t + 2 ∧ ∀ x ∈ (tv t).data.equityHistory, V.val x = Fl.of R (.fin c) := by
  have z := lit0 (α := α) V L
  have idle := fun k (hk : k < N) => C84_idle H hs hk
  have eq : ∀ k, k < N → V.val (st k).metrics.equity = Fl.of R (.fin c) := fun k hk => by
    rw [(idle k hk).2.2.2.2.2.2]
    exact add0 V L hrc (add0 V L hrc hc z) z
  have em := tv_em h
  have step : ∀ k, k < N → TvStep d k (st k) (prior (TvMetrics.new (Strategy.new cfg) rfr) tv k) (tv k) := fun k hk => tv_step (selfRun_step h k hk)
  have quiet : ∀ k, k < N → (st k).events.onTradeExit = none := fun k hk => by
    cases hx : (st k).events.onTradeExit with
    | none => rfl
    | some T =>
      have := ((C43_events H hk T).2.mp hx).1
      rw [(idle k hk).1] at this
      simp at this
  have noExits : ∀ k, k < N → exits st k = [] := fun k hk => by
    unfold exits
    rw [List.filter_eq_nil_iff]
    intro j hj
    have := List.mem_range.mp hj
    simp [exited, quiet j (by omega)]
  have net : ∀ k, k < N → (tv k).equityMetrics.netEquity = cfg.initialCapital ∧ (tv k).equityMetrics.netEquityMin = cfg.initialCapital ∧
      (tv k).equityMetrics.netEquityMax = cfg.initialCapital := fun k hk => by
    obtain ⟨-, -, -, n1, n2, n3⟩ := C46_values H em hk
    rw [if_pos (idle k hk).2.2.2.2.2.1] at n1
    rw [noExits k hk] at n2 n3
    exact ⟨n1, n2, n3⟩
  have bar : ∀ k, k < N → V.val (tv k).equityMetrics.barEquityMin = Fl.of R (.fin c) ∧ V.val (tv k).equityMetrics.barEquityMax = Fl.of R (.fin c) := fun k hk => by
    obtain ⟨b1, b2⟩ := C47_no_trade H em hk (idle k hk).1
    obtain ⟨-, -, b3, b4⟩ := C47_flat H em hk (by rw [(idle k hk).1]; simp)
    rw [b1, (net k hk).1] at b3
    rw [b2, (net k hk).1] at b4
    rw [b3, b4]
    exact ⟨add0 V L hrc hc z, add0 V L hrc hc z⟩
  have worst : ∀ k, k < N → V.val (tv k).data.maxDrawdown = Fl.of R (.fin 0) ∧ V.val (tv k).data.maxRunUp = Fl.of R (.fin 0) := fun k hk => by
    have dd : ∀ k, k < N → V.val ((tv k).equityMetrics.netEquityMax - (tv k).equityMetrics.barEquityMin) = Fl.of R (.fin 0) ∧
        V.val ((tv k).equityMetrics.barEquityMax - (tv k).equityMetrics.netEquityMin) = Fl.of R (.fin 0) := fun k hk => by
      rw [(net k hk).2.1, (net k hk).2.2]
      exact ⟨sub_same V L hc (bar k hk).1, sub_same V L (bar k hk).2 hc⟩
    induction k with
    | zero =>
      rw [(step 0 hk).maxDrawdown, (step 0 hk).maxRunUp, V.fmax, V.fmax, (dd 0 hk).1, (dd 0 hk).2]
      have e1 : V.val (prior (TvMetrics.new (Strategy.new cfg) rfr) tv 0).data.maxDrawdown = Fl.of R (.fin 0) := z
      have e2 : V.val (prior (TvMetrics.new (Strategy.new cfg) rfr) tv 0).data.maxRunUp = Fl.of R (.fin 0) := z
      rw [e1, e2]
      exact ⟨max_same 0, max_same 0⟩
    | succ k ih =>
      rw [(step _ hk).maxDrawdown, (step _ hk).maxRunUp, V.fmax, V.fmax, (dd _ hk).1, (dd _ hk).2]
      obtain ⟨i1, i2⟩ := ih (by omega)
      have e1 : V.val (prior (TvMetrics.new (Strategy.new cfg) rfr) tv (k + 1)).data.maxDrawdown = Fl.of R (.fin 0) := i1
      have e2 : V.val (prior (TvMetrics.new (Strategy.new cfg) rfr) tv (k + 1)).data.maxRunUp = Fl.of R (.fin 0) := i2
      rw [e1, e2]
      exact ⟨max_same 0, max_same 0⟩
  have hists : ∀ k, k < N → (tv k).data.netEquityHistory = [cfg.initialCapital] ∧ (tv k).data.maxDrawdownHistory = [lit 0] ∧
      (tv k).data.equityHistory.length = k + 2 ∧ ∀ x ∈ (tv k).data.equityHistory, V.val x = Fl.of R (.fin c) := fun k => by
    have ev : ∀ k, k < N → V.val (tv k).equityMetrics.equity = Fl.of R (.fin c) := fun k hk => by rw [(C46_values H em hk).1]; exact eq k hk
    induction k with
    | zero =>
      intro hk
      have s := step 0 hk
      rw [s.netEquityHistory, s.maxDrawdownHistory, s.equityHistory, quiet 0 hk]
      refine ⟨rfl, rfl, rfl, fun x hx => ?_⟩
      rcases List.mem_append.mp hx with e | e
      · have : x ∈ [cfg.initialCapital] := e
        rw [List.mem_singleton.mp this]; exact hc
      · rw [List.mem_singleton.mp e]; exact ev 0 hk
    | succ k ih =>
      intro hk
      have s := step _ hk
      obtain ⟨i1, i2, i3, i4⟩ := ih (by omega)
      rw [s.netEquityHistory, s.maxDrawdownHistory, s.equityHistory, quiet _ hk]
      refine ⟨i1, i2, ?_, fun x hx => ?_⟩
      · rw [List.length_append]
        have : (prior (TvMetrics.new (Strategy.new cfg) rfr) tv (k + 1)).data.equityHistory.length = k + 2 := i3
        rw [this]; rfl
      · rcases List.mem_append.mp hx with e | e
        · exact i4 x e
        · rw [List.mem_singleton.mp e]; exact ev _ hk
  have diff : ∀ k, k < N → V.val ((tv k).equityMetrics.netEquity - cfg.initialCapital) = Fl.of R (.fin 0) := fun k hk => by
    rw [(net k hk).1]; exact sub_same V L hc hc
  have ratios : (tv t).data.sharpeRatio = lit 0 ∧ (tv t).data.sortinoRatio = lit 0 := by
    obtain ⟨r1, r2⟩ := C104_ratios h ht
    rw [r1, r2]
    unfold Metrics.sharpeRatio Metrics.sortinoRatio
    have key : ∀ f : Nat → α, (∀ k, k < N → V.val (f k) = Fl.of R (.fin 0)) → F64.feq (Stats.stdev (hist f (t + 1))) (lit 0) = true := fun f hf => by
      refine feq0 V L (zero_stats V L hroot ?_ ?_ ?_).2.1
      · intro e
        have := hist_length f (t + 1)
        rw [e] at this
        simp at this
      · rw [hist_length]; omega
      · intro a ha
        obtain ⟨k, hk, rfl⟩ := List.mem_map.mp ha
        exact hf k (by have := List.mem_range.mp hk; omega)
    rw [if_pos (key _ diff), if_pos (key _ fun k hk => ?_)]
    · exact ⟨rfl, rfl⟩
    · rw [V.abs, V.fmin, z, diff k hk, min_same]
      show Fl.of R (.fin |0|) = _
      rw [abs_zero]
  have s := step t ht
  obtain ⟨-, p1, p2, p3, p4, p5, -⟩ := idle t ht
  have stats := C40_statistics H ht
  rw [(idle t ht).1] at stats
  have p6 : (st t).metrics.winningTrades = 0 := stats.winningTrades
  have p7 : (st t).metrics.losingTrades = 0 := stats.losingTrades
  have a2 : (tv t).data.avgLosingTrade = lit 0 := by rw [s.avgLosingTrade, if_pos p7]
  have capital : (st t).config.initialCapital = cfg.initialCapital := by rw [(backtest_done H t ht).books.config]
  refine ⟨ratios.1, ratios.2, (worst t ht).1, (worst t ht).2, fun h0 => ⟨?_, ?_, ?_, ?_, ?_⟩, s.netProfit.trans p1, s.grossProfit.trans p3, s.grossLoss.trans p4, s.openPl.trans p2,
    s.total.trans p5, s.winning.trans p6, s.losing.trans p7, ?_, ?_, ?_, ?_, a2, ?_, hists t ht⟩
  · rw [s.maxDrawdownPercent, (net t ht).2.2]; exact div0 V L h0 (worst t ht).1 hc
  · rw [s.maxRunUpPercent]; exact div0 V L h0 (worst t ht).2 (bar t ht).2
  · rw [s.netProfitPercent, capital, p1]; exact div0 V L h0 z hc
  · rw [s.grossProfitPercent, capital, p3]; exact div0 V L h0 z hc
  · rw [s.grossLossPercent, capital, p4]; exact div0 V L h0 z hc
  · rw [s.profitFactor, p4, if_pos (feq0 V L z)]
  · rw [s.percentProfitable, if_pos p5]
  · rw [s.avgTrade, if_pos p5]
  · rw [s.avgWinningTrade, if_pos p6]
  · rw [s.ratioAvgWinAvgLoss, a2, if_pos (feq0 V L z)]

include A L in
/-- **C110.** As long as a strategy has not signalled, on any bars and in either mode, the Cobra report shows after every tick: Omega, Sharpe and Sortino exactly 0, no drop of the
equity, no drop within a trade, no trades, and 0 for the profit factor, the share of winners and the long/short ratio, in every lawful rounded arithmetic; the equity is the
capital. -/
theorem C110_cobra (hroot : RoundedRoots R) (hbig : 20 ≤ top) {c : K} (hc : V.val cfg.initialCapital = Fl.of R (.fin c)) (hrc : R.rnd c = .fin c)
    (H : Backtest cfg d sig N st) (h53 : N ≤ 2 ^ 53)
    {est : Bool} {sy : Option Int} {year : Nat → Option Int} {co : Nat → CobraMetrics α} (h : CobraRun d cfg est sy year st N co) {t : Nat} (ht : t < N) (hs : ∀ k, k ≤ t → sig k = none) :
    V.val (st t).metrics.equity = Fl.of R (.fin c) ∧
    V.val (co t).data.omega = Fl.of R (.fin 0) ∧ V.val (co t).data.sharpe = Fl.of R (.fin 0) ∧ V.val (co t).data.sortino = Fl.of R (.fin 0) ∧
    V.val (co t).data.equityCurveMaxDd = Fl.of R (.fin 0) ∧ (co t).data.intraTradeMaxDd = lit 0 ∧ (co t).data.trades = 0 ∧
    (co t).data.profitable = lit 0 ∧ (co t).data.profitFactor = lit 0 ∧ (co t).data.netProfitLSRatio = lit 0 := by
  exact idle_cobra A L hroot hbig hc hrc (H.take ht) (fun k hk => hs k (by omega)) (by omega) (Runs.take h ht) (Nat.lt_succ_self t)

include L in
/-- **C110.** As long as a strategy has not signalled, on any bars and whatever the risk free rate, the TradingView report shows after every tick: Sharpe and Sortino 0, no
drawdown and no run-up, all profits, counts and averages 0, the capital as the only entry of the net equity history and, of value, everywhere in the equity history. The
percentages are 0 too if the capital is not. -/
theorem C110_tradingview (hroot : RoundedRoots R) {c : K} (hc : V.val cfg.initialCapital = Fl.of R (.fin c)) (hrc : R.rnd c = .fin c)
    (H : Backtest cfg d sig N st) (h53 : N ≤ 2 ^ 53) {rfr : α} {tv : Nat → TvMetrics α} (h : TvRun d cfg rfr st N tv) {t : Nat} (ht : t < N) (hs : ∀ k, k ≤ t → sig k = none) :
    (tv t).data.sharpeRatio = lit 0 ∧ (tv t).data.sortinoRatio = lit 0 ∧
    V.val (tv t).data.maxDrawdown = Fl.of R (.fin 0) ∧ V.val (tv t).data.maxRunUp = Fl.of R (.fin 0) ∧
    (c ≠ 0 → V.val (tv t).data.maxDrawdownPercent = Fl.of R (.fin 0) ∧ V.val (tv t).data.maxRunUpPercent = Fl.of R (.fin 0) ∧
      V.val (tv t).data.netProfitPercent = Fl.of R (.fin 0) ∧ V.val (tv t).data.grossProfitPercent = Fl.of R (.fin 0) ∧ V.val (tv t).data.grossLossPercent = Fl.of R (.fin 0)) ∧
    (tv t).data.netProfit = lit 0 ∧ (tv t).data.grossProfit = lit 0 ∧ (tv t).data.grossLoss = lit 0 ∧ (tv t).data.openPl = lit 0 ∧
    (tv t).data.totalClosedTrades = 0 ∧ (tv t).data.numberWinningTrades = 0 ∧ (tv t).data.numberLosingTrades = 0 ∧ (tv t).data.profitFactor = lit 0 ∧ (tv t).data.percentProfitable = lit 0 ∧ (tv t).data.avgTrade = lit 0 ∧
    (tv t).data.avgWinningTrade = lit 0 ∧ (tv t).data.avgLosingTrade = lit 0 ∧ (tv t).data.ratioAvgWinAvgLoss = lit 0 ∧
    (tv t).data.netEquityHistory = [cfg.initialCapital] ∧ (tv t).data.maxDrawdownHistory = [lit 0] ∧
    (tv t).data.equityHistory.length = t + 2 ∧ ∀ x ∈ (tv t).data.equityHistory, V.val x = Fl.of R (.fin c) := by
  exact idle_tradingview L hroot hc hrc (H.take ht) (fun k hk => hs k (by omega)) (by omega) (Runs.take h ht) (Nat.lt_succ_self t)

end

end Pace
