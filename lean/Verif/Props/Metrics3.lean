import Verif.Props.Metrics2

/-!
# Metrics of a backtest: C48 (Cobra), C58, panics of the metrics (C57), and exact-arithmetic facts (C47, C50, C60, C61)
-/

set_option linter.unusedSectionVars false

namespace Pace
open Spec

/-! ## C57 -/
section
variable {α : Type} [F64 α] {cfg : StrategyConfig α} {d : DataProvider α} {sig : Nat → Option TradeDirection} {N : Nat}
  {st : Nat → Strategy α}

instance : Inhabited (EquityMetrics α) := ⟨.new (lit 0)⟩
instance : Inhabited (TvMetrics α) := ⟨.new (Strategy.new .default) (lit 0)⟩
instance : Inhabited (CobraMetrics α) := ⟨.new (Strategy.new .default) false none⟩

/-- On a tick of a run the equity metrics panic exactly if a trade is open and the bar has no low or no high. -/
theorem em_next_ok_iff (h : Backtest cfg d sig N st) {t : Nat} (ht : t < N) (s : EquityMetrics α) :
    (∃ s', EquityMetrics.next ⟨d, t⟩ s (st t) = .ok s') ↔
      ((∃ T ∈ (st t).trades, T.isClosed = false) → (∃ lo, d.low[t]? = some (some lo)) ∧ ∃ hi, d.high[t]? = some (some hi)) := by
  have hd := backtest_done h t ht
  constructor
  · rintro ⟨s', hs'⟩ ⟨T, hT, hc⟩
    have hs := em_step hs'
    rw [C39_refines h ht] at hT
    rcases List.mem_append.mp hT with hT | hT
    · obtain ⟨c, _, rfl⟩ := List.mem_map.mp hT
      simp [Closed.toTrade] at hc
    · obtain ⟨x, hx, rfl⟩ : ∃ x, (ledger cfg d sig (t + 1)).opened = some x ∧ x.toTrade = T := by
        simpa [Option.map_eq_some_iff] using hT
      have hl : (st t).trades.getLast? = some x.toTrade := by
        rw [C39_refines h ht, Ledger.trades, hx]; simp
      obtain ⟨lo, hi, _, _, h1, h2, _⟩ := hs.open_ _ hl hc
      exact ⟨⟨lo, h1⟩, ⟨hi, h2⟩⟩
  · intro H
    unfold EquityMetrics.next
    extract_lets ne s1 eq jp
    clear_value s1
    cases hl : (st t).trades.getLast? with
    | none => exact ⟨_, rfl⟩
    | some T =>
      cases hc : T.isClosed with
      | true => exact ⟨jp s1 |>.toOption.getD s1, by simp [hc, jp, Except.toOption]⟩
      | false =>
        have hT := List.mem_of_getLast? hl
        obtain ⟨⟨lo, hlo⟩, ⟨hi, hhi⟩⟩ := H ⟨T, hT, hc⟩
        obtain ⟨x, rfl⟩ : ∃ x : Holding α, T = x.toTrade := by
          rw [C39_refines h ht] at hT
          rcases List.mem_append.mp hT with hT | hT
          · obtain ⟨c, _, rfl⟩ := List.mem_map.mp hT
            simp [Closed.toTrade] at hc
          · obtain ⟨x, hx, rfl⟩ : ∃ x, (ledger cfg d sig (t + 1)).opened = some x ∧ x.toTrade = T := by
              simpa [Option.map_eq_some_iff] using hT
            exact ⟨x, rfl⟩
        simp only [hc, Bool.not_false, if_true, Ctx.barLow, Ctx.barHigh, DataProvider.getLow, DataProvider.getHigh, index, hlo, hhi,
          Res.ok_bind, unwrap_some, pnl_toTrade, Res.pure_eq]
        exact ⟨_, rfl⟩

theorem selfRun_exists_iff {S I : Type} [Inhabited S] {next : Nat → S → I → Res S} {x : Nat → I} {N : Nat} (s0 : S) {P : Nat → Prop}
    (h : ∀ t s, t < N → ((∃ s', next t s (x t) = .ok s') ↔ P t)) :
    (∃ st, Runs (fun t s i => do let s ← next t s i; return (s, s)) (.ok s0) x N st) ↔ ∀ t, t < N → P t := by
  constructor
  · rintro ⟨st, hs⟩ t ht
    exact (h t _ ht).mp ⟨_, selfRun_step hs t ht⟩
  · intro H
    exact selfRun_exists s0 fun t s ht => (h t s ht).mpr (H t ht)

/-- The bars on which a trade is open have a low and a high. -/
def OpenBarsComplete (d : DataProvider α) (st : Nat → Strategy α) (t : Nat) : Prop :=
  (∃ T ∈ (st t).trades, T.isClosed = false) → (∃ lo, d.low[t]? = some (some lo)) ∧ ∃ hi, d.high[t]? = some (some hi)

/-- **C57.** The equity metrics of a run panic if and only if on some tick a trade is open and the bar's low or high is
missing. -/
theorem C57_equity_metrics (h : Backtest cfg d sig N st) :
    (∃ em, EquityRun d cfg.initialCapital st N em) ↔ ∀ t, t < N → OpenBarsComplete d st t :=
  selfRun_exists_iff _ fun _ s ht => em_next_ok_iff h ht s

/-- **C57.** The same for the TradingView metrics. -/
theorem C57_tradingview_metrics (h : Backtest cfg d sig N st) (rfr : α) :
    (∃ tv, TvRun d cfg rfr st N tv) ↔ ∀ t, t < N → OpenBarsComplete d st t := by
  refine selfRun_exists_iff _ fun t s ht => (Iff.trans ?_ (em_next_ok_iff h ht s.equityMetrics))
  constructor
  · rintro ⟨s', hs'⟩; exact ⟨_, (tv_step hs').em⟩
  · rintro ⟨e, he⟩
    unfold TvMetrics.next
    rw [he]
    exact ⟨_, rfl⟩

/-- **C57.** The Cobra metrics panic in the same cases, and in addition if a start year is configured and some bar has no
time. -/
theorem C57_cobra_metrics (h : Backtest cfg d sig N st) (est : Bool) (sy : Option Int) (year : Nat → Option Int) :
    (∃ co, CobraRun d cfg est sy year st N co) ↔
      ∀ t, t < N → OpenBarsComplete d st t ∧ (sy ≠ none → year t ≠ none) := by
  constructor
  · rintro ⟨co, hc⟩ t ht
    have s := cobraRun_step hc ht
    refine ⟨(em_next_ok_iff h ht _).mp ⟨_, s.em⟩, fun hsy => s.yearPresent ?_⟩
    have := selfRun_induct (next := fun t s x => CobraMetrics.next ⟨d, t⟩ (year t) s x) hc
      (fun _ s => s.returnsStartYear = sy) rfl (fun t s _ hi s' hs' => by rw [(cobra_step hs').startYear, hi]) t ht.le
    rw [this]; exact hsy
  · intro H
    -- a run of the component that also remembers that its start year is `sy`
    have key : ∀ n, n ≤ N → ∃ co : Nat → CobraMetrics α, (∀ t, t < n →
        CobraMetrics.next ⟨d, t⟩ (year t) (prior (CobraMetrics.new (Strategy.new cfg) est sy) co t) (st t) = .ok (co t)) ∧
        (prior (CobraMetrics.new (Strategy.new cfg) est sy) co n).returnsStartYear = sy := by
      intro n
      induction n with
      | zero => intro _; exact ⟨fun _ => default, fun t ht => absurd ht (by omega), rfl⟩
      | succ n ih =>
        intro hn
        obtain ⟨co, h1, h2⟩ := ih (by omega)
        obtain ⟨ho, hy⟩ := H n (by omega)
        have hnext : ∀ s : CobraMetrics α, s.returnsStartYear = sy →
            ∃ s', CobraMetrics.next ⟨d, n⟩ (year n) s (st n) = .ok s' := by
          intro s hs
          unfold CobraMetrics.next
          have fin : ∀ s1 : CobraMetrics α, s1.returnsStartYear = sy → ∃ s', (do
              let em ← s1.equityMetrics.next ⟨d, n⟩ (st n)
              let s := { s1 with
                equityMetrics := em
                data := { s1.data with
                  equityCurveMaxDd := F64.fmin (em.equity / em.equityMax - lit 1) s1.data.equityCurveMaxDd }
                currentTradeMaxDrawdown :=
                  F64.fmax (em.netEquity - em.barEquityMin) s1.currentTradeMaxDrawdown }
              let equityReturns := Metrics.returns em.equity s.prevEquity
              let s := { s with prevEquity := em.equity }
              match s.returnsStartYear with
              | some y => do
                let by_ ← unwrap (year n)
                if by_ < y then return s
                return s.onReturns equityReturns
              | none => return s.onReturns equityReturns : Res (CobraMetrics α)) = .ok s' := by
            intro s1 hs1
            obtain ⟨e, he⟩ := (em_next_ok_iff h (show n < N by omega) s1.equityMetrics).mpr ho
            rw [he]
            simp only [Res.ok_bind, hs1]
            cases sy with
            | none => exact ⟨_, rfl⟩
            | some y =>
              obtain ⟨b, hb⟩ := Option.ne_none_iff_exists'.mp (hy (by simp))
              rw [hb]
              simp only [unwrap_some, Res.ok_bind, Res.pure_eq]
              split
              · exact ⟨_, rfl⟩
              · exact ⟨_, rfl⟩
          cases hx : (st n).events.onTradeExit with
          | none => exact fin s hs
          | some T =>
            obtain ⟨hT, _⟩ := (C43_events h (show n < N by omega) T).2.mp hx
            obtain ⟨ep, hep⟩ := Option.isSome_iff_exists.mp ((C36_one_open h (show n < N by omega)).2 T hT).2.1
            obtain ⟨s1, h1, h1'⟩ : ∃ s1, s.onExit (st n) T = .ok s1 ∧ s1.returnsStartYear = s.returnsStartYear := by
              simp only [CobraMetrics.onExit, hep, unwrap_some, Res.ok_bind, Res.pure_eq]
              exact ⟨_, rfl, rfl⟩
            simp only [h1, Res.ok_bind]
            exact fin s1 (h1'.trans hs)
        obtain ⟨s', hs'⟩ := hnext _ h2
        refine ⟨fun t => if t = n then s' else co t, ?_, ?_⟩
        · intro t ht
          have hp : prior (CobraMetrics.new (Strategy.new cfg) est sy) (fun t => if t = n then s' else co t) t =
              prior (CobraMetrics.new (Strategy.new cfg) est sy) co t := by
            cases t with
            | zero => rfl
            | succ t => simp [prior, show t ≠ n by omega]
          rw [hp]
          rcases Nat.lt_succ_iff_lt_or_eq.mp ht with ht | rfl
          · simp [show t ≠ n by omega, h1 t ht]
          · simp [hs']
        · simp only [prior, if_true]
          rw [(cobra_step hs').startYear, h2]
    obtain ⟨co, h1, _⟩ := key N le_rfl
    exact ⟨co, selfRun_of_step (next := fun t s x => CobraMetrics.next ⟨d, t⟩ (year t) s x) h1⟩

end

/-! ## C48, C58 (level 1) -/
section rounded
variable {K : Type} [Field K] [LinearOrder K] [IsStrictOrderedRing K] {R : Rounding K}
variable {cfg : StrategyConfig (Fl R)} {d : DataProvider (Fl R)} {sig : Nat → Option TradeDirection} {N : Nat}
  {st : Nat → Strategy (Fl R)} {est : Bool} {sy : Option Int} {year : Nat → Option Int} {co : Nat → CobraMetrics (Fl R)}

/-- **C48.** For every lawful rounding, on any data: the Cobra equity-curve drawdown is never NaN, never positive, never
increases, and is at most `equity / equity_max - 1` of every tick so far on which that is not NaN. -/
theorem C48_cobra_monotone (L : R.Lawful) (h : CobraRun d cfg est sy year st N co) {t : Nat} (ht : t < N) :
    F64.le (co t).data.equityCurveMaxDd (lit 0) = true ∧
    ∀ k, k ≤ t → F64.le (co t).data.equityCurveMaxDd (co k).data.equityCurveMaxDd = true ∧
      (NotNan ((co k).equityMetrics.equity / (co k).equityMetrics.equityMax - lit 1) →
        F64.le (co t).data.equityCurveMaxDd ((co k).equityMetrics.equity / (co k).equityMetrics.equityMax - lit 1) = true) := by
  have h0 : NotNan (lit 0 : Fl R) := by
    rw [lit_zero L]; exact fun hh => absurd (show (Ext.fin (0 : K)) = .nan from hh) (by simp)
  set f : Nat → Fl R := fun k => (co k).equityMetrics.equity / (co k).equityMetrics.equityMax - lit 1 with hf
  have neg (t : Nat) : F64.le (runMin' (lit 0) ((List.range (t + 1)).map f)) (lit 0) = true :=
    (runMin'_spec (lit 0) _).2 _ (by simp) h0
  rw [C48_cobra_values h ht]
  refine ⟨neg t, fun k hk => ⟨?_, fun hn => ?_⟩⟩
  · rw [C48_cobra_values h (show k < N by omega)]
    have h1 := (runMin'_spec (lit 0) ((List.range (k + 1)).map f)).1
    refine (runMin'_spec (lit 0) ((List.range (t + 1)).map f)).2 _ ?_ (fl_le_notNan (neg k)).1
    rcases List.mem_cons.mp h1 with h1 | h1
    · rw [h1]; simp
    · obtain ⟨j, hj, hj'⟩ := List.mem_map.mp h1
      exact List.mem_cons_of_mem _ (List.mem_map.mpr ⟨j, List.mem_range.mpr (by have := List.mem_range.mp hj; omega), hj'⟩)
  · exact (runMin'_spec (lit 0) ((List.range (t + 1)).map f)).2 _
      (List.mem_cons_of_mem _ (List.mem_map.mpr ⟨k, List.mem_range.mpr (by omega), rfl⟩)) hn

theorem feq_zero (L : R.Lawful) (v : Fl R) : F64.feq v (lit 0) = true ↔ v = Fl.of R (.fin 0) := by
  rw [lit_zero L]
  match v with
  | .nan => exact ⟨fun h => absurd h (by simp [F64.feq, Ext.feq]), fun h => absurd (show Ext.nan = Ext.fin (0 : K) from h) (by simp)⟩
  | .pinf => exact ⟨fun h => absurd h (by simp [F64.feq, Ext.feq, Fl.of]), fun h => absurd (show Ext.pinf = Ext.fin (0 : K) from h) (by simp)⟩
  | .ninf => exact ⟨fun h => absurd h (by simp [F64.feq, Ext.feq, Fl.of]), fun h => absurd (show Ext.ninf = Ext.fin (0 : K) from h) (by simp)⟩
  | .fin k => exact ⟨fun h => (of_decide_eq_true h : Ext.fin k = Ext.fin 0), fun h => by
      have hk : k = 0 := Ext.fin.inj (show Ext.fin k = Ext.fin 0 from h)
      subst hk
      simp [F64.feq, Ext.feq, Fl.of]⟩

/-- **C58.** For every lawful rounding: the optional ratios are missing exactly when the denominator is 0, otherwise the
rounded quotient (a NaN denominator counts as present). -/
theorem C58_optional (L : R.Lawful) (a b : Fl R) (n m : Nat) :
    (Metrics.profitFactor a b = if b = Fl.of R (.fin 0) then none else some (a / b)) ∧
    (Metrics.longNetProfitRatio a b = if b = Fl.of R (.fin 0) then none else some (-(a / b))) ∧
    (Metrics.avgWinLossRatio a b = if b = Fl.of R (.fin 0) then none else some (a / b)) ∧
    ((Metrics.percentProfitable n m : Option (Fl R)) = none ↔ m = 0) ∧
    (Metrics.avgTrade a n = none ↔ n = 0) ∧ (Metrics.avgWinningTrade a n = none ↔ n = 0) ∧
    (Metrics.avgLosingTrade a n = none ↔ n = 0) := by
  have hneg (v : Fl R) (hv : v = Fl.of R .nan ∨ v = Fl.of R .pinf ∨ v = Fl.of R .ninf ∨ ∃ k, v = Fl.of R (.fin k) ∧ R.rnd k = .fin k) :
      v * -(lit 1) = -v := by
    rw [lit_one L]
    rcases hv with rfl | rfl | rfl | ⟨k, rfl, hk⟩
    · rfl
    · show Fl.signInf (-1 : K) = Ext.ninf; simp [Fl.signInf]
    · have h1 : Fl.signInf (-1 : K) = .ninf := by simp [Fl.signInf]
      show Ext.neg (Fl.signInf (-1 : K)) = Ext.pinf
      rw [h1]; rfl
    · show R.rnd (k * -1) = Ext.fin (-k)
      rw [mul_neg, mul_one, L.odd, hk]; rfl
  have hdiv (a b : Fl R) : a / b = Fl.of R .nan ∨ a / b = Fl.of R .pinf ∨ a / b = Fl.of R .ninf ∨
      ∃ k, a / b = Fl.of R (.fin k) ∧ R.rnd k = .fin k := by
    cases hq : (a / b : Fl R) with
    | nan => exact Or.inl rfl
    | pinf => exact Or.inr (Or.inl rfl)
    | ninf => exact Or.inr (Or.inr (Or.inl rfl))
    | fin k =>
      refine Or.inr (Or.inr (Or.inr ⟨k, rfl, ?_⟩))
      have hsi : ∀ x : K, Fl.signInf x ≠ Ext.fin k := by
        intro x; unfold Fl.signInf; split_ifs <;> simp
      match a, b, hq with
      | .nan, _, hq => exact absurd (show Ext.nan = Ext.fin k from hq) (by simp)
      | .pinf, .nan, hq => exact absurd (show Ext.nan = Ext.fin k from hq) (by simp)
      | .ninf, .nan, hq => exact absurd (show Ext.nan = Ext.fin k from hq) (by simp)
      | .fin _, .nan, hq => exact absurd (show Ext.nan = Ext.fin k from hq) (by simp)
      | .pinf, .pinf, hq => exact absurd (show Ext.nan = Ext.fin k from hq) (by simp)
      | .pinf, .ninf, hq => exact absurd (show Ext.nan = Ext.fin k from hq) (by simp)
      | .ninf, .pinf, hq => exact absurd (show Ext.nan = Ext.fin k from hq) (by simp)
      | .ninf, .ninf, hq => exact absurd (show Ext.nan = Ext.fin k from hq) (by simp)
      | .pinf, .fin y, hq =>
        refine absurd (show (if y < 0 then Ext.ninf else Ext.pinf) = Ext.fin k from hq) ?_
        split <;> simp
      | .ninf, .fin y, hq =>
        refine absurd (show (if y < 0 then Ext.pinf else Ext.ninf) = Ext.fin k from hq) ?_
        split <;> simp
      | .fin _, .pinf, hq =>
        have : Ext.fin (0 : K) = Ext.fin k := hq
        rw [← Ext.fin.inj this]; exact rnd_zero L
      | .fin _, .ninf, hq =>
        have : Ext.fin (0 : K) = Ext.fin k := hq
        rw [← Ext.fin.inj this]; exact rnd_zero L
      | .fin x, .fin y, hq =>
        have hq' : (if y = 0 then Fl.signInf x else R.rnd (x / y)) = Ext.fin k := hq
        split at hq'
        · exact absurd hq' (hsi x)
        · exact L.idem _ _ hq'
  refine ⟨?_, ?_, ?_, ?_, ?_, ?_, ?_⟩
  · unfold Metrics.profitFactor
    by_cases h : b = Fl.of R (.fin 0)
    · rw [if_pos h, if_pos ((feq_zero L b).mpr h)]
    · rw [if_neg h, if_neg (fun hh => h ((feq_zero L b).mp hh))]
  · unfold Metrics.longNetProfitRatio
    by_cases h : b = Fl.of R (.fin 0)
    · rw [if_pos h, if_pos ((feq_zero L b).mpr h)]
    · rw [if_neg h, if_neg (fun hh => h ((feq_zero L b).mp hh)), hneg _ (hdiv a b)]
  · unfold Metrics.avgWinLossRatio
    by_cases h : b = Fl.of R (.fin 0)
    · rw [if_pos h, if_pos ((feq_zero L b).mpr h)]
    · rw [if_neg h, if_neg (fun hh => h ((feq_zero L b).mp hh))]
  · unfold Metrics.percentProfitable; split <;> simp_all
  · unfold Metrics.avgTrade; split <;> simp_all
  · unfold Metrics.avgWinningTrade; split <;> simp_all
  · unfold Metrics.avgLosingTrade; split <;> simp_all

/-- **C58.** For every lawful rounding: the Sharpe, Sortino and Omega ratios are 0 on a zero denominator and the quotient
otherwise. -/
theorem C58_ratios (L : R.Lawful) (a b r : Fl R) :
    (Metrics.sharpeRatio a b r = if b = Fl.of R (.fin 0) then Fl.of R (.fin 0) else (a - r) / b) ∧
    (Metrics.sortinoRatio a b r = if b = Fl.of R (.fin 0) then Fl.of R (.fin 0) else (a - r) / b) ∧
    (Metrics.omegaRatio a b r = if b = Fl.of R (.fin 0) then Fl.of R (.fin 0) else (a - r) / b) := by
  have key : (if F64.feq b (lit 0) = true then (lit 0 : Fl R) else (a - r) / b) =
      if b = Fl.of R (.fin 0) then Fl.of R (.fin 0) else (a - r) / b := by
    by_cases h : b = Fl.of R (.fin 0)
    · rw [if_pos h, if_pos ((feq_zero L b).mpr h), lit_zero L]
    · rw [if_neg h, if_neg (fun hh => h ((feq_zero L b).mp hh))]
  exact ⟨key, key, key⟩

end rounded

section exactHelpers
variable {K : Type} [Field K] [LinearOrder K] [IsStrictOrderedRing K] [RootOps K]

/-- **C58.** In exact arithmetic `returns(current, previous)` is `current / previous - 1` unless one of them is 0, in which case
it is 0 (also when only the current value is 0, i.e. after a total loss). -/
theorem C58_returns (c p : K) :
    Metrics.returns (fin c : Ex K) (fin p) = fin (if p = 0 ∨ c = 0 then 0 else c / p - 1) := by
  unfold Metrics.returns
  by_cases h : p = 0 ∨ c = 0
  · rw [if_pos h, if_pos (by simpa using h)]; simp
  · push Not at h
    rw [if_neg (by simpa using h), if_neg (by tauto), fin_div _ _ h.1]; simp

/-- **C58.** In exact arithmetic the averages and the share of winners are the quotients by the counts. -/
theorem C58_averages (x : K) (n w : Nat) (hn : n ≠ 0) :
    Metrics.avgTrade (fin x : Ex K) n = some (fin (x / n)) ∧ Metrics.avgWinningTrade (fin x : Ex K) n = some (fin (x / n)) ∧
    Metrics.avgLosingTrade (fin x : Ex K) n = some (fin (x / n)) ∧
    (Metrics.percentProfitable w n : Option (Ex K)) = some (fin ((w : K) / n)) := by
  have h : (n : K) ≠ 0 := Nat.cast_ne_zero.mpr hn
  simp [Metrics.avgTrade, Metrics.avgWinningTrade, Metrics.avgLosingTrade, Metrics.percentProfitable, hn, fin_div _ _ h]

/-- **C58.** In exact arithmetic, after every tick of every run on finite prices with a capital `cap` other than 0: the net, gross, long
and short percentages are the respective profits over the initial capital, and the net percentage is gross profit minus gross loss and
also long plus short. -/
theorem C58_percents {cfg : StrategyConfig (Ex K)} {d : DataProvider (Ex K)} {sig : Nat → Option TradeDirection} {N : Nat}
    {st : Nat → Strategy (Ex K)} {cap : K} (h : Backtest cfg d sig N st) (hf : FinitePrices d) (hc : cfg.initialCapital = fin cap)
    (h0 : cap ≠ 0) {t : Nat} (ht : t < N) :
    ∃ net gross loss long short : K, (st t).metrics.netProfit = fin (net * cap) ∧ (st t).metrics.grossProfit = fin (gross * cap) ∧
      (st t).metrics.grossLoss = fin (loss * cap) ∧ (st t).metrics.longNetProfit = fin (long * cap) ∧
      (st t).metrics.shortNetProfit = fin (short * cap) ∧
      Metrics.netProfitPercent (st t).metrics.netProfit cfg.initialCapital = fin net ∧
      Metrics.grossProfitPercent (st t).metrics.grossProfit cfg.initialCapital = fin gross ∧
      Metrics.grossLossPercent (st t).metrics.grossLoss cfg.initialCapital = fin loss ∧
      Metrics.longNetProfitPercent (st t).metrics.longNetProfit cfg.initialCapital = fin long ∧
      Metrics.shortNetProfitPercent (st t).metrics.shortNetProfit cfg.initialCapital = fin short ∧
      net = gross - loss ∧ net = long + short := by
  obtain ⟨net, gross, loss, long, short, h1, h2, h3, h4, h5, h6, h7, _⟩ := C41_identities h hf hc ht
  refine ⟨net / cap, gross / cap, loss / cap, long / cap, short / cap, ?_⟩
  simp only [h1, h2, h3, h4, h5, hc, Metrics.netProfitPercent, Metrics.grossProfitPercent, Metrics.grossLossPercent,
    Metrics.longNetProfitPercent, Metrics.shortNetProfitPercent, fin_div _ _ h0, div_mul_cancel₀ _ h0, true_and]
  exact ⟨by rw [h6, sub_div], by rw [h7, add_div]⟩

end exactHelpers
end Pace
