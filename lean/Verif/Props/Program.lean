import Verif.Props.Io
import Verif.Props.Causal
import Verif.Props.Metrics3
import Verif.Props.Warmup
import Verif.Props.Signals
import Verif.Props.Content6

/-!
# C65: the complete backtest program
-/

set_option linter.unusedSectionVars false

namespace Pace
open Spec
variable {α : Type} [F64 α]

/-! ## The loop over a context -/

/-- Iterating handle `k` from round `n` on. -/
private structure AtRound (d : DataProvider α) (k n : Nat) (w : World) : Prop where
  handle : ∃ h, w.handles[k]? = some h ∧ h.firstBarIndex = 0 ∧ h.lastBarIndex = d.endTick
  running : w.isRunning = decide (0 < n)
  index : w.index = n - 1

private theorem atRound_next {d : DataProvider α} {k n : Nat} {w : World} (h : AtRound d k n w) :
    ∃ w', w.next k = .ok (if n ≤ d.endTick then some n else none, w') ∧
      ∀ i, n = i → AtRound d k (n + 1) { w' with index := i } := by
  obtain ⟨⟨hd, h1, h2, h3⟩, hr, hi⟩ := h
  cases n with
  | zero =>
    refine ⟨{ w with isRunning := true }, ?_, fun i hi' => ⟨⟨hd, h1, h2, h3⟩, by simp, by simp [← hi']⟩⟩
    simp [World.next, index, h1, hr, h2]
  | succ n =>
    refine ⟨{ w with index := w.index + 1 }, ?_, fun i hi' => ⟨⟨hd, h1, h2, h3⟩, by simp [hr], by simp [← hi']⟩⟩
    have e : w.index + 1 = n + 1 := by rw [hi]; rfl
    by_cases hle : n + 1 ≤ d.endTick <;> simp [World.next, index, h1, hr, h3, e, hle] <;> omega

private theorem loop_runFrom {P O : Type} {d : DataProvider α} {k : Nat} (body : Ctx α → P → Res (O × P)) :
    ∀ (m n : Nat) (w : World) (p : P) (os : List O), AtRound d k n w → n + m = d.endTick + 1 →
      ((∃ w' p', ForLoop d k body w p os w' p') ↔
        ∃ p', runFrom (noInput fun t => body ⟨d, t⟩) unit n m p = .ok (os, p'))
  | 0, n, w, p, os, h, hn => by
    obtain ⟨w', h1, -⟩ := atRound_next h
    rw [if_neg (by omega)] at h1
    constructor
    · rintro ⟨w'', p', hl⟩
      cases hl with
      | done _ => exact ⟨p, rfl⟩
      | round h2 _ _ => rw [h1] at h2; cases h2
    · rintro ⟨p', hp⟩
      simp only [runFrom, Except.ok.injEq, Prod.mk.injEq] at hp
      obtain ⟨rfl, rfl⟩ := hp
      exact ⟨w', p, .done h1⟩
  | m + 1, n, w, p, os, h, hn => by
    obtain ⟨w', h1, hw⟩ := atRound_next h
    rw [if_pos (by omega)] at h1
    have ih := fun p os => loop_runFrom body m (n + 1) _ p os (hw n rfl) (by omega)
    constructor
    · rintro ⟨w'', p'', hl⟩
      cases hl with
      | done h2 => rw [h1] at h2; cases h2
      | round h2 hb hl =>
        rw [h1] at h2
        cases h2
        obtain ⟨p', hp⟩ := (ih _ _).mp ⟨_, _, hl⟩
        exact ⟨p', by simp only [runFrom, noInput, hb, Res.ok_bind, hp, Res.pure_eq]⟩
    · rintro ⟨p', hp⟩
      simp only [runFrom, noInput] at hp
      cases hb : body ⟨d, n⟩ p with
      | error e => simp [hb] at hp
      | ok q =>
        obtain ⟨o, p1⟩ := q
        simp only [hb, Res.ok_bind] at hp
        cases hr : runFrom (noInput fun t => body ⟨d, t⟩) unit (n + 1) m p1 with
        | error e => simp [hr] at hp
        | ok q =>
          obtain ⟨os', p2⟩ := q
          simp only [hr, Res.ok_bind, Res.pure_eq, Except.ok.injEq, Prod.mk.injEq] at hp
          obtain ⟨rfl, rfl⟩ := hp
          obtain ⟨w2, p3, hl⟩ := (ih p1 os').mpr ⟨p2, hr⟩
          exact ⟨w2, p3, .round h1 hb hl⟩

/-- **C65.** The loop `for i in ctx.clone() { ctx.bar.index.set(i); body }` over in-memory data of `N` bars runs its body exactly
once on each of the ticks `0, ..., N-1`, in this order, each time with the shared bar index at that tick: it ends without panic
having returned `os` exactly if driving the body over these ticks returns `os`. -/
theorem C65_loop {P O : Type} {d : DataProvider α} (hs : d.startTick = 0) {N : Nat} (hN : d.endTick + 1 = N)
    (body : Ctx α → P → Res (O × P)) (p : P) (os : List O) :
    (∃ w w1 w2 p2, World.new d = .ok w ∧ w.clone 0 = .ok w1 ∧ ForLoop d 1 body w1 p os w2 p2) ↔
      outputs (noInput fun t => body ⟨d, t⟩) unit N (.ok p) = .ok os := by
  have hw : World.new d = .ok ⟨0, false, [⟨0, d.endTick, d.endTick + 1⟩]⟩ := by
    simp [World.new, hs, usub]
  have hc : World.clone ⟨0, false, [⟨0, d.endTick, d.endTick + 1⟩]⟩ 0 =
      .ok ⟨0, false, [⟨0, d.endTick, d.endTick + 1⟩, ⟨0, d.endTick, d.endTick + 1⟩]⟩ := by
    simp [World.clone, index]
  have h0 : AtRound d 1 0 ⟨0, false, [⟨0, d.endTick, d.endTick + 1⟩, ⟨0, d.endTick, d.endTick + 1⟩]⟩ :=
    ⟨⟨_, rfl, rfl, rfl⟩, rfl, rfl⟩
  have key := loop_runFrom body N 0 _ p os h0 (by omega)
  constructor
  · rintro ⟨w, w1, w2, p2, h1, h2, h3⟩
    rw [hw] at h1; cases h1
    rw [hc] at h2; cases h2
    obtain ⟨p', hp⟩ := key.mp ⟨_, _, h3⟩
    simp [outputs, run, hp]
  · intro h
    simp only [outputs, run, Res.ok_bind] at h
    cases hr : runFrom (noInput fun t => body ⟨d, t⟩) unit 0 N p with
    | error e => simp [hr] at h
    | ok q =>
      simp only [hr, Res.ok_bind, Res.pure_eq, Except.ok.injEq] at h
      obtain ⟨w2, p2, hl⟩ := key.mpr ⟨q.2, by rw [hr, ← h]⟩
      exact ⟨_, _, w2, p2, hw, hc, hl⟩

/-! ## One indicator, its signals, the runner, the metrics -/

section
variable {S Q O : Type} {ind : Ctx α → S → Res (O × S)} {sgn : Q → O → Option TradeDirection × Q} {ind0 : Res S} {q0 : Q}
variable {d : DataProvider α} {N : Nat} {o h l c v : Nat → α} {y : Nat → O} {sig : Nat → Option TradeDirection}

theorem program_runs (hy : Runs (noInput fun t => ind ⟨d, t⟩) ind0 unit N y) (hs : Runs (total sgn) (.ok q0) y N sig)
    (cfg : StrategyConfig α) (rfr : α) {st : Nat → Strategy α} (hst : Backtest cfg d sig N st) {tv : Nat → TvMetrics α}
    (htv : TvRun d cfg rfr st N tv) :
    Runs (noInput fun t => Program.next ind sgn ⟨d, t⟩) (Program.new ind0 q0 cfg rfr) unit N
      (fun t => (y t, sig t, st t, tv t)) := by
  obtain ⟨s, hs0, hs1⟩ := hy.trace
  obtain ⟨q, hq0, hq1⟩ := hs.trace
  have h3 := selfRun_step hst
  have h4 := selfRun_step htv
  cases hq0
  refine Runs.of_trace (fun t => ⟨s t, q t, prior (Strategy.new cfg) st t, prior (TvMetrics.new (Strategy.new cfg) rfr) tv t⟩)
    (by simp [Program.new, hs0, prior]) fun t ht => ?_
  have e1 := hs1 t ht
  have e2 : sgn (q t) (y t) = (sig t, q (t + 1)) := by simpa [total] using hq1 t ht
  simp only [noInput] at e1
  simp only [noInput, Program.next, e1, Res.ok_bind, e2, h3 t ht, h4 t ht, Res.pure_eq]
  rfl

/-- **C65.** On complete bars a backtest program never panics, whatever the configuration: on tick `t` its rounds return the
indicator's own output `y t`, the signal `sig t` that the strategy makes of these outputs, the runner's state of a backtest with
those signals, and the metrics of that backtest.  (So every theorem about `Backtest` and `TvRun` applies to the program.) -/
theorem C65_program (hb : Bars d N o h l c v) (hy : Runs (noInput fun t => ind ⟨d, t⟩) ind0 unit N y)
    (hs : Runs (total sgn) (.ok q0) y N sig) (cfg : StrategyConfig α) (rfr : α) :
    ∃ st tv, Backtest cfg d sig N st ∧ TvRun d cfg rfr st N tv ∧
      Runs (noInput fun t => Program.next ind sgn ⟨d, t⟩) (Program.new ind0 q0 cfg rfr) unit N
        (fun t => (y t, sig t, st t, tv t)) := by
  obtain ⟨st, hst⟩ := C57_strategy_complete cfg sig hb
  obtain ⟨tv, htv⟩ := (C57_tradingview_metrics hst rfr).mpr fun t ht _ =>
    ⟨⟨l t, hb.low t ht⟩, h t, hb.high t ht⟩
  exact ⟨st, tv, hst, htv, program_runs hy hs cfg rfr hst htv⟩

/-- **C65.** From the data frame to the results: if the frame's price and volume columns have `N ≥ 1` cells, none null or NaN,
and it has a time column whose times convert, the whole program runs to its end without panic, one round per row, and the rounds
return what `C65_program` says. -/
theorem C65_frame {fromSecs : α → Res Nat} {df : Frame α} {t : List (Option α)} (hN : 1 ≤ N)
    (hcols : Ohlcv df (hist (fun k => some (o k)) N) (hist (fun k => some (h k)) N) (hist (fun k => some (l k)) N)
      (hist (fun k => some (c k)) N) (hist (fun k => some (v k)) N) t)
    (hn : ∀ k, k < N → F64.feq (o k) (o k) = true ∧ F64.feq (h k) (h k) = true ∧ F64.feq (l k) (l k) = true ∧
      F64.feq (c k) (c k) = true ∧ F64.feq (v k) (v k) = true)
    (ht : ∀ x, some x ∈ t → F64.feq x x = true → ∃ n, fromSecs x = .ok n)
    (hy : ∀ d, Bars d N o h l c v → Runs (noInput fun t => ind ⟨d, t⟩) ind0 unit N y)
    (hs : Runs (total sgn) (.ok q0) y N sig) (cfg : StrategyConfig α) (rfr : α) :
    ∃ d st tv, DataProvider.fromDf fromSecs df = .ok d ∧ Bars d N o h l c v ∧ Backtest cfg d sig N st ∧ TvRun d cfg rfr st N tv ∧
      ∀ os, BacktestProgram fromSecs df ind0 ind q0 sgn cfg rfr os ↔ os = hist (fun t => (y t, sig t, st t, tv t)) N := by
  obtain ⟨d, hd⟩ := (C66_loads fromSecs df).mpr ⟨_, _, _, _, _, _, hcols, by simp [hist]; omega, ht⟩
  obtain ⟨hb, hst, hend⟩ := C66_bars hcols hn hd
  obtain ⟨st, tv, h1, h2, h3⟩ := C65_program hb (hy d hb) hs cfg rfr
  refine ⟨d, st, tv, hd, hb, h1, h2, fun os => ?_⟩
  have hp : ∃ p, Program.new ind0 q0 cfg rfr = .ok p := by
    obtain ⟨s, h0, -⟩ := h3.trace
    exact ⟨_, h0⟩
  obtain ⟨p, hp⟩ := hp
  have hl := C65_loop hst hend (Program.next ind sgn) p os
  unfold Runs at h3
  rw [hp] at h3
  constructor
  · rintro ⟨d', w, w1, p', w2, p2, e1, e2, e3, e4, e5⟩
    rw [hd] at e1; cases e1
    rw [hp] at e3; cases e3
    have := hl.mp ⟨w, w1, w2, p2, e2, e4, e5⟩
    rw [h3] at this
    exact (Except.ok.inj this).symm
  · rintro rfl
    obtain ⟨w, w1, w2, p2, e2, e4, e5⟩ := hl.mpr h3
    exact ⟨d, w, w1, p, w2, p2, hd, e2, hp, e4, e5⟩

/-- **C65.** In every arithmetic (in particular in IEEE binary64), with every configuration and every strategy: an indicator that
does not panic on complete bars makes a program that runs to its end, with exactly one round per row of the data frame. -/
theorem C65_ends {fromSecs : α → Res Nat} {df : Frame α} {t : List (Option α)} (hN : 1 ≤ N)
    (hcols : Ohlcv df (hist (fun k => some (o k)) N) (hist (fun k => some (h k)) N) (hist (fun k => some (l k)) N)
      (hist (fun k => some (c k)) N) (hist (fun k => some (v k)) N) t)
    (hn : ∀ k, k < N → F64.feq (o k) (o k) = true ∧ F64.feq (h k) (h k) = true ∧ F64.feq (l k) (l k) = true ∧
      F64.feq (c k) (c k) = true ∧ F64.feq (v k) (v k) = true)
    (ht : ∀ x, some x ∈ t → F64.feq x x = true → ∃ n, fromSecs x = .ok n)
    (hy : ∀ d, Bars d N o h l c v → ∃ y, Runs (noInput fun t => ind ⟨d, t⟩) ind0 unit N y) (q0 : Q)
    (sgn : Q → O → Option TradeDirection × Q) (cfg : StrategyConfig α) (rfr : α) :
    ∃ os, BacktestProgram fromSecs df ind0 ind q0 sgn cfg rfr os ∧ os.length = N := by
  obtain ⟨d, hd⟩ := (C66_loads fromSecs df).mpr ⟨_, _, _, _, _, _, hcols, by simp [hist]; omega, ht⟩
  obtain ⟨hb, hst, hend⟩ := C66_bars hcols hn hd
  obtain ⟨y, hy⟩ := hy d hb
  let q : Nat → Q := fun t => Nat.rec q0 (fun t q => (sgn q (y t)).2) t
  have hs : Runs (total sgn) (.ok q0) y N (fun t => (sgn (q t) (y t)).1) := Runs.of_trace q rfl fun t _ => rfl
  obtain ⟨st, tv, h1, h2, h3⟩ := C65_program hb hy hs cfg rfr
  obtain ⟨p, hp, -⟩ := h3.trace
  have h3' := h3
  unfold Runs at h3
  rw [hp] at h3
  obtain ⟨w, w1, w2, p2, e2, e4, e5⟩ := (C65_loop hst hend (Program.next ind sgn) (p 0) _).mpr h3
  exact ⟨_, ⟨d, w, w1, _, w2, p2, hd, e2, hp, e4, e5⟩, by simp⟩

/-- The indicators of `C63_defaults` meet the hypothesis, e.g. the MACD with its strategy on the signal line. -/
example {fromSecs : α → Res Nat} {df : Frame α} {t : List (Option α)} (hN : 1 ≤ N)
    (hcols : Ohlcv df (hist (fun k => some (o k)) N) (hist (fun k => some (h k)) N) (hist (fun k => some (l k)) N)
      (hist (fun k => some (c k)) N) (hist (fun k => some (v k)) N) t)
    (hn : ∀ k, k < N → F64.feq (o k) (o k) = true ∧ F64.feq (h k) (h k) = true ∧ F64.feq (l k) (l k) = true ∧
      F64.feq (c k) (c k) = true ∧ F64.feq (v k) (v k) = true)
    (ht : ∀ x, some x ∈ t → F64.feq x x = true → ∃ n, fromSecs x = .ok n) (cfg : StrategyConfig α) (rfr : α) :
    ∃ os, BacktestProgram fromSecs df Macd.default Macd.defaultNext MacdStrategy.new
      (fun q (i : Option α × Option α) => ThresholdStrategy.next q i.2) cfg rfr os ∧ os.length = N :=
  C65_ends hN hcols hn ht (fun d hb =>
    let ⟨y, z, hr, _⟩ := C63_macd hb .close .close .ema .ema .ema (a := 12) (b := 26) (g := 9) (by norm_num) (by norm_num) (by norm_num)
    ⟨_, hr⟩) _ _ cfg rfr

/-- **C65.** The program does not look ahead: on data sets that agree on the first `n` bars it makes the same trades and reports
the same metrics on the first `n` ticks. -/
theorem C65_no_look_ahead (hind : NoLookAhead' ind) : NoLookAhead' (Program.next (α := α) ind sgn) := by
  intro t d d' ha p _
  have hv := sameView_of_agree ha (Nat.lt_succ_self t)
  have e := hind t d d' ha p.indicator ()
  simp only at e
  simp only [Program.next, e, hv.strategy, hv.tv]

end

/-! ## The project's example: RSI of the close with both thresholds 50 -/

section
variable {K : Type} [Field K] [LinearOrder K] [IsStrictOrderedRing K] [RootOps K]

/-- The average gain and the average loss up to tick `t` that the RSI of length `len` is made of. -/
def Spec.avgGain (len : Nat) (p : Nat → K) (t : Nat) : K := wilder len (gain p) (t - len)
def Spec.avgLoss (len : Nat) (p : Nat → K) (t : Nat) : K := wilder len (loss p) (t - len)

/-- What the example program trades on: Long on the tick on which the average gain overtakes the average loss, Short on the tick
on which it falls behind; on the tick before, the two must not both be 0 (the RSI is not a number there). -/
structure Spec.RsiSignals (p : Nat → K) (N : Nat) (sig : Nat → Option TradeDirection) : Prop where
  long : ∀ t, t < N → (sig t = some .long ↔ 15 ≤ t ∧ ¬ (avgGain 14 p (t - 1) = 0 ∧ avgLoss 14 p (t - 1) = 0) ∧
    avgGain 14 p (t - 1) ≤ avgLoss 14 p (t - 1) ∧ avgLoss 14 p t < avgGain 14 p t)
  short : ∀ t, t < N → (sig t = some .short ↔ 15 ≤ t ∧ ¬ (avgGain 14 p (t - 1) = 0 ∧ avgLoss 14 p (t - 1) = 0) ∧
    avgLoss 14 p (t - 1) ≤ avgGain 14 p (t - 1) ∧ avgGain 14 p t < avgLoss 14 p t)

/-- The RSI of length 14: `100 U / (U + D)` for the average gain `U` and loss `D`, not a number if both are 0. -/
def Spec.rsiAt (p : Nat → K) (t : Nat) : Ex K :=
  if avgGain 14 p t = 0 ∧ avgLoss 14 p t = 0 then Fl.of _ .nan
  else fin (100 * avgGain 14 p t / (avgGain 14 p t + avgLoss 14 p t))

private theorem avgGain_nonneg (p : Nat → K) (t : Nat) : 0 ≤ avgGain 14 p t :=
  wilder_nonneg (by norm_num) (fun _ => le_max_right _ _) _
private theorem avgLoss_nonneg (p : Nat → K) (t : Nat) : 0 ≤ avgLoss 14 p t :=
  wilder_nonneg (by norm_num) (fun _ => le_max_right _ _) _

private theorem avg_pos (p : Nat → K) (t : Nat) (h : ¬ (avgGain 14 p t = 0 ∧ avgLoss 14 p t = 0)) :
    0 < avgGain 14 p t + avgLoss 14 p t := by
  have h1 := avgGain_nonneg p t
  have h2 := avgLoss_nonneg p t
  rcases h1.lt_or_eq with h1' | h1'
  · linarith
  · rcases h2.lt_or_eq with h2' | h2'
    · linarith
    · exact absurd ⟨h1'.symm, h2'.symm⟩ h

private theorem rsi_cmp (p : Nat → K) (t : Nat) :
    (F64.le (rsiAt p t) (fin 50) = true ↔ ¬ (avgGain 14 p t = 0 ∧ avgLoss 14 p t = 0) ∧ avgGain 14 p t ≤ avgLoss 14 p t) ∧
    (F64.lt (fin 50) (rsiAt p t) = true ↔ avgLoss 14 p t < avgGain 14 p t) ∧
    (F64.le (fin 50) (rsiAt p t) = true ↔ ¬ (avgGain 14 p t = 0 ∧ avgLoss 14 p t = 0) ∧ avgLoss 14 p t ≤ avgGain 14 p t) ∧
    (F64.lt (rsiAt p t) (fin 50) = true ↔ avgGain 14 p t < avgLoss 14 p t) := by
  unfold rsiAt
  split
  · next h =>
    refine ⟨?_, ?_, ?_, ?_⟩ <;> simp only [h, not_true_eq_false, false_and, iff_false, and_self, lt_self_iff_false] <;>
      simp [F64.le, F64.lt, Ext.le, Ext.lt, Fl.of, fin]
  · next h =>
    have hp := avg_pos p t h
    simp only [fin_le, fin_lt, decide_eq_true_eq, h, not_false_eq_true, true_and, div_le_iff₀ hp, lt_div_iff₀ hp, le_div_iff₀ hp,
      div_lt_iff₀ hp]
    refine ⟨⟨fun h => by linarith, fun h => by linarith⟩, ⟨fun h => by linarith, fun h => by linarith⟩,
      ⟨fun h => by linarith, fun h => by linarith⟩, ⟨fun h => by linarith, fun h => by linarith⟩⟩

theorem example_rsi {d : DataProvider (Ex K)} {N : Nat} {o h l c v : Nat → K} (hb : ExBars d N o h l c v) :
    Runs (noInput fun t => RelativeStrengthIndex.defaultNext ⟨d, t⟩) RelativeStrengthIndex.default unit N
      (startAt 14 (rsiAt c)) := by
  obtain ⟨y, h1, h2, h3⟩ := C34_rsi_exact d (len := 14) (by norm_num) c N
  have h4 : Runs (noInput fun t => withSrc .close RelativeStrengthIndex.next ⟨d, t⟩) (Rsi.new 14) unit N y :=
    withSrc_runs (src_exact hb .close) h1
  refine (h4 :).congr fun t ht => ?_
  unfold startAt
  split
  · next hlt => exact h2 t ht hlt
  · next hge =>
    obtain ⟨n, rfl⟩ : ∃ n, t = 14 + n := ⟨t - 14, by omega⟩
    rw [h3 n ht, rsiAt, avgGain, avgLoss, Nat.add_sub_cancel_left]

theorem example_signals (p : Nat → K) (N : Nat) :
    ∃ sig, Runs (total ThresholdStrategy.next) (.ok (RelativeStrengthIndexStrategy.new (exampleThresholds : Thresholds (Ex K))))
      (startAt 14 (rsiAt p)) N sig ∧ RsiSignals p N sig := by
  obtain ⟨sig, h1, h2⟩ := thresholdStrategy_runs (fin 50 : Ex K) (fin 50) (startAt 14 (rsiAt p)) N
  have e : RelativeStrengthIndexStrategy.new (exampleThresholds : Thresholds (Ex K)) = ThresholdStrategy.mk' (fin 50) (fin 50) := by
    simp [RelativeStrengthIndexStrategy.new, exampleThresholds]
  refine ⟨sig, by rw [e]; exact h1, ?_⟩
  have h3 := C55_no_conflict (R := Rounding.exact K) (long := fin 50) (short := fin 50) (by simp) h2
  constructor
  · intro t ht
    rw [(h2 t ht).1]
    constructor
    · rintro ⟨s, a, b, rfl, ha, hb, hle, hlt⟩
      simp only [startAt] at ha hb
      split at ha
      · simp at ha
      · split at hb
        · simp at hb
        · cases ha; cases hb
          have := (rsi_cmp p s).1.mp hle
          exact ⟨by omega, this.1, this.2, (rsi_cmp p (s + 1)).2.1.mp hlt⟩
    · rintro ⟨h15, hne, hle, hlt⟩
      refine ⟨t - 1, rsiAt p (t - 1), rsiAt p t, by omega, by rw [startAt, if_neg (by omega)], by rw [startAt, if_neg (by omega)],
        (rsi_cmp p (t - 1)).1.mpr ⟨hne, hle⟩, (rsi_cmp p t).2.1.mpr hlt⟩
  · intro t ht
    rw [h3 t ht]
    constructor
    · rintro ⟨s, a, b, rfl, ha, hb, hle, hlt⟩
      simp only [startAt] at ha hb
      split at ha
      · simp at ha
      · split at hb
        · simp at hb
        · cases ha; cases hb
          have := (rsi_cmp p s).2.2.1.mp hle
          exact ⟨by omega, this.1, this.2, (rsi_cmp p (s + 1)).2.2.2.mp hlt⟩
    · rintro ⟨h15, hne, hle, hlt⟩
      refine ⟨t - 1, rsiAt p (t - 1), rsiAt p t, by omega, by rw [startAt, if_neg (by omega)], by rw [startAt, if_neg (by omega)],
        (rsi_cmp p (t - 1)).2.2.1.mpr ⟨hne, hle⟩, (rsi_cmp p t).2.2.2.mpr hlt⟩

private theorem ledger_before (cfg : StrategyConfig α) (d : DataProvider α) {sig : Nat → Option TradeDirection} {n : Nat}
    (hc : cfg.onBarClose = false) (hs : ∀ t, t < n → sig t = none) : ∀ t, t ≤ n + 1 → ledger cfg d sig t = ⟨[], none⟩
  | 0, _ => rfl
  | t + 1, ht => by
    have ho : order cfg sig t = none := by
      unfold order
      rw [hc, if_neg (by simp)]
      split
      · rfl
      · exact hs _ (by omega)
    rw [ledger, ledger_before cfg d hc hs t (by omega), ho]
    rfl

/-- How the example program trades: one unit per trade, continuously, at the open of the next bar, with a capital of 1000. -/
def Spec.exampleRules : StrategyConfig (Ex K) :=
  { initialCapital := fin 1000, onBarClose := false, continous := true, buyWithEquity := false }

private theorem exampleConfig_eq : (exampleConfig : StrategyConfig (Ex K)) = exampleRules := by
  simp [exampleConfig, StrategyConfig.default, exampleRules]

/-- **C65.** The configuration a program gets when it sets none of the options: the run it gives is the one under the
rules stated by `exampleRules`, so one unit per trade, continuously, at the open of the next bar, with a capital of 1000. -/
theorem C65_default_config {d : DataProvider (Ex K)} {sig : Nat → Option TradeDirection} {N : Nat} {st : Nat → Strategy (Ex K)}
    (h : Backtest StrategyConfig.default d sig N st) : Backtest exampleRules d sig N st := by
  have e : (StrategyConfig.default : StrategyConfig (Ex K)) = exampleRules := by simp [StrategyConfig.default, exampleRules]
  exact e ▸ h

/-- **C65.** The project's example program, in exact arithmetic, on every data frame with `N ≥ 1` complete rows: it runs to its
end without panic; it goes Long when the average gain of the closes overtakes the average loss and Short when it falls behind;
its trades are those of the position state machine for these signals, each filled at the open of the bar after the signal, and
none is entered before tick 16. -/
theorem C65_example {fromSecs : Ex K → Res Nat} {df : Frame (Ex K)} {time : List (Option (Ex K))} {N : Nat} (hN : 1 ≤ N)
    {o h l c v : Nat → K}
    (hcols : Ohlcv df (hist (fun k => some (fin (o k))) N) (hist (fun k => some (fin (h k))) N) (hist (fun k => some (fin (l k))) N)
      (hist (fun k => some (fin (c k))) N) (hist (fun k => some (fin (v k))) N) time)
    (ht : ∀ x, some x ∈ time → F64.feq x x = true → ∃ n, fromSecs x = .ok n) :
    ∃ d sig st tv, DataProvider.fromDf fromSecs df = .ok d ∧ RsiSignals c N sig ∧
      (∀ os, BacktestProgram fromSecs df RelativeStrengthIndex.default RelativeStrengthIndex.defaultNext
        (RelativeStrengthIndexStrategy.new exampleThresholds) ThresholdStrategy.next exampleConfig (lit 0) os ↔
          os = hist (fun t => (startAt 14 (rsiAt c) t, sig t, st t, tv t)) N) ∧
      Backtest exampleRules d sig N st ∧ TvRun d exampleRules (fin 0) st N tv ∧
      (∀ t, t < N → (st t).trades = (ledger exampleRules d sig (t + 1)).trades) ∧
      ∀ t, t < N → t < 16 → (st t).trades = [] ∧ (st t).metrics.equity = fin 1000 := by
  obtain ⟨sig, hs, hrule⟩ := example_signals c N
  obtain ⟨d, st, tv, hd, hb, hst, htv, hos⟩ := C65_frame (ind := RelativeStrengthIndex.defaultNext)
    (ind0 := RelativeStrengthIndex.default) (sgn := ThresholdStrategy.next) (o := fun t => fin (o t)) (h := fun t => fin (h t))
    (l := fun t => fin (l t)) (c := fun t => fin (c t)) (v := fun t => fin (v t)) hN hcols (fun k _ => by simp) ht
    (fun d hb => example_rsi hb) hs exampleConfig (lit 0)
  rw [exampleConfig_eq] at hst htv
  rw [fin_lit, Rat.cast_zero] at htv
  refine ⟨d, sig, st, tv, hd, hrule, hos, hst, htv, fun t ht => C39_refines hst ht, fun t ht h16 => ?_⟩
  suffices hnil : (st t).trades = [] by
    obtain ⟨e1, e2, _⟩ := C42_equity hst ht
    have e3 := (C40_statistics hst ht).netProfit
    rw [hnil] at e2 e3
    have e3 : (st t).metrics.netProfit = lit 0 := e3
    rw [e3, e2 (by simp)] at e1
    exact ⟨hnil, by simpa [exampleRules] using e1⟩
  rw [C39_refines hst ht, ledger_before (n := min N 15) _ _ rfl (fun k hk => ?_) (t + 1) (by omega)]
  · rfl
  · have h1 := hrule.long k (by omega)
    have h2 := hrule.short k (by omega)
    cases hk' : sig k with
    | none => rfl
    | some dir =>
      cases dir with
      | long => have := (h1.mp hk').1; omega
      | short => have := (h2.mp hk').1; omega

/-- Closes that fall for 14 ticks and then jump. -/
private def exClose (t : Nat) : ℚ := if t ≤ 14 then 100 - t else 200

/-- The hypotheses of `C65_example` are met, and the program does trade: on the 20 rows below the signal of tick 15 is Long, so a
long trade is entered on tick 16. -/
example :
    Ohlcv (⟨[("time", hist (fun _ => none) 20), ("open", hist (fun k => some (fin (exClose k))) 20),
        ("high", hist (fun k => some (fin (exClose k))) 20), ("low", hist (fun k => some (fin (exClose k))) 20),
        ("close", hist (fun k => some (fin (exClose k))) 20), ("volume", hist (fun _ => some (fin 1)) 20)]⟩ : Frame (Ex ℚ))
      (hist (fun k => some (fin (exClose k))) 20) (hist (fun k => some (fin (exClose k))) 20)
      (hist (fun k => some (fin (exClose k))) 20) (hist (fun k => some (fin (exClose k))) 20) (hist (fun _ => some (fin 1)) 20)
      (hist (fun _ => none) 20) ∧
    ∀ sig, RsiSignals exClose 20 sig → sig 15 = some .long :=
  ⟨⟨rfl, rfl, rfl, rfl, rfl, rfl⟩, fun sig h => (h.long 15 (by norm_num)).mpr (by
    refine ⟨le_rfl, ?_⟩
    have e1 : avgGain 14 exClose 14 = 0 := by decide +kernel
    have e2 : avgLoss 14 exClose 14 = 1 := by decide +kernel
    have e3 : avgLoss 14 exClose 15 < avgGain 14 exClose 15 := by decide +kernel
    rw [show 15 - 1 = 14 from rfl, e1, e2]
    exact ⟨by norm_num, by norm_num, e3⟩)⟩

end
end Pace
