import Verif.Props.AccuracyOscillators
import Verif.Props.AccuracyRsi

/-!
# C92 and C94: oscillator programs in floats against the same programs in exact arithmetic

The lines of C94 put into programs: source, indicator, threshold strategy, runner and metrics.
-/

set_option linter.unusedSectionVars false

namespace Pace
open Spec
variable {K : Type} [Field K] [LinearOrder K] [IsStrictOrderedRing K] [RootOps K] {R : Rounding K}
variable {α : Type} [F64 α]

/-- Two programs of an indicator and a signal strategy, one on floats and one in exact arithmetic, run over `N` bars without panic, both
signal `sig t` on every tick `t`, and the states of their runners are those of a backtest with these signals. -/
def Spec.SameSignals {S Q O Sx Qx Ox : Type} (d : DataProvider α) (dx : DataProvider (Ex K)) (N : Nat)
    (ind : Ctx α → S → Res (O × S)) (ind0 : Res S) (sgn : Q → O → Option TradeDirection × Q) (q : Q) (cfg : StrategyConfig α) (rfr : α)
    (indx : Ctx (Ex K) → Sx → Res (Ox × Sx)) (indx0 : Res Sx) (sgnx : Qx → Ox → Option TradeDirection × Qx) (qx : Qx) (cfgx : StrategyConfig (Ex K))
    (rfrx : Ex K) (sig : Nat → Option TradeDirection) : Prop :=
  ∃ (y : Nat → O) (st : Nat → Strategy α) (tv : Nat → TvMetrics α) (yx : Nat → Ox) (stx : Nat → Strategy (Ex K)) (tvx : Nat → TvMetrics (Ex K)),
    Runs (noInput fun t => Program.next ind sgn ⟨d, t⟩) (Program.new ind0 q cfg rfr) unit N (fun t => (y t, sig t, st t, tv t)) ∧
    Runs (noInput fun t => Program.next indx sgnx ⟨dx, t⟩) (Program.new indx0 qx cfgx rfrx) unit N (fun t => (yx t, sig t, stx t, tvx t)) ∧
    Backtest cfg d sig N st ∧ Backtest cfgx dx sig N stx

section
variable {V : Valued R α} {u η top : K} (A : R.Accurate u η top) (L : R.Lawful)

/-- **C92.** Any indicator whose floats stay within `e` of a line `w` that it gives exactly in exact arithmetic, with any of the threshold
strategies: if the line keeps farther than `e` from both thresholds, both programs signal the same on every tick. -/
theorem C92_line_program {S Sx : Type} {d : DataProvider α} {dx : DataProvider (Ex K)} {N : Nat} {o' h' l' c' v' : Nat → α} (hb : Bars d N o' h' l' c' v')
    {o h l c v : Nat → K} (hx : ExBars dx N o h l c v) {ind : Ctx α → S → Res (Option α × S)} {ind0 : Res S} {y : Nat → Option α}
    (r : Runs (noInput fun t => ind ⟨d, t⟩) ind0 unit N y) {s : Nat} {w : Nat → K} {e : K} (near : StaysNear V y s w e N)
    {indx : Ctx (Ex K) → Sx → Res (Option (Ex K) × Sx)} {indx0 : Res Sx} (rx : Runs (noInput fun t => indx ⟨dx, t⟩) indx0 unit N (flo (startAt s w)))
    {th : Thresholds α} {thx : Thresholds (Ex K)} {lo hi : K} (h1 : V.val th.oversold = Fl.of R (.fin lo)) (h2 : V.val th.overbought = Fl.of R (.fin hi))
    (h3 : thx.oversold = fin lo) (h4 : thx.overbought = fin hi) (far : ∀ t, t < N → s ≤ t → e < |w t - lo| ∧ e < |w t - hi|)
    (cfg : StrategyConfig α) (cfgx : StrategyConfig (Ex K)) (rfr : α) (rfrx : Ex K) :
    SameSignals d dx N ind ind0 ThresholdStrategy.next (.mk' th.oversold th.overbought) cfg rfr indx indx0 ThresholdStrategy.next (.mk' thx.oversold thx.overbought) cfgx rfrx (lineSignal s w lo hi) ∧
    SameSignals d dx N ind ind0 ThresholdStrategy.next (.mk' th.overbought th.oversold) cfg rfr indx indx0 ThresholdStrategy.next (.mk' thx.overbought thx.oversold) cfgx rfrx (lineSignal s w hi lo) := by
  have s1 := C92_signals near h1 h2 far
  have s2 := C92_signals_exact s w thx h3 h4 N
  constructor
  · obtain ⟨st, tv, t1, -, t2⟩ := C65_program hb r (s1.1 RelativeStrengthIndexStrategy.new (by simp)) cfg rfr
    obtain ⟨stx, tvx, t3, -, t4⟩ := C65_program hx rx (s2.1 RelativeStrengthIndexStrategy.new (by simp)) cfgx rfrx
    exact ⟨_, st, tv, _, stx, tvx, t2, t4, t1, t3⟩
  · obtain ⟨st, tv, t1, -, t2⟩ := C65_program hb r s1.2 cfg rfr
    obtain ⟨stx, tvx, t3, -, t4⟩ := C65_program hx rx s2.2.1 cfgx rfrx
    exact ⟨_, st, tv, _, stx, tvx, t2, t4, t1, t3⟩

include A L in
/-- **C94.** The Williams %R program: the signals of the exact line, where it keeps farther than the error of C94_williams from both
thresholds. -/
theorem C94_williams_program {d : DataProvider α} {N : Nat} {o h l c v : Nat → K} {M : K} (hb : PricedBars V d N o h l c v M) (hM : 0 ≤ M)
    {dx : DataProvider (Ex K)} (hx : ExBars dx N o h l c v)
    (hw : WellFormed o h l c) (h8M : 8 * (M + η) ≤ top) (htop : 1024 ≤ top) {src : SrcKind} (hs : src ≠ .volume) {n : Nat} (hn : 1 ≤ n)
    {m : K} (hm : 0 < m) (hδm : 40 * (u * M + η) ≤ m)
    (wide : ∀ t, t < N → ∀ hi lo, Spec.highest (fun t => some (h t)) n t = some hi → Spec.lowest (fun t => some (l t)) n t = some lo → m ≤ hi - lo)
    {th : Thresholds α} {thx : Thresholds (Ex K)} {lo hi : K} (h1 : V.val th.oversold = Fl.of R (.fin lo)) (h2 : V.val th.overbought = Fl.of R (.fin hi))
    (h3 : thx.oversold = fin lo) (h4 : thx.overbought = fin hi)
    (far : ∀ t, t < N → n - 1 ≤ t → 3030 * ((u * M + η) / m) + 303 * u < |williamsLine n h l (sourceValue src o h l c v) t - lo| ∧
      3030 * ((u * M + η) / m) + 303 * u < |williamsLine n h l (sourceValue src o h l c v) t - hi|)
    (cfg : StrategyConfig α) (cfgx : StrategyConfig (Ex K)) (rfr : α) (rfrx : Ex K) :
    SameSignals d dx N (withSrc src WilliamsPercentRank.next) (WilliamsPercentRank.new n) ThresholdStrategy.next (WilliamsPercentRankStrategy.new th) cfg rfr
      (withSrc src WilliamsPercentRank.next) (WilliamsPercentRank.new n) ThresholdStrategy.next (WilliamsPercentRankStrategy.new thx) cfgx rfrx
      (lineSignal (n - 1) (williamsLine n h l (sourceValue src o h l c v)) hi lo) := by
  obtain ⟨y, r, near⟩ := C94_williams A L hb hM hw h8M htop hs hn hm hδm wide
  obtain ⟨o', h', l', c', v', b, -⟩ := hb.bars
  refine (C92_line_program b hx r near ?_ h1 h2 h3 h4 far cfg cfgx rfr rfrx).2
  refine (withSrc_runs (next := WilliamsPercentRank.next) (src_exact hx src) (C53_williams_exact hx hn fun t => some (sourceValue src o h l c v t))).congr fun t ht => ?_
  show _ = Option.map fin (startAt (n - 1) _ t)
  unfold startAt
  by_cases hts : t < n - 1
  · rw [if_pos hts]
    unfold Spec.highest
    rw [if_neg (show ¬ n ≤ t + 1 by omega)]
    rfl
  · rw [if_neg hts]
    obtain ⟨p, p1, -⟩ := highest_complete hn (show n ≤ t + 1 by omega) (x := h)
    obtain ⟨q, q1, -⟩ := lowest_complete hn (show n ≤ t + 1 by omega) (x := l)
    have hpq := wide t ht p q p1 q1
    unfold williamsLine
    rw [p1, q1]
    have hne : p ≠ q := fun e => by rw [e] at hpq; linarith
    simp [opt3, hne]

include A in
/-- **C94.** The balance of power program on bars that all have a range of at least `m`. -/
theorem C94_balance_of_power_program {d : DataProvider α} {N : Nat} {o h l c v : Nat → K} {M : K} (hb : PricedBars V d N o h l c v M)
    {dx : DataProvider (Ex K)} (hx : ExBars dx N o h l c v)
    (hw : WellFormed o h l c) (h2M : 2 * M ≤ top) (htop : 2 ≤ top) {m : K} (hm : 0 < m) (hδm : 16 * (u * M + η) ≤ m) (wide : ∀ t, t < N → m ≤ h t - l t)
    {th : Thresholds α} {thx : Thresholds (Ex K)} {lo hi : K} (h1 : V.val th.oversold = Fl.of R (.fin lo)) (h2 : V.val th.overbought = Fl.of R (.fin hi))
    (h3 : thx.oversold = fin lo) (h4 : thx.overbought = fin hi)
    (far : ∀ t, t < N → 12 * ((u * M + η) / m) + 2 * u < |(c t - o t) / (h t - l t) - lo| ∧ 12 * ((u * M + η) / m) + 2 * u < |(c t - o t) / (h t - l t) - hi|)
    (cfg : StrategyConfig α) (cfgx : StrategyConfig (Ex K)) (rfr : α) (rfrx : Ex K) :
    SameSignals d dx N (fun c (s : Unit) => do return (← BalanceOfPower.next c, s)) (.ok ()) ThresholdStrategy.next (BalanceOfPowerStrategy.new th) cfg rfr
      (fun c (s : Unit) => do return (← BalanceOfPower.next c, s)) (.ok ()) ThresholdStrategy.next (BalanceOfPowerStrategy.new thx) cfgx rfrx
      (lineSignal 0 (fun t => (c t - o t) / (h t - l t)) lo hi) := by
  obtain ⟨y, r, near⟩ := C94_balance_of_power A hb hw h2M htop hm hδm wide
  obtain ⟨o', h', l', c', v', b, -⟩ := hb.bars
  refine (C92_line_program b hx (y := y) (Runs.of_trace (fun _ => ()) rfl fun t ht => ?_) near (Runs.of_trace (fun _ => ()) rfl fun t ht => ?_)
    h1 h2 h3 h4 (fun t ht _ => far t ht) cfg cfgx rfr rfrx).1
  · simp only [noInput, r t ht, Res.ok_bind, Res.pure_eq]
  · have hmt := wide t ht
    have hne : h t ≠ l t := fun e => by rw [e] at hmt; linarith
    simp only [noInput, (C54_balance_of_power hx hw ht).1, Res.ok_bind, Res.pure_eq, if_neg hne]
    rfl

include A L in
/-- **C94.** The awesome oscillator program with any two averages and price sources. -/
theorem C94_awesome_program {d : DataProvider α} {N : Nat} {o h l c v : Nat → K} {M : K} (hb : PricedBars V d N o h l c v M) (hM : 0 ≤ M)
    {dx : DataProvider (Ex K)} (hx : ExBars dx N o h l c v)
    {ss sl : SrcKind} (hss : ss ≠ .volume) (hsl : sl ≠ .volume) (ka kb : MaKind) {a b k : Nat} (ha : 1 ≤ a) (hb' : 1 ≤ b)
    (hk : a + b + N + 1 ≤ k) (hr : Room u η top k M)
    {th : Thresholds α} {thx : Thresholds (Ex K)} {lo hi : K} (h1 : V.val th.oversold = Fl.of R (.fin lo)) (h2 : V.val th.overbought = Fl.of R (.fin hi))
    (h3 : thx.oversold = fin lo) (h4 : thx.overbought = fin hi) :
    let diff := fun t => average ka a 0 (sourceValue ss o h l c v) t - average kb b 0 (sourceValue sl o h l c v) t
    let e := (38 + 4 * (slack ka a N + slack kb b N)) * (u * M + η)
    (∀ t, t < N → max (maLength ka a) (maLength kb b) ≤ t → e < |diff t - diff (t - 1) - lo| ∧ e < |diff t - diff (t - 1) - hi|) →
    ∀ (cfg : StrategyConfig α) (cfgx : StrategyConfig (Ex K)) (rfr : α) (rfrx : Ex K),
    SameSignals d dx N (withSrc2 ss sl AwesomeOscillator.next) (do let l ← Ma.new kb b; let s ← Ma.new ka a; return .new s l)
      ThresholdStrategy.next (AwesomeOscillatorStrategy.new th) cfg rfr
      (withSrc2 ss sl AwesomeOscillator.next) (do let l ← Ma.new kb b; let s ← Ma.new ka a; return .new s l) ThresholdStrategy.next (AwesomeOscillatorStrategy.new thx) cfgx rfrx
      (lineSignal (max (maLength ka a) (maLength kb b)) (fun t => diff t - diff (t - 1)) lo hi) := by
  intro diff e far cfg cfgx rfr rfrx
  obtain ⟨y, r, near⟩ := C94_awesome A L hb hM hss hsl ka kb ha hb' hk hr
  obtain ⟨o', h', l', c', v', b, -⟩ := hb.bars
  exact (C92_line_program b hx r near (C53_awesome_oscillator_exact hx ss sl ka kb ha hb') h1 h2 h3 h4 far cfg cfgx rfr rfrx).1

include A L in
/-- **C94.** The price oscillator program with any two averages and any price source, where the exact long average is never below `m` in size. -/
theorem C94_price_oscillator_program {d : DataProvider α} {N : Nat} {o h l c v : Nat → K} {M : K} (hb : PricedBars V d N o h l c v M) (hM : 0 ≤ M)
    {dx : DataProvider (Ex K)} (hx : ExBars dx N o h l c v)
    {src : SrcKind} (hs : src ≠ .volume) (ka kb : MaKind) {a b k : Nat} (ha : 1 ≤ a) (hb' : 1 ≤ b) (hk : a + b + N + 1 ≤ k) (hr : Room u η top k M)
    {m : K} (hm : 0 < m) (hEm : 2 * ((16 + 2 * (slack ka a N + slack kb b N)) * (u * M + η)) ≤ m) (htop : 400 * (1 + 2 * M / m) ≤ top)
    (away : ∀ t, t < N → max (maLength ka a) (maLength kb b) ≤ t + 1 → m ≤ |average kb b 0 (sourceValue src o h l c v) t|)
    {th : Thresholds α} {thx : Thresholds (Ex K)} {lo hi : K} (h1 : V.val th.oversold = Fl.of R (.fin lo)) (h2 : V.val th.overbought = Fl.of R (.fin hi))
    (h3 : thx.oversold = fin lo) (h4 : thx.overbought = fin hi) :
    let short := average ka a 0 (sourceValue src o h l c v)
    let long := average kb b 0 (sourceValue src o h l c v)
    let e := 202 * (((16 + 2 * (slack ka a N + slack kb b N)) * (u * M + η) / m + u) * (1 + 2 * M / m))
    (∀ t, t < N → max (maLength ka a) (maLength kb b) - 1 ≤ t →
      e < |100 * (short t - long t) / long t - lo| ∧ e < |100 * (short t - long t) / long t - hi|) →
    ∀ (cfg : StrategyConfig α) (cfgx : StrategyConfig (Ex K)) (rfr : α) (rfrx : Ex K),
    SameSignals d dx N (withSrc src PriceOscillator.next) (do let l ← Ma.new kb b; let s ← Ma.new ka a; return ⟨s, l⟩)
      ThresholdStrategy.next (PriceOscillatorStrategy.new th) cfg rfr
      (withSrc src PriceOscillator.next) (do let l ← Ma.new kb b; let s ← Ma.new ka a; return ⟨s, l⟩) ThresholdStrategy.next (PriceOscillatorStrategy.new thx) cfgx rfrx
      (lineSignal (max (maLength ka a) (maLength kb b) - 1) (fun t => 100 * (short t - long t) / long t) lo hi) := by
  intro short long e far cfg cfgx rfr rfrx
  obtain ⟨y, r, near⟩ := C94_price_oscillator A L hb hM hs ka kb ha hb' hk hr hm hEm htop away
  obtain ⟨o', h', l', c', v', b1, -⟩ := hb.bars
  obtain ⟨yx, rx, sx, vx⟩ := C53_price_oscillator_exact hx src ka kb ha hb'
  refine (C92_line_program b1 hx r near (rx.congr fun t ht => ?_) h1 h2 h3 h4 far cfg cfgx rfr rfrx).1
  show _ = Option.map fin (startAt _ _ t)
  unfold startAt
  have p1 := maLength_pos ka ha
  by_cases hts : t < max (maLength ka a) (maLength kb b) - 1
  · rw [if_pos hts]
    have := (sx t).not.mpr (by omega)
    cases hy : yx t with
    | none => rfl
    | some z => rw [hy] at this; exact absurd rfl this
  · rw [if_neg hts]
    have hmt := away t ht (by omega)
    exact (vx t (by omega)).1 fun e => by
      have e' : average kb b 0 (sourceValue src o h l c v) t = 0 := e
      rw [e', abs_zero] at hmt; linarith

include A L in
/-- **C94.** The volume oscillator program with any two averages, where the exact long average is never below `m` in size. -/
theorem C94_volume_oscillator_program {d : DataProvider α} {N : Nat} {o h l c v : Nat → K} {M W : K} (hb : PricedBars V d N o h l c v M) (hW0 : 0 ≤ W)
    {dx : DataProvider (Ex K)} (hx : ExBars dx N o h l c v)
    (hW : ∀ t, t < N → |v t| ≤ W) (ka kb : MaKind) {a b k : Nat} (ha : 1 ≤ a) (hb' : 1 ≤ b) (hk : a + b + N + 1 ≤ k) (hr : Room u η top k W)
    {m : K} (hm : 0 < m) (hEm : 2 * ((6 + 2 * (slack ka a N + slack kb b N)) * (u * W + η)) ≤ m) (htop : 400 * (1 + 2 * W / m) ≤ top)
    (away : ∀ t, t < N → max (maLength ka a) (maLength kb b) ≤ t + 1 → m ≤ |average kb b 0 v t|)
    {th : Thresholds α} {thx : Thresholds (Ex K)} {lo hi : K} (h1 : V.val th.oversold = Fl.of R (.fin lo)) (h2 : V.val th.overbought = Fl.of R (.fin hi))
    (h3 : thx.oversold = fin lo) (h4 : thx.overbought = fin hi) :
    let short := average ka a 0 v
    let long := average kb b 0 v
    let e := 202 * (((6 + 2 * (slack ka a N + slack kb b N)) * (u * W + η) / m + u) * (1 + 2 * W / m))
    (∀ t, t < N → max (maLength ka a) (maLength kb b) - 1 ≤ t →
      e < |100 * (short t - long t) / long t - lo| ∧ e < |100 * (short t - long t) / long t - hi|) →
    ∀ (cfg : StrategyConfig α) (cfgx : StrategyConfig (Ex K)) (rfr : α) (rfrx : Ex K),
    SameSignals d dx N VolumeOscillator.next (do let s ← Ma.new ka a; let l ← Ma.new kb b; return ⟨s, l⟩) ThresholdStrategy.next (VolumeOscillatorStrategy.new th) cfg rfr
      VolumeOscillator.next (do let s ← Ma.new ka a; let l ← Ma.new kb b; return ⟨s, l⟩) ThresholdStrategy.next (VolumeOscillatorStrategy.new thx) cfgx rfrx
      (lineSignal (max (maLength ka a) (maLength kb b) - 1) (fun t => 100 * (short t - long t) / long t) lo hi) := by
  intro short long e far cfg cfgx rfr rfrx
  obtain ⟨y, r, near⟩ := C94_volume_oscillator A L hb hW0 hW ka kb ha hb' hk hr hm hEm htop away
  obtain ⟨o', h', l', c', v', b1, -⟩ := hb.bars
  refine (C92_line_program b1 hx r near ((C53_volume_oscillator_exact hx ka kb ha hb').congr fun t ht => ?_) h1 h2 h3 h4 far cfg cfgx rfr rfrx).1
  show _ = Option.map fin (startAt _ _ t)
  unfold startAt
  have p1 := maLength_pos ka ha
  by_cases hts : t < max (maLength ka a) (maLength kb b) - 1
  · rw [if_pos hts, if_pos (Or.inl hts)]; rfl
  · rw [if_neg hts, if_neg]
    · rfl
    · have hmt := away t ht (by omega)
      rintro (hc | hc)
      · exact hts hc
      · rw [hc, abs_zero] at hmt; linarith

end

/-- **C92.** Any indicator of two lines whose floats stay within `e` and `f` of two lines that it gives exactly in exact arithmetic, with a
crossing strategy (vortex, relative vigor): if the lines keep farther than `e + f` apart, both programs signal the same on every tick. -/
theorem C92_cross_program {V : Valued R α} {S Sx : Type} {d : DataProvider α} {dx : DataProvider (Ex K)} {N : Nat} {o' h' l' c' v' : Nat → α} (hb : Bars d N o' h' l' c' v')
    {o h l c v : Nat → K} (hx : ExBars dx N o h l c v) {ind : Ctx α → S → Res ((Option α × Option α) × S)} {ind0 : Res S} {y z : Nat → Option α}
    (r : Runs (noInput fun t => ind ⟨d, t⟩) ind0 unit N fun t => (y t, z t)) {s1 s2 : Nat} {p q : Nat → K} {e f : K} (n1 : StaysNear V y s1 p e N)
    (n2 : StaysNear V z s2 q f N) {indx : Ctx (Ex K) → Sx → Res ((Option (Ex K) × Option (Ex K)) × Sx)} {indx0 : Res Sx}
    (rx : Runs (noInput fun t => indx ⟨dx, t⟩) indx0 unit N fun t => (flo (startAt s1 p) t, flo (startAt s2 q) t))
    (far : ∀ t, t < N → max s1 s2 ≤ t → e + f < |p t - q t|) (cfg : StrategyConfig α) (cfgx : StrategyConfig (Ex K)) (rfr : α) (rfrx : Ex K) :
    SameSignals d dx N ind ind0 CrossStrategy.next CrossState.new cfg rfr indx indx0 CrossStrategy.next CrossState.new cfgx rfrx (crossSignal (max s1 s2) p q) := by
  obtain ⟨st, tv, t1, -, t2⟩ := C65_program hb r (C92_cross_signals n1 n2 far) cfg rfr
  obtain ⟨stx, tvx, t3, -, t4⟩ := C65_program hx rx (C92_cross_exact s1 s2 p q N) cfgx rfrx
  exact ⟨_, st, tv, _, stx, tvx, t2, t4, t1, t3⟩

/-- **C92.** Two backtests of the same signals with a stake of one unit, one in IEEE binary64 and one in exact arithmetic, on the same prices up to `M`:
on every tick the equities differ by at most `6 (n + 2)` roundings, `n` the number of closed trades. -/
theorem C92_same_signals_binary64 {S Q O Sx Qx Ox : Type} {d : DataProvider B64} {dx : DataProvider (Ex ℝ)} {N : Nat} {o h l c v : Nat → ℝ} {M : ℝ}
    (hb : PricedBars (Sf.valued _) d N o h l c v M) (hM : 0 ≤ M) (hx : ExBars dx N o h l c v) (hN : N + 2 ≤ 2 ^ 40)
    {ind : Ctx B64 → S → Res (O × S)} {ind0 : Res S} {sgn : Q → O → Option TradeDirection × Q} {q : Q} {rfr : B64}
    {indx : Ctx (Ex ℝ) → Sx → Res (Ox × Sx)} {indx0 : Res Sx} {sgnx : Qx → Ox → Option TradeDirection × Qx} {qx : Qx} {rfrx : Ex ℝ}
    {cfg : StrategyConfig B64} {cfgx : StrategyConfig (Ex ℝ)} (f1 : cfg.onBarClose = cfgx.onBarClose) (f2 : cfg.continous = cfgx.continous)
    (f3 : cfg.buyWithEquity = false) (f4 : cfgx.buyWithEquity = false) {cap : ℝ} (c1 : cfg.initialCapital.val = Fl.of _ (.fin cap))
    (c2 : cfgx.initialCapital = fin cap) (hW : |cap| + 2 * M * N + 2 * M ≤ (2 : ℝ) ^ (900 : ℤ)) {sig : Nat → Option TradeDirection}
    (same : SameSignals d dx N ind ind0 sgn q cfg rfr indx indx0 sgnx qx cfgx rfrx sig) :
    ∃ (y : Nat → O) (st : Nat → Strategy B64) (tv : Nat → TvMetrics B64) (yx : Nat → Ox) (stx : Nat → Strategy (Ex ℝ))
      (tvx : Nat → TvMetrics (Ex ℝ)),
      Runs (noInput fun t => Program.next ind sgn ⟨d, t⟩) (Program.new ind0 q cfg rfr) unit N (fun t => (y t, sig t, st t, tv t)) ∧
      Runs (noInput fun t => Program.next indx sgnx ⟨dx, t⟩) (Program.new indx0 qx cfgx rfrx) unit N
        (fun t => (yx t, sig t, stx t, tvx t)) ∧
      ∀ t, t < N → ∃ E : ℝ, (stx t).metrics.equity = fin E ∧ Near (Sf.valued _) (st t).metrics.equity E
        (6 * ((st t).metrics.closedTrades + 2) * (b64u * (|cap| + 2 * M * N + 2 * M) + b64η)) := by
  obtain ⟨y, st, tv, yx, stx, tvx, r1, r2, b1, b2⟩ := same
  refine ⟨y, st, tv, yx, stx, tvx, r1, r2, fun t ht => ⟨_, (C81_equity b2 hx f4 c2 ht).1, ?_⟩⟩
  have key := C92_equity_binary64 hb hM hN f3 c1 hW b1 ht
  have e1 : fillSeries cfg o c = fillSeries cfgx o c := by unfold fillSeries; rw [f1]
  rw [e1] at key
  simpa only [held_flags f1 f2] using key

end Pace
