import Verif.Props.AccuracyVortex

/-!
# C95: the programs of the ratios of sums in floats against exact ones
-/

set_option linter.unusedSectionVars false

namespace Pace
open Spec
variable {K : Type} [Field K] [LinearOrder K] [IsStrictOrderedRing K] [RootOps K] {R : Rounding K}
variable {α : Type} [F64 α]

section
variable {V : Valued R α} {u η top : K} (A : R.Accurate u η top) (L : R.Lawful)

include A L in
/-- **C95.** The Chande momentum oscillator program of any length and price source, where the changes of a window add up to at least `m`: if
the exact line keeps farther from both thresholds than its error, it signals on every tick what it signals in exact arithmetic. -/
theorem C95_cmo_program {d : DataProvider α} {N : Nat} {o h l c v : Nat → K} {M : K} (hb : PricedBars V d N o h l c v M) (hM : 0 ≤ M)
    {dx : DataProvider (Ex K)} (hx : ExBars dx N o h l c v)
    {src : SrcKind} (hs : src ≠ .volume) {len k : Nat} (hlen : 2 ≤ len) (hk : len + N + 1 ≤ k) (hr : Room u η top k M) (htop : 1024 ≤ top)
    {m : K} (hm : 0 < m) (hSm : 6 * (len * (19 + 12 * N) * (u * M + η)) ≤ m)
    (moves : ∀ t, t < N → len ≤ t → m ≤ (win (gain (sourceValue src o h l c v)) len t).sum + (win (loss (sourceValue src o h l c v)) len t).sum)
    {th : Thresholds α} {thx : Thresholds (Ex K)} {lo hi : K} (h1 : V.val th.oversold = Fl.of R (.fin lo)) (h2 : V.val th.overbought = Fl.of R (.fin hi))
    (h3 : thx.oversold = fin lo) (h4 : thx.overbought = fin hi) :
    let line := momentumLine len (sourceValue src o h l c v)
    let e := 1400 * (len * (19 + 12 * N) * (u * M + η) / m) + 102 * u
    (∀ t, t < N → len ≤ t → e < |line t - lo| ∧ e < |line t - hi|) →
    ∀ (cfg : StrategyConfig α) (cfgx : StrategyConfig (Ex K)) (rfr : α) (rfrx : Ex K),
    SameSignals d dx N (withSrc src ChandeMomentumOscillator.next) (ChandeMomentumOscillator.new len) ThresholdStrategy.next (ChandeMomentumOscillatorStrategy.new th) cfg rfr
      (withSrc src ChandeMomentumOscillator.next) (ChandeMomentumOscillator.new len) ThresholdStrategy.next (ChandeMomentumOscillatorStrategy.new thx) cfgx rfrx
      (lineSignal len line lo hi) := by
  intro line e far cfg cfgx rfr rfrx
  obtain ⟨y, r, near⟩ := C95_cmo A L hb hM hs hlen hk hr htop hm hSm moves
  obtain ⟨o', h', l', c', v', b, -⟩ := hb.bars
  refine (C92_line_program b hx r near ?_ h1 h2 h3 h4 far cfg cfgx rfr rfrx).1
  refine (withSrc_runs (next := ChandeMomentumOscillator.next) (src_exact hx src) (C53_cmo_exact hlen (sourceValue src o h l c v))).congr fun t ht => ?_
  show _ = Option.map fin (startAt len _ t)
  unfold startAt
  by_cases hts : t < len
  · rw [if_pos hts, if_pos hts]; rfl
  · rw [if_neg hts, if_neg hts]
    have hmt := moves t ht (by omega)
    exact if_neg fun e => by rw [e] at hmt; linarith

include A L in
/-- **C95.** The Chaikin money flow program of any length on well-formed bars that are flat or at least `r` high, the volumes of a window
adding up to at least `m`. -/
theorem C95_cmf_program {d : DataProvider α} {N : Nat} {o h l c v : Nat → K} {M W : K} (hb : PricedBars V d N o h l c v M) (hM : 0 ≤ M)
    {dx : DataProvider (Ex K)} (hx : ExBars dx N o h l c v)
    (hw : WellFormed o h l c) (hv0 : ∀ t, 0 ≤ v t) (hW : ∀ t, t < N → v t ≤ W) {len k : Nat} (hlen : 1 ≤ len) (hk : len + N + 1 ≤ k) (hr : Room u η top k W)
    (hWtop : 2 + 2 * W ≤ top) (htop : 8 * (M + η) ≤ top)
    {r : K} (hr0 : 0 < r) (hδr : 40 * (u * M + η) ≤ r) (range : ∀ t, t < N → h t = l t ∨ r ≤ h t - l t)
    {m : K} (hm : 0 < m) (hSm : 8 * (len * (31 * W * ((u * M + η) / r) + (9 + 8 * N) * (u * W + η))) ≤ m)
    (traded : ∀ t, t < N → len ≤ t + 1 → m ≤ (win v len t).sum)
    {th : Thresholds α} {thx : Thresholds (Ex K)} {lo hi : K} (h1 : V.val th.oversold = Fl.of R (.fin lo)) (h2 : V.val th.overbought = Fl.of R (.fin hi))
    (h3 : thx.oversold = fin lo) (h4 : thx.overbought = fin hi) :
    let line := moneyFlowLine len h l c v
    let e := 6 * (len * (31 * W * ((u * M + η) / r) + (9 + 8 * N) * (u * W + η)) / m) + 2 * u
    (∀ t, t < N → len - 1 ≤ t → e < |line t - lo| ∧ e < |line t - hi|) →
    ∀ (cfg : StrategyConfig α) (cfgx : StrategyConfig (Ex K)) (rfr : α) (rfrx : Ex K),
    SameSignals d dx N ChaikinMoneyFlow.next (ChaikinMoneyFlow.new len) ThresholdStrategy.next (ChaikinMoneyFlowStrategy.new th) cfg rfr
      ChaikinMoneyFlow.next (ChaikinMoneyFlow.new len) ThresholdStrategy.next (ChaikinMoneyFlowStrategy.new thx) cfgx rfrx
      (lineSignal (len - 1) line lo hi) := by
  intro line e far cfg cfgx rfr rfrx
  obtain ⟨y, r, near⟩ := C95_cmf A L hb hM hw hv0 hW hlen hk hr hWtop htop hr0 hδr range hm hSm traded
  obtain ⟨o', h', l', c', v', b, -⟩ := hb.bars
  refine (C92_line_program b hx r near ((C53_cmf_exact hx hlen).congr fun t ht => ?_) h1 h2 h3 h4 far cfg cfgx rfr rfrx).1
  show _ = Option.map fin (startAt (len - 1) _ t)
  unfold startAt
  by_cases hts : t < len - 1
  · rw [if_pos hts, if_pos (show t + 1 < len by omega)]; rfl
  · rw [if_neg hts, if_neg (show ¬ t + 1 < len by omega)]
    have hmt := traded t ht (by omega)
    exact if_neg fun e => by rw [e] at hmt; linarith

include A L in
/-- **C95.** The vortex program of any length where the true ranges of a window add up to at least `m`: if the two exact lines keep farther
apart than twice the error of one, it signals on every tick what it signals in exact arithmetic. -/
theorem C95_vortex_program {d : DataProvider α} {N : Nat} {o h l c v : Nat → K} {M : K} (hb : PricedBars V d N o h l c v M) (hM : 0 ≤ M)
    {dx : DataProvider (Ex K)} (hx : ExBars dx N o h l c v) {len k : Nat} (hlen : 1 ≤ len) (hk : len + N + 1 ≤ k) (hr : Room u η top k M)
    {m : K} (hm : 0 < m) (hSm : 2 * (len * (62 + 12 * N) * (u * M + η)) ≤ m) (htop : 1 + 2 * (2 * len * M / m) ≤ top)
    (moves : ∀ t, t < N → len ≤ t → m ≤ (win (barRange h l c) len t).sum) :
    let e := (1 + 2 * len * M / m) * (2 * (len * (62 + 12 * N) * (u * M + η) / m) + 3 * u)
    (∀ t, t < N → len ≤ t → 2 * e < |vortexLine len h l h l c t - vortexLine len l h h l c t|) →
    ∀ (cfg : StrategyConfig α) (cfgx : StrategyConfig (Ex K)) (rfr : α) (rfrx : Ex K),
    SameSignals d dx N Vortex.next (Vortex.new len) CrossStrategy.next CrossState.new cfg rfr
      Vortex.next (Vortex.new len) CrossStrategy.next CrossState.new cfgx rfrx
      (crossSignal len (vortexLine len h l h l c) (vortexLine len l h h l c)) := by
  intro e far cfg cfgx rfr rfrx
  obtain ⟨y, z, r, n1, n2⟩ := C95_vortex A L hb hM hlen hk hr hm hSm htop moves
  obtain ⟨o', h', l', c', v', b, -⟩ := hb.bars
  have := C92_cross_program b hx r n1 n2 ((C53_vortex_exact hx hlen).congr fun t ht => by
      unfold flo startAt
      by_cases hts : t < len
      · rw [if_pos (Or.inl hts), if_pos hts, if_pos hts]; rfl
      · have hmt := moves t ht (by omega)
        rw [if_neg hts, if_neg hts, if_neg (by rintro (hc | hc); exacts [hts hc, by rw [hc] at hmt; linarith])]
        rfl)
    (fun t ht hs => by have := far t ht (by omega); linarith) cfg cfgx rfr rfrx
  rwa [max_self] at this

theorem fullWindow_agree {β : Type} {x y : Nat → Option β} {n t : Nat} (hn : 1 ≤ n) (h : ∀ k, k ≤ t → x k = y k) : fullWindow x n t = fullWindow y n t := by
  unfold fullWindow
  by_cases hnt : n ≤ t + 1
  · rw [if_pos hnt, if_pos hnt]
    congr 1
    unfold win
    exact List.map_congr_left fun i hi => h _ (by rw [List.mem_range] at hi; omega)
  · rw [if_neg hnt, if_neg hnt]

include A L in
/-- **C95.** The relative vigor program of any length on well-formed bars where the smoothed bar heights of a window add up to at least `m`: if
the exact line and its signal keep farther apart than `13 S / m + 24 u`, it signals on every tick what it signals in exact arithmetic. -/
theorem C95_vigor_program {d : DataProvider α} {N : Nat} {o h l c v : Nat → K} {M : K} (hb : PricedBars V d N o h l c v M) (hM : 0 ≤ M)
    {dx : DataProvider (Ex K)} (hx : ExBars dx N o h l c v)
    (hw : WellFormed o h l c) {len k : Nat} (hlen : 1 ≤ len) (hk : len + N + 3 ≤ k) (hr : Room u η top k M) (hr1 : Room u η top k 1)
    {m : K} (hm : 0 < m) (hSm : 8 * (len * (35 + 12 * N) * (u * M + η)) ≤ m)
    (moves : ∀ t, t < N → len + 2 ≤ t → m ≤ (win (sym4 fun t => h t - l t) len t).sum)
    (far : ∀ t, t < N → len + 5 ≤ t → 13 * (len * (35 + 12 * N) * (u * M + η) / m) + 24 * u <
      |vigorLine len o h l c t - sym4 (vigorLine len o h l c) t|)
    (cfg : StrategyConfig α) (cfgx : StrategyConfig (Ex K)) (rfr : α) (rfrx : Ex K) :
    SameSignals d dx N RelativeVigorIndex.next (RelativeVigorIndex.new len) CrossStrategy.next CrossState.new cfg rfr
      RelativeVigorIndex.next (RelativeVigorIndex.new len) CrossStrategy.next CrossState.new cfgx rfrx
      (crossSignal (len + 5) (vigorLine len o h l c) (sym4 (vigorLine len o h l c))) := by
  obtain ⟨y, z, r, n1, n2⟩ := C95_vigor A L hb hM hw hlen hk hr hr1 hm hSm moves
  obtain ⟨o', h', l', c', v', b, -⟩ := hb.bars
  have ev : ∀ t, t < N → vigor o h l c len t = startAt (len + 2) (vigorLine len o h l c) t := fun t ht => by
    unfold vigor startAt
    by_cases hts : t < len + 2
    · rw [if_pos (Or.inl hts), if_pos hts]
    · have hmt := moves t ht (by omega)
      rw [if_neg hts, if_neg (by rintro (hc | hc); exacts [hts hc, by rw [hc] at hmt; linarith])]
      rfl
  have := C92_cross_program b hx r n1 n2 ((C53_relative_vigor_exact hx hlen).congr fun t ht => by
      rw [fullWindow_agree (by norm_num) (fun k hk => ev k (by omega)), fullWindow_startAt _ _ (by norm_num)]
      refine Prod.ext (by simp only [flo, ev t ht]) ?_
      unfold flo startAt
      by_cases hts : t < len + 5
      · rw [if_pos hts, if_neg (by omega)]; rfl
      · rw [if_neg hts, if_pos (by omega)]
        have e : ((win (vigorLine len o h l c) 4 t).getD 0 0 + 2 * (win (vigorLine len o h l c) 4 t).getD 1 0 + 2 * (win (vigorLine len o h l c) 4 t).getD 2 0 +
            (win (vigorLine len o h l c) 4 t).getD 3 0) / 6 = sym4 (vigorLine len o h l c) t := by
          generalize vigorLine len o h l c = p
          simp only [win, sym4, List.range_succ, List.range_zero]
          simp
          obtain ⟨r, rfl⟩ : ∃ r, t = r + 3 := ⟨t - 3, by omega⟩
          congr 4
        simp only [Option.map_some, e])
    (fun t ht hs => by have := far t ht (by omega); linarith) cfg cfgx rfr rfrx
  rwa [max_eq_right (by omega)] at this

end

end Pace
