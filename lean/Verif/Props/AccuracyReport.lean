import Verif.Props.AccuracyProgram
import Verif.Props.AccuracySums
import Verif.Props.CompoundError
import Verif.Props.Metrics2
import Verif.Props.Metrics4

/-!
# C103: the reported equity figures in floats

One unit per trade. What is reported of equity, drawdown and run-up, against the same figures of real-number curves.
-/

set_option linter.unusedSectionVars false

namespace Pace
open Spec
variable {K : Type} [Field K] [LinearOrder K] [IsStrictOrderedRing K] [RootOps K] {R : Rounding K}
variable {α : Type} [F64 α]

/-- The capital and the profit booked up to tick `t`. -/
def Spec.netCurve (cfg : StrategyConfig α) (sig : Nat → Option TradeDirection) (cap : K) (f : Nat → K) (t : Nat) : K :=
  cap + booked f (deals cfg sig (t + 1)).1

/-- The capital, the profit booked up to tick `t` and that of the open position at the close. -/
def Spec.equityCurve (cfg : StrategyConfig α) (sig : Nat → Option TradeDirection) (cap : K) (f c : Nat → K) (t : Nat) : K :=
  cap + earned (fun k => held cfg sig (k + 1)) f c t

/-- The greatest of `a` and the values up to `t`. -/
def Spec.peak (a : K) (x : Nat → K) : Nat → K
  | 0 => max a (x 0)
  | t + 1 => max (peak a x t) (x (t + 1))

/-- The least of `a` and the values up to `t`. -/
def Spec.trough (a : K) (x : Nat → K) : Nat → K
  | 0 => min a (x 0)
  | t + 1 => min (trough a x t) (x (t + 1))

/-- The profit of the position that is open after tick `t`, if the price goes to the worst of the bar; when there is none, that of the bar before
(0 at the beginning). -/
def Spec.worstOpen (cfg : StrategyConfig α) (sig : Nat → Option TradeDirection) (f h l : Nat → K) : Nat → K
  | 0 => match (deals cfg sig 1).2 with
    | none => 0
    | some (.long, e) => l 0 - f e
    | some (.short, e) => f e - h 0
  | t + 1 => match (deals cfg sig (t + 2)).2 with
    | none => worstOpen cfg sig f h l t
    | some (.long, e) => l (t + 1) - f e
    | some (.short, e) => f e - h (t + 1)

/-- The profit of the position that is open after tick `t`, if the price goes to the best of the bar; when there is none, that of the bar before
(0 at the beginning): for a long position this is the worst case of a market with high and low exchanged. -/
def Spec.bestOpen (cfg : StrategyConfig α) (sig : Nat → Option TradeDirection) (f h l : Nat → K) : Nat → K := worstOpen cfg sig f l h

/-- How far the bars have fallen below the peak of the net equity. -/
def Spec.drawdownCurve (cfg : StrategyConfig α) (sig : Nat → Option TradeDirection) (cap : K) (f h l : Nat → K) : Nat → K :=
  peak 0 fun k => peak cap (netCurve cfg sig cap f) k - (netCurve cfg sig cap f k + worstOpen cfg sig f h l k)

/-- How far the bars have risen above the trough of the net equity. -/
def Spec.runUpCurve (cfg : StrategyConfig α) (sig : Nat → Option TradeDirection) (cap : K) (f h l : Nat → K) : Nat → K :=
  peak 0 fun k => netCurve cfg sig cap f k + bestOpen cfg sig f h l k - trough cap (netCurve cfg sig cap f) k

section
variable {V : Valued R α} {u η top : K} (A : R.Accurate u η top) (L : R.Lawful)
variable {cfg : StrategyConfig α} {d : DataProvider α} {sig : Nat → Option TradeDirection} {N : Nat} {st : Nat → Strategy α}
variable {o h l c v : Nat → K} {cap M W : K}

theorem Spec.PricedBars.floatBars (hb : PricedBars V d N o h l c v M) (hc : V.val cfg.initialCapital = Fl.of R (.fin cap)) : FloatBars V cfg d N o c cap M := by
  obtain ⟨o', h', l', c', v', k1, k2⟩ := hb.bars
  exact ⟨fun t ht => ⟨o' t, k1.open_ t ht, (k2 t ht).1, (hb.bound t ht).1⟩, fun t ht => ⟨c' t, k1.close t ht, (k2 t ht).2.2.2.1, (hb.bound t ht).2.2.2⟩, hc⟩

theorem peak_abs {a B : K} {x : Nat → K} {t : Nat} (ha : |a| ≤ B) (hx : ∀ k, k ≤ t → |x k| ≤ B) : |peak a x t| ≤ B := by
  induction t with
  | zero => rw [peak]; exact (abs_max_le_max_abs_abs).trans (max_le ha (hx 0 le_rfl))
  | succ t ih => rw [peak]; exact (abs_max_le_max_abs_abs).trans (max_le (ih fun k hk => hx k (by omega)) (hx _ le_rfl))
theorem trough_abs {a B : K} {x : Nat → K} {t : Nat} (ha : |a| ≤ B) (hx : ∀ k, k ≤ t → |x k| ≤ B) : |trough a x t| ≤ B := by
  induction t with
  | zero => rw [trough]; exact (abs_min_le_max_abs_abs).trans (max_le ha (hx 0 le_rfl))
  | succ t ih => rw [trough]; exact (abs_min_le_max_abs_abs).trans (max_le (ih fun k hk => hx k (by omega)) (hx _ le_rfl))
theorem le_peak (a : K) (x : Nat → K) {k t : Nat} (hk : k ≤ t) : a ≤ peak a x t ∧ x k ≤ peak a x t := by
  induction t with
  | zero => obtain rfl : k = 0 := by omega
            exact ⟨le_max_left _ _, le_max_right _ _⟩
  | succ t ih =>
    rcases Nat.lt_or_eq_of_le hk with h | rfl
    · exact ⟨(ih (by omega)).1.trans (le_max_left _ _), (ih (by omega)).2.trans (le_max_left _ _)⟩
    · refine ⟨?_, le_max_right _ _⟩
      have : ∀ n, a ≤ peak a x n := fun n => by
        induction n with
        | zero => exact le_max_left _ _
        | succ n ih => exact ih.trans (le_max_left _ _)
      exact this _
theorem trough_le (a : K) (x : Nat → K) {k t : Nat} (hk : k ≤ t) : trough a x t ≤ a ∧ trough a x t ≤ x k := by
  induction t with
  | zero => obtain rfl : k = 0 := by omega
            exact ⟨min_le_left _ _, min_le_right _ _⟩
  | succ t ih =>
    rcases Nat.lt_or_eq_of_le hk with h | rfl
    · exact ⟨(min_le_left _ _).trans (ih (by omega)).1, (min_le_left _ _).trans (ih (by omega)).2⟩
    · refine ⟨?_, min_le_right _ _⟩
      have : ∀ n, trough a x n ≤ a := fun n => by
        induction n with
        | zero => exact min_le_left _ _
        | succ n ih => exact (min_le_left _ _).trans ih
      exact this _

/-- The number of closed positions grows by at most the one appended. -/
theorem deals_grow (cfg : StrategyConfig α) (sig : Nat → Option TradeDirection) (n : Nat) (h : (deals cfg sig (n + 1)).1.length = (deals cfg sig n).1.length) :
    (deals cfg sig (n + 1)).1 = (deals cfg sig n).1 := by
  obtain ⟨m, hm, e⟩ : ∃ m, (deals cfg sig (n + 1)).1 = (deals cfg sig n).1 ++ m ∧ m.length ≤ 1 := by
    rw [deals_succ]
    generalize deals cfg sig n = x
    obtain ⟨l, y⟩ := x
    generalize order cfg sig n = u
    rcases u with _ | dir
    · exact ⟨[], by simp, by simp⟩
    · rcases y with _ | ⟨was, e⟩
      · exact ⟨[], by simp, by simp⟩
      · simp only
        by_cases hd : dir = was
        · rw [if_pos hd]; exact ⟨[], by simp, by simp⟩
        · rw [if_neg hd]; exact ⟨_, rfl, by simp⟩
  rw [hm, List.length_append] at h
  have : m = [] := List.length_eq_zero_iff.mp (by omega)
  rw [hm, this, List.append_nil]

theorem netCurve_noExit (H : Backtest cfg d sig N st) {t : Nat} (ht : t + 1 < N) (hx : exited st (t + 1) = false) (cap : K) (f : Nat → K) :
    netCurve cfg sig cap f (t + 1) = netCurve cfg sig cap f t := by
  have h1 := (noExit_metrics H ht hx).1
  have h2 : (st (t + 1)).metrics.closedTrades = (st t).metrics.closedTrades := by rw [h1]; rfl
  rw [closedTrades_deals H ht, closedTrades_deals H (by omega)] at h2
  unfold netCurve
  rw [deals_grow cfg sig (t + 1) h2]

theorem netCurve_first (H : Backtest cfg d sig N st) (ht : 0 < N) (hx : exited st 0 = false) (cap : K) (f : Nat → K) : netCurve cfg sig cap f 0 = cap := by
  have h1 := (noExit_metrics H ht hx).1
  simp [prior, Strategy.new, StrategyMetrics.default] at h1
  rw [closedTrades_deals H ht] at h1
  unfold netCurve
  rw [List.length_eq_zero_iff.mp h1]
  simp [booked]

include A L in
theorem netEquity_near (H : Backtest cfg d sig N st) (hb : PricedBars V d N o h l c v M) (hM : 0 ≤ M) (hc : V.val cfg.initialCapital = Fl.of R (.fin cap))
    (hf : cfg.buyWithEquity = false) (hW : |cap| + 2 * M * N + 2 * M ≤ W) (hn : ((N : K) + 2) * u ≤ 1) (htop : 100 * W + 100 * (N + 4) * η ≤ top) {t : Nat} (ht : t < N) :
    Near V (netEquity cfg (st t)) (netCurve cfg sig cap (fillSeries cfg o c) t) (6 * (N + 2) * (u * W + η)) ∧
    Near V (st t).metrics.equity (equityCurve cfg sig cap (fillSeries cfg o c) c t) (6 * (N + 2) * (u * W + η)) ∧
    |netCurve cfg sig cap (fillSeries cfg o c) t| + 2 * M ≤ W ∧ 0 ≤ W := by
  have hu := A.u_nonneg
  have hus := A.u_small
  have hη := A.η_nonneg
  have fb := hb.floatBars hc
  have hN0 : (0 : K) ≤ N := Nat.cast_nonneg _
  have bk : ∀ n, n ≤ N → |cap| + |booked (fillSeries cfg o c) (deals cfg sig n).1| + 2 * M ≤ W := fun n hn' => by
    have h1 := (booked_abs cfg sig hM (f := fillSeries cfg o c) (N := N) (fun t ht => (fb.fill ht).2) n hn').1
    have h2 : 2 * M * (n : K) ≤ 2 * M * N := mul_le_mul_of_nonneg_left (by exact_mod_cast hn') (by linarith)
    linarith
  have hW0 : 0 ≤ W := by
    have := bk 0 (by omega)
    have := abs_nonneg cap
    have := abs_nonneg (booked (fillSeries cfg o c) (deals cfg sig 0).1)
    linarith
  have hNη : 0 ≤ (N : K) * η := by positivity
  obtain ⟨n1, n2⟩ := C83_equity A L H fb hf bk hn (by linarith) ht
  have hct : ((st t).metrics.closedTrades : K) ≤ N := by
    rw [closedTrades_deals H ht]
    exact_mod_cast (deals_length_le cfg sig (t + 1)).trans ht
  have hD : 0 ≤ u * W + η := by positivity
  have b1 := bk (t + 1) ht
  have b2 : |netCurve cfg sig cap (fillSeries cfg o c) t| ≤ |cap| + |booked (fillSeries cfg o c) (deals cfg sig (t + 1)).1| := abs_add_le _ _
  refine ⟨?_, n2.mono (mul_le_mul_of_nonneg_right (by linarith) hD), by linarith, hW0⟩
  unfold netEquity
  by_cases h0 : (st t).metrics.closedTrades = 0
  · rw [if_pos h0]
    rw [closedTrades_deals H ht] at h0
    refine ⟨cap, hc, ?_⟩
    unfold netCurve
    rw [List.length_eq_zero_iff.mp h0]
    simp only [booked, List.map_nil, List.sum_nil, add_zero, sub_self, abs_zero]
    positivity
  · rw [if_neg h0]
    have e1 : 6 * ((st t).metrics.closedTrades : K) * (u * W + η) ≤ 6 * N * (u * W + η) := mul_le_mul_of_nonneg_right (by linarith) hD
    have e2 : (N + 2) * u * (u * W + η) ≤ 1 * (u * W + η) := mul_le_mul_of_nonneg_right hn hD
    have e3 : (N + 2) * u * W ≤ 1 * W := mul_le_mul_of_nonneg_right hn hW0
    have e4 : 0 ≤ u * (u * W + η) := mul_nonneg hu hD
    have e5 : 0 ≤ u * W := mul_nonneg hu hW0
    refine (Near.add A (near_of_val hc) (n1.mono e1) (m := W) (by linarith [show |cap + booked (fillSeries cfg o c) (deals cfg sig (t + 1)).1| = |netCurve cfg sig cap (fillSeries cfg o c) t| from rfl]) ?_).mono ?_
    · linarith
    · linarith

/-- The open profit at the worst and at the best price of the bar. -/
theorem worstOpen_abs (hb : PricedBars V d N o h l c v M) (hM : 0 ≤ M) (hc : V.val cfg.initialCapital = Fl.of R (.fin cap)) {t : Nat} (ht : t < N) :
    |worstOpen cfg sig (fillSeries cfg o c) h l t| ≤ 2 * M ∧ |bestOpen cfg sig (fillSeries cfg o c) h l t| ≤ 2 * M := by
  have fb := hb.floatBars hc
  have key : ∀ x y : K, |x| ≤ M → |y| ≤ M → |x - y| ≤ 2 * M := fun x y hx hy => by rw [abs_le] at *; constructor <;> linarith
  have ent : ∀ t, t < N → ∀ dir e, (deals cfg sig (t + 1)).2 = some (dir, e) → |fillSeries cfg o c e| ≤ M := fun t ht dir e he =>
    (fb.fill (by have := (deals_exit_lt cfg sig (t + 1)).2 (dir, e) (by rw [he]; rfl); simp only at this; omega)).2
  have main : ∀ x y : Nat → K, (∀ t, t < N → |x t| ≤ M ∧ |y t| ≤ M) → ∀ t, t < N → |worstOpen cfg sig (fillSeries cfg o c) x y t| ≤ 2 * M := by
    intro x y hxy t ht
    induction t with
    | zero =>
      unfold worstOpen
      rcases hy : (deals cfg sig 1).2 with _ | ⟨_ | _, e⟩
      · simpa using hM
      · exact key _ _ (hxy 0 ht).2 (ent 0 ht _ _ hy)
      · exact key _ _ (ent 0 ht _ _ hy) (hxy 0 ht).1
    | succ t ih =>
      unfold worstOpen
      rcases hy : (deals cfg sig (t + 2)).2 with _ | ⟨_ | _, e⟩
      · exact ih (by omega)
      · exact key _ _ (hxy _ ht).2 (ent _ ht _ _ hy)
      · exact key _ _ (ent _ ht _ _ hy) (hxy _ ht).1
  exact ⟨main h l (fun t ht => ⟨(hb.bound t ht).2.1, (hb.bound t ht).2.2.1⟩) t ht, main l h (fun t ht => ⟨(hb.bound t ht).2.2.1, (hb.bound t ht).2.1⟩) t ht⟩

include A L in
theorem barOpen_near (H : Backtest cfg d sig N st) (hb : PricedBars V d N o h l c v M) (hM : 0 ≤ M) (hc : V.val cfg.initialCapital = Fl.of R (.fin cap))
    (hf : cfg.buyWithEquity = false) (h2M : 2 * M ≤ top) {em : Nat → EquityMetrics α} (he : EquityRun d cfg.initialCapital st N em) {t : Nat} (ht : t < N) :
    Near V (em t).barOpenProfitMin (worstOpen cfg sig (fillSeries cfg o c) h l t) (u * (2 * M) + η) ∧
    Near V (em t).barOpenProfitMax (bestOpen cfg sig (fillSeries cfg o c) h l t) (u * (2 * M) + η) := by
  have hu := A.u_nonneg
  have hη := A.η_nonneg
  have fb := hb.floatBars hc
  have hE : 0 ≤ u * (2 * M) + η := by positivity
  have zero : Near V (lit 0 : α) 0 (u * (2 * M) + η) := (near_of_val (by have := val_lit_nat (V := V) L (n := 0) (by norm_num); exact_mod_cast this)).mono hE
  -- an open position
  have opened : ∀ t, t < N → ∀ dir e, (deals cfg sig (t + 1)).2 = some (dir, e) →
      Near V (em t).barOpenProfitMin (match dir with | .long => l t - fillSeries cfg o c e | .short => fillSeries cfg o c e - h t) (u * (2 * M) + η) ∧
      Near V (em t).barOpenProfitMax (match dir with | .long => h t - fillSeries cfg o c e | .short => fillSeries cfg o c e - l t) (u * (2 * M) + η) := by
    intro t ht dir e hy
    obtain ⟨-, hop⟩ := ledger_onTime cfg d sig (t + 1)
    obtain ⟨-, hsz⟩ := ledger_unit (cfg := cfg) (d := d) (sig := sig) hf (t + 1)
    rw [hy] at hop
    obtain ⟨x, hx, hxe⟩ : ∃ x, (ledger cfg d sig (t + 1)).opened = some x ∧ (x.dir, x.tick, x.price) = (dir, e, fillPrice cfg d e) := by
      simpa [Option.map_eq_some_iff] using hop
    simp only [Prod.mk.injEq] at hxe
    obtain ⟨rfl, -, e3⟩ := hxe
    obtain ⟨low, high, entry, size, p1, p2, p3, p4, p5, p6, -, -⟩ := C47_open H he ht (T := x.toTrade) (by rw [C39_refines H ht, Ledger.trades, hx]; simp) rfl
    have hs : x.size = lit 1 := hsz x (by rw [hx]; rfl)
    obtain rfl : x.price = entry := by simpa [Holding.toTrade] using p3
    obtain rfl : x.size = size := by simpa [Holding.toTrade] using p4
    obtain ⟨o', h', l', c', v', k1, k2⟩ := hb.bars
    obtain ⟨-, vh, vl, -, -⟩ := k2 t ht
    obtain ⟨-, bh, bl, -⟩ := hb.bound t ht
    rw [k1.low t ht, Option.some.injEq, Option.some.injEq] at p1
    rw [k1.high t ht, Option.some.injEq, Option.some.injEq] at p2
    subst p1 p2
    obtain ⟨q1, q2⟩ := fb.fill (show e < N by
      have := (deals_exit_lt cfg sig (t + 1)).2 (x.dir, e) (by rw [hy]; rfl)
      simp only at this; omega)
    have nl := unit_near A L (V := V) (x := x) (q := l' t) hs (by rw [e3]; exact q1) vl q2 bl h2M
    have nh := unit_near A L (V := V) (x := x) (q := h' t) hs (by rw [e3]; exact q1) vh q2 bh h2M
    have hdir : x.toTrade.direction = x.dir := rfl
    rw [p5, p6, hdir]
    obtain ⟨dir, tick, price, size⟩ := x
    cases dir
    · refine ⟨?_, ?_⟩
      · simpa [Holding.profit, side] using nl
      · simpa [Holding.profit, side] using nh
    · refine ⟨?_, ?_⟩
      · simpa [Holding.profit, side] using nh
      · simpa [Holding.profit, side] using nl
  have flat : ∀ t, t < N → (deals cfg sig (t + 1)).2 = none → ∀ T ∈ (st t).trades, T.isClosed = true := by
    intro t ht hy T hT
    obtain ⟨-, hop⟩ := ledger_onTime cfg d sig (t + 1)
    rw [hy] at hop
    rw [C39_refines H ht, Ledger.trades, show (ledger cfg d sig (t + 1)).opened = none by simpa using hop] at hT
    simp only [Option.map_none, Option.toList_none, List.append_nil, List.mem_map] at hT
    obtain ⟨c, _, rfl⟩ := hT
    rfl
  unfold bestOpen
  induction t with
  | zero =>
    unfold worstOpen
    rcases hy : (deals cfg sig 1).2 with _ | ⟨dir, e⟩
    · obtain ⟨f1, f2, -, -⟩ := C47_flat H he ht (flat 0 ht hy)
      rw [if_pos rfl] at f1 f2
      rw [f1, f2]
      exact ⟨zero, zero⟩
    · have := opened 0 ht dir e hy
      cases dir <;> exact this
  | succ t ih =>
    unfold worstOpen
    rcases hy : (deals cfg sig (t + 2)).2 with _ | ⟨dir, e⟩
    · obtain ⟨f1, f2, -, -⟩ := C47_flat H he ht (flat (t + 1) ht hy)
      rw [if_neg (by omega), Nat.add_sub_cancel] at f1 f2
      rw [f1, f2]
      exact ih (by omega)
    · have := opened (t + 1) ht dir e hy
      cases dir <;> exact this

theorem runMax_near {E cap : K} {a : α} {x : Nat → α} {y : Nat → K} (ha : Near V a cap E) {t : Nat} (hx : ∀ k, k ≤ t → Near V (x k) (y k) E) :
    Near V (runMax a ((List.range (t + 1)).map x)) (peak cap y t) E ∧ Near V (runMin a ((List.range (t + 1)).map x)) (trough cap y t) E := by
  unfold runMax runMin
  induction t with
  | zero =>
    simp only [zero_add, List.range_one, List.map_cons, List.map_nil, List.foldl_cons, List.foldl_nil, peak, trough]
    exact ⟨ha.max (hx 0 le_rfl), ha.min (hx 0 le_rfl)⟩
  | succ t ih =>
    obtain ⟨i1, i2⟩ := ih fun k hk => hx k (by omega)
    rw [List.range_succ, List.map_append, List.foldl_append, List.foldl_append]
    simp only [List.map_cons, List.map_nil, List.foldl_cons, List.foldl_nil, peak, trough]
    exact ⟨i1.max (hx _ le_rfl), i2.min (hx _ le_rfl)⟩

theorem runMax'_near {E cap : K} {a : α} {x : Nat → α} {y : Nat → K} (ha : Near V a cap E) {t : Nat} (hx : ∀ k, k ≤ t → Near V (x k) (y k) E) :
    Near V (runMax' a ((List.range (t + 1)).map x)) (peak cap y t) E ∧ Near V (runMin' a ((List.range (t + 1)).map x)) (trough cap y t) E := by
  unfold runMax' runMin'
  induction t with
  | zero =>
    simp only [zero_add, List.range_one, List.map_cons, List.map_nil, List.foldl_cons, List.foldl_nil, peak, trough]
    rw [max_comm, min_comm]
    exact ⟨(hx 0 le_rfl).max ha, (hx 0 le_rfl).min ha⟩
  | succ t ih =>
    obtain ⟨i1, i2⟩ := ih fun k hk => hx k (by omega)
    rw [List.range_succ, List.map_append, List.foldl_append, List.foldl_append]
    simp only [List.map_cons, List.map_nil, List.foldl_cons, List.foldl_nil, peak, trough]
    rw [max_comm, min_comm]
    exact ⟨(hx _ le_rfl).max i1, (hx _ le_rfl).min i2⟩

/-- The extremes over the exits are those over all ticks: the net equity only changes at an exit. -/
theorem exits_near (H : Backtest cfg d sig N st) {E cap : K} {f : Nat → K} {a : α} {x : Nat → α} (ha : Near V a cap E) {t : Nat} (ht : t < N)
    (hx : ∀ k, k ≤ t → Near V (x k) (netCurve cfg sig cap f k) E) :
    Near V (runMax a ((exits st t).map x)) (peak cap (netCurve cfg sig cap f) t) E ∧ Near V (runMin a ((exits st t).map x)) (trough cap (netCurve cfg sig cap f) t) E := by
  unfold runMax runMin
  induction t with
  | zero =>
    rw [exits_zero]
    cases hx0 : exited st 0 with
    | true =>
      simp only [if_true, List.map_cons, List.map_nil, List.foldl_cons, List.foldl_nil, peak, trough]
      exact ⟨ha.max (hx 0 le_rfl), ha.min (hx 0 le_rfl)⟩
    | false =>
      simp only [Bool.false_eq_true, if_false, List.map_nil, List.foldl_nil, peak, trough, netCurve_first H ht hx0, max_self, min_self]
      exact ⟨ha, ha⟩
  | succ t ih =>
    obtain ⟨i1, i2⟩ := ih (by omega) fun k hk => hx k (by omega)
    rw [exits_succ]
    cases hx0 : exited st (t + 1) with
    | true =>
      simp only [if_true, List.map_append, List.map_cons, List.map_nil, List.foldl_append, List.foldl_cons, List.foldl_nil, peak, trough]
      exact ⟨i1.max (hx _ le_rfl), i2.min (hx _ le_rfl)⟩
    | false =>
      simp only [Bool.false_eq_true, if_false, List.append_nil, peak, trough, netCurve_noExit H ht hx0]
      rw [max_eq_left (le_peak _ _ le_rfl).2, min_eq_left (trough_le _ _ le_rfl).2]
      exact ⟨i1, i2⟩

include A L in
/-- **C103.** One unit per trade, prices up to `M`, `W = |cap| + 2 M N + 2 M` or more, in units of a rounding `u W + η`: after every tick equity and net
equity and their extremes so far are within `6 (N + 2)` of the exact ones, and the bar's extreme equities within `6 (N + 4)`. -/
theorem C103_equity_metrics (H : Backtest cfg d sig N st) (hb : PricedBars V d N o h l c v M) (hM : 0 ≤ M) (hc : V.val cfg.initialCapital = Fl.of R (.fin cap))
    (hf : cfg.buyWithEquity = false) (hW : |cap| + 2 * M * N + 2 * M ≤ W) (hn : ((N : K) + 2) * u ≤ 1) (htop : 100 * W + 100 * (N + 4) * η ≤ top)
    {em : Nat → EquityMetrics α} (he : EquityRun d cfg.initialCapital st N em) {t : Nat} (ht : t < N) :
    Near V (em t).equity (equityCurve cfg sig cap (fillSeries cfg o c) c t) (6 * (N + 2) * (u * W + η)) ∧
    Near V (em t).equityMax (peak cap (equityCurve cfg sig cap (fillSeries cfg o c) c) t) (6 * (N + 2) * (u * W + η)) ∧
    Near V (em t).equityMin (trough cap (equityCurve cfg sig cap (fillSeries cfg o c) c) t) (6 * (N + 2) * (u * W + η)) ∧
    Near V (em t).netEquity (netCurve cfg sig cap (fillSeries cfg o c) t) (6 * (N + 2) * (u * W + η)) ∧
    Near V (em t).netEquityMax (peak cap (netCurve cfg sig cap (fillSeries cfg o c)) t) (6 * (N + 2) * (u * W + η)) ∧
    Near V (em t).netEquityMin (trough cap (netCurve cfg sig cap (fillSeries cfg o c)) t) (6 * (N + 2) * (u * W + η)) ∧
    Near V (em t).barEquityMin (netCurve cfg sig cap (fillSeries cfg o c) t + worstOpen cfg sig (fillSeries cfg o c) h l t) (6 * (N + 4) * (u * W + η)) ∧
    Near V (em t).barEquityMax (netCurve cfg sig cap (fillSeries cfg o c) t + bestOpen cfg sig (fillSeries cfg o c) h l t) (6 * (N + 4) * (u * W + η)) := by
  have hu := A.u_nonneg
  have hus := A.u_small
  have hη := A.η_nonneg
  have near := fun k (hk : k < N) => netEquity_near A L H hb hM hc hf hW hn htop hk
  obtain ⟨n1, n2, n3, hW0⟩ := near t ht
  have hN0 : (0 : K) ≤ N := Nat.cast_nonneg _
  have hD : 0 ≤ u * W + η := by positivity
  have hE : 0 ≤ 6 * (N + 2) * (u * W + η) := by positivity
  have hcap : Near V cfg.initialCapital cap (6 * (N + 2) * (u * W + η)) := (near_of_val hc).mono hE
  have vals := fun k (hk : k < N) => C46_values H he hk
  obtain ⟨v1, v2, v3, v4, v5, v6⟩ := vals t ht
  have net : ∀ k, k < N → Near V (em k).netEquity (netCurve cfg sig cap (fillSeries cfg o c) k) (6 * (N + 2) * (u * W + η)) := fun k hk => by
    rw [(vals k hk).2.2.2.1]
    exact (near k hk).1
  obtain ⟨x1, x2⟩ := exits_near H hcap ht (x := fun k => (em k).netEquity) fun k hk => net k (by omega)
  obtain ⟨y1, y2⟩ := runMax_near hcap (t := t) (x := fun k => (st k).metrics.equity) (y := equityCurve cfg sig cap (fillSeries cfg o c) c) fun k hk => (near k (by omega)).2.1
  have huW : 0 ≤ u * W := mul_nonneg hu hW0
  have hMW : 2 * M ≤ W := by linarith [abs_nonneg (netCurve cfg sig cap (fillSeries cfg o c) t)]
  have huM : u * (2 * M) ≤ u * W := mul_le_mul_of_nonneg_left hMW hu
  have hNη : 0 ≤ (N : K) * η := by positivity
  obtain ⟨p1, p2⟩ := barOpen_near A L H hb hM hc hf (by linarith) he ht
  obtain ⟨q1, q2⟩ := worstOpen_abs (cfg := cfg) (sig := sig) hb hM hc ht
  have sums : (em t).barEquityMin = (em t).netEquity + (em t).barOpenProfitMin ∧ (em t).barEquityMax = (em t).netEquity + (em t).barOpenProfitMax := by
    by_cases hfl : ∀ T ∈ (st t).trades, T.isClosed = true
    · exact (C47_flat H he ht hfl).2.2
    · push Not at hfl
      obtain ⟨T, hT, ho⟩ := hfl
      obtain ⟨_, _, _, _, -, -, -, -, -, -, e1, e2⟩ := C47_open H he ht hT (by simpa using ho)
      exact ⟨e1, e2⟩
  have e2 : (N + 2) * u * (u * W + η) ≤ 1 * (u * W + η) := mul_le_mul_of_nonneg_right hn hD
  have e3 : (N + 2) * u * W ≤ 1 * W := mul_le_mul_of_nonneg_right hn hW0
  have e4 := mul_le_mul_of_nonneg_right hus hD
  have e5 := mul_le_mul_of_nonneg_right hus hW0
  have bar : ∀ (a : α) (y : K), Near V a y (u * (2 * M) + η) → |y| ≤ 2 * M →
      Near V ((em t).netEquity + a) (netCurve cfg sig cap (fillSeries cfg o c) t + y) (6 * (N + 4) * (u * W + η)) := fun a y ha hy => by
    refine (Near.add A (net t ht) (ha.mono (show _ ≤ u * W + η by linarith)) (m := W) ((abs_add_le _ _).trans (by linarith)) ?_).mono ?_
    · linarith
    · have g : u * (W + (6 * (N + 2) * (u * W + η) + (u * W + η))) = u * W + 6 * ((N + 2) * u * (u * W + η)) + u * (u * W + η) := by ring
      rw [g]
      linarith
  refine ⟨by rw [v1]; exact n2, by rw [v3]; exact y1, by rw [v2]; exact y2, net t ht, by rw [v6]; exact x1, by rw [v5]; exact x2, ?_, ?_⟩
  · rw [sums.1]; exact bar _ _ p1 q1
  · rw [sums.2]; exact bar _ _ p2 q2

include A L in
/-- **C103.** The reported maximal drawdown and maximal run-up are within `12 (N + 5)` roundings of the exact ones. -/
theorem C103_drawdown (H : Backtest cfg d sig N st) (hb : PricedBars V d N o h l c v M) (hM : 0 ≤ M) (hc : V.val cfg.initialCapital = Fl.of R (.fin cap))
    (hf : cfg.buyWithEquity = false) (hW : |cap| + 2 * M * N + 2 * M ≤ W) (hn : ((N : K) + 2) * u ≤ 1) (htop : 100 * W + 100 * (N + 4) * η ≤ top)
    {rfr : α} {tv : Nat → TvMetrics α} (hr : TvRun d cfg rfr st N tv) {t : Nat} (ht : t < N) :
    Near V (tv t).data.maxDrawdown (drawdownCurve cfg sig cap (fillSeries cfg o c) h l t) (12 * (N + 5) * (u * W + η)) ∧
    Near V (tv t).data.maxRunUp (runUpCurve cfg sig cap (fillSeries cfg o c) h l t) (12 * (N + 5) * (u * W + η)) := by
  have hu := A.u_nonneg
  have hus := A.u_small
  have hη := A.η_nonneg
  have he := tv_em hr
  have near := fun k (hk : k < N) => netEquity_near A L H hb hM hc hf hW hn htop hk
  obtain ⟨-, -, n3, hW0⟩ := near t ht
  have hN0 : (0 : K) ≤ N := Nat.cast_nonneg _
  have hD : 0 ≤ u * W + η := by positivity
  have zero : Near V (lit 0 : α) 0 (12 * (N + 5) * (u * W + η)) :=
    (near_of_val (by have := val_lit_nat (V := V) L (n := 0) (by norm_num); exact_mod_cast this)).mono (by positivity)
  have hcapW : |cap| ≤ W := by
    have : 0 ≤ 2 * M * N := by positivity
    linarith
  have huW : 0 ≤ u * W := mul_nonneg hu hW0
  have hNη : 0 ≤ (N : K) * η := by positivity
  have e2 : (N + 2) * u * (u * W + η) ≤ 1 * (u * W + η) := mul_le_mul_of_nonneg_right hn hD
  have e3 : (N + 2) * u * W ≤ 1 * W := mul_le_mul_of_nonneg_right hn hW0
  have e4 := mul_le_mul_of_nonneg_right hus hD
  have e5 := mul_le_mul_of_nonneg_right hus hW0
  have diff : ∀ (a b : α) (x y : K) (e f : K), e + f = 6 * (N + 2) * (u * W + η) + 6 * (N + 4) * (u * W + η) → Near V a x e → Near V b y f → |x| ≤ W → |y| ≤ W →
      Near V (a - b) (x - y) (12 * (N + 5) * (u * W + η)) := fun a b x y e f hef ha hb hx hy => by
    have hxy : |x - y| ≤ 2 * W := (abs_sub _ _).trans (by linarith)
    refine (ha.sub A hb (m := 2 * W) hxy ?_).mono ?_
    · rw [hef]; linarith
    · rw [hef]
      have g : u * (2 * W + (6 * (N + 2) * (u * W + η) + 6 * (N + 4) * (u * W + η))) = 2 * (u * W) + 12 * ((N + 2) * u * (u * W + η)) + 12 * (u * (u * W + η)) := by ring
      rw [g]
      linarith
  have bounds : ∀ k, k < N → |netCurve cfg sig cap (fillSeries cfg o c) k| ≤ W ∧ |netCurve cfg sig cap (fillSeries cfg o c) k + worstOpen cfg sig (fillSeries cfg o c) h l k| ≤ W ∧
      |netCurve cfg sig cap (fillSeries cfg o c) k + bestOpen cfg sig (fillSeries cfg o c) h l k| ≤ W := fun k hk => by
    obtain ⟨-, -, b1, -⟩ := near k hk
    obtain ⟨q1, q2⟩ := worstOpen_abs (cfg := cfg) (sig := sig) hb hM hc hk
    exact ⟨by linarith, (abs_add_le _ _).trans (by linarith), (abs_add_le _ _).trans (by linarith)⟩
  obtain ⟨w1, w2, -, -⟩ := C48_values hr ht
  rw [w1, w2]
  constructor
  · refine (runMax'_near zero fun k hk => ?_).1
    obtain ⟨-, -, -, -, m1, -, m2, -⟩ := C103_equity_metrics A L H hb hM hc hf hW hn htop he (t := k) (by omega)
    exact diff _ _ _ _ _ _ rfl m1 m2 (peak_abs hcapW fun j hj => (bounds j (by omega)).1) (bounds k (by omega)).2.1
  · refine (runMax'_near zero fun k hk => ?_).1
    obtain ⟨-, -, -, -, -, m1, -, m2⟩ := C103_equity_metrics A L H hb hM hc hf hW hn htop he (t := k) (by omega)
    exact diff _ _ _ _ _ _ (add_comm _ _) m2 m1 (bounds k (by omega)).2.2 (trough_abs hcapW fun j hj => (bounds j (by omega)).1)

include A in
/-- A quotient of two floats known up to `G`, with a denominator of at least `m`. -/
theorem near_fraction {a b : α} {x y G m B : K} (ha : Near V a x G) (hb : Near V b y G) (hm : 0 < m) (hy : m ≤ |y|) (hG : 2 * G ≤ m) (hx : |x| ≤ B)
    (ht : 2 * (1 + B / m) ≤ top) : Near V (a / b) (x / y) ((1 + B / m) * (3 * (G / m) + u)) := by
  have hu := A.u_nonneg
  have hus := A.u_small
  have hη := A.η_nonneg
  have hηu : η ≤ u / 1024 := A.η_small.trans (by have := mul_le_mul_of_nonneg_right hus hu; linarith)
  have hG0 := ha.nonneg
  have hB : 0 ≤ B := (abs_nonneg _).trans hx
  have hq0 : 0 ≤ B / m := div_nonneg hB hm.le
  have hg0 : 0 ≤ G / m := div_nonneg hG0 hm.le
  have hg1 : G / m ≤ 1 / 2 := by rw [div_le_iff₀ hm]; linarith
  have hq : |x / y| ≤ B / m := by
    rw [abs_div]
    exact div_le_div₀ hB hx hm hy
  generalize B / m = q at *
  have e1 : 2 * (G + q * G) / m = 2 * ((1 + q) * (G / m)) := by ring
  have e2 : (1 + q) * (G / m) ≤ (1 + q) * (1 / 2) := mul_le_mul_of_nonneg_left hg1 (by linarith)
  refine (ha.quot A hb hm hy hG hq (by rw [e1]; linarith)).mono ?_
  rw [e1]
  have h0 : 0 ≤ (1 + q) * (G / m) := by positivity
  have e3 := mul_le_mul_of_nonneg_right hus h0
  linarith

include A L in
/-- **C103.** The percentages of drawdown and run-up, the latter where the bar's best equity is at least `a` in size. -/
theorem C103_drawdown_percent (H : Backtest cfg d sig N st) (hb : PricedBars V d N o h l c v M) (hM : 0 ≤ M) (hc : V.val cfg.initialCapital = Fl.of R (.fin cap))
    (hf : cfg.buyWithEquity = false) (hW : |cap| + 2 * M * N + 2 * M ≤ W) (hn : ((N : K) + 2) * u ≤ 1) (htop : 100 * W + 100 * (N + 4) * η ≤ top)
    {rfr : α} {tv : Nat → TvMetrics α} (hr : TvRun d cfg rfr st N tv) {t : Nat} (ht : t < N) {G : K} (hG : G = 12 * (N + 5) * (u * W + η)) :
    (0 < cap → 2 * G ≤ cap → 2 * (1 + 2 * W / cap) ≤ top →
      Near V (tv t).data.maxDrawdownPercent (drawdownCurve cfg sig cap (fillSeries cfg o c) h l t / peak cap (netCurve cfg sig cap (fillSeries cfg o c)) t)
        ((1 + 2 * W / cap) * (3 * (G / cap) + u))) ∧
    ∀ a, 0 < a → 2 * G ≤ a → 2 * (1 + 2 * W / a) ≤ top → a ≤ |netCurve cfg sig cap (fillSeries cfg o c) t + bestOpen cfg sig (fillSeries cfg o c) h l t| →
      Near V (tv t).data.maxRunUpPercent (runUpCurve cfg sig cap (fillSeries cfg o c) h l t / (netCurve cfg sig cap (fillSeries cfg o c) t + bestOpen cfg sig (fillSeries cfg o c) h l t))
        ((1 + 2 * W / a) * (3 * (G / a) + u)) := by
  have hu := A.u_nonneg
  have hη := A.η_nonneg
  have near := fun k (hk : k < N) => netEquity_near A L H hb hM hc hf hW hn htop hk
  obtain ⟨-, -, n3, hW0⟩ := near t ht
  have hN0 : (0 : K) ≤ N := Nat.cast_nonneg _
  have hD : 0 ≤ u * W + η := by positivity
  have hcapW : |cap| ≤ W := by
    have : 0 ≤ 2 * M * N := by positivity
    linarith
  have hND : 0 ≤ (N : K) * (u * W + η) := mul_nonneg hN0 hD
  obtain ⟨d1, d2⟩ := C103_drawdown A L H hb hM hc hf hW hn htop hr ht
  obtain ⟨-, -, -, -, m1, -, -, m2⟩ := C103_equity_metrics A L H hb hM hc hf hW hn htop (tv_em hr) ht
  obtain ⟨-, -, w1, w2⟩ := C48_values hr ht
  have bounds : ∀ k, k < N → |netCurve cfg sig cap (fillSeries cfg o c) k| ≤ W ∧ |netCurve cfg sig cap (fillSeries cfg o c) k + worstOpen cfg sig (fillSeries cfg o c) h l k| ≤ W ∧
      |netCurve cfg sig cap (fillSeries cfg o c) k + bestOpen cfg sig (fillSeries cfg o c) h l k| ≤ W := fun k hk => by
    obtain ⟨-, -, b1, -⟩ := near k hk
    obtain ⟨q1, q2⟩ := worstOpen_abs (cfg := cfg) (sig := sig) hb hM hc hk
    exact ⟨by linarith, (abs_add_le _ _).trans (by linarith), (abs_add_le _ _).trans (by linarith)⟩
  have b0 : |(0 : K)| ≤ 2 * W := by rw [abs_zero]; linarith
  have bd : |drawdownCurve cfg sig cap (fillSeries cfg o c) h l t| ≤ 2 * W := peak_abs b0 fun k hk =>
    (abs_sub _ _).trans (by linarith [peak_abs hcapW (t := k) fun j hj => (bounds j (by omega)).1, (bounds k (by omega)).2.1])
  have br : |runUpCurve cfg sig cap (fillSeries cfg o c) h l t| ≤ 2 * W := peak_abs b0 fun k hk =>
    (abs_sub _ _).trans (by linarith [trough_abs hcapW (t := k) fun j hj => (bounds j (by omega)).1, (bounds k (by omega)).2.2])
  rw [w1, w2]
  rw [← hG] at d1 d2
  refine ⟨fun c0 cG cT => ?_, fun a a0 aG aT ha => ?_⟩
  · have hp := (le_peak cap (netCurve cfg sig cap (fillSeries cfg o c)) (le_refl t)).1
    exact near_fraction A d1 (m1.mono (by rw [hG]; linarith)) c0 (hp.trans (le_abs_self _)) cG bd cT
  · exact near_fraction A d2 (m2.mono (by rw [hG]; linarith)) a0 ha aG br aT

theorem equityCurve_abs (hb : PricedBars V d N o h l c v M) (hM : 0 ≤ M) (hc : V.val cfg.initialCapital = Fl.of R (.fin cap)) (hW : |cap| + 2 * M * N + 2 * M ≤ W) {t : Nat}
    (ht : t < N) : |equityCurve cfg sig cap (fillSeries cfg o c) c t| ≤ W := by
  have fb := hb.floatBars hc
  have h1 := (booked_abs cfg sig hM (f := fillSeries cfg o c) (N := N) (fun t ht => (fb.fill ht).2) (t + 1) ht).1
  have h2 : 2 * M * ((t + 1 : Nat) : K) ≤ 2 * M * N := mul_le_mul_of_nonneg_left (by exact_mod_cast ht) (by linarith)
  have hto := booked_earned cfg sig (fillSeries cfg o c) t (c t)
  obtain ⟨p, hp, he⟩ : ∃ p : K, |p| ≤ 2 * M ∧ booked (fillSeries cfg o c) (deals cfg sig (t + 1)).1 + p = earned (fun k => held cfg sig (k + 1)) (fillSeries cfg o c) c t := by
    rcases hy : (deals cfg sig (t + 1)).2 with _ | ⟨dir, e⟩
    · rw [hy] at hto
      exact ⟨0, by simpa using hM, by rw [earned]; exact hto⟩
    · rw [hy] at hto
      refine ⟨(side dir : K) * (c t - fillSeries cfg o c e), ?_, by rw [earned]; exact hto⟩
      have he := (fb.fill (show e < N by have := (deals_exit_lt cfg sig (t + 1)).2 (dir, e) (by rw [hy]; rfl); simp only at this; omega)).2
      have hct := (hb.bound t ht).2.2.2
      rw [abs_le] at he hct
      cases dir <;> simp only [side] <;> push_cast <;> rw [abs_le] <;> constructor <;> linarith
  unfold equityCurve
  rw [← he]
  have g1 := abs_add_le cap (booked (fillSeries cfg o c) (deals cfg sig (t + 1)).1 + p)
  have g2 := abs_add_le (booked (fillSeries cfg o c) (deals cfg sig (t + 1)).1) p
  linarith

include A L in
/-- **C103.** The maximal drawdown of the equity curve in the Cobra report, a number from -1 to 0 as long as the equity is positive. -/
theorem C103_cobra_drawdown (H : Backtest cfg d sig N st) (hb : PricedBars V d N o h l c v M) (hM : 0 ≤ M) (hc : V.val cfg.initialCapital = Fl.of R (.fin cap))
    (hf : cfg.buyWithEquity = false) (hW : |cap| + 2 * M * N + 2 * M ≤ W) (hn : ((N : K) + 2) * u ≤ 1) (htop : 100 * W + 100 * (N + 4) * η ≤ top)
    {est : Bool} {sy : Option Int} {year : Nat → Option Int} {co : Nat → CobraMetrics α} (hr : CobraRun d cfg est sy year st N co) {t : Nat} (ht : t < N)
    {G : K} (hG : G = 6 * (N + 2) * (u * W + η)) (c0 : 0 < cap) (cG : 2 * G ≤ cap) (cT : 4 * (1 + W / cap) ≤ top) :
    Near V (co t).data.equityCurveMaxDd (trough 0 (fun k => equityCurve cfg sig cap (fillSeries cfg o c) c k /
      peak cap (equityCurve cfg sig cap (fillSeries cfg o c) c) k - 1) t) (3 * ((1 + W / cap) * (3 * (G / cap) + u))) := by
  have hu := A.u_nonneg
  have hus := A.u_small
  have hη := A.η_nonneg
  have hηu : η ≤ u / 1024 := A.η_small.trans (by have := mul_le_mul_of_nonneg_right hus hu; linarith)
  obtain ⟨-, -, -, hW0⟩ := netEquity_near A L H hb hM hc hf hW hn htop ht
  have hN0 : (0 : K) ≤ N := Nat.cast_nonneg _
  have hG0 : 0 ≤ G := by rw [hG]; positivity
  have hg0 : 0 ≤ G / cap := div_nonneg hG0 c0.le
  have hg1 : G / cap ≤ 1 / 2 := by rw [div_le_iff₀ c0]; linarith
  have hq0 : 0 ≤ W / cap := div_nonneg hW0 c0.le
  have zero : Near V (lit 0 : α) 0 (3 * ((1 + W / cap) * (3 * (G / cap) + u))) :=
    (near_of_val (by have := val_lit_nat (V := V) L (n := 0) (by norm_num); exact_mod_cast this)).mono (by positivity)
  have one : Near V (lit 1 : α) 1 0 := near_of_val (by have := val_lit_nat (V := V) L (n := 1) (by norm_num); exact_mod_cast this)
  rw [C48_cobra_values hr ht]
  refine (runMax'_near zero fun k hk => ?_).2
  obtain ⟨m1, m2, -⟩ := C103_equity_metrics A L H hb hM hc hf hW hn htop (cobra_em hr) (t := k) (by omega)
  rw [← hG] at m1 m2
  have hp := (le_peak cap (equityCurve cfg sig cap (fillSeries cfg o c) c) (le_refl k)).1
  have hx := equityCurve_abs (cfg := cfg) (sig := sig) hb hM hc hW (t := k) (by omega)
  have fr := near_fraction A m1 m2 c0 (hp.trans (le_abs_self _)) cG hx (by linarith)
  have hq : |equityCurve cfg sig cap (fillSeries cfg o c) c k / peak cap (equityCurve cfg sig cap (fillSeries cfg o c) c) k| ≤ W / cap := by
    rw [abs_div]
    exact div_le_div₀ hW0 hx c0 (hp.trans (le_abs_self _))
  generalize W / cap = q at *
  generalize equityCurve cfg sig cap (fillSeries cfg o c) c k / peak cap (equityCurve cfg sig cap (fillSeries cfg o c) c) k = z at *
  generalize G / cap = g at *
  have h1 : (1 + q) * (3 * g) ≤ (1 + q) * (3 * (1 / 2)) := mul_le_mul_of_nonneg_left (by linarith) (by linarith)
  have h2 : (1 + q) * u ≤ (1 + q) * (1 / 1024) := mul_le_mul_of_nonneg_left hus (by linarith)
  have h3 : (1 + q) * (3 * g + u) = (1 + q) * (3 * g) + (1 + q) * u := by ring
  have h4 : 0 ≤ (1 + q) * (3 * g) := by positivity
  have h5 : 0 ≤ q * u := by positivity
  have h6 := mul_le_mul_of_nonneg_right hus (show 0 ≤ (1 + q) * (3 * g + u) by positivity)
  refine (fr.sub A one (m := 1 + q) ((abs_sub _ _).trans (by rw [abs_one]; linarith)) (by linarith)).mono ?_
  linarith

end
end Pace
