import Verif.Props.AccuracyAverages

/-!
# C104: the statistics of a whole history in floats, and the Sharpe and Sortino ratios
-/

set_option linter.unusedSectionVars false

namespace Pace
open Spec
variable {K : Type} [Field K] [LinearOrder K] [IsStrictOrderedRing K] [LawfulRoots K] {R : Rounding K}
variable {α : Type} [F64 α]

theorem fsum_append (l : List α) (a : α) : fsum (l ++ [a]) = fsum l + a := by simp [fsum]

theorem feed_mean (l : List α) : feed Mean.next (Mean.new : Mean α) l = ⟨fsum l, l.length⟩ := by
  induction l using List.reverseRecOn with
  | nil => rfl
  | append_singleton l a ih => rw [feed_snoc, ih, fsum_append, List.length_append]; rfl

theorem feed_var (l : List α) : feed Var.next (Var.build false : Var α) l = ⟨false, ⟨l⟩, .new, ⟨fsum l, l.length⟩⟩ := by
  induction l using List.reverseRecOn with
  | nil => rfl
  | append_singleton l a ih => rw [feed_snoc, ih, fsum_append, List.length_append]; rfl

theorem feed_stdev (l : List α) : feed StatStdev.next (StatStdev.build false : StatStdev α) l = ⟨⟨false, ⟨l⟩, .new, ⟨fsum l, l.length⟩⟩⟩ := by
  induction l using List.reverseRecOn with
  | nil => rfl
  | append_singleton l a ih => rw [feed_snoc, ih, fsum_append, List.length_append]; rfl

theorem mean_out (l : List α) (a : α) : (Mean.next (feed Mean.next (Mean.new : Mean α) l) a).1 = Stats.mean (l ++ [a]) := by
  rw [feed_mean, Stats.mean, fsum_append, List.length_append]; rfl

theorem stdev_out (l : List α) (a : α) : (StatStdev.next (feed StatStdev.next (StatStdev.build false : StatStdev α) l) a).1 = Stats.stdev (l ++ [a]) := by
  rw [feed_stdev, Stats.stdev, Stats.var, Stats.mean, fsum_append, List.length_append]; rfl

/-- **C104.** Fed one by one, mean, variance and standard deviation are on every tick bit for bit those of the list of everything fed so far. -/
theorem C104_batch (x : Nat → α) (N : Nat) :
    Runs (total Mean.next) (.ok (Mean.new : Mean α)) x N (fun t => Stats.mean (hist x (t + 1))) ∧
    Runs (total Var.next) (.ok (Var.build false : Var α)) x N (fun t => Stats.var (hist x (t + 1))) ∧
    Runs (total StatStdev.next) (.ok (StatStdev.build false : StatStdev α)) x N (fun t => Stats.stdev (hist x (t + 1))) := by
  refine ⟨?_, ?_, ?_⟩
  · apply Impl.runs (Inv := fun t s => s = feed Mean.next Mean.new (hist x t))
    refine ⟨rfl, ?_⟩
    rintro t _ _ rfl
    exact ⟨(Mean.next (feed Mean.next Mean.new (hist x t)) (x t)).2, by rw [hist_succ', ← mean_out]; rfl, by rw [hist_succ', feed_snoc]⟩
  · apply Impl.runs (Inv := fun t s => s = feed Var.next (Var.build false) (hist x t))
    refine ⟨rfl, ?_⟩
    rintro t _ _ rfl
    refine ⟨_, ?_, by rw [hist_succ', feed_snoc]⟩
    rw [hist_succ', Stats.var, Stats.mean, fsum_append, List.length_append]
    simp only [total, feed_var]
    rfl
  · apply Impl.runs (Inv := fun t s => s = feed StatStdev.next (StatStdev.build false) (hist x t))
    refine ⟨rfl, ?_⟩
    rintro t _ _ rfl
    exact ⟨(StatStdev.next (feed StatStdev.next (StatStdev.build false) (hist x t)) (x t)).2, by rw [hist_succ', ← stdev_out]; rfl, by rw [hist_succ', feed_snoc]⟩

section
variable {V : Valued R α} {u η top : K} (A : R.Accurate u η top) (L : R.Lawful)

theorem hist_prefix_sum {β : Type} {q : List (β × K)} {y : Nat → β} {p : Nat → K} {n : Nat} (hq : q <+: (List.range n).map fun i => (y i, p i)) {M : K} (hM : 0 ≤ M)
    (hp : ∀ i, i < n → |p i| ≤ M) : |(q.map Prod.snd).sum| ≤ n * M := by
  have h1 : ∀ z ∈ q, |z.2| ≤ M := fun z hz => by
    obtain ⟨i, hi, rfl⟩ := List.mem_map.mp (hq.subset hz)
    exact hp i (List.mem_range.mp hi)
  have h2 := abs_sum_le' Prod.snd q h1
  have h3 : (q.length : K) ≤ n := by
    have := hq.length_le
    rw [List.length_map, List.length_range] at this
    exact_mod_cast this
  have := mul_le_mul_of_nonneg_right h3 hM
  linarith

include A L in
/-- **C104.** Of `n` numbers up to `M`, known within `δ`: with `E = δ + n u (M + 1)`, the mean is within `4 E` and the standard deviation within `21 E`
of those of the numbers. -/
theorem C104_statistics (hroot : RoundedRoots R) {x : Nat → α} {p : Nat → K} {n : Nat} (hn1 : 1 ≤ n) (h53 : n ≤ 2 ^ 53) {M δ E : K} (hM : 0 ≤ M)
    (hx : ∀ i, i < n → Near V (x i) (p i) δ) (hp : ∀ i, i < n → |p i| ≤ M) (hδ : 100 * δ ≤ M + 1) (hnu : 1000 * (n : K) * u ≤ 1)
    (htop : 50 * n * (M + 1) ^ 2 ≤ top) (hE : E = δ + n * u * (M + 1)) :
    Near V (Stats.mean (hist x n)) (mean (hist p n)) (4 * E) ∧ Near V (Stats.stdev (hist x n)) (RootOps.sqrt (popVar (hist p n))) (21 * E) := by
  have hu := A.u_nonneg
  have hus := A.u_small
  have hη := A.η_nonneg
  have hηu : η ≤ u / 1024 := A.η_small.trans (by have := mul_le_mul_of_nonneg_right hus hu; linarith)
  have hn0 : (1 : K) ≤ n := by exact_mod_cast hn1
  have hnp : (0 : K) < n := by linarith
  have hδ0 : 0 ≤ δ := (hx 0 (by omega)).nonneg
  have nu0 : 0 ≤ (n : K) * u := by positivity
  have nuM : 0 ≤ (n : K) * u * M := by positivity
  have u_le : u ≤ n * u := le_mul_of_one_le_left hu hn0
  have uM_le : u * M ≤ n * u * M := mul_le_mul_of_nonneg_right u_le hM
  have hE' : E = δ + n * u * M + n * u := by rw [hE]; ring
  have nuM1 : (n : K) * u * M ≤ M / 1000 := by
    have := mul_le_mul_of_nonneg_right (show (n : K) * u ≤ 1 / 1000 by linarith) hM
    linarith
  have hE0 : 0 ≤ E := by rw [hE']; linarith
  have hE1 : E ≤ 11 / 1000 * (M + 1) := by rw [hE']; linarith
  have uE : u * E ≤ E / 1024 := by have := mul_le_mul_of_nonneg_right hus hE0; linarith
  have uδ : u * δ ≤ δ / 1024 := by have := mul_le_mul_of_nonneg_right hus hδ0; linarith
  have M1 : M + 1 ≤ (M + 1) ^ 2 := by
    have : 0 ≤ M * (M + 1) := by positivity
    linarith [show (M + 1) ^ 2 = M * (M + 1) + (M + 1) by ring]
  have sq0 : 0 ≤ (M + 1) ^ 2 := by positivity
  have nsq : (M + 1) ^ 2 ≤ n * (M + 1) ^ 2 := le_mul_of_one_le_left sq0 hn0
  have nM1 : (n : K) * (M + 1) ≤ n * (M + 1) ^ 2 := mul_le_mul_of_nonneg_left M1 hnp.le
  have nM0 : 0 ≤ (n : K) * M := by positivity
  -- the mean
  have len : (hist x n).length = n := by simp [hist]
  have len' : (hist p n).length = n := by simp [hist]
  have hsum : Near V (fsum (hist x n)) (hist p n).sum (2 * n * ((1 + u) * δ + u * (n * M) + η)) := by
    have hnu1 : (n : K) * u ≤ 1 := by linarith
    have hD0 : 0 ≤ (1 + u) * δ + u * (n * M) + η := by positivity
    have hs := fsum_near A L (V := V) hδ0 nM0 ((List.range n).map fun i => (x i, p i)) ?_ (fun q hq => hist_prefix_sum hq hM hp)
      (by rw [List.length_map, List.length_range]; exact hnu1) ?_
    · rw [List.map_map, List.map_map, List.length_map, List.length_range] at hs
      exact hs.mono (drift_le hu hD0 hnu1)
    · intro z hz
      obtain ⟨i, hi, rfl⟩ := List.mem_map.mp hz
      exact hx i (List.mem_range.mp hi)
    · rw [List.length_map, List.length_range]
      have e1 : (1 + u) * δ + u * (n * M) + η ≤ M + 1 := by linarith
      have e2 := mul_le_mul_of_nonneg_left e1 (show 0 ≤ 2 * (n : K) by linarith)
      have e3 : (n : K) * M ≤ n * (M + 1) := mul_le_mul_of_nonneg_left (by linarith) hnp.le
      have e4 : M + 1 ≤ n * (M + 1) := le_mul_of_one_le_left (by linarith) hn0
      linarith
  have hmabs : |mean (hist p n)| ≤ M := by
    unfold mean
    rw [len', abs_div, abs_of_pos hnp, div_le_iff₀ hnp]
    have h1 := abs_sum_le' p (List.range n) fun i hi => hp i (List.mem_range.mp hi)
    rw [List.length_range] at h1
    rw [mul_comm]; exact h1
  have hmean : Near V (Stats.mean (hist x n)) (mean (hist p n)) (4 * E) := by
    unfold Stats.mean
    have hm := hmabs
    unfold mean at hm ⊢
    rw [len'] at hm
    rw [len, len']
    have e0 : 2 * n * ((1 + u) * δ + u * (n * M) + η) / n = 2 * ((1 + u) * δ + u * (n * M) + η) := by field_simp
    have D1 : (1 + u) * δ + u * (n * M) + η ≤ 102 / 100 * E := by rw [hE']; linarith
    have D0 : 0 ≤ (1 + u) * δ + u * (n * M) + η := by positivity
    generalize (1 + u) * δ + u * (n * M) + η = D at *
    have D2 := mul_le_mul_of_nonneg_left D1 hu
    have hEM : u * M ≤ E ∧ η ≤ E / 1024 := ⟨by rw [hE']; linarith, by rw [hE']; linarith⟩
    refine (Near.div A hnp hsum (val_lit_nat L h53) hm (by rw [e0]; linarith)).mono ?_
    rw [e0]
    linarith [hEM.1, hEM.2]
  refine ⟨hmean, ?_⟩
  -- the deviations
  have hEM : u * M ≤ E ∧ η ≤ E / 1024 ∧ δ ≤ E ∧ u ≤ E := ⟨by rw [hE']; linarith, by rw [hE']; linarith, by rw [hE']; linarith, by rw [hE']; linarith⟩
  obtain ⟨f1, f2, f3, f4⟩ := hEM
  have habs : ∀ i, i < n → |p i - mean (hist p n)| ≤ 2 * M := fun i hi => by
    have h1 := hp i hi
    rw [abs_le] at *; constructor <;> linarith
  have hdev : ∀ i, i < n → Near V (x i - Stats.mean (hist x n)) (p i - mean (hist p n)) (8 * E) := fun i hi => by
    refine (Near.sub A (hx i hi) hmean (habs i hi) (by linarith)).mono ?_
    linarith
  have hσ : ∀ i, ∃ s : K, i < n → V.val (x i - Stats.mean (hist x n)) = Fl.of R (.fin s) ∧ |s - (p i - mean (hist p n))| ≤ 8 * E := by
    intro i
    by_cases hi : i < n
    · obtain ⟨s, h1, h2⟩ := hdev i hi
      exact ⟨s, fun _ => ⟨h1, h2⟩⟩
    · exact ⟨0, fun h => absurd h hi⟩
  choose σ hσ using hσ
  have hB : 2 * M + 8 * E ≤ 21 / 10 * (M + 1) := by linarith
  have hB0 : 0 ≤ 2 * M + 8 * E := by linarith
  have hBB : (2 * M + 8 * E) * (2 * M + 8 * E) ≤ 441 / 100 * (M + 1) ^ 2 := by
    have := mul_self_le_mul_self hB0 hB
    linarith [show 21 / 10 * (M + 1) * (21 / 10 * (M + 1)) = 441 / 100 * (M + 1) ^ 2 by ring]
  have one : (1 : K) ≤ (M + 1) ^ 2 := by linarith
  have hrms := near_rms A L (V := V) hroot (n := n) (a := fun i => x i - Stats.mean (hist x n)) (σ := σ) (fun i hi => (hσ i hi).1) hB0
    (fun i hi => by
      have h1 := (hσ i hi).2
      have h2 := habs i hi
      rw [abs_le] at *; constructor <;> linarith) hn1 hnu hn0 (val_lit_nat (V := V) L h53) zero_le_one one_le_two (by linarith) (by
        have := mul_le_mul_of_nonneg_left (show (2 * M + 8 * E) * (2 * M + 8 * E) + 1 ≤ 541 / 100 * (M + 1) ^ 2 by linarith) (show 0 ≤ 8 * (n : K) by linarith)
        have h0 : 0 ≤ n * (M + 1) ^ 2 := by positivity
        linarith)
  have hclose := rms_close (a := σ) (b := fun i => p i - mean (hist p n)) (n := n) (c := n) (r := 1) (show 0 ≤ 8 * E by linarith) (fun i hi => (hσ i hi).2) hnp zero_le_one (by linarith)
  obtain ⟨z, z1, z2⟩ := hrms
  refine ⟨z, ?_, ?_⟩
  · rw [← z1]
    unfold Stats.stdev Stats.var Stats.varFromMean Stats.stdevFromVar
    rw [len, hist, List.map_map]
    rfl
  · have e : popVar (hist p n) = ((List.range n).map fun i => (p i - mean (hist p n)) ^ 2).sum / n := by
      unfold popVar sqDev
      rw [len']
      conv_lhs => rw [hist, List.map_map]
      rfl
    rw [e]
    have nuE : (n : K) * u * E ≤ E / 1000 := by
      have := mul_le_mul_of_nonneg_right (show (n : K) * u ≤ 1 / 1000 by linarith) hE0
      linarith
    have h3 := abs_sub_le z (RootOps.sqrt (((List.range n).map fun i => σ i ^ 2).sum / n)) (RootOps.sqrt (((List.range n).map fun i => (p i - mean (hist p n)) ^ 2).sum / n))
    have f5 : 12 * (n * u * M) + 12 * (n * u) ≤ 12 * E := by rw [hE']; linarith
    linarith

/-! ## The Sharpe and Sortino ratios -/

theorem returns_history (initial : α) (v : Nat → α) (N : Nat) {r : Nat → Returns α}
    (h : ∀ t, t < N → r t = (prior (Returns.build initial false) r t).next (v t)) (t : Nat) (ht : t ≤ N) :
    (prior (Returns.build initial false) r t).prevValue = initial ∧
    (prior (Returns.build initial false) r t).mean = feed Mean.next Mean.new (hist (fun k => v k - initial) t) ∧
    (prior (Returns.build initial false) r t).stdev = feed StatStdev.next (StatStdev.build false) (hist (fun k => v k - initial) t) := by
  induction t with
  | zero => exact ⟨rfl, rfl, rfl⟩
  | succ t ih =>
    obtain ⟨h1, h2, h3⟩ := ih (by omega)
    rw [show prior (Returns.build initial false) r (t + 1) = r t from rfl, h t (by omega), hist_succ', feed_snoc, feed_snoc, ← h2, ← h3]
    refine ⟨h1, ?_, ?_⟩ <;> simp only [Returns.next, h1]

variable {cfg : StrategyConfig α} {d : DataProvider α} {sig : Nat → Option TradeDirection} {N : Nat} {st : Nat → Strategy α}

/-- **C104.** In any arithmetic, the Sharpe ratio is made of the mean and standard deviation of the list of all distances of the net equity from the
capital so far, and the Sortino ratio of that mean and the standard deviation of the list of the shortfalls. -/
theorem C104_ratios {rfr : α} {tv : Nat → TvMetrics α} (h : TvRun d cfg rfr st N tv) {t : Nat} (ht : t < N) :
    (tv t).data.sharpeRatio = Metrics.sharpeRatio (Stats.mean (hist (fun k => (tv k).equityMetrics.netEquity - cfg.initialCapital) (t + 1)))
      (Stats.stdev (hist (fun k => (tv k).equityMetrics.netEquity - cfg.initialCapital) (t + 1))) rfr ∧
    (tv t).data.sortinoRatio = Metrics.sortinoRatio (Stats.mean (hist (fun k => (tv k).equityMetrics.netEquity - cfg.initialCapital) (t + 1)))
      (Stats.stdev (hist (fun k => F64.abs (F64.fmin (lit 0) ((tv k).equityMetrics.netEquity - cfg.initialCapital))) (t + 1))) rfr := by
  have hstep : ∀ t, t < N → TvStep d t (st t) (prior (TvMetrics.new (Strategy.new cfg) rfr) tv t) (tv t) :=
    fun t ht => tv_step (selfRun_step h t ht)
  have hret : ∀ t, t < N → (tv t).returns =
      (prior (Returns.build cfg.initialCapital false) (fun k => (tv k).returns) t).next ((tv t).equityMetrics.netEquity) := by
    intro t ht
    rw [(hstep t ht).returns]
    cases t <;> rfl
  have hinv := returns_history cfg.initialCapital (fun k => (tv k).equityMetrics.netEquity) N hret
  have hd : ∀ t, t < N → (tv t).returns.delta = (tv t).equityMetrics.netEquity - cfg.initialCapital := by
    intro t ht
    rw [hret t ht]
    simp only [Returns.next, (hinv t ht.le).1]
  have hneg : ∀ t, t ≤ N → (prior (TvMetrics.new (Strategy.new cfg) rfr) tv t).riskFreeRate = rfr ∧
      (prior (TvMetrics.new (Strategy.new cfg) rfr) tv t).negReturnsStdev = feed StatStdev.next (StatStdev.build false)
        (hist (fun k => F64.abs (F64.fmin (lit 0) ((tv k).equityMetrics.netEquity - cfg.initialCapital))) t) := by
    intro t
    induction t with
    | zero => intro _; exact ⟨rfl, rfl⟩
    | succ t ih =>
      intro ht
      obtain ⟨i1, i2⟩ := ih (by omega)
      have s := hstep t (by omega)
      refine ⟨by rw [show prior _ tv (t + 1) = tv t from rfl, s.rfr, i1], ?_⟩
      rw [show prior _ tv (t + 1) = tv t from rfl, ← s.neg, i2, hd t (by omega), hist_succ', feed_snoc]
  obtain ⟨i1, i2⟩ := hneg t ht.le
  obtain ⟨j1, j2, j3⟩ := hinv t ht.le
  have s := hstep t ht
  have hm : (tv t).returns.meanV = Stats.mean (hist (fun k => (tv k).equityMetrics.netEquity - cfg.initialCapital) (t + 1)) := by
    rw [hret t ht, hist_succ', ← mean_out, ← j2]
    simp only [Returns.next, j1]
  have hs : (tv t).returns.stdevV = Stats.stdev (hist (fun k => (tv k).equityMetrics.netEquity - cfg.initialCapital) (t + 1)) := by
    rw [hret t ht, hist_succ', ← stdev_out, ← j3]
    simp only [Returns.next, j1]
  refine ⟨by rw [s.sharpe, hm, hs, i1], ?_⟩
  rw [s.sortino, hm, i1, i2, hd t ht, hist_succ' (fun k => F64.abs _), ← stdev_out]

variable {o h l c v : Nat → K} {cap M W : K}

include A L in
/-- **C104.** One unit per trade, prices up to `M`, `W` as in C103, a risk free rate `r` up to `W`: where the exact standard deviation is `a` or more, the
Sharpe ratio is within `(1 + 2 W / a) (3 G / a + u)` of the exact one, with `G = 150 (N + 4) u (W + 1)`; and so is the Sortino ratio where the
standard deviation of the shortfalls is. -/
theorem C104_sharpe_sortino (hroot : RoundedRoots R) (H : Backtest cfg d sig N st) (hb : PricedBars V d N o h l c v M) (hM : 0 ≤ M)
    (hc : V.val cfg.initialCapital = Fl.of R (.fin cap)) (hf : cfg.buyWithEquity = false) (hW : |cap| + 2 * M * N + 2 * M ≤ W)
    (hn : 1000 * ((N : K) + 4) * u ≤ 1) (htop : 200 * (N + 4) * (W + 1) ^ 2 ≤ top) (h53 : N ≤ 2 ^ 53) {rfr : α} {r : K} (hv : V.val rfr = Fl.of R (.fin r)) (hr : |r| ≤ W)
    {tv : Nat → TvMetrics α} (h : TvRun d cfg rfr st N tv) {t : Nat} (ht : t < N) {G a : K} (hG : G = 150 * (N + 4) * u * (W + 1)) (a0 : 0 < a) (aG : 2 * G ≤ a)
    (aT : 2 * (1 + 2 * W / a) ≤ top) {δ : Nat → K} (hδ : ∀ k, δ k = booked (fillSeries cfg o c) (deals cfg sig (k + 1)).1) :
    (a ≤ RootOps.sqrt (popVar (hist δ (t + 1))) →
      Near V (tv t).data.sharpeRatio ((mean (hist δ (t + 1)) - r) / RootOps.sqrt (popVar (hist δ (t + 1)))) ((1 + 2 * W / a) * (3 * (G / a) + u))) ∧
    (a ≤ RootOps.sqrt (popVar (hist (fun k => max 0 (-δ k)) (t + 1))) →
      Near V (tv t).data.sortinoRatio ((mean (hist δ (t + 1)) - r) / RootOps.sqrt (popVar (hist (fun k => max 0 (-δ k)) (t + 1)))) ((1 + 2 * W / a) * (3 * (G / a) + u))) := by
  have hu := A.u_nonneg
  have hus := A.u_small
  have hη := A.η_nonneg
  have hηu : η ≤ u / 1024 := A.η_small.trans (by have := mul_le_mul_of_nonneg_right hus hu; linarith)
  have hN0 : (0 : K) ≤ N := Nat.cast_nonneg _
  have Nu0 : 0 ≤ (N : K) * u := by positivity
  have hW0 : 0 ≤ W := by have := abs_nonneg cap; have : 0 ≤ 2 * M * N := by positivity
                         linarith
  have hW1 : W + 1 ≤ (W + 1) ^ 2 := by
    have : 0 ≤ W * (W + 1) := by positivity
    linarith [show (W + 1) ^ 2 = W * (W + 1) + (W + 1) by ring]
  have hNη : (N : K) * η ≤ N * (u / 1024) := mul_le_mul_of_nonneg_left hηu hN0
  have sqN : 0 ≤ (N : K) * (W + 1) ^ 2 := by positivity
  have htop' : 100 * W + 100 * (N + 4) * η ≤ top := by linarith
  have hn' : ((N : K) + 2) * u ≤ 1 := by linarith
  -- the distances from the capital
  have near : ∀ k, k < N → Near V ((tv k).equityMetrics.netEquity - cfg.initialCapital) (δ k) (6 * (N + 4) * u * (W + 1)) ∧ |δ k| ≤ W := by
    intro k hk
    have h1 := (C103_equity_metrics A L H hb hM hc hf hW hn' htop' (tv_em h) hk).2.2.2.1
    have h2 := (sums_near A L H hb hM hc hf hW hn' htop' hk).2.1
    have e : δ k = netCurve cfg sig cap (fillSeries cfg o c) k - cap := by rw [hδ]; unfold netCurve; ring
    rw [← hδ k] at h2
    refine ⟨?_, h2⟩
    rw [e] at h2 ⊢
    have D0 : 0 ≤ u * W + η := by positivity
    have D1 : u * W + η ≤ u * (W + 1) := by linarith
    have D2 : 6 * (N + 2) * (u * W + η) ≤ 6 * (N + 2) * (u * (W + 1)) := mul_le_mul_of_nonneg_left D1 (by linarith)
    have D3 : 0 ≤ u * (W + 1) := by positivity
    have D4 : ((N : K) + 2) * u * (W + 1) ≤ 1 / 1000 * (W + 1) := mul_le_mul_of_nonneg_right (by linarith) (by linarith)
    have D5 : u * (6 * (N + 2) * (u * W + η)) ≤ u * (6 / 1000 * (W + 1)) := mul_le_mul_of_nonneg_left (by linarith) hu
    refine (Near.sub A h1 (near_of_val hc) h2 (by linarith)).mono ?_
    linarith
  obtain ⟨r1, r2⟩ := C104_ratios h ht
  have hd0 : 0 ≤ 6 * ((N : K) + 4) * u * (W + 1) := by positivity
  have hd1 : 100 * (6 * ((N : K) + 4) * u * (W + 1)) ≤ W + 1 := by
    have := mul_le_mul_of_nonneg_right hn (show 0 ≤ W + 1 by linarith)
    linarith
  have tN : ((t + 1 : Nat) : K) ≤ N := by exact_mod_cast ht
  have t53 : t + 1 ≤ 2 ^ 53 := (Nat.succ_le_of_lt ht).trans h53
  have tu : ((t + 1 : Nat) : K) * u ≤ N * u := mul_le_mul_of_nonneg_right tN hu
  have ttop : 50 * ((t + 1 : Nat) : K) * (W + 1) ^ 2 ≤ top := by
    have h1 := mul_le_mul_of_nonneg_right tN (show 0 ≤ (W + 1) ^ 2 by positivity)
    linarith
  have hE : 6 * ((N : K) + 4) * u * (W + 1) + ((t + 1 : Nat) : K) * u * (W + 1) ≤ 7 * (N + 4) * u * (W + 1) := by
    have h1 := mul_le_mul_of_nonneg_right tu (show 0 ≤ W + 1 by linarith)
    have : 0 ≤ u * (W + 1) := by positivity
    linarith
  have stat := fun (x : Nat → α) p hx hp => C104_statistics A L (V := V) hroot (x := x) (p := p) (n := t + 1) (by omega) t53 hW0 hx hp hd1 (by linarith) ttop rfl
  obtain ⟨s1, s2⟩ := stat (fun k => (tv k).equityMetrics.netEquity - cfg.initialCapital) δ (fun i hi => (near i (by omega)).1) fun i hi => (near i (by omega)).2
  obtain ⟨-, s3⟩ := stat (fun k => F64.abs (F64.fmin (lit 0) ((tv k).equityMetrics.netEquity - cfg.initialCapital))) (fun k => max 0 (-δ k)) (fun i hi => by
      have h0 : Near V (lit 0 : α) 0 (6 * (N + 4) * u * (W + 1)) := (near_of_val (by rw [V.lit, lit_zero L])).mono hd0
      have := (h0.min (near i (by omega)).1).abs
      have e : |min 0 (δ i)| = max 0 (-δ i) := by
        rcases le_total 0 (δ i) with g | g
        · rw [min_eq_left g, max_eq_left (by linarith), abs_zero]
        · rw [min_eq_right g, max_eq_right (by linarith), abs_of_nonpos g]
      rwa [e] at this) fun i hi => by
        have := (near i (by omega)).2
        rw [abs_le] at this
        exact abs_le.mpr ⟨le_trans (by linarith) (le_max_left _ _), max_le hW0 (by linarith)⟩
  have hmabs : |mean (hist δ (t + 1))| ≤ W := by
    unfold mean
    have hnp : (0 : K) < ((t + 1 : Nat) : K) := by exact_mod_cast Nat.succ_pos t
    rw [show (hist δ (t + 1)).length = t + 1 by simp [hist], abs_div, abs_of_pos hnp, div_le_iff₀ hnp]
    have h1 := abs_sum_le' δ (List.range (t + 1)) fun i hi => (near i (by have := List.mem_range.mp hi; omega)).2
    rw [List.length_range] at h1
    rw [mul_comm]; exact h1
  have hG' : 147 * ((N : K) + 4) * u * (W + 1) ≤ G := by
    rw [hG]
    have : 0 ≤ ((N : K) + 4) * u * (W + 1) := by positivity
    linarith
  have hnum : |mean (hist δ (t + 1)) - r| ≤ 2 * W := by rw [abs_le] at *; constructor <;> linarith
  have g0 : 0 ≤ ((N : K) + 4) * u * (W + 1) := by positivity
  have top1 : 3 * W + 3 ≤ top := by linarith
  have g1 : ((N : K) + 4) * u * (W + 1) ≤ 1 / 1000 * (W + 1) := mul_le_mul_of_nonneg_right (by linarith) (by linarith)
  have n1 : Near V (Stats.mean (hist (fun k => (tv k).equityMetrics.netEquity - cfg.initialCapital) (t + 1)) - rfr) (mean (hist δ (t + 1)) - r) G := by
    have s1' := s1.mono (show 4 * (6 * ((N : K) + 4) * u * (W + 1) + ((t + 1 : Nat) : K) * u * (W + 1)) ≤ 28 * ((N + 4) * u * (W + 1)) by linarith)
    have uW : u * W ≤ (N + 4) * u * (W + 1) := by
      have h1 : 0 ≤ (N : K) * u * (W + 1) := by positivity
      have h2 : 0 ≤ u * W := by positivity
      linarith
    have u1 : u ≤ (N + 4) * u * (W + 1) := by
      have h1 : 0 ≤ (N : K) * u * (W + 1) := by positivity
      have h2 : 0 ≤ u * W := by positivity
      linarith
    have hG2 : 147 * (((N : K) + 4) * u * (W + 1)) ≤ G := by linarith
    generalize ((N : K) + 4) * u * (W + 1) = X at *
    have uX := mul_le_mul_of_nonneg_right hus g0
    refine (Near.sub A s1' (near_of_val hv) hnum (by linarith)).mono ?_
    linarith
  have big : 21 * (6 * ((N : K) + 4) * u * (W + 1) + ((t + 1 : Nat) : K) * u * (W + 1)) ≤ G := by linarith
  have s2' := s2.mono big
  have s3' := s3.mono big
  constructor
  · intro ha
    have ha' := ha.trans (le_abs_self _)
    have hG0 := n1.nonneg
    rw [r1, Metrics.sharpeRatio, near_feq_zero L s2' (lt_of_lt_of_le (by linarith) ha')]
    exact near_fraction A n1 s2' a0 ha' aG hnum aT
  · intro ha
    have ha' := ha.trans (le_abs_self _)
    have hG0 := n1.nonneg
    rw [r2, Metrics.sortinoRatio, near_feq_zero L s3' (lt_of_lt_of_le (by linarith) ha')]
    exact near_fraction A n1 s3' a0 ha' aG hnum aT

end
end Pace
