import Verif.Props.AccuracyHistory

/-!
# C105: the ratios of the Cobra report in floats
-/

set_option linter.unusedSectionVars false

namespace Pace
open Spec
variable {K : Type} [Field K] [LinearOrder K] [IsStrictOrderedRing K] [LawfulRoots K] {R : Rounding K}
variable {α : Type} [F64 α]
variable {cfg : StrategyConfig α} {d : DataProvider α} {sig : Nat → Option TradeDirection} {N : Nat} {st : Nat → Strategy α}

/-- The float return of the equity on tick `k`, as the program computes it. -/
def equityReturn (cfg : StrategyConfig α) (st : Nat → Strategy α) (k : Nat) : α :=
  Metrics.returns (st k).metrics.equity (if k = 0 then cfg.initialCapital else (st (k - 1)).metrics.equity)

/-- What the Cobra report makes of a list of returns, if there are any. -/
structure CobraRatios (D : CobraData α) (ρ : List α) : Prop where
  omega : D.omega = Metrics.omegaRatio (fsum (ρ.map (F64.fmax (lit 0)))) (fsum (ρ.map fun x => F64.abs (F64.fmin (lit 0) x))) (lit 0) * F64.sqrt (lit 365)
  sharpe : D.sharpe = Metrics.sharpeRatio (Stats.mean ρ) (Stats.stdev ρ) (lit 0) * F64.sqrt (lit 365)
  sortino : D.sortino = Metrics.sortinoRatio (Stats.mean ρ) (Stats.stdev (ρ.map fun x => F64.abs (F64.fmin (lit 0) x))) (lit 0) * F64.sqrt (lit 365)

/-- **C105.** In any arithmetic, without the fast mode, the Omega, Sharpe and Sortino ratios are those of the list of the returns on the ticks that count
so far; while there is none they are zero. -/
theorem C105_ratios {sy : Option Int} {year : Nat → Option Int} {co : Nat → CobraMetrics α} (h : CobraRun d cfg false sy year st N co) {t : Nat} (ht : t < N) :
    (countedTicks sy year t = [] → (co t).data.omega = lit 0 ∧ (co t).data.sharpe = lit 0 ∧ (co t).data.sortino = lit 0) ∧
    (countedTicks sy year t ≠ [] → CobraRatios (co t).data ((countedTicks sy year t).map (equityReturn cfg st))) := by
  set c0 := CobraMetrics.new (Strategy.new cfg) false sy with hc0
  have hstep : ∀ t, t < N → CobraStep d t (year t) (st t) (prior c0 co t) (co t) := fun t ht => cobraRun_step h ht
  set ρ := equityReturn cfg st with hρ
  set L : Nat → List Nat := fun t => (List.range t).filter fun k => counted sy (year k) with hL
  have hinv : ∀ t, t ≤ N →
      (prior c0 co t).returnsStartYear = sy ∧ (prior c0 co t).riskFreeRate = lit 0 ∧
      (prior c0 co t).annualized = F64.sqrt (lit 365) ∧
      (prior c0 co t).prevEquity = (if t = 0 then cfg.initialCapital else (st (t - 1)).metrics.equity) ∧
      (prior c0 co t).returnsMean = feed Mean.next Mean.new ((L t).map ρ) ∧
      (prior c0 co t).returnsStdev = feed StatStdev.next (StatStdev.build false) ((L t).map ρ) ∧
      (prior c0 co t).negativeReturnsStdev = feed StatStdev.next (StatStdev.build false) (((L t).map ρ).map fun x => F64.abs (F64.fmin (lit 0) x)) ∧
      (prior c0 co t).positiveReturnsSum = fsum (((L t).map ρ).map (F64.fmax (lit 0))) ∧
      (prior c0 co t).negativeReturnsSum = fsum (((L t).map ρ).map fun x => F64.abs (F64.fmin (lit 0) x)) ∧
      (L t = [] → (prior c0 co t).data.omega = lit 0 ∧ (prior c0 co t).data.sharpe = lit 0 ∧ (prior c0 co t).data.sortino = lit 0) ∧
      (L t ≠ [] → CobraRatios (prior c0 co t).data ((L t).map ρ)) := by
    intro t
    induction t with
    | zero =>
      intro _
      refine ⟨rfl, rfl, rfl, rfl, rfl, rfl, rfl, rfl, rfl, fun _ => ⟨rfl, rfl, rfl⟩, fun g => absurd (by simp [hL]) g⟩
    | succ t ih =>
      intro ht
      obtain ⟨i1, i2, i3, i4, i5, i6, i7, i8, i9, i10, i11⟩ := ih (by omega)
      have s := hstep t (by omega)
      have hp : prior c0 co (t + 1) = co t := rfl
      have heq : (co t).equityMetrics.equity = (st t).metrics.equity := (em_step s.em).equity
      rw [hp]
      refine ⟨by rw [s.startYear, i1], by rw [s.rfr, i2], by rw [s.annualized, i3], by rw [s.prevEquity, heq]; simp, ?_⟩
      cases hct : counted sy (year t) with
      | false =>
        have hLt : L (t + 1) = L t := by simp [hL, List.range_succ, List.filter_append, hct]
        obtain ⟨j1, j2, j3, j4, j5, j6, j7, j8⟩ := s.notCounted (by rw [i1, hct])
        rw [hLt, j1, j2, j3, j4, j5]
        refine ⟨i5, i6, i7, i8, i9, ?_, ?_⟩
        · rw [j6, j7, j8]; exact i10
        · intro g
          obtain ⟨k1, k2, k3⟩ := i11 g
          exact ⟨j6.trans k1, j7.trans k2, j8.trans k3⟩
      | true =>
        have hLt : L (t + 1) = L t ++ [t] := by simp [hL, List.range_succ, List.filter_append, hct]
        have hr : ρ t = Metrics.returns (co t).equityMetrics.equity (prior c0 co t).prevEquity := by
          rw [heq, i4, hρ]; rfl
        obtain ⟨j1, j2, j3, j4, j5, j6, j7, j8⟩ := s.counted (ρ t) (by rw [i1, hct]) hr
        have p4 : (co t).positiveReturnsSum = fsum (((L (t + 1)).map ρ).map (F64.fmax (lit 0))) := by
          rw [j4, i8, hLt]; simp [fsum_append]
        have p5 : (co t).negativeReturnsSum = fsum (((L (t + 1)).map ρ).map fun x => F64.abs (F64.fmin (lit 0) x)) := by
          rw [j5, i9, hLt]; simp [fsum_append]
        refine ⟨?_, ?_, ?_, p4, p5, fun g => absurd g (by rw [hLt]; simp), fun _ => ⟨?_, ?_, ?_⟩⟩
        · rw [j1, i5, hLt, List.map_append, List.map_singleton, feed_snoc]
        · rw [j2, i6, hLt, List.map_append, List.map_singleton, feed_snoc]
        · rw [j3, i7, hLt, List.map_append, List.map_append, List.map_singleton, List.map_singleton, feed_snoc]
        · rw [j6, p4, p5, i2, i3]
        · rw [j7, i5, i6, i2, i3, mean_out, stdev_out, hLt, List.map_append, List.map_singleton]
        · rw [j8, i5, i7, i2, i3, mean_out, stdev_out, hLt, List.map_append, List.map_append, List.map_singleton, List.map_singleton]
  have := hinv (t + 1) ht
  exact ⟨this.2.2.2.2.2.2.2.2.2.1, this.2.2.2.2.2.2.2.2.2.2⟩

/-- The return on tick `t` of an equity that goes through the values `e`, beginning with `cap`. -/
def Spec.returnOf (cap : K) (e : Nat → K) (t : Nat) : K :=
  e t / (if t = 0 then cap else e (t - 1)) - 1

theorem hist_list {β : Type} (ts : List Nat) (f : Nat → β) : hist (fun i => f (ts.getD i 0)) ts.length = ts.map f := by
  refine List.ext_getElem (by simp [hist]) fun i h1 h2 => ?_
  simp only [hist, List.getElem_map, List.getElem_range]
  rw [List.length_map] at h2
  rw [List.getD_eq_getElem?_getD, List.getElem?_eq_getElem h2, Option.getD_some]

section
variable {V : Valued R α} {u η top : K} (A : R.Accurate u η top) (L : R.Lawful)

include A L in
theorem stats_list (hroot : RoundedRoots R) {ts : List Nat} (hne : ts ≠ []) (h53 : ts.length ≤ 2 ^ 53) {f : Nat → α} {g : Nat → K} {M δ E : K} (hM : 0 ≤ M)
    (hx : ∀ k ∈ ts, Near V (f k) (g k) δ) (hp : ∀ k ∈ ts, |g k| ≤ M) (hδ : 100 * δ ≤ M + 1) (hnu : 1000 * (ts.length : K) * u ≤ 1)
    (htop : 50 * ts.length * (M + 1) ^ 2 ≤ top) (hE : E = δ + ts.length * u * (M + 1)) :
    Near V (Stats.mean (ts.map f)) (mean (ts.map g)) (4 * E) ∧ Near V (Stats.stdev (ts.map f)) (RootOps.sqrt (popVar (ts.map g))) (21 * E) := by
  have hm : ∀ i, i < ts.length → ts.getD i 0 ∈ ts := fun i hi => by rw [List.getD_eq_getElem?_getD, List.getElem?_eq_getElem hi, Option.getD_some]; exact List.getElem_mem hi
  have := C104_statistics A L (V := V) hroot (x := fun i => f (ts.getD i 0)) (p := fun i => g (ts.getD i 0)) (n := ts.length)
    (List.length_pos_iff.mpr hne) h53 hM (fun i hi => hx _ (hm i hi)) (fun i hi => hp _ (hm i hi)) hδ hnu htop hE
  rwa [hist_list, hist_list] at this

include A L in
/-- The sum over some of the ticks. -/
theorem sum_list {ts : List Nat} {f : Nat → α} {g : Nat → K} {M δ E : K} (hM : 0 ≤ M)
    (hx : ∀ k ∈ ts, Near V (f k) (g k) δ) (hp : ∀ k ∈ ts, |g k| ≤ M) (hδ0 : 0 ≤ δ) (hδ : 100 * δ ≤ M + 1) (hN : ts.length ≤ N) (hN1 : 1 ≤ N) (hnu : 1000 * (N : K) * u ≤ 1)
    (htop : 50 * N * (M + 1) ^ 2 ≤ top) (hE : E = δ + N * u * (M + 1)) :
    Near V (fsum (ts.map f)) (ts.map g).sum (3 * N * E) ∧ |(ts.map g).sum| ≤ N * M := by
  have hu := A.u_nonneg
  have hus := A.u_small
  have hη := A.η_nonneg
  have hηu : η ≤ u / 1024 := A.η_small.trans (by have := mul_le_mul_of_nonneg_right hus hu; linarith)
  have hN' : ((ts.length : Nat) : K) ≤ N := Nat.cast_le.mpr hN
  have hN0 : (1 : K) ≤ N := by exact_mod_cast hN1
  have hNp : (0 : K) ≤ N := by linarith
  have hl0 : (0 : K) ≤ ts.length := Nat.cast_nonneg _
  have nM0 : 0 ≤ (N : K) * M := by positivity
  have nu0 : 0 ≤ (N : K) * u := by positivity
  have u_le : u ≤ N * u := le_mul_of_one_le_left hu hN0
  have hlu : ((ts.length : Nat) : K) * u ≤ 1 := by
    have := mul_le_mul_of_nonneg_right hN' hu
    linarith
  have hb : ∀ q : List (α × K), q <+: ts.map (fun k => (f k, g k)) → |(q.map Prod.snd).sum| ≤ N * M := by
    intro q hq
    have h1 : ∀ z ∈ q, |z.2| ≤ M := fun z hz => by
      obtain ⟨k, hk, rfl⟩ := List.mem_map.mp (hq.subset hz)
      exact hp k hk
    have h2 := abs_sum_le' Prod.snd q h1
    have h3 : (q.length : K) ≤ N := by
      have := hq.length_le
      rw [List.length_map] at this
      exact_mod_cast this.trans hN
    have := mul_le_mul_of_nonneg_right h3 hM
    linarith
  have hD0 : 0 ≤ (1 + u) * δ + u * (N * M) + η := by positivity
  have uδ : u * δ ≤ δ / 1024 := by have := mul_le_mul_of_nonneg_right hus hδ0; linarith
  have hE' : E = δ + N * u * M + N * u := by rw [hE]; ring
  have nuM : 0 ≤ (N : K) * u * M := by positivity
  have D1 : (1 + u) * δ + u * (N * M) + η ≤ 3 / 2 * E := by rw [hE']; linarith
  have nuM1 : (N : K) * u * M ≤ M / 1000 := by
    have := mul_le_mul_of_nonneg_right (show (N : K) * u ≤ 1 / 1000 by linarith) hM
    linarith
  have e1 : (1 + u) * δ + u * (N * M) + η ≤ M + 1 := by linarith
  have M1 : M + 1 ≤ (M + 1) ^ 2 := by
    have : 0 ≤ M * (M + 1) := by positivity
    linarith [show (M + 1) ^ 2 = M * (M + 1) + (M + 1) by ring]
  have nM1 : (N : K) * (M + 1) ≤ N * (M + 1) ^ 2 := mul_le_mul_of_nonneg_left M1 hNp
  have e4 : M + 1 ≤ N * (M + 1) := le_mul_of_one_le_left (by linarith) hN0
  have hs := fsum_near A L (V := V) hδ0 nM0 (ts.map fun k => (f k, g k)) ?_ hb (by rw [List.length_map]; exact hlu) ?_
  · rw [List.map_map, List.map_map, List.length_map] at hs
    refine ⟨hs.mono ((drift_le hu hD0 hlu).trans ?_), ?_⟩
    · have h1 := mul_le_mul (show 2 * ((ts.length : Nat) : K) ≤ 2 * N by linarith) D1 hD0 (by linarith)
      linarith
    · have := hb _ (List.prefix_refl _)
      rwa [List.map_map] at this
  · intro z hz
    obtain ⟨k, hk, rfl⟩ := List.mem_map.mp hz
    exact hx k hk
  · rw [List.length_map]
    have h1 := mul_le_mul (show 2 * ((ts.length : Nat) : K) ≤ 2 * N by linarith) e1 hD0 (by linarith)
    linarith

include A L in
/-- A ratio per year. -/
theorem near_annual (hroot : RoundedRoots R) {a : α} {z F q : K} (ha : Near V a z F) (hz : |z| ≤ q) (hq : (1 + q) * u ≤ F) (ht : 100 * (1 + q + F) ≤ top) :
    Near V (a * F64.sqrt (lit 365)) (z * RootOps.sqrt 365) (62 * F) := by
  have hu := A.u_nonneg
  have hus := A.u_small
  have hη := A.η_nonneg
  have hηu : η ≤ u / 1024 := A.η_small.trans (by have := mul_le_mul_of_nonneg_right hus hu; linarith)
  have hF := ha.nonneg
  have hq0 : 0 ≤ q := (abs_nonneg _).trans hz
  have s0 := LawfulRoots.sqrt_nonneg (365 : K)
  have s1 : RootOps.sqrt (365 : K) ≤ 20 := root_le (by norm_num) (by norm_num) (by norm_num)
  have hs : Near V (F64.sqrt (lit 365 : α)) (RootOps.sqrt (365 : K)) (20 * u) := by
    obtain ⟨w, w1, w2⟩ := A.err (RootOps.sqrt (365 : K)) (by rw [abs_of_nonneg s0]; linarith)
    have v1 : V.val (lit 365 : α) = Fl.of R (.fin 365) := by
      have := val_lit_nat (V := V) L (n := 365) (by norm_num)
      exact_mod_cast this
    refine ⟨w, ?_, w2.trans ?_⟩
    · rw [V.sqrt, v1]
      refine Eq.trans (if_neg (by norm_num) : (if (365 : K) < 0 then Ext.nan else R.sqrtR 365) = R.sqrtR 365) ?_
      rw [hroot 365 (by norm_num)]
      exact w1
    · rw [abs_of_nonneg s0]
      have := mul_le_mul_of_nonneg_left s1 hu
      exact max_le (by linarith) (by linarith)
  have h1 : |z| * (20 * u) ≤ 20 * (q * u) := by have := mul_le_mul_of_nonneg_right hz (show 0 ≤ 20 * u by linarith); linarith
  have h2 : |RootOps.sqrt (365 : K)| * F ≤ 20 * F := by rw [abs_of_nonneg s0]; exact mul_le_mul_of_nonneg_right s1 hF
  have h3 : F * (20 * u) ≤ F / 50 := by have := mul_le_mul_of_nonneg_left hus hF; linarith
  have hm : |z * RootOps.sqrt (365 : K)| ≤ 20 * q := by
    rw [abs_mul, abs_of_nonneg s0]
    have := mul_le_mul hz s1 s0 hq0
    linarith
  have qu : q * u + u ≤ F := by linarith
  have quq : 0 ≤ q * u := by positivity
  have h0 : 0 ≤ |z| * (20 * u) + |RootOps.sqrt (365 : K)| * F + F * (20 * u) := by positivity
  have h4 := mul_le_mul_of_nonneg_right hus h0
  have qu1 : q * u ≤ q / 1024 := by have := mul_le_mul_of_nonneg_left hus hq0; linarith
  refine (Near.mul A ha hs hm ?_).mono ?_
  · linarith
  · linarith

variable {o h l c v : Nat → K} {cap M W : K}

include A L in
/-- The returns of an equity that is at least `m`. -/
theorem return_near (hc : V.val cfg.initialCapital = Fl.of R (.fin cap)) {e : Nat → K} {G m : K} (m0 : 0 < m) (mG : 2 * G ≤ m) (mT : 4 * (1 + W / m) ≤ top) (hmc : m ≤ cap)
    (he : ∀ k, k < N → Near V (st k).metrics.equity (e k) G ∧ |e k| ≤ W ∧ m ≤ e k) {t : Nat} (ht : t < N) :
    Near V (equityReturn cfg st t) (returnOf cap e t) (3 * ((1 + W / m) * (3 * (G / m) + u))) ∧ |returnOf cap e t| ≤ 1 + W / m := by
  have hu := A.u_nonneg
  have hus := A.u_small
  have hη := A.η_nonneg
  have hηu : η ≤ u / 1024 := A.η_small.trans (by have := mul_le_mul_of_nonneg_right hus hu; linarith)
  obtain ⟨n1, hx, m1⟩ := he t ht
  have hG0 := n1.nonneg
  have hW0 : 0 ≤ W := (abs_nonneg _).trans hx
  have hprev : Near V (if t = 0 then cfg.initialCapital else (st (t - 1)).metrics.equity) (if t = 0 then cap else e (t - 1)) G ∧
      m ≤ (if t = 0 then cap else e (t - 1)) := by
    by_cases h0 : t = 0
    · rw [if_pos h0, if_pos h0]; exact ⟨(near_of_val hc).mono hG0, hmc⟩
    · rw [if_neg h0, if_neg h0]
      obtain ⟨k1, -, k2⟩ := he (t - 1) (by omega)
      exact ⟨k1, k2⟩
  obtain ⟨n2, m2⟩ := hprev
  have f1 := near_feq_zero L n1 (lt_of_lt_of_le (by linarith) (m1.trans (le_abs_self _)))
  have f2 := near_feq_zero L n2 (lt_of_lt_of_le (by linarith) (m2.trans (le_abs_self _)))
  have hWm : 0 ≤ W / m := div_nonneg hW0 m0.le
  have fr := near_fraction A n1 n2 m0 (m2.trans (le_abs_self _)) mG hx (by linarith)
  have hg1 : G / m ≤ 1 / 2 := by rw [div_le_iff₀ m0]; linarith
  have hg0 : 0 ≤ G / m := div_nonneg hG0 m0.le
  have hq : |e t / (if t = 0 then cap else e (t - 1))| ≤ W / m := by
    rw [abs_div]
    exact div_le_div₀ hW0 hx m0 (m2.trans (le_abs_self _))
  have e' : equityReturn cfg st t = (st t).metrics.equity / (if t = 0 then cfg.initialCapital else (st (t - 1)).metrics.equity) - lit 1 := by
    unfold equityReturn Metrics.returns
    rw [f1, f2]; rfl
  rw [e']
  unfold returnOf
  generalize e t / (if t = 0 then cap else e (t - 1)) = z at *
  have hz : |z - 1| ≤ 1 + W / m := by
    have := abs_sub z 1
    rw [abs_one] at this
    linarith
  generalize W / m = q at *
  generalize G / m = g at *
  refine ⟨?_, hz⟩
  have h1 : (1 + q) * (3 * g) ≤ (1 + q) * (3 * (1 / 2)) := mul_le_mul_of_nonneg_left (by linarith) (by linarith)
  have h2 : (1 + q) * u ≤ (1 + q) * (1 / 1024) := mul_le_mul_of_nonneg_left hus (by linarith)
  have h3 : (1 + q) * (3 * g + u) = (1 + q) * (3 * g) + (1 + q) * u := by ring
  have h4 : 0 ≤ (1 + q) * (3 * g) := by positivity
  have h5 : 0 ≤ q * u := by positivity
  have h6 := mul_le_mul_of_nonneg_right hus (show 0 ≤ (1 + q) * (3 * g + u) by positivity)
  have one : Near V (lit 1 : α) 1 0 := near_of_val (by rw [V.lit, lit_one L])
  refine (Near.sub A fr one hz (by linarith)).mono ?_
  linarith

include A L in
/-- One of the three ratios, per year. -/
theorem annual_ratio (hroot : RoundedRoots R) {a b : α} {x y e G m B : K} (ha : Near V a x e) (hb : Near V b y G) (hG : e + u * (B + e) + η ≤ G) (hm : 0 < m) (mG : 2 * G ≤ m)
    (hy : m ≤ |y|) (hx : |x| ≤ B) (hB : 4 * (B + m) ≤ top) (ht : 300 * (1 + B / m) ≤ top) :
    Near V ((if F64.feq b (lit 0) then lit 0 else (a - lit 0) / b) * F64.sqrt (lit 365)) (x / y * RootOps.sqrt 365) (62 * ((1 + B / m) * (3 * (G / m) + u))) := by
  have hu := A.u_nonneg
  have hus := A.u_small
  have hη := A.η_nonneg
  have he := ha.nonneg
  have hG0 := hb.nonneg
  have hB0 : 0 ≤ B := (abs_nonneg _).trans hx
  have hq : 0 ≤ B / m := div_nonneg hB0 hm.le
  have hg : G / m ≤ 1 / 2 := by rw [div_le_iff₀ hm]; linarith
  have hg0 : 0 ≤ G / m := div_nonneg hG0 hm.le
  have zero : Near V (lit 0 : α) 0 0 := near_of_val (by rw [V.lit, lit_zero L])
  have uB : 0 ≤ u * (B + e) := by positivity
  have n1 : Near V (a - lit 0) x G := by
    have h0 : |x - 0| ≤ B := by rw [sub_zero]; exact hx
    have := Near.sub A ha zero h0 (by linarith)
    rw [sub_zero] at this
    exact this.mono (by linarith)
  have hf := near_feq_zero L hb (lt_of_lt_of_le (by linarith) hy)
  rw [hf]
  have n2 := near_fraction A n1 hb hm hy mG hx (by linarith)
  have hz : |x / y| ≤ B / m := by rw [abs_div]; exact div_le_div₀ hB0 hx hm hy
  generalize B / m = q at *
  generalize G / m = g at *
  have h1 : (1 + q) * (3 * g) ≤ (1 + q) * (3 * (1 / 2)) := mul_le_mul_of_nonneg_left (by linarith) (by linarith)
  have h2 : (1 + q) * u ≤ (1 + q) * (1 / 1024) := mul_le_mul_of_nonneg_left hus (by linarith)
  have h3 : (1 + q) * (3 * g + u) = (1 + q) * (3 * g) + (1 + q) * u := by ring
  have h4 : 0 ≤ (1 + q) * (3 * g) := by positivity
  exact near_annual A L hroot n2 hz (by linarith) (by linarith)

set_option maxHeartbeats 1000000 in
include A L in
/-- The ratios of an equity curve that is near `e` and stays at or above `m`. -/
theorem ratios_near (hroot : RoundedRoots R) (hc : V.val cfg.initialCapital = Fl.of R (.fin cap)) {e : Nat → K} {G m Q E : K} (m0 : 0 < m) (hQ : Q = 1 + W / m)
    (mG : 2000 * G ≤ m) (hmc : m ≤ cap) (he : ∀ k, k < N → Near V (st k).metrics.equity (e k) G ∧ |e k| ≤ W ∧ m ≤ e k)
    (hn : 1000 * (N : K) * u ≤ 1) (h53 : N ≤ 2 ^ 53)
    (hE : E = 3 * (Q * (3 * (G / m) + u)) + N * u * (Q + 1)) {a : K} (a0 : 0 < a) (aE : 42 * N * E ≤ a)
    (aT : 100 * N * (Q + 1) ^ 2 + 300 * (1 + N * Q / a) + 4 * a ≤ top)
    {sy : Option Int} {year : Nat → Option Int} {co : Nat → CobraMetrics α} (h : CobraRun d cfg false sy year st N co) {t : Nat} (ht : t < N) (hne : countedTicks sy year t ≠ [])
    {ρ : List K} (hρ : ρ = (countedTicks sy year t).map (returnOf cap e)) :
    (a ≤ RootOps.sqrt (popVar ρ) →
      Near V (co t).data.sharpe (mean ρ / RootOps.sqrt (popVar ρ) * RootOps.sqrt 365) (62 * ((1 + Q / a) * (3 * (21 * E / a) + u)))) ∧
    (a ≤ RootOps.sqrt (popVar (ρ.map fun x => max 0 (-x))) →
      Near V (co t).data.sortino (mean ρ / RootOps.sqrt (popVar (ρ.map fun x => max 0 (-x))) * RootOps.sqrt 365) (62 * ((1 + Q / a) * (3 * (21 * E / a) + u)))) ∧
    (a ≤ (ρ.map fun x => max 0 (-x)).sum →
      Near V (co t).data.omega ((ρ.map (max 0)).sum / (ρ.map fun x => max 0 (-x)).sum * RootOps.sqrt 365) (62 * ((1 + N * Q / a) * (3 * (4 * N * E / a) + u)))) := by
  have hu := A.u_nonneg
  have hus := A.u_small
  have hη := A.η_nonneg
  have hηu : η ≤ u / 1024 := A.η_small.trans (by have := mul_le_mul_of_nonneg_right hus hu; linarith)
  have hN1 : 1 ≤ N := by omega
  have hN0 : (1 : K) ≤ N := by exact_mod_cast hN1
  have hNu : 0 ≤ (N : K) * u := by positivity
  have hW0 : 0 ≤ W := (abs_nonneg _).trans (he t ht).2.1
  have hG0 : 0 ≤ G := (he t ht).1.nonneg
  have hWm : 0 ≤ W / m := div_nonneg hW0 m0.le
  have hQ1 : 1 ≤ Q := by linarith
  have hg : G / m ≤ 1 / 2000 := by rw [div_le_iff₀ m0]; linarith
  have hg0 : 0 ≤ G / m := div_nonneg hG0 m0.le
  have q2 : (Q + 1) ≤ (Q + 1) ^ 2 := by
    have : 0 ≤ Q * (Q + 1) := by positivity
    linarith [show (Q + 1) ^ 2 = Q * (Q + 1) + (Q + 1) by ring]
  have nq2 : (Q + 1) ^ 2 ≤ N * (Q + 1) ^ 2 := le_mul_of_one_le_left (by positivity) hN0
  have Nq2 : (N : K) * (Q + 1) ≤ N * (Q + 1) ^ 2 := mul_le_mul_of_nonneg_left q2 (by linarith)
  have nQa : 0 ≤ N * Q / a := by positivity
  have ret := fun k (hk : k < N) => return_near A (L := L) (st := st) hc m0 (by linarith) (by rw [← hQ]; linarith) hmc he hk
  rw [← hQ] at ret
  set δ := 3 * (Q * (3 * (G / m) + u)) with hδ
  have Qu : Q * u ≤ Q / 1024 := by have := mul_le_mul_of_nonneg_left hus (show 0 ≤ Q by linarith); linarith
  have Qu1 : u ≤ Q * u := le_mul_of_one_le_left hu hQ1
  have Qg : Q * (G / m) ≤ Q / 2000 := by have := mul_le_mul_of_nonneg_left hg (show 0 ≤ Q by linarith); linarith
  have Qg0 : 0 ≤ Q * (G / m) := by positivity
  have δe : δ = 9 * (Q * (G / m)) + 3 * (Q * u) := by rw [hδ]; ring
  have δ0 : 0 ≤ δ := by rw [δe]; linarith
  have δ1 : 100 * δ ≤ Q + 1 := by rw [δe]; linarith
  have nuQ : (N : K) * u * (Q + 1) ≤ (Q + 1) / 1000 := by
    have := mul_le_mul_of_nonneg_right (show (N : K) * u ≤ 1 / 1000 by linarith) (show 0 ≤ Q + 1 by linarith)
    linarith
  have nuQ0 : 0 ≤ (N : K) * u * (Q + 1) := by positivity
  have uQN : u * (Q + 1) ≤ N * u * (Q + 1) := mul_le_mul_of_nonneg_right (le_mul_of_one_le_left hu hN0) (by linarith)
  have E0 : 0 ≤ E := by rw [hE]; linarith
  have E1 : u * (Q + 1) + 3 * (Q * u) ≤ E := by rw [hE, δe]; linarith
  have NE : E ≤ N * E := le_mul_of_one_le_left E0 hN0
  -- the ticks that count
  set ts := countedTicks sy year t with hts
  have hmem : ∀ k ∈ ts, k < N := fun k hk => by
    rw [hts] at hk
    have := List.mem_range.mp (List.mem_filter.mp hk).1
    omega
  have hlen : ts.length ≤ N := by
    have : ts.length ≤ t + 1 := by
      rw [hts]
      exact (List.length_filter_le _ _).trans (List.length_range).le
    omega
  have hlenK : ((ts.length : Nat) : K) ≤ N := Nat.cast_le.mpr hlen
  have lu : ((ts.length : Nat) : K) * u ≤ N * u := mul_le_mul_of_nonneg_right hlenK hu
  have ltop : 50 * ((ts.length : Nat) : K) * (Q + 1) ^ 2 ≤ top := by
    have := mul_le_mul_of_nonneg_right hlenK (show 0 ≤ (Q + 1) ^ 2 by positivity)
    linarith
  set f := equityReturn cfg st with hfd
  set g := returnOf cap e with hgd
  have near : ∀ k ∈ ts, Near V (f k) (g k) δ ∧ |g k| ≤ Q := fun k hk => ret k (hmem k hk)
  have zero : Near V (lit 0 : α) 0 δ := (near_of_val (by rw [V.lit, lit_zero L])).mono δ0
  have pos : ∀ k ∈ ts, Near V (F64.fmax (lit 0) (f k)) (max 0 (g k)) δ ∧ |max 0 (g k)| ≤ Q := fun k hk => by
    obtain ⟨n1, n2⟩ := near k hk
    rw [abs_le] at n2
    exact ⟨zero.max n1, abs_le.mpr ⟨le_trans (by linarith) (le_max_left _ _), max_le (by linarith) n2.2⟩⟩
  have neg : ∀ k ∈ ts, Near V (F64.abs (F64.fmin (lit 0) (f k))) (max 0 (-g k)) δ ∧ |max 0 (-g k)| ≤ Q := fun k hk => by
    obtain ⟨n1, n2⟩ := near k hk
    rw [abs_le] at n2
    have e : |min 0 (g k)| = max 0 (-g k) := by
      rcases le_total 0 (g k) with w | w
      · rw [min_eq_left w, max_eq_left (by linarith), abs_zero]
      · rw [min_eq_right w, max_eq_right (by linarith), abs_of_nonpos w]
    have := (zero.min n1).abs
    rw [e] at this
    exact ⟨this, abs_le.mpr ⟨le_trans (by linarith) (le_max_left _ _), max_le (by linarith) (by linarith)⟩⟩
  have hEl : δ + ((ts.length : Nat) : K) * u * (Q + 1) ≤ E := by
    rw [hE]
    have := mul_le_mul_of_nonneg_right lu (show 0 ≤ Q + 1 by linarith)
    linarith
  have stat := fun (x : Nat → α) (p : Nat → K) (hx : ∀ k ∈ ts, Near V (x k) (p k) δ ∧ |p k| ≤ Q) =>
    stats_list A L (V := V) hroot hne (hlen.trans h53) (by linarith : 0 ≤ Q) (fun k hk => (hx k hk).1) (fun k hk => (hx k hk).2) δ1 (by linarith) ltop rfl
  have sums := fun (x : Nat → α) (p : Nat → K) (hx : ∀ k ∈ ts, Near V (x k) (p k) δ ∧ |p k| ≤ Q) =>
    sum_list A L (V := V) (N := N) (by linarith : 0 ≤ Q) (fun k hk => (hx k hk).1) (fun k hk => (hx k hk).2) δ0 δ1 hlen hN1 (by linarith) (by linarith) hE
  obtain ⟨s1, s2⟩ := stat f g near
  obtain ⟨-, s3⟩ := stat _ _ neg
  obtain ⟨t1, t2⟩ := sums _ _ pos
  obtain ⟨t3, -⟩ := sums _ _ neg
  have hmean : |mean (ts.map g)| ≤ Q := by
    have hl : (0 : K) < ((ts.length : Nat) : K) := by exact_mod_cast List.length_pos_iff.mpr hne
    unfold mean
    rw [List.length_map, abs_div, abs_of_pos hl, div_le_iff₀ hl]
    have := abs_sum_le' g ts fun k hk => (near k hk).2
    linarith
  obtain ⟨r1, r2, r3⟩ := (C105_ratios h ht).2 hne
  rw [List.map_map, List.map_map] at r1
  rw [List.map_map] at r3
  rw [hρ, List.map_map, List.map_map, r1, r2, r3]
  have hQa : Q / a ≤ N * Q / a := div_le_div_of_nonneg_right (le_mul_of_one_le_left (by linarith) hN0) a0.le
  have uE : u * E ≤ E / 1024 := by have := mul_le_mul_of_nonneg_right hus E0; linarith
  have N0 : (0 : K) ≤ N := by linarith
  have hNQ : Q ≤ N * Q := le_mul_of_one_le_left (by linarith) hN0
  refine ⟨fun ha => ?_, fun ha => ?_, fun ha => ?_⟩
  · exact annual_ratio A L hroot (s1.mono (f := 4 * E) (by linarith)) (s2.mono (f := 21 * E) (by linarith)) (by linarith) a0 (by linarith) (ha.trans (le_abs_self _)) hmean (by linarith) (by linarith)
  · exact annual_ratio A L hroot (s1.mono (f := 4 * E) (by linarith)) (s3.mono (f := 21 * E) (by linarith)) (by linarith) a0 (by linarith) (ha.trans (le_abs_self _)) hmean (by linarith) (by linarith)
  · have NE0 : 0 ≤ (N : K) * E := by positivity
    have uNE : u * (N * E) ≤ N * E / 1024 := by have := mul_le_mul_of_nonneg_right hus NE0; linarith
    have b1 : (N : K) * (u * (Q + 1) + 3 * (Q * u)) ≤ N * E := mul_le_mul_of_nonneg_left E1 N0
    have b2 : (N : K) * u ≤ N * (Q * u) := mul_le_mul_of_nonneg_left Qu1 N0
    have b3 : u ≤ N * u := le_mul_of_one_le_left hu hN0
    exact annual_ratio A L hroot t1 (t3.mono (f := 4 * N * E) (by linarith)) (by linarith) a0 (by linarith) (ha.trans (le_abs_self _)) t2 (by linarith) (by linarith)

include A L in
/-- **C105.** The Omega, Sharpe and Sortino ratios of the Cobra report, computed in floats, are near the ratios of the exact returns of the equity on the ticks that count, per year,
as long as the equity does not fall below some `m` that is large against the rounding of the equity, and the divisor is at least some `a` large against the error. -/
theorem C105_report (hroot : RoundedRoots R) (H : Backtest cfg d sig N st) (hb : PricedBars V d N o h l c v M) (hM : 0 ≤ M)
    (hc : V.val cfg.initialCapital = Fl.of R (.fin cap)) (hf : cfg.buyWithEquity = false) (hW : |cap| + 2 * M * N + 2 * M ≤ W)
    (hn : 1000 * ((N : K) + 4) * u ≤ 1) (htop : 100 * W + 100 * (N + 4) * η ≤ top) (h53 : N ≤ 2 ^ 53) {m Q E : K} (m0 : 0 < m) (hQ : Q = 1 + W / m)
    (mG : 2000 * (6 * (N + 2) * (u * W + η)) ≤ m) (hmc : m ≤ cap) (hme : ∀ k, k < N → m ≤ equityCurve cfg sig cap (fillSeries cfg o c) c k)
    (hE : E = 3 * (Q * (3 * (6 * (N + 2) * (u * W + η) / m) + u)) + N * u * (Q + 1)) {a : K} (a0 : 0 < a) (aE : 42 * N * E ≤ a)
    (aT : 100 * N * (Q + 1) ^ 2 + 300 * (1 + N * Q / a) + 4 * a ≤ top)
    {sy : Option Int} {year : Nat → Option Int} {co : Nat → CobraMetrics α} (h : CobraRun d cfg false sy year st N co) {t : Nat} (ht : t < N) (hne : countedTicks sy year t ≠ [])
    {ρ : List K} (hρ : ρ = (countedTicks sy year t).map (returnOf cap (equityCurve cfg sig cap (fillSeries cfg o c) c))) :
    (a ≤ RootOps.sqrt (popVar ρ) →
      Near V (co t).data.sharpe (mean ρ / RootOps.sqrt (popVar ρ) * RootOps.sqrt 365) (62 * ((1 + Q / a) * (3 * (21 * E / a) + u)))) ∧
    (a ≤ RootOps.sqrt (popVar (ρ.map fun x => max 0 (-x))) →
      Near V (co t).data.sortino (mean ρ / RootOps.sqrt (popVar (ρ.map fun x => max 0 (-x))) * RootOps.sqrt 365) (62 * ((1 + Q / a) * (3 * (21 * E / a) + u)))) ∧
    (a ≤ (ρ.map fun x => max 0 (-x)).sum →
      Near V (co t).data.omega ((ρ.map (max 0)).sum / (ρ.map fun x => max 0 (-x)).sum * RootOps.sqrt 365) (62 * ((1 + N * Q / a) * (3 * (4 * N * E / a) + u)))) := by
  have hu := A.u_nonneg
  exact ratios_near A L hroot hc m0 hQ mG hmc (fun k hk => ⟨(netEquity_near A L H hb hM hc hf hW (by linarith) htop hk).2.1, equityCurve_abs hb hM hc hW hk, hme k hk⟩)
    (by linarith) h53 hE a0 aE aT h ht hne hρ

end
end Pace
