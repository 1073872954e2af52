import Verif.Props.WelfordFloat

/-!
# C109: the ratios of the Cobra report in the fast mode, in floats
-/

set_option linter.unusedSectionVars false

namespace Pace
open Spec
variable {K : Type} [Field K] [LinearOrder K] [IsStrictOrderedRing K] [LawfulRoots K] {R : Rounding K}
variable {α : Type} [F64 α]
variable {cfg : StrategyConfig α} {d : DataProvider α} {sig : Nat → Option TradeDirection} {N : Nat} {st : Nat → Strategy α}

/-- The last output of the fast standard deviation fed the list. -/
def Spec.fastDev (l : List α) : α :=
  match outputs (total StatStdev.next) (fun i => l.getD i (lit 0)) l.length (.ok (StatStdev.build true : StatStdev α)) with
  | .ok y => y.getLastD (lit 0)
  | .error _ => lit 0

theorem fastDev_runs {l : List α} {y : Nat → α} (h : Runs (total StatStdev.next) (.ok (StatStdev.build true : StatStdev α)) (fun i => l.getD i (lit 0)) l.length y) (hl : l ≠ []) :
    fastDev l = y (l.length - 1) := by
  unfold fastDev
  rw [show outputs _ _ _ _ = _ from h]
  obtain ⟨n, hn⟩ := Nat.exists_eq_succ_of_ne_zero (List.length_pos_iff.mpr hl).ne'
  rw [hn, List.range_succ, List.map_append]
  simp

theorem hist_all {β : Type} (l : List β) (z : β) : hist (fun i => l.getD i z) l.length = l := by
  refine List.ext_getElem (by simp [hist]) fun i h1 h2 => ?_
  simp only [hist, List.getElem_map, List.getElem_range]
  rw [List.getD_eq_getElem?_getD, List.getElem?_eq_getElem h2, Option.getD_some]

theorem fast_out (l : List α) (a : α) : (StatStdev.next (feed StatStdev.next (StatStdev.build true : StatStdev α) l) a).1 = fastDev (l ++ [a]) := by
  rw [fastDev_runs (fast_runs _ _).2.2.2 (by simp)]
  have e : (l ++ [a]).length - 1 = l.length := by simp
  have h1 : hist (fun i => (l ++ [a]).getD i (lit 0)) l.length = l := by
    conv_rhs => rw [← hist_all l (lit 0)]
    refine List.map_congr_left fun i hi => ?_
    have := List.mem_range.mp hi
    simp [List.getD_eq_getElem?_getD, List.getElem?_append_left this]
  have h2 : (l ++ [a]).getD l.length (lit 0) = a := by simp
  rw [e]
  unfold fastVar
  rw [h1]
  simp only [h2]
  have h3 : feed StatStdev.next (StatStdev.build true : StatStdev α) l = ⟨⟨true, .new, feed WelfordsVar.next .new l, .new⟩⟩ := by
    clear h1 h2 e
    induction l using List.reverseRecOn with
    | nil => rfl
    | append_singleton l b ih => rw [feed_snoc, feed_snoc, ih]; rfl
  rw [h3]
  rfl

variable {cfg : StrategyConfig α} {d : DataProvider α} {sig : Nat → Option TradeDirection} {N : Nat} {st : Nat → Strategy α}

/-- What the Cobra report in the fast mode makes of a list of returns, if there are any. -/
structure FastRatios (D : CobraData α) (ρ : List α) : Prop where
  omega : D.omega = Metrics.omegaRatio (fsum (ρ.map (F64.fmax (lit 0)))) (fsum (ρ.map fun x => F64.abs (F64.fmin (lit 0) x))) (lit 0) * F64.sqrt (lit 365)
  sharpe : D.sharpe = Metrics.sharpeRatio (Stats.mean ρ) (fastDev ρ) (lit 0) * F64.sqrt (lit 365)
  sortino : D.sortino = Metrics.sortinoRatio (Stats.mean ρ) (fastDev (ρ.map fun x => F64.abs (F64.fmin (lit 0) x))) (lit 0) * F64.sqrt (lit 365)

/-- **C109.** In any arithmetic, in the fast mode, the Omega, Sharpe and Sortino ratios are those of the list of the returns on the ticks that count
so far; while there is none they are zero. -/
theorem C109_ratios {sy : Option Int} {year : Nat → Option Int} {co : Nat → CobraMetrics α} (h : CobraRun d cfg true sy year st N co) {t : Nat} (ht : t < N) :
    (countedTicks sy year t = [] → (co t).data.omega = lit 0 ∧ (co t).data.sharpe = lit 0 ∧ (co t).data.sortino = lit 0) ∧
    (countedTicks sy year t ≠ [] → FastRatios (co t).data ((countedTicks sy year t).map (equityReturn cfg st))) := by
  set c0 := CobraMetrics.new (Strategy.new cfg) true sy with hc0
  have hstep : ∀ t, t < N → CobraStep d t (year t) (st t) (prior c0 co t) (co t) := fun t ht => cobraRun_step h ht
  set ρ := equityReturn cfg st with hρ
  set L : Nat → List Nat := fun t => (List.range t).filter fun k => counted sy (year k) with hL
  have hinv : ∀ t, t ≤ N →
      (prior c0 co t).returnsStartYear = sy ∧ (prior c0 co t).riskFreeRate = lit 0 ∧
      (prior c0 co t).annualized = F64.sqrt (lit 365) ∧
      (prior c0 co t).prevEquity = (if t = 0 then cfg.initialCapital else (st (t - 1)).metrics.equity) ∧
      (prior c0 co t).returnsMean = feed Mean.next Mean.new ((L t).map ρ) ∧
      (prior c0 co t).returnsStdev = feed StatStdev.next (StatStdev.build true) ((L t).map ρ) ∧
      (prior c0 co t).negativeReturnsStdev = feed StatStdev.next (StatStdev.build true) (((L t).map ρ).map fun x => F64.abs (F64.fmin (lit 0) x)) ∧
      (prior c0 co t).positiveReturnsSum = fsum (((L t).map ρ).map (F64.fmax (lit 0))) ∧
      (prior c0 co t).negativeReturnsSum = fsum (((L t).map ρ).map fun x => F64.abs (F64.fmin (lit 0) x)) ∧
      (L t = [] → (prior c0 co t).data.omega = lit 0 ∧ (prior c0 co t).data.sharpe = lit 0 ∧ (prior c0 co t).data.sortino = lit 0) ∧
      (L t ≠ [] → FastRatios (prior c0 co t).data ((L t).map ρ)) := by
    intro t
    induction t with
    | zero =>
      intro _
      refine ⟨rfl, rfl, rfl, rfl, rfl, rfl, rfl, rfl, rfl, fun _ => ⟨rfl, rfl, rfl⟩, fun g => absurd (by simp [hL]) g⟩
    | succ t ih =>
      intro ht
      obtain ⟨i1, i2, i3, i4, i5, i6, i7, i8, i9, i10, i11⟩ := ih (by omega)
      have s := hstep t (by omega)
      have hp : prior c0 co (t + 1) = co t := rfl
      have heq : (co t).equityMetrics.equity = (st t).metrics.equity := (em_step s.em).equity
      rw [hp]
      refine ⟨by rw [s.startYear, i1], by rw [s.rfr, i2], by rw [s.annualized, i3], by rw [s.prevEquity, heq]; simp, ?_⟩
      cases hct : counted sy (year t) with
      | false =>
        have hLt : L (t + 1) = L t := by simp [hL, List.range_succ, List.filter_append, hct]
        obtain ⟨j1, j2, j3, j4, j5, j6, j7, j8⟩ := s.notCounted (by rw [i1, hct])
        rw [hLt, j1, j2, j3, j4, j5]
        refine ⟨i5, i6, i7, i8, i9, ?_, ?_⟩
        · rw [j6, j7, j8]; exact i10
        · intro g
          obtain ⟨k1, k2, k3⟩ := i11 g
          exact ⟨j6.trans k1, j7.trans k2, j8.trans k3⟩
      | true =>
        have hLt : L (t + 1) = L t ++ [t] := by simp [hL, List.range_succ, List.filter_append, hct]
        have hr : ρ t = Metrics.returns (co t).equityMetrics.equity (prior c0 co t).prevEquity := by
          rw [heq, i4, hρ]; rfl
        obtain ⟨j1, j2, j3, j4, j5, j6, j7, j8⟩ := s.counted (ρ t) (by rw [i1, hct]) hr
        have p4 : (co t).positiveReturnsSum = fsum (((L (t + 1)).map ρ).map (F64.fmax (lit 0))) := by
          rw [j4, i8, hLt]; simp [fsum_append]
        have p5 : (co t).negativeReturnsSum = fsum (((L (t + 1)).map ρ).map fun x => F64.abs (F64.fmin (lit 0) x)) := by
          rw [j5, i9, hLt]; simp [fsum_append]
        refine ⟨?_, ?_, ?_, p4, p5, fun g => absurd g (by rw [hLt]; simp), fun _ => ⟨?_, ?_, ?_⟩⟩
        · rw [j1, i5, hLt, List.map_append, List.map_singleton, feed_snoc]
        · rw [j2, i6, hLt, List.map_append, List.map_singleton, feed_snoc]
        · rw [j3, i7, hLt, List.map_append, List.map_append, List.map_singleton, List.map_singleton, feed_snoc]
        · rw [j6, p4, p5, i2, i3]
        · rw [j7, i5, i6, i2, i3, mean_out, fast_out, hLt, List.map_append, List.map_singleton]
        · rw [j8, i5, i7, i2, i3, mean_out, fast_out, hLt, List.map_append, List.map_append, List.map_singleton, List.map_singleton]
  have := hinv (t + 1) ht
  exact ⟨this.2.2.2.2.2.2.2.2.2.1, this.2.2.2.2.2.2.2.2.2.2⟩


section
variable {V : Valued R α} {u η top : K} (A : R.Accurate u η top) (L : R.Lawful)

include A L in
/-- The fast standard deviation of a list. -/
theorem fast_list (hroot : RoundedRoots R) {ts : List Nat} (h2 : 2 ≤ ts.length) (h53 : ts.length ≤ 2 ^ 53) {f : Nat → α} {g : Nat → K} {B δ E : K} (hB : 1 ≤ B)
    (hx : ∀ k ∈ ts, Near V (f k) (g k) δ) (hp : ∀ k ∈ ts, |g k| ≤ B) (hδ : 100 * δ ≤ B) (hnu : 1000 * (ts.length : K) * u ≤ 1)
    (htop : 50 * (ts.length + 1) * B ^ 2 ≤ top) (hE : δ + ts.length * u * B ≤ E) {a : K} (a0 : 0 < a) (ha : a ≤ RootOps.sqrt (sampleVar (ts.map g))) (hE2 : 150 * (B * E) ≤ a ^ 2) :
    Near V (fastDev (ts.map f)) (RootOps.sqrt (sampleVar (ts.map g))) (168 / a * (B * E)) ∧ a ≤ 3 * B := by
  have hm : ∀ i, i < ts.length → ts.getD i 0 ∈ ts := fun i hi => by rw [List.getD_eq_getElem?_getD, List.getElem?_eq_getElem hi, Option.getD_some]; exact List.getElem_mem hi
  have hg : ∀ i, i < ts.length → (ts.map f).getD i (lit 0) = f (ts.getD i 0) := fun i hi => by
    simp [List.getD_eq_getElem?_getD, List.getElem?_eq_getElem hi]
  have hg' : ∀ i, i < ts.length → (ts.map g).getD i 0 = g (ts.getD i 0) := fun i hi => by
    simp [List.getD_eq_getElem?_getD, List.getElem?_eq_getElem hi]
  have hx' : ∀ i, i < ts.length → Near V ((ts.map f).getD i (lit 0)) ((ts.map g).getD i 0) δ := fun i hi => by rw [hg i hi, hg' i hi]; exact hx _ (hm i hi)
  have hp' : ∀ i, i < ts.length → |(ts.map g).getD i 0| ≤ B := fun i hi => by rw [hg' i hi]; exact hp _ (hm i hi)
  have hist : hist (fun i => (ts.map g).getD i 0) (ts.length - 1 + 1) = ts.map g := by
    have := hist_all (ts.map g) 0
    rw [List.length_map] at this
    rw [show ts.length - 1 + 1 = ts.length by omega]
    exact this
  obtain ⟨y, -, h1, h3⟩ := C107_stdev A L hroot (x := fun i => (ts.map f).getD i (lit 0)) (p := fun i => (ts.map g).getD i 0) (N := ts.length) h53 hB hx' hp' hδ hnu htop
  have hlast := fastDev_runs (l := ts.map f) (y := y) (by rw [List.length_map]; exact h1) (by intro h; rw [List.map_eq_nil_iff] at h; rw [h] at h2; simp at h2)
  rw [List.length_map] at hlast
  have hB0 : 0 ≤ B := by linarith
  have mono := mul_le_mul_of_nonneg_left hE hB0
  have h4 := h3 (ts.length - 1) (by omega) (by omega) a a0 (by rw [hist]; exact ha) (by linarith)
  rw [hist, ← hlast] at h4
  refine ⟨h4.mono (mul_le_mul_of_nonneg_left mono (by positivity)), ?_⟩
  have hv := fast_var_abs A L h53 hB hx' hp' hδ hnu htop (t := ts.length - 1) (by omega) (by omega)
  rw [hist] at hv
  have z0 : 0 ≤ sampleVar (ts.map g) := by rw [← hist]; exact sampleVar_nonneg _ _
  rw [abs_of_nonneg z0] at hv
  have BB : 0 ≤ B ^ 2 := by positivity
  exact ha.trans (root_le z0 (by linarith) (by linarith [show 3 * B * (3 * B) = 9 * B ^ 2 by ring]))

set_option maxHeartbeats 1000000 in
include A L in
/-- The ratios of an equity curve that is near `e` and stays at or above `m`, in the fast mode. -/
theorem fast_ratios_near (hroot : RoundedRoots R) {cap W : K} (hc : V.val cfg.initialCapital = Fl.of R (.fin cap)) {e : Nat → K} {G m Q E : K} (m0 : 0 < m) (hQ : Q = 1 + W / m)
    (mG : 2000 * G ≤ m) (hmc : m ≤ cap) (he : ∀ k, k < N → Near V (st k).metrics.equity (e k) G ∧ |e k| ≤ W ∧ m ≤ e k)
    (hn : 1000 * (N : K) * u ≤ 1) (h53 : N ≤ 2 ^ 53)
    (hE : E = 3 * (Q * (3 * (G / m) + u)) + N * u * (Q + 1)) {a : K} (a0 : 0 < a) (aE : 336 * (Q * E) ≤ a ^ 2)
    (aT : 100 * N * (Q + 1) ^ 2 + 300 * (1 + Q / a) + 4 * a ≤ top)
    {sy : Option Int} {year : Nat → Option Int} {co : Nat → CobraMetrics α} (h : CobraRun d cfg true sy year st N co) {t : Nat} (ht : t < N) (h2 : 2 ≤ (countedTicks sy year t).length)
    {ρ : List K} (hρ : ρ = (countedTicks sy year t).map (returnOf cap e)) :
    (a ≤ RootOps.sqrt (sampleVar ρ) →
      Near V (co t).data.sharpe (mean ρ / RootOps.sqrt (sampleVar ρ) * RootOps.sqrt 365) (62 * ((1 + Q / a) * (504 * (Q * E) / a ^ 2 + u)))) ∧
    (a ≤ RootOps.sqrt (sampleVar (ρ.map fun x => max 0 (-x))) →
      Near V (co t).data.sortino (mean ρ / RootOps.sqrt (sampleVar (ρ.map fun x => max 0 (-x))) * RootOps.sqrt 365) (62 * ((1 + Q / a) * (504 * (Q * E) / a ^ 2 + u)))) := by
  have hne : countedTicks sy year t ≠ [] := by intro h; rw [h] at h2; simp at h2
  have hu := A.u_nonneg
  have hus := A.u_small
  have hη := A.η_nonneg
  have hηu : η ≤ u / 1024 := A.η_small.trans (by have := mul_le_mul_of_nonneg_right hus hu; linarith)
  have hN1 : 1 ≤ N := by omega
  have hN0 : (1 : K) ≤ N := by exact_mod_cast hN1
  have hNu : 0 ≤ (N : K) * u := by positivity
  have hW0 : 0 ≤ W := (abs_nonneg _).trans (he t ht).2.1
  have hG0 : 0 ≤ G := (he t ht).1.nonneg
  have hWm : 0 ≤ W / m := div_nonneg hW0 m0.le
  have hQ1 : 1 ≤ Q := by linarith
  have hg : G / m ≤ 1 / 2000 := by rw [div_le_iff₀ m0]; linarith
  have hg0 : 0 ≤ G / m := div_nonneg hG0 m0.le
  have q2 : (Q + 1) ≤ (Q + 1) ^ 2 := by
    have : 0 ≤ Q * (Q + 1) := by positivity
    linarith [show (Q + 1) ^ 2 = Q * (Q + 1) + (Q + 1) by ring]
  have nq2 : (Q + 1) ^ 2 ≤ N * (Q + 1) ^ 2 := le_mul_of_one_le_left (by positivity) hN0
  have Nq2 : (N : K) * (Q + 1) ≤ N * (Q + 1) ^ 2 := mul_le_mul_of_nonneg_left q2 (by linarith)
  have nQa : 0 ≤ Q / a := div_nonneg (by linarith) a0.le
  have ret := fun k (hk : k < N) => return_near A (L := L) (st := st) hc m0 (by linarith) (by rw [← hQ]; linarith) hmc he hk
  rw [← hQ] at ret
  set δ := 3 * (Q * (3 * (G / m) + u)) with hδ
  have Qu : Q * u ≤ Q / 1024 := by have := mul_le_mul_of_nonneg_left hus (show 0 ≤ Q by linarith); linarith
  have Qu1 : u ≤ Q * u := le_mul_of_one_le_left hu hQ1
  have Qg : Q * (G / m) ≤ Q / 2000 := by have := mul_le_mul_of_nonneg_left hg (show 0 ≤ Q by linarith); linarith
  have Qg0 : 0 ≤ Q * (G / m) := by positivity
  have δe : δ = 9 * (Q * (G / m)) + 3 * (Q * u) := by rw [hδ]; ring
  have δ0 : 0 ≤ δ := by rw [δe]; linarith
  have δ1 : 100 * δ ≤ Q + 1 := by rw [δe]; linarith
  have nuQ : (N : K) * u * (Q + 1) ≤ (Q + 1) / 1000 := by
    have := mul_le_mul_of_nonneg_right (show (N : K) * u ≤ 1 / 1000 by linarith) (show 0 ≤ Q + 1 by linarith)
    linarith
  have nuQ0 : 0 ≤ (N : K) * u * (Q + 1) := by positivity
  have uQN : u * (Q + 1) ≤ N * u * (Q + 1) := mul_le_mul_of_nonneg_right (le_mul_of_one_le_left hu hN0) (by linarith)
  have E0 : 0 ≤ E := by rw [hE]; linarith
  have E1 : u * (Q + 1) + 3 * (Q * u) ≤ E := by rw [hE, δe]; linarith
  have NE : E ≤ N * E := le_mul_of_one_le_left E0 hN0
  -- the ticks that count
  set ts := countedTicks sy year t with hts
  have hmem : ∀ k ∈ ts, k < N := fun k hk => by
    rw [hts] at hk
    have := List.mem_range.mp (List.mem_filter.mp hk).1
    omega
  have hlen : ts.length ≤ N := by
    have : ts.length ≤ t + 1 := by
      rw [hts]
      exact (List.length_filter_le _ _).trans (List.length_range).le
    omega
  have hlenK : ((ts.length : Nat) : K) ≤ N := Nat.cast_le.mpr hlen
  have lu : ((ts.length : Nat) : K) * u ≤ N * u := mul_le_mul_of_nonneg_right hlenK hu
  have ltop : 50 * ((ts.length : Nat) : K) * (Q + 1) ^ 2 ≤ top := by
    have := mul_le_mul_of_nonneg_right hlenK (show 0 ≤ (Q + 1) ^ 2 by positivity)
    linarith
  set f := equityReturn cfg st with hfd
  set g := returnOf cap e with hgd
  have near : ∀ k ∈ ts, Near V (f k) (g k) δ ∧ |g k| ≤ Q := fun k hk => ret k (hmem k hk)
  have zero : Near V (lit 0 : α) 0 δ := (near_of_val (by rw [V.lit, lit_zero L])).mono δ0
  have neg : ∀ k ∈ ts, Near V (F64.abs (F64.fmin (lit 0) (f k))) (max 0 (-g k)) δ ∧ |max 0 (-g k)| ≤ Q := fun k hk => by
    obtain ⟨n1, n2⟩ := near k hk
    rw [abs_le] at n2
    have e : |min 0 (g k)| = max 0 (-g k) := by
      rcases le_total 0 (g k) with w | w
      · rw [min_eq_left w, max_eq_left (by linarith), abs_zero]
      · rw [min_eq_right w, max_eq_right (by linarith), abs_of_nonpos w]
    have := (zero.min n1).abs
    rw [e] at this
    exact ⟨this, abs_le.mpr ⟨le_trans (by linarith) (le_max_left _ _), max_le (by linarith) (by linarith)⟩⟩
  have hEl : δ + ((ts.length : Nat) : K) * u * (Q + 1) ≤ E := by
    rw [hE]
    have := mul_le_mul_of_nonneg_right lu (show 0 ≤ Q + 1 by linarith)
    linarith
  have ltop2 : 50 * (((ts.length : Nat) : K) + 1) * Q ^ 2 ≤ top := by
    have h1 : Q ^ 2 ≤ (Q + 1) ^ 2 := by linarith [show (Q + 1) ^ 2 = Q ^ 2 + 2 * Q + 1 by ring]
    have h3 : (((ts.length : Nat) : K) + 1) * Q ^ 2 ≤ (2 * N) * (Q + 1) ^ 2 := mul_le_mul (by linarith) h1 (by positivity) (by linarith)
    linarith
  have δ2 : 100 * δ ≤ Q := by rw [δe]; linarith
  have hE3 : δ + ((ts.length : Nat) : K) * u * Q ≤ E := by
    have : 0 ≤ ((ts.length : Nat) : K) * u := by positivity
    linarith [show ((ts.length : Nat) : K) * u * (Q + 1) = ((ts.length : Nat) : K) * u * Q + ((ts.length : Nat) : K) * u by ring]
  have QE0 : 0 ≤ Q * E := by positivity
  have dev := fun (x : Nat → α) (p : Nat → K) (hx : ∀ k ∈ ts, Near V (x k) (p k) δ ∧ |p k| ≤ Q) (ha : a ≤ RootOps.sqrt (sampleVar (ts.map p))) =>
    fast_list A L (V := V) hroot h2 (hlen.trans h53) hQ1 (fun k hk => (hx k hk).1) (fun k hk => (hx k hk).2) δ2 (by linarith) ltop2 hE3 a0 ha (by linarith)
  have s1 := (stats_list A L (V := V) hroot hne (hlen.trans h53) (by linarith : 0 ≤ Q) (fun k hk => (near k hk).1) (fun k hk => (near k hk).2) δ1 (by linarith) ltop rfl).1
  have hmean : |mean (ts.map g)| ≤ Q := by
    have hl : (0 : K) < ((ts.length : Nat) : K) := by exact_mod_cast List.length_pos_iff.mpr hne
    unfold mean
    rw [List.length_map, abs_div, abs_of_pos hl, div_le_iff₀ hl]
    have := abs_sum_le' g ts fun k hk => (near k hk).2
    linarith
  obtain ⟨-, r2, r3⟩ := (C109_ratios h ht).2 hne
  rw [List.map_map] at r3
  rw [hρ, List.map_map, r2, r3]
  have uE : u * E ≤ E / 1024 := by have := mul_le_mul_of_nonneg_right hus E0; linarith
  have sm : Near V (Stats.mean (ts.map f)) (mean (ts.map g)) (4 * E) := s1.mono (by linarith)
  have fin : ∀ b : α, ∀ y : K, a ≤ y → Near V b y (168 / a * (Q * E)) → a ≤ 3 * Q →
      Near V ((if F64.feq b (lit 0) then lit 0 else (Stats.mean (ts.map f) - lit 0) / b) * F64.sqrt (lit 365)) (mean (ts.map g) / y * RootOps.sqrt 365)
        (62 * ((1 + Q / a) * (504 * (Q * E) / a ^ 2 + u))) := fun b y hy hb haQ => by
    have g1 : 56 * E ≤ 168 / a * (Q * E) := by
      have e1 : 168 / a * (Q * E) = 168 * (Q * E) / a := by ring
      rw [e1, le_div_iff₀ a0]
      have := mul_le_mul_of_nonneg_left haQ E0
      linarith
    have g2 : 2 * (168 / a * (Q * E)) ≤ a := by
      have e1 : 2 * (168 / a * (Q * E)) = 336 * (Q * E) / a := by ring
      rw [e1, div_le_iff₀ a0]
      linarith [show a ^ 2 = a * a by ring]
    have := annual_ratio A L hroot sm hb (by linarith) a0 g2 (hy.trans (le_abs_self _)) hmean (by linarith) (by linarith)
    have e3 : 3 * (168 / a * (Q * E) / a) = 504 * (Q * E) / a ^ 2 := by
      field_simp
      ring
    rw [e3] at this
    exact this
  refine ⟨fun ha => ?_, fun ha => ?_⟩
  · obtain ⟨d1, d2⟩ := dev f g near ha
    exact fin _ _ ha d1 d2
  · obtain ⟨d1, d2⟩ := dev _ _ neg ha
    exact fin _ _ ha d1 d2

include A L in
/-- **C109.** In the fast mode the Sharpe and Sortino ratios of the Cobra report, computed in floats, are from the second counted tick on near the ratios of the exact returns made with the
sample standard deviation, as long as the equity does not fall below some `m` that is large against the rounding of the equity, and the divisor is at least some `a` large against the error. -/
theorem C109_report {o h l c v : Nat → K} {cap M W : K} (hroot : RoundedRoots R) (H : Backtest cfg d sig N st) (hb : PricedBars V d N o h l c v M) (hM : 0 ≤ M)
    (hc : V.val cfg.initialCapital = Fl.of R (.fin cap)) (hf : cfg.buyWithEquity = false) (hW : |cap| + 2 * M * N + 2 * M ≤ W)
    (hn : 1000 * ((N : K) + 4) * u ≤ 1) (htop : 100 * W + 100 * (N + 4) * η ≤ top) (h53 : N ≤ 2 ^ 53) {m Q E : K} (m0 : 0 < m) (hQ : Q = 1 + W / m)
    (mG : 2000 * (6 * (N + 2) * (u * W + η)) ≤ m) (hmc : m ≤ cap) (hme : ∀ k, k < N → m ≤ equityCurve cfg sig cap (fillSeries cfg o c) c k)
    (hE : E = 3 * (Q * (3 * (6 * (N + 2) * (u * W + η) / m) + u)) + N * u * (Q + 1)) {a : K} (a0 : 0 < a) (aE : 336 * (Q * E) ≤ a ^ 2)
    (aT : 100 * N * (Q + 1) ^ 2 + 300 * (1 + Q / a) + 4 * a ≤ top)
    {sy : Option Int} {year : Nat → Option Int} {co : Nat → CobraMetrics α} (h : CobraRun d cfg true sy year st N co) {t : Nat} (ht : t < N) (h2 : 2 ≤ (countedTicks sy year t).length)
    {ρ : List K} (hρ : ρ = (countedTicks sy year t).map (returnOf cap (equityCurve cfg sig cap (fillSeries cfg o c) c))) :
    (a ≤ RootOps.sqrt (sampleVar ρ) →
      Near V (co t).data.sharpe (mean ρ / RootOps.sqrt (sampleVar ρ) * RootOps.sqrt 365) (62 * ((1 + Q / a) * (504 * (Q * E) / a ^ 2 + u)))) ∧
    (a ≤ RootOps.sqrt (sampleVar (ρ.map fun x => max 0 (-x))) →
      Near V (co t).data.sortino (mean ρ / RootOps.sqrt (sampleVar (ρ.map fun x => max 0 (-x))) * RootOps.sqrt 365) (62 * ((1 + Q / a) * (504 * (Q * E) / a ^ 2 + u)))) := by
  have hu := A.u_nonneg
  exact fast_ratios_near A L hroot hc m0 hQ mG hmc (fun k hk => ⟨(netEquity_near A L H hb hM hc hf hW (by linarith) htop hk).2.1, equityCurve_abs hb hM hc hW hk, hme k hk⟩)
    (by linarith) h53 hE a0 aE aT h ht h2 hρ

set_option maxHeartbeats 1000000 in
include A L in
/-- The Omega ratio of an equity curve that is near `e` and stays at or above `m`, in the fast mode. -/
theorem fast_omega_near (hroot : RoundedRoots R) {cap W : K} (hc : V.val cfg.initialCapital = Fl.of R (.fin cap)) {e : Nat → K} {G m Q E : K} (m0 : 0 < m) (hQ : Q = 1 + W / m)
    (mG : 2000 * G ≤ m) (hmc : m ≤ cap) (he : ∀ k, k < N → Near V (st k).metrics.equity (e k) G ∧ |e k| ≤ W ∧ m ≤ e k)
    (hn : 1000 * (N : K) * u ≤ 1) (h53 : N ≤ 2 ^ 53)
    (hE : E = 3 * (Q * (3 * (G / m) + u)) + N * u * (Q + 1)) {a : K} (a0 : 0 < a) (aE : 42 * N * E ≤ a)
    (aT : 100 * N * (Q + 1) ^ 2 + 300 * (1 + N * Q / a) + 4 * a ≤ top)
    {sy : Option Int} {year : Nat → Option Int} {co : Nat → CobraMetrics α} (h : CobraRun d cfg true sy year st N co) {t : Nat} (ht : t < N) (hne : countedTicks sy year t ≠ [])
    {ρ : List K} (hρ : ρ = (countedTicks sy year t).map (returnOf cap e)) :
    a ≤ (ρ.map fun x => max 0 (-x)).sum →
      Near V (co t).data.omega ((ρ.map (max 0)).sum / (ρ.map fun x => max 0 (-x)).sum * RootOps.sqrt 365) (62 * ((1 + N * Q / a) * (3 * (4 * N * E / a) + u))) := by
  have hu := A.u_nonneg
  have hus := A.u_small
  have hη := A.η_nonneg
  have hηu : η ≤ u / 1024 := A.η_small.trans (by have := mul_le_mul_of_nonneg_right hus hu; linarith)
  have hN1 : 1 ≤ N := by omega
  have hN0 : (1 : K) ≤ N := by exact_mod_cast hN1
  have hNu : 0 ≤ (N : K) * u := by positivity
  have hW0 : 0 ≤ W := (abs_nonneg _).trans (he t ht).2.1
  have hG0 : 0 ≤ G := (he t ht).1.nonneg
  have hWm : 0 ≤ W / m := div_nonneg hW0 m0.le
  have hQ1 : 1 ≤ Q := by linarith
  have hg : G / m ≤ 1 / 2000 := by rw [div_le_iff₀ m0]; linarith
  have hg0 : 0 ≤ G / m := div_nonneg hG0 m0.le
  have q2 : (Q + 1) ≤ (Q + 1) ^ 2 := by
    have : 0 ≤ Q * (Q + 1) := by positivity
    linarith [show (Q + 1) ^ 2 = Q * (Q + 1) + (Q + 1) by ring]
  have nq2 : (Q + 1) ^ 2 ≤ N * (Q + 1) ^ 2 := le_mul_of_one_le_left (by positivity) hN0
  have Nq2 : (N : K) * (Q + 1) ≤ N * (Q + 1) ^ 2 := mul_le_mul_of_nonneg_left q2 (by linarith)
  have nQa : 0 ≤ N * Q / a := by positivity
  have ret := fun k (hk : k < N) => return_near A (L := L) (st := st) hc m0 (by linarith) (by rw [← hQ]; linarith) hmc he hk
  rw [← hQ] at ret
  set δ := 3 * (Q * (3 * (G / m) + u)) with hδ
  have Qu : Q * u ≤ Q / 1024 := by have := mul_le_mul_of_nonneg_left hus (show 0 ≤ Q by linarith); linarith
  have Qu1 : u ≤ Q * u := le_mul_of_one_le_left hu hQ1
  have Qg : Q * (G / m) ≤ Q / 2000 := by have := mul_le_mul_of_nonneg_left hg (show 0 ≤ Q by linarith); linarith
  have Qg0 : 0 ≤ Q * (G / m) := by positivity
  have δe : δ = 9 * (Q * (G / m)) + 3 * (Q * u) := by rw [hδ]; ring
  have δ0 : 0 ≤ δ := by rw [δe]; linarith
  have δ1 : 100 * δ ≤ Q + 1 := by rw [δe]; linarith
  have nuQ : (N : K) * u * (Q + 1) ≤ (Q + 1) / 1000 := by
    have := mul_le_mul_of_nonneg_right (show (N : K) * u ≤ 1 / 1000 by linarith) (show 0 ≤ Q + 1 by linarith)
    linarith
  have nuQ0 : 0 ≤ (N : K) * u * (Q + 1) := by positivity
  have uQN : u * (Q + 1) ≤ N * u * (Q + 1) := mul_le_mul_of_nonneg_right (le_mul_of_one_le_left hu hN0) (by linarith)
  have E0 : 0 ≤ E := by rw [hE]; linarith
  have E1 : u * (Q + 1) + 3 * (Q * u) ≤ E := by rw [hE, δe]; linarith
  have NE : E ≤ N * E := le_mul_of_one_le_left E0 hN0
  -- the ticks that count
  set ts := countedTicks sy year t with hts
  have hmem : ∀ k ∈ ts, k < N := fun k hk => by
    rw [hts] at hk
    have := List.mem_range.mp (List.mem_filter.mp hk).1
    omega
  have hlen : ts.length ≤ N := by
    have : ts.length ≤ t + 1 := by
      rw [hts]
      exact (List.length_filter_le _ _).trans (List.length_range).le
    omega
  have hlenK : ((ts.length : Nat) : K) ≤ N := Nat.cast_le.mpr hlen
  have lu : ((ts.length : Nat) : K) * u ≤ N * u := mul_le_mul_of_nonneg_right hlenK hu
  have ltop : 50 * ((ts.length : Nat) : K) * (Q + 1) ^ 2 ≤ top := by
    have := mul_le_mul_of_nonneg_right hlenK (show 0 ≤ (Q + 1) ^ 2 by positivity)
    linarith
  set f := equityReturn cfg st with hfd
  set g := returnOf cap e with hgd
  have near : ∀ k ∈ ts, Near V (f k) (g k) δ ∧ |g k| ≤ Q := fun k hk => ret k (hmem k hk)
  have zero : Near V (lit 0 : α) 0 δ := (near_of_val (by rw [V.lit, lit_zero L])).mono δ0
  have pos : ∀ k ∈ ts, Near V (F64.fmax (lit 0) (f k)) (max 0 (g k)) δ ∧ |max 0 (g k)| ≤ Q := fun k hk => by
    obtain ⟨n1, n2⟩ := near k hk
    rw [abs_le] at n2
    exact ⟨zero.max n1, abs_le.mpr ⟨le_trans (by linarith) (le_max_left _ _), max_le (by linarith) n2.2⟩⟩
  have neg : ∀ k ∈ ts, Near V (F64.abs (F64.fmin (lit 0) (f k))) (max 0 (-g k)) δ ∧ |max 0 (-g k)| ≤ Q := fun k hk => by
    obtain ⟨n1, n2⟩ := near k hk
    rw [abs_le] at n2
    have e : |min 0 (g k)| = max 0 (-g k) := by
      rcases le_total 0 (g k) with w | w
      · rw [min_eq_left w, max_eq_left (by linarith), abs_zero]
      · rw [min_eq_right w, max_eq_right (by linarith), abs_of_nonpos w]
    have := (zero.min n1).abs
    rw [e] at this
    exact ⟨this, abs_le.mpr ⟨le_trans (by linarith) (le_max_left _ _), max_le (by linarith) (by linarith)⟩⟩
  have hEl : δ + ((ts.length : Nat) : K) * u * (Q + 1) ≤ E := by
    rw [hE]
    have := mul_le_mul_of_nonneg_right lu (show 0 ≤ Q + 1 by linarith)
    linarith
  have sums := fun (x : Nat → α) (p : Nat → K) (hx : ∀ k ∈ ts, Near V (x k) (p k) δ ∧ |p k| ≤ Q) =>
    sum_list A L (V := V) (N := N) (by linarith : 0 ≤ Q) (fun k hk => (hx k hk).1) (fun k hk => (hx k hk).2) δ0 δ1 hlen hN1 (by linarith) (by linarith) hE
  obtain ⟨t1, t2⟩ := sums _ _ pos
  obtain ⟨t3, -⟩ := sums _ _ neg
  obtain ⟨r1, -, -⟩ := (C109_ratios h ht).2 hne
  rw [List.map_map, List.map_map] at r1
  rw [hρ, List.map_map, List.map_map, r1]
  have hQa : Q / a ≤ N * Q / a := div_le_div_of_nonneg_right (le_mul_of_one_le_left (by linarith) hN0) a0.le
  have uE : u * E ≤ E / 1024 := by have := mul_le_mul_of_nonneg_right hus E0; linarith
  have N0 : (0 : K) ≤ N := by linarith
  have hNQ : Q ≤ N * Q := le_mul_of_one_le_left (by linarith) hN0
  intro ha
  have NE0 : 0 ≤ (N : K) * E := by positivity
  have uNE : u * (N * E) ≤ N * E / 1024 := by have := mul_le_mul_of_nonneg_right hus NE0; linarith
  have b1 : (N : K) * (u * (Q + 1) + 3 * (Q * u)) ≤ N * E := mul_le_mul_of_nonneg_left E1 N0
  have b2 : (N : K) * u ≤ N * (Q * u) := mul_le_mul_of_nonneg_left Qu1 N0
  have b3 : u ≤ N * u := le_mul_of_one_le_left hu hN0
  exact annual_ratio A L hroot t1 (t3.mono (f := 4 * N * E) (by linarith)) (by linarith) a0 (by linarith) (ha.trans (le_abs_self _)) t2 (by linarith) (by linarith)

include A L in
/-- **C109.** In the fast mode the Omega ratio of the Cobra report, computed in floats, is near the ratio of the exact gains and losses on the ticks that count, under the same conditions. -/
theorem C109_omega {o h l c v : Nat → K} {cap M W : K} (hroot : RoundedRoots R) (H : Backtest cfg d sig N st) (hb : PricedBars V d N o h l c v M) (hM : 0 ≤ M)
    (hc : V.val cfg.initialCapital = Fl.of R (.fin cap)) (hf : cfg.buyWithEquity = false) (hW : |cap| + 2 * M * N + 2 * M ≤ W)
    (hn : 1000 * ((N : K) + 4) * u ≤ 1) (htop : 100 * W + 100 * (N + 4) * η ≤ top) (h53 : N ≤ 2 ^ 53) {m Q E : K} (m0 : 0 < m) (hQ : Q = 1 + W / m)
    (mG : 2000 * (6 * (N + 2) * (u * W + η)) ≤ m) (hmc : m ≤ cap) (hme : ∀ k, k < N → m ≤ equityCurve cfg sig cap (fillSeries cfg o c) c k)
    (hE : E = 3 * (Q * (3 * (6 * (N + 2) * (u * W + η) / m) + u)) + N * u * (Q + 1)) {a : K} (a0 : 0 < a) (aE : 42 * N * E ≤ a)
    (aT : 100 * N * (Q + 1) ^ 2 + 300 * (1 + N * Q / a) + 4 * a ≤ top)
    {sy : Option Int} {year : Nat → Option Int} {co : Nat → CobraMetrics α} (h : CobraRun d cfg true sy year st N co) {t : Nat} (ht : t < N) (hne : countedTicks sy year t ≠ [])
    {ρ : List K} (hρ : ρ = (countedTicks sy year t).map (returnOf cap (equityCurve cfg sig cap (fillSeries cfg o c) c))) :
    a ≤ (ρ.map fun x => max 0 (-x)).sum →
      Near V (co t).data.omega ((ρ.map (max 0)).sum / (ρ.map fun x => max 0 (-x)).sum * RootOps.sqrt 365) (62 * ((1 + N * Q / a) * (3 * (4 * N * E / a) + u))) := by
  have hu := A.u_nonneg
  exact fast_omega_near A L hroot hc m0 hQ mG hmc (fun k hk => ⟨(netEquity_near A L H hb hM hc hf hW (by linarith) htop hk).2.1, equityCurve_abs hb hM hc hW hk, hme k hk⟩)
    (by linarith) h53 hE a0 aE aT h ht hne hρ

end

end Pace
