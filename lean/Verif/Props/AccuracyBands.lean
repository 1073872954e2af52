import Verif.Props.AccuracyRoots

/-!
# C98: the standard deviation and the Bollinger bands in floats against the textbook ones
-/

set_option linter.unusedSectionVars false

namespace Pace
open Spec
variable {K : Type} [Field K] [LinearOrder K] [IsStrictOrderedRing K] [LawfulRoots K] {R : Rounding K}
variable {α : Type} [F64 α]

/-- The population standard deviation of the last `len` values, as a line of numbers. -/
def Spec.deviationLine (len : Nat) (p : Nat → K) (t : Nat) : K := standardDeviation true (win p len t)

/-- Bollinger %B as a line of numbers: where the value is between the lower band `mean - k sd` and the upper band `mean + k sd`. -/
def Spec.percentBLine (len : Nat) (k : K) (p : Nat → K) (t : Nat) : K :=
  (p t - (mean (win p len t) - k * deviationLine len p t)) / (2 * (k * deviationLine len p t))

/-- The width of the Bollinger bands in means, as a line of numbers. -/
def Spec.bandWidthLine (len : Nat) (k : K) (p : Nat → K) (t : Nat) : K := 2 * (k * deviationLine len p t) / mean (win p len t)

/-- How far the distance between two bands, or between a value and a band, can be from the exact one, `D` being the error of the standard
deviation. -/
def Spec.bandError (k D : K) : K := 6 * ((1 + |k|) * D)

private theorem deviation_eq {len : Nat} (p : Nat → K) (t : Nat) :
    deviationLine len p t = RootOps.sqrt (((List.range len).map fun (i : Nat) => (p (t + 1 - len + i) - mean (win p len t)) ^ 2).sum / (len : K)) := by
  unfold deviationLine standardDeviation
  rw [if_pos rfl]
  unfold popVar
  rw [sqDev_win, win_length]

theorem deviation_bounds {len : Nat} (hlen : 1 ≤ len) {p : Nat → K} {t : Nat} (ht : len ≤ t + 1) {M : K} (hM : 0 ≤ M) (hp : ∀ k, k ≤ t → |p k| ≤ M) :
    0 ≤ deviationLine len p t ∧ deviationLine len p t ≤ 2 * M ∧ |p t - mean (win p len t)| ≤ len * deviationLine len p t := by
  have hn0 : (1 : K) ≤ len := by exact_mod_cast hlen
  have hc0 : (0 : K) < len := by linarith
  rw [deviation_eq]
  refine ⟨LawfulRoots.sqrt_nonneg _, ?_, ?_⟩
  · have := rms_bound (a := fun (i : Nat) => p (t + 1 - len + i) - mean (win p len t)) (n := len) (c := (len : K)) (r := 1) (B := 2 * M) (by linarith) (fun i hi => by
      have h1 := abs_sub (p (t + 1 - len + i)) (mean (win p len t))
      have h2 := hp (t + 1 - len + i) (by omega)
      have h3 : |mean (win p len t)| ≤ M := mean_win_abs hlen ht hp
      linarith) hc0 (by norm_num) (by rw [one_mul, one_mul])
    rwa [one_mul] at this
  · have hS0 : 0 ≤ ((List.range len).map fun (i : Nat) => (p (t + 1 - len + i) - mean (win p len t)) ^ 2).sum := by
      rw [range_sum_finset]; exact Finset.sum_nonneg fun i _ => sq_nonneg _
    have h1 : (p t - mean (win p len t)) ^ 2 ≤ ((List.range len).map fun (i : Nat) => (p (t + 1 - len + i) - mean (win p len t)) ^ 2).sum := by
      have := le_range_sum (f := fun (i : Nat) => (p (t + 1 - len + i) - mean (win p len t)) ^ 2) (fun _ => sq_nonneg _) (show len - 1 < len by omega)
      rwa [show t + 1 - len + (len - 1) = t by omega] at this
    have h2 : |p t - mean (win p len t)| / len ≤ RootOps.sqrt (((List.range len).map fun (i : Nat) => (p (t + 1 - len + i) - mean (win p len t)) ^ 2).sum / (len : K)) := by
      refine le_root (div_nonneg hS0 hc0.le) fun _ => ?_
      rw [div_mul_div_comm, abs_mul_abs_self, div_le_div_iff₀ (by positivity) hc0]
      rw [_root_.sq] at h1
      have h3 := mul_le_mul_of_nonneg_right h1 hc0.le
      have h4 := mul_le_mul_of_nonneg_left (show (len : K) ≤ len * len by have := mul_le_mul_of_nonneg_right hn0 hc0.le; linarith) hS0
      linarith
    rw [div_le_iff₀ hc0] at h2
    linarith

section
variable {V : Valued R α} {u η top : K} (A : R.Accurate u η top) (L : R.Lawful)

include A L in
/-- **C98.** The standard deviation over at least 2 values, population or sample, of floats that are within five roundings of numbers up to
`M`: within `stdevError` (twice that for the sample) of the textbook standard deviation of the numbers; and it begins on the same tick. -/
theorem C98_stdev (hroot : RoundedRoots R) (d : DataProvider α) {len k : Nat} (hlen : 2 ≤ len) {N : Nat} (hk : len + N + 1 ≤ k) {M : K} (hM : 0 ≤ M)
    (hr : Room u η top k M) (htop : 100 * len * (M + 1) ^ 2 ≤ top) (biased : Bool)
    {x : Nat → Option α} {p : Nat → K} (h : StaysNear V x 0 p (5 * (u * M + η)) N) (hp : ∀ t, t < N → |p t| ≤ M) :
    ∃ y, Runs (fun t => Stdev.next ⟨d, t⟩) (Stdev.new len biased) x N y ∧
      StaysNear V y (len - 1) (fun t => standardDeviation biased (win p len t)) (stdevFactor biased * stdevError u M N len) N := by
  obtain ⟨m, y, -, h2, -, h4⟩ := sma_stdev_room A L hroot d hlen hk hM hr htop biased h hp
  exact ⟨y, h2, h4⟩

include A in
/-- The distance between the bands, and of the value to the lower one. -/
private theorem near_bands {a b sd mult : α} {x m s k M D : K} (na : Near V a x (D / 3)) (nb : Near V b m D) (ns : Near V sd s D)
    (hk : V.val mult = Fl.of R (.fin k)) (hM : 0 ≤ M) (hx : |x| ≤ M) (hm : |m| ≤ M) (hs : 0 ≤ s) (hs2 : s ≤ 2 * M) (huD : 20 * (u * (M + 1)) ≤ D) (hDM : D ≤ M + 1)
    (htop : 100 * ((1 + |k|) * (M + 1)) ≤ top) :
    Near V ((b + sd * mult) - (b - sd * mult)) (2 * (k * s)) (bandError k D) ∧ Near V (a - (b - sd * mult)) (x - (m - k * s)) (bandError k D) := by
  have hu := A.u_nonneg
  have hus := A.u_small
  have hη := A.η_nonneg
  have hηu : η ≤ u / 1024 := A.η_small.trans (by have := mul_le_mul_of_nonneg_right hus hu; linarith)
  have huM : 0 ≤ u * M := mul_nonneg hu hM
  have hD0 := ns.nonneg
  have hk0 := abs_nonneg k
  have kD : 0 ≤ |k| * D := by positivity
  have kM : 0 ≤ |k| * M := by positivity
  have kuM : |k| * (u * M) ≤ |k| * D / 20 := by
    have := mul_le_mul_of_nonneg_left (show u * M ≤ D / 20 by linarith) hk0; linarith
  have kuM0 : 0 ≤ |k| * (u * M) := by positivity
  have kDM : |k| * D ≤ |k| * M + |k| := by
    have := mul_le_mul_of_nonneg_left hDM hk0; linarith
  have uD : u * D ≤ D / 1024 := by have := mul_le_mul_of_nonneg_right hus hD0; linarith
  have ukD : u * (|k| * D) ≤ |k| * D / 1024 := by have := mul_le_mul_of_nonneg_right hus kD; linarith
  have htop' : 100 * (1 + M + |k| + |k| * M) ≤ top := by linarith
  have hks : |s * k| ≤ 2 * (|k| * M) := by
    rw [abs_mul, abs_of_nonneg hs, mul_comm]
    have := mul_le_mul_of_nonneg_left hs2 hk0
    linarith
  have n1 : Near V (sd * mult) (s * k) (12 / 10 * ((1 + |k|) * D)) := by
    refine (ns.mul A (near_of_val hk) (m := 2 * (|k| * M)) hks (by linarith)).mono ?_
    have : u * (2 * (|k| * M) + (|s| * 0 + |k| * D + D * 0)) = 2 * (|k| * (u * M)) + u * (|k| * D) := by ring
    rw [this]
    linarith
  have hsum : ∀ z : K, |z| ≤ M → |z + s * k| ≤ M + 2 * (|k| * M) ∧ |z - s * k| ≤ M + 2 * (|k| * M) := fun z hz => by
    have := abs_add_le z (s * k)
    have := abs_sub z (s * k)
    constructor <;> linarith
  have up : Near V (b + sd * mult) (m + s * k) (24 / 10 * ((1 + |k|) * D)) := by
    refine (nb.add A n1 (m := M + 2 * (|k| * M)) (hsum m hm).1 (by linarith)).mono ?_
    have : u * (M + 2 * (|k| * M) + (D + 12 / 10 * ((1 + |k|) * D))) = u * M + 2 * (|k| * (u * M)) + 22 / 10 * (u * D) + 12 / 10 * (u * (|k| * D)) := by ring
    rw [this]
    linarith
  have low : Near V (b - sd * mult) (m - s * k) (24 / 10 * ((1 + |k|) * D)) := by
    refine (nb.sub A n1 (m := M + 2 * (|k| * M)) (hsum m hm).2 (by linarith)).mono ?_
    have : u * (M + 2 * (|k| * M) + (D + 12 / 10 * ((1 + |k|) * D))) = u * M + 2 * (|k| * (u * M)) + 22 / 10 * (u * D) + 12 / 10 * (u * (|k| * D)) := by ring
    rw [this]
    linarith
  unfold bandError
  constructor
  · have e : 2 * (k * s) = m + s * k - (m - s * k) := by ring
    rw [e]
    refine (up.sub A low (m := 4 * (|k| * M)) ?_ (by linarith)).mono ?_
    · rw [← e, show 2 * (k * s) = s * k + s * k by ring]
      have := abs_add_le (s * k) (s * k)
      linarith
    · have : u * (4 * (|k| * M) + (24 / 10 * ((1 + |k|) * D) + 24 / 10 * ((1 + |k|) * D))) = 4 * (|k| * (u * M)) + 48 / 10 * (u * D) + 48 / 10 * (u * (|k| * D)) := by ring
      rw [this]
      linarith
  · have e : x - (m - k * s) = x - (m - s * k) := by ring
    rw [e]
    refine (na.sub A low (m := 2 * M + 2 * (|k| * M)) ?_ (by linarith)).mono ?_
    · have := abs_sub x (m - s * k)
      have := (hsum m hm).2
      linarith
    · have : u * (2 * M + 2 * (|k| * M) + (D / 3 + 24 / 10 * ((1 + |k|) * D))) = 2 * (u * M) + 2 * (|k| * (u * M)) + (24 / 10 + 1 / 3) * (u * D) + 24 / 10 * (u * (|k| * D)) := by ring
      rw [this]
      linarith

/-- The error of the standard deviation against the numbers themselves. -/
theorem stdevError_facts (A : R.Accurate u η top) {k len N : Nat} (hk : len + N + 1 ≤ k) {M : K} (hM : 0 ≤ M) (fine : 1000 * (k : K) * u ≤ 1) :
    20 * (u * (M + 1)) ≤ stdevError u M N len ∧ stdevError u M N len ≤ M + 1 ∧ (11 + 5 * N) * (u * M + η) ≤ stdevError u M N len ∧
      5 * (u * M + η) ≤ stdevError u M N len / 3 ∧ 0 < stdevError u M N len := by
  have hu := A.u_nonneg
  have hus := A.u_small
  have hη := A.η_nonneg
  have hηu : η ≤ u := A.η_small.trans (by have := mul_le_mul_of_nonneg_right hus hu; linarith)
  have hkk : (len : K) + N + 1 ≤ k := by exact_mod_cast hk
  have hN0 : (0 : K) ≤ N := Nat.cast_nonneg _
  have hl0 : (0 : K) ≤ len := Nat.cast_nonneg _
  have hM1 : 0 ≤ u * (M + 1) := mul_nonneg hu (by linarith)
  have l0 : 0 ≤ (len : K) * (u * (M + 1)) := by positivity
  have n0 : 0 ≤ (N : K) * (u * (M + 1)) := by positivity
  have c1 : (0 : K) < 102 / 10 ^ 12 := by norm_num
  have c2 : (102 / 10 ^ 12 : K) ≤ 1 / 10 := by norm_num
  unfold stdevError
  generalize (102 / 10 ^ 12 : K) = c at *
  have small : (20 + 6 * (N : K) + 12 * len) * (u * (M + 1)) ≤ 9 / 10 * (M + 1) := by
    have h1 : (20 + 6 * (N : K) + 12 * len) * u ≤ 9 / 10 := by
      have := mul_le_mul_of_nonneg_right (show 20 + 6 * (N : K) + 12 * len ≤ 20 * k by linarith) hu
      linarith
    have := mul_le_mul_of_nonneg_right h1 (show 0 ≤ M + 1 by linarith)
    linarith
  have h1 : u * M + η ≤ u * (M + 1) := by linarith
  refine ⟨by linarith, by linarith, ?_, by linarith, by linarith⟩
  have := mul_le_mul_of_nonneg_left h1 (show 0 ≤ 11 + 5 * (N : K) by linarith)
  linarith

include A L in
/-- **C98.** Bollinger %B of length at least 2 and a positive multiplier `k`, of floats that are within five roundings of numbers up to `M`,
where the bands are at least `μ` apart: with `D` the error of the standard deviation, `G = 6 (1 + k) D` and `q = 1/2 + len / (2 k)`, within
`3 (1 + q) (G / μ + u)` of the textbook %B; and it begins on the same tick. -/
theorem C98_percent_b (hroot : RoundedRoots R) (d : DataProvider α) {len n : Nat} (hlen : 2 ≤ len) {N : Nat} (hn : len + N + 1 ≤ n) {M : K} (hM : 0 ≤ M)
    (hr : Room u η top n M) (htop : 100 * len * (M + 1) ^ 2 ≤ top) {mult : α} {k : K} (hk : V.val mult = Fl.of R (.fin k)) (hk0 : 0 < k)
    (htop2 : 100 * ((1 + |k|) * (M + 1)) ≤ top) {q : K} (hq : q = 1 / 2 + len / (2 * k)) (hqt : 2 * q + 2 ≤ top)
    {x : Nat → Option α} {p : Nat → K} (h : StaysNear V x 0 p (5 * (u * M + η)) N) (hp : ∀ t, t < N → |p t| ≤ M)
    {G : K} (hG : G = bandError k (stdevError u M N len)) {μ : K} (hGμ : 2 * G ≤ μ) (wide : ∀ t, t < N → len - 1 ≤ t → μ ≤ 2 * (k * deviationLine len p t)) :
    ∃ y, Runs (fun t => BollingerBandsPercentB.next ⟨d, t⟩) (BollingerBands.new len mult) x N y ∧
      StaysNear V y (len - 1) (percentBLine len k p) (3 * ((1 + q) * (G / μ + u))) N := by
  obtain ⟨m, sd, r1, r2, n1, n2⟩ := sma_stdev_room A L hroot d hlen hn hM hr htop true h hp
  refine ⟨_, C53_bollinger_percent_b d r1 r2, fun t ht => ?_⟩
  have hu := A.u_nonneg
  have hus := A.u_small
  have hη := A.η_nonneg
  have hηu : η ≤ u / 1024 := A.η_small.trans (by have := mul_le_mul_of_nonneg_right hus hu; linarith)
  obtain ⟨f1, f2, f3, f4, f5⟩ := stdevError_facts A hn hM hr.fine
  have hl0 : (0 : K) < len := by exact_mod_cast (by omega : 0 < len)
  have hq0 : 1 / 2 ≤ q := by rw [hq]; have : 0 ≤ (len : K) / (2 * k) := by positivity
                             linarith
  have hG0 : 0 < G := by rw [hG]; unfold bandError; have := abs_nonneg k; positivity
  have hμ : 0 < μ := by linarith
  unfold startAt
  by_cases hts : t < len - 1
  · rw [if_pos hts]
    rw [stays_before n1 ht hts]
    cases x t <;> rfl
  rw [if_neg hts]
  obtain ⟨a, a1, a2⟩ := stays_at h ht (Nat.zero_le t)
  obtain ⟨b, b1, b2⟩ := stays_at n1 ht (by omega)
  obtain ⟨s, s1, s2⟩ := stays_at n2 ht (by omega)
  have hmean : |mean (win p len t)| ≤ M := mean_win_abs (by omega) (by omega) fun k hk => hp k (by omega)
  obtain ⟨d1, d2, d3⟩ := deviation_bounds (show 1 ≤ len by omega) (show len ≤ t + 1 by omega) hM fun k hk => hp k (by omega)
  have hw := wide t ht (by omega)
  have s2' : Near V s (deviationLine len p t) (stdevError u M N len) := by simpa [stdevFactor, deviationLine] using s2
  obtain ⟨g1, g2⟩ := near_bands A (a2.mono f4) (b2.mono f3) s2' hk hM (hp t ht) hmean d1 d2 f1 f2 htop2
  rw [← hG] at g1 g2
  have hden : |2 * (k * deviationLine len p t)| = 2 * (k * deviationLine len p t) := abs_of_nonneg (by linarith)
  have hquot : |(p t - (mean (win p len t) - k * deviationLine len p t)) / (2 * (k * deviationLine len p t))| ≤ q := by
    rw [abs_div, hden, div_le_iff₀ (by linarith), hq]
    have e : (1 / 2 + (len : K) / (2 * k)) * (2 * (k * deviationLine len p t)) = k * deviationLine len p t + len * deviationLine len p t := by
      field_simp
    rw [e, show p t - (mean (win p len t) - k * deviationLine len p t) = p t - mean (win p len t) + k * deviationLine len p t by ring]
    have := abs_add_le (p t - mean (win p len t)) (k * deviationLine len p t)
    rw [abs_of_nonneg (show 0 ≤ k * deviationLine len p t by positivity)] at this
    linarith
  have e1 : 2 * (G + q * G) / μ = 2 * ((1 + q) * (G / μ)) := by ring
  have hGd0 : 0 ≤ G / μ := by positivity
  have hGd : G / μ ≤ 1 / 2 := by rw [div_le_div_iff₀ hμ (by norm_num)]; linarith
  have hqG := mul_le_mul_of_nonneg_left hGd (show 0 ≤ 1 + q by linarith)
  have hqG0 : 0 ≤ (1 + q) * (G / μ) := by positivity
  have res := g2.quot A g1 hμ (by rw [hden]; exact hw) hGμ hquot (by rw [e1]; linarith)
  refine ⟨(a - (b - s * mult)) / (b + s * mult - (b - s * mult)), ?_, res.mono ?_⟩
  · have hz := near_feq_zero L g1 (by rw [hden]; linarith)
    rw [a1, b1, s1]
    simp only [opt3, Option.join_some, hz]
    rfl
  · rw [e1]
    have h1 := mul_le_mul_of_nonneg_left hus hqG0
    have h2 : 0 ≤ q * u := by positivity
    have e2 : u * (q + 2 * ((1 + q) * (G / μ))) = q * u + 2 * ((1 + q) * (G / μ) * u) := by ring
    have e3 : 3 * ((1 + q) * (G / μ + u)) = 3 * ((1 + q) * (G / μ)) + 3 * u + 3 * (q * u) := by ring
    rw [e2, e3]
    linarith

include A L in
/-- **C98.** The width of the Bollinger bands, where the mean stays at least `μ` away from 0: with `D` the error of the standard deviation,
`G = 6 (1 + k) D` and `q = 4 |k| M / μ`, within `3 (1 + q) (G / μ + u)` of the textbook width; and it begins on the same tick. -/
theorem C98_band_width (hroot : RoundedRoots R) (d : DataProvider α) {len n : Nat} (hlen : 2 ≤ len) {N : Nat} (hn : len + N + 1 ≤ n) {M : K} (hM : 0 ≤ M)
    (hr : Room u η top n M) (htop : 100 * len * (M + 1) ^ 2 ≤ top) {mult : α} {k : K} (hk : V.val mult = Fl.of R (.fin k))
    (htop2 : 100 * ((1 + |k|) * (M + 1)) ≤ top) {q μ : K} (hq : q = 4 * (|k| * M) / μ) (hqt : 2 * q + 2 ≤ top)
    {x : Nat → Option α} {p : Nat → K} (h : StaysNear V x 0 p (5 * (u * M + η)) N) (hp : ∀ t, t < N → |p t| ≤ M)
    {G : K} (hG : G = bandError k (stdevError u M N len)) (hGμ : 2 * G ≤ μ) (away : ∀ t, t < N → len - 1 ≤ t → μ ≤ |mean (win p len t)|) :
    ∃ y, Runs (fun t => BollingerBandsWidth.next ⟨d, t⟩) (BollingerBands.new len mult) x N y ∧
      StaysNear V y (len - 1) (bandWidthLine len k p) (3 * ((1 + q) * (G / μ + u))) N := by
  obtain ⟨m, sd, r1, r2, n1, n2⟩ := sma_stdev_room A L hroot d hlen hn hM hr htop true h hp
  refine ⟨_, C53_bollinger_width d r1 r2, fun t ht => ?_⟩
  have hu := A.u_nonneg
  have hus := A.u_small
  have hη := A.η_nonneg
  have hηu : η ≤ u / 1024 := A.η_small.trans (by have := mul_le_mul_of_nonneg_right hus hu; linarith)
  obtain ⟨f1, f2, f3, f4, f5⟩ := stdevError_facts A hn hM hr.fine
  have hk0 := abs_nonneg k
  have hG0 : 0 < G := by rw [hG]; unfold bandError; positivity
  have hμ : 0 < μ := by linarith
  have hq0 : 0 ≤ q := by rw [hq]; positivity
  unfold startAt
  by_cases hts : t < len - 1
  · rw [if_pos hts]
    rw [stays_before n1 ht hts]
    cases x t <;> rfl
  rw [if_neg hts]
  obtain ⟨a, a1, a2⟩ := stays_at h ht (Nat.zero_le t)
  obtain ⟨b, b1, b2⟩ := stays_at n1 ht (by omega)
  obtain ⟨s, s1, s2⟩ := stays_at n2 ht (by omega)
  have hmean : |mean (win p len t)| ≤ M := mean_win_abs (by omega) (by omega) fun k hk => hp k (by omega)
  obtain ⟨d1, d2, -⟩ := deviation_bounds (show 1 ≤ len by omega) (show len ≤ t + 1 by omega) hM fun k hk => hp k (by omega)
  have hw := away t ht (by omega)
  have s2' : Near V s (deviationLine len p t) (stdevError u M N len) := by simpa [stdevFactor, deviationLine] using s2
  obtain ⟨g1, -⟩ := near_bands A (a2.mono f4) (b2.mono f3) s2' hk hM (hp t ht) hmean d1 d2 f1 f2 htop2
  rw [← hG] at g1
  have hDG : stdevError u M N len ≤ G := by
    rw [hG]; unfold bandError
    have : 0 ≤ |k| * stdevError u M N len := by positivity
    linarith
  have b2' := b2.mono (f3.trans hDG)
  have hquot : |2 * (k * deviationLine len p t) / mean (win p len t)| ≤ q := by
    rw [abs_div, hq, div_le_div_iff₀ (by linarith) hμ, abs_mul, abs_mul, abs_of_nonneg d1, abs_of_nonneg (show (0 : K) ≤ 2 by norm_num)]
    have h1 := mul_le_mul_of_nonneg_left d2 hk0
    exact mul_le_mul (by linarith) hw hμ.le (by positivity)
  have e1 : 2 * (G + q * G) / μ = 2 * ((1 + q) * (G / μ)) := by ring
  have hGd0 : 0 ≤ G / μ := by positivity
  have hGd : G / μ ≤ 1 / 2 := by rw [div_le_div_iff₀ hμ (by norm_num)]; linarith
  have hqG := mul_le_mul_of_nonneg_left hGd (show 0 ≤ 1 + q by linarith)
  have hqG0 : 0 ≤ (1 + q) * (G / μ) := by positivity
  have res := g1.quot A b2' hμ hw hGμ hquot (by rw [e1]; linarith)
  refine ⟨(b + s * mult - (b - s * mult)) / b, ?_, res.mono ?_⟩
  · have hz := near_feq_zero L b2' (by linarith)
    rw [a1, b1, s1]
    simp only [opt3, Option.join_some, hz]
    rfl
  · rw [e1]
    have h1 := mul_le_mul_of_nonneg_left hus hqG0
    have h2 : 0 ≤ q * u := by positivity
    have e2 : u * (q + 2 * ((1 + q) * (G / μ))) = q * u + 2 * ((1 + q) * (G / μ) * u) := by ring
    have e3 : 3 * ((1 + q) * (G / μ + u)) = 3 * ((1 + q) * (G / μ)) + 3 * u + 3 * (q * u) := by ring
    rw [e2, e3]
    linarith

end

/-- Exact arithmetic rounds without error. -/
theorem exact_accurate {top : K} (h : 1 ≤ top) : (Rounding.exact K).Accurate 0 0 top where
  u_nonneg := le_refl _
  u_small := by norm_num
  η_nonneg := le_refl _
  η_small := by simp
  top_ge := h
  err k _ := ⟨k, rfl, by simp⟩

section
variable {V : Valued R α} {u η top : K} (A : R.Accurate u η top) (L : R.Lawful)

include A L in
/-- **C98.** The Bollinger %B program of any length of at least 2, positive multiplier, price source and thresholds on prices up to `M`, where
the bands are at least `μ` apart: if the textbook %B keeps farther from both thresholds than the error of C98_percent_b, it signals on
every tick what it signals in exact arithmetic, which is what the textbook %B signals. -/
theorem C98_percent_b_program (hroot : RoundedRoots R) {d : DataProvider α} {N : Nat} {o h l c v : Nat → K} {M : K} (hb : PricedBars V d N o h l c v M) (hM : 0 ≤ M)
    {dx : DataProvider (Ex K)} (hx : ExBars dx N o h l c v) {src : SrcKind} (hs : src ≠ .volume)
    {len n : Nat} (hlen : 2 ≤ len) (hn : len + N + 1 ≤ n) (hr : Room u η top n M) (htop : 100 * len * (M + 1) ^ 2 ≤ top)
    {mult : α} {k : K} (hk : V.val mult = Fl.of R (.fin k)) (hk0 : 0 < k) (htop2 : 100 * ((1 + |k|) * (M + 1)) ≤ top)
    {q : K} (hq : q = 1 / 2 + len / (2 * k)) (hqt : 2 * q + 2 ≤ top)
    {G : K} (hG : G = bandError k (stdevError u M N len)) {μ : K} (hGμ : 2 * G ≤ μ)
    (wide : ∀ t, t < N → len - 1 ≤ t → μ ≤ 2 * (k * deviationLine len (sourceValue src o h l c v) t))
    {th : Thresholds α} {thx : Thresholds (Ex K)} {lo hi : K} (t1 : V.val th.oversold = Fl.of R (.fin lo)) (t2 : V.val th.overbought = Fl.of R (.fin hi))
    (t3 : thx.oversold = fin lo) (t4 : thx.overbought = fin hi)
    (far : ∀ t, t < N → len - 1 ≤ t → 3 * ((1 + q) * (G / μ + u)) < |percentBLine len k (sourceValue src o h l c v) t - lo| ∧
      3 * ((1 + q) * (G / μ + u)) < |percentBLine len k (sourceValue src o h l c v) t - hi|)
    (cfg : StrategyConfig α) (cfgx : StrategyConfig (Ex K)) (rfr : α) (rfrx : Ex K) :
    SameSignals d dx N (withSrc src BollingerBandsPercentB.next) (BollingerBands.new len mult) ThresholdStrategy.next (BollingerBandsPercentBStrategy.new th) cfg rfr
      (withSrc src BollingerBandsPercentB.next) (BollingerBands.new len (fin k)) ThresholdStrategy.next (BollingerBandsPercentBStrategy.new thx) cfgx rfrx
      (lineSignal (len - 1) (percentBLine len k (sourceValue src o h l c v)) lo hi) := by
  have hu := A.u_nonneg
  have hη := A.η_nonneg
  have hl2 : (2 : K) ≤ len := by exact_mod_cast hlen
  have hnn : (len : K) + N + 1 ≤ n := by exact_mod_cast hn
  have hN0 : (0 : K) ≤ N := Nat.cast_nonneg _
  have fit : 20 * (M + η) ≤ top := by
    have := mul_le_mul_of_nonneg_right (show 20 ≤ 1000 * (n : K) by linarith) (show 0 ≤ M + η by linarith)
    have := hr.wide
    linarith
  obtain ⟨x, x1, x2⟩ := C92_source A L hb hM (by linarith) hs
  have pb : ∀ t, t < N → |sourceValue src o h l c v t| ≤ M := fun t ht => sourceValue_abs (hb.bound t ht) hs
  generalize hp : sourceValue src o h l c v = p at *
  obtain ⟨y, r, near⟩ := C98_percent_b A L hroot d hlen hn hM hr htop hk hk0 htop2 hq hqt x2 pb hG hGμ wide
  -- exact arithmetic
  have hx0 : StaysNear (Valued.unsigned (Rounding.exact K)) (fun t => some (fin (p t))) 0 p (5 * ((0 : K) * M + 0)) N := fun t _ => by
    unfold startAt
    rw [if_neg (by omega)]
    exact ⟨_, rfl, p t, rfl, by simp⟩
  have hD : stdevError 0 M N len ≤ stdevError u M N len := by
    unfold stdevError
    have : 0 ≤ (20 + 6 * (N : K) + 12 * len) * (u * (M + 1)) := by have := hM; positivity
    rw [zero_mul, mul_zero]
    linarith
  have hD0 : 0 ≤ stdevError 0 M N len := by unfold stdevError; rw [zero_mul, mul_zero]; norm_num
  have hGG : bandError k (stdevError 0 M N len) ≤ G := by
    rw [hG]; unfold bandError
    have := mul_le_mul_of_nonneg_left hD (show 0 ≤ 1 + |k| by have := abs_nonneg k; linarith)
    linarith
  have hG0 : 0 < G := by
    rw [hG]; unfold bandError
    have h1 : 0 < stdevError u M N len := (stdevError_facts A hn hM hr.fine).2.2.2.2
    have := abs_nonneg k
    positivity
  have hμ : 0 < μ := by linarith
  have hq0 : 0 ≤ 1 + q := by rw [hq]; have : 0 ≤ (len : K) / (2 * k) := by positivity
                             linarith
  obtain ⟨yx, rx, nearx⟩ := C98_percent_b (exact_accurate A.top_ge) exact_lawful (V := Valued.unsigned (Rounding.exact K)) (fun _ _ => rfl) dx hlen hn hM
    (hr := ⟨by simp, by
      have := hr.wide
      have : 0 ≤ 1000 * (n : K) * η := by positivity
      linarith, hr.small⟩) htop (mult := fin k) (k := k) rfl hk0 htop2 hq hqt hx0 pb rfl (by linarith : _ ≤ μ) wide
  have e1 : 3 * ((1 + q) * (bandError k (stdevError 0 M N len) / μ + 0)) ≤ 3 * ((1 + q) * (G / μ + u)) := by
    have h1 := div_le_div_of_nonneg_right hGG hμ.le
    have := mul_le_mul_of_nonneg_left (show bandError k (stdevError 0 M N len) / μ + 0 ≤ G / μ + u by linarith) hq0
    linarith
  have sg1 := (C92_signals near t1 t2 far).1 BollingerBandsPercentBStrategy.new (by simp)
  have sg2 := (C92_signals (V := Valued.unsigned (Rounding.exact K)) (nearx.mono e1) (c := thx) (by rw [t3]; rfl) (by rw [t4]; rfl) far).1
    BollingerBandsPercentBStrategy.new (by simp)
  obtain ⟨o', h', l', c', v', b1, -⟩ := hb.bars
  obtain ⟨st, tv, q1, -, q2⟩ := C65_program b1 (withSrc_runs x1 r) sg1 cfg rfr
  have sx := src_exact' hx src
  rw [hp] at sx
  obtain ⟨stx, tvx, q3, -, q4⟩ := C65_program hx (withSrc_runs sx rx) sg2 cfgx rfrx
  exact ⟨_, st, tv, _, stx, tvx, q2, q4, q1, q3⟩

end
end Pace
