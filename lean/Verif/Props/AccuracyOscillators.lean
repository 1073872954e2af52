import Verif.Props.AccuracyChannels
import Verif.Props.Content3

/-!
# C94: oscillators in floats against exact ones

Ratios: how near a quotient of floats is depends on how small the divisor gets, so each theorem has a lower bound `m` on the divisor as a
hypothesis about the exact prices.
-/

set_option linter.unusedSectionVars false

namespace Pace
open Spec
variable {K : Type} [Field K] [LinearOrder K] [IsStrictOrderedRing K] [RootOps K] {R : Rounding K}
variable {α : Type} [F64 α]

section
variable {V : Valued R α} {u η top : K} (A : R.Accurate u η top) (L : R.Lawful)

include A in
/-- A quotient of at most 1. -/
theorem Spec.Near.ratio {a b : α} {x y e f G m : K} (ha : Near V a x e) (hb : Near V b y f) (hm : 0 < m) (hy : m ≤ |y|) (hxy : |x| ≤ |y|)
    (hG : e + f ≤ G) (hGm : 4 * G ≤ m) (htop : 2 ≤ top) : Near V (a / b) (x / y) (3 * (G / m) + 2 * u) := by
  have he := ha.nonneg
  have hf := hb.nonneg
  have hu := A.u_nonneg
  have hus := A.u_small
  have hηu := A.η_small
  have hq : |x / y| ≤ 1 := by
    rw [abs_div, div_le_one (lt_of_lt_of_le hm hy)]
    exact hxy
  have hGq : G / m ≤ 1 / 4 := by rw [div_le_div_iff₀ hm (by norm_num)]; linarith
  have hG0 : 0 ≤ G / m := div_nonneg (by linarith) hm.le
  have e1 : 2 * (e + 1 * f) / m ≤ 2 * (G / m) := by
    rw [← mul_div_assoc]
    exact div_le_div_of_nonneg_right (by linarith) hm.le
  refine (ha.quot A hb hm hy (by linarith) hq (by linarith)).mono ?_
  have e2 := mul_le_mul_of_nonneg_left e1 hu
  have e3 := mul_le_mul_of_nonneg_right hus hG0
  have e4 := mul_le_mul_of_nonneg_right hus hu
  linarith

include A L in
/-- Turning a ratio into a percentage. -/
theorem Spec.Near.percent {z : α} {r g : K} (hz : Near V z r g) (hr : |r| ≤ 1) (hg : g ≤ 2) (htop : 1024 ≤ top) :
    Near V (z * lit 100) (r * 100) (101 * g + 101 * u) := by
  have hg0 := hz.nonneg
  have hu := A.u_nonneg
  have hus := A.u_small
  have hηu := A.η_small
  have lit100 : V.val (lit (100 : ℚ)) = Fl.of R (.fin (100 : K)) := by
    have := val_lit_nat (V := V) L (n := 100) (by norm_num); exact_mod_cast this
  have h100 : |(100 : K)| = 100 := abs_of_nonneg (by norm_num)
  have hm : |r * 100| ≤ 100 := by rw [abs_mul, h100]; linarith
  refine (hz.mul A (near_of_val lit100) hm ?_).mono ?_
  · rw [h100]; linarith
  · rw [h100]
    have e3 := mul_le_mul_of_nonneg_right hus hg0
    have e4 := mul_le_mul_of_nonneg_right hus hu
    have e5 : u * (100 + (|r| * 0 + 100 * g + g * 0)) = 100 * u + 100 * (u * g) := by ring
    rw [e5]
    linarith

/-- A difference of two floats that are exact. -/
theorem Spec.Near.gap (A : R.Accurate u η top) {a b : α} {x y M : K} (ha : V.val a = Fl.of R (.fin x)) (hb : V.val b = Fl.of R (.fin y)) (hx : |x| ≤ M)
    (hy : |y| ≤ M) (htop : 2 * M ≤ top) : Near V (a - b) (x - y) (2 * (u * M + η)) := by
  have hη := A.η_nonneg
  rw [abs_le] at hx hy
  refine ((near_of_val ha).sub A (near_of_val hb) (m := 2 * M) (abs_le.mpr ⟨by linarith, by linarith⟩) (by linarith)).mono ?_
  linarith

theorem val_feq_fin (a b : K) : F64.feq (Fl.of R (.fin a)) (Fl.of R (.fin b)) = decide (a = b) := by
  show decide (Ext.fin a = Ext.fin b) = _; simp

/-- Nonzero near numbers that stay away from zero. -/
theorem near_feq_zero (L : R.Lawful) {b : α} {y f : K} (hb : Near V b y f) (hf : f < |y|) : F64.feq b (lit 0) = false := by
  obtain ⟨w, h1, h2⟩ := hb
  rw [V.feq, h1, V.lit, lit_zero L, val_feq_fin]
  refine decide_eq_false fun h => ?_
  rw [h, zero_sub, abs_neg] at h2
  linarith

include A in
/-- **C94.** Balance of power on well-formed bars that all have a range of at least `m`: within `12 (u M + η) / m + 2 u` of the exact one. -/
theorem C94_balance_of_power {d : DataProvider α} {N : Nat} {o h l c v : Nat → K} {M : K} (hb : PricedBars V d N o h l c v M)
    (hw : WellFormed o h l c) (h2M : 2 * M ≤ top) (htop : 2 ≤ top) {m : K} (hm : 0 < m) (hδm : 16 * (u * M + η) ≤ m) (wide : ∀ t, t < N → m ≤ h t - l t) :
    ∃ y, (∀ t, t < N → BalanceOfPower.next ⟨d, t⟩ = .ok (y t)) ∧
      StaysNear V y 0 (fun t => (c t - o t) / (h t - l t)) (12 * ((u * M + η) / m) + 2 * u) N := by
  obtain ⟨o', h', l', c', v', b, hv⟩ := hb.bars
  refine ⟨_, fun t ht => C53_balance_of_power d b.open_ b.high b.low b.close ht, fun t ht => ?_⟩
  obtain ⟨v1, v2, v3, v4, -⟩ := hv t ht
  obtain ⟨m1, m2, m3, m4⟩ := hb.bound t ht
  obtain ⟨w1, w2, w3, w4⟩ := hw t
  have hmt := wide t ht
  have hne : F64.feq (h' t) (l' t) = false := by
    rw [V.feq, v2, v3, val_feq_fin]
    exact decide_eq_false fun h => by rw [h] at hmt; linarith
  unfold startAt
  rw [if_neg (by omega)]
  refine ⟨(c' t - o' t) / (h' t - l' t), by simp [opt4, hne], ?_⟩
  refine ((Near.gap A v4 v1 m4 m1 h2M).ratio A (Near.gap A v2 v3 m2 m3 h2M) hm (hmt.trans (le_abs_self _)) ?_ (G := 4 * (u * M + η)) (by linarith) (by linarith) htop).mono ?_
  · rw [abs_of_nonneg (show 0 ≤ h t - l t by linarith)]
    exact abs_le.mpr ⟨by linarith, by linarith⟩
  · rw [mul_div_assoc]; linarith

/-- Williams %R as a line of numbers, from the highest high and the lowest low of the last `n` bars. -/
def Spec.williamsLine (n : Nat) (h l x : Nat → K) (t : Nat) : K :=
  (x t - (Spec.highest (fun t => some (h t)) n t).getD 0) /
    ((Spec.highest (fun t => some (h t)) n t).getD 0 - (Spec.lowest (fun t => some (l t)) n t).getD 0) * 100

include A L in
/-- **C94.** Williams %R of any length and price source on well-formed bars, where the highest high and the lowest low of the last `n` bars
are at least `m` apart: within `3030 (u M + η) / m + 303 u` of the exact one, and it begins on the same bar. -/
theorem C94_williams {d : DataProvider α} {N : Nat} {o h l c v : Nat → K} {M : K} (hb : PricedBars V d N o h l c v M) (hM : 0 ≤ M)
    (hw : WellFormed o h l c) (h8M : 8 * (M + η) ≤ top) (htop : 1024 ≤ top) {src : SrcKind} (hs : src ≠ .volume) {n : Nat} (hn : 1 ≤ n)
    {m : K} (hm : 0 < m) (hδm : 40 * (u * M + η) ≤ m)
    (wide : ∀ t, t < N → ∀ hi lo, Spec.highest (fun t => some (h t)) n t = some hi → Spec.lowest (fun t => some (l t)) n t = some lo → m ≤ hi - lo) :
    ∃ y, Runs (noInput fun t => withSrc src WilliamsPercentRank.next ⟨d, t⟩) (WilliamsPercentRank.new n) unit N y ∧
      StaysNear V y (n - 1) (williamsLine n h l (sourceValue src o h l c v)) (3030 * ((u * M + η) / m) + 303 * u) N := by
  have hη := A.η_nonneg
  have hus := A.u_small
  have hu := A.u_nonneg
  have huM : 0 ≤ u * M := mul_nonneg hu hM
  have suM : u * (u * M) ≤ u * M / 1024 := by have := mul_le_mul_of_nonneg_right hus huM; linarith
  have sη : u * η ≤ η / 1024 := by have := mul_le_mul_of_nonneg_right hus hη; linarith
  have sM : u * M ≤ M / 1024 := by have := mul_le_mul_of_nonneg_right hus hM; linarith
  obtain ⟨x, x1, x2⟩ := C92_source A L hb hM h8M hs
  obtain ⟨h', l', hi, lo, ch, cl, r1, r2, n1, n2⟩ := bar_extremes hb hn
  refine ⟨_, withSrc_runs x1 (C53_williams d ch cl r1 r2), fun t ht => ?_⟩
  obtain ⟨z, z1, z2⟩ := stays_at x2 ht (Nat.zero_le t)
  have i1 := n1 t ht
  have i2 := n2 t ht
  unfold startAt
  by_cases hts : t < n - 1
  · rw [if_pos hts]
    unfold Spec.highest at i1
    rw [if_neg (by omega)] at i1
    show Option.map _ (safeDiv (opt2 _ (x t) (hi t)) _) = none
    rw [show hi t = none from i1, z1]
    rfl
  rw [if_neg hts]
  obtain ⟨p, p1, p2⟩ := highest_complete hn (show n ≤ t + 1 by omega) (x := h)
  obtain ⟨q, q1, q2⟩ := lowest_complete hn (show n ≤ t + 1 by omega) (x := l)
  have hpq := wide t ht p q p1 q1
  have b1 := highest_abs (by omega) (fun i hi => (hb.bound i (by omega)).2.1) p1
  have b2 := lowest_abs (by omega) (fun i hi => (hb.bound i (by omega)).2.2.1) q1
  have b3 := sourceValue_abs (v := v) (hb.bound t ht) hs
  obtain ⟨g1, g2⟩ := sourceValue_between (v := v) hw hs t
  have g3 := p2 t (by omega) (le_refl _)
  have g4 := q2 t (by omega) (le_refl _)
  unfold williamsLine
  rw [p1, q1]
  rw [p1] at i1
  rw [q1] at i2
  simp only [Option.getD_some]
  obtain ⟨a, a1, a2⟩ := i1
  obtain ⟨b, c1, c2⟩ := i2
  rw [abs_le] at b1 b2 b3
  have num : Near V (z - a) (sourceValue src o h l c v t - p) (8 * (u * M + η)) := by
    refine (z2.sub A a2 (m := 2 * M) (abs_le.mpr ⟨by linarith, by linarith⟩) (by linarith)).mono ?_
    rw [show u * (2 * M + (5 * (u * M + η) + 0)) = 2 * (u * M) + 5 * (u * (u * M)) + 5 * (u * η) by ring]
    linarith
  have den : Near V (a - b) (p - q) (2 * (u * M + η)) := by
    refine (a2.sub A c2 (m := 2 * M) (abs_le.mpr ⟨by linarith, by linarith⟩) (by linarith)).mono ?_
    linarith
  have hab : |p - q| = p - q := abs_of_nonneg (by linarith)
  have hx : |sourceValue src o h l c v t - p| ≤ |p - q| := by
    rw [hab]; exact abs_le.mpr ⟨by linarith, by linarith⟩
  have hδ : 0 ≤ u * M + η := by positivity
  have ratio := num.ratio A den hm (by rw [hab]; exact hpq) hx (G := 10 * (u * M + η)) (by linarith) (by linarith) (by linarith)
  have hne := near_feq_zero L den (by rw [hab]; linarith)
  refine ⟨(z - a) / (a - b) * lit 100, by simp [z1, a1, c1, opt2, safeDiv, hne], ?_⟩
  have hd : (u * M + η) / m ≤ 1 / 40 := by rw [div_le_div_iff₀ hm (by norm_num)]; linarith
  refine (ratio.percent A L ?_ ?_ htop).mono ?_
  · rw [abs_div, div_le_one (by rw [hab]; linarith)]
    exact hx
  · rw [mul_div_assoc]; linarith
  · rw [mul_div_assoc]; linarith

include A L in
/-- **C94.** Awesome oscillator with any two averages and price sources: within `38 + 4 (slack short + slack long)` roundings `u M + η` of the
exact change of the exact difference, and it begins on the same bar. -/
theorem C94_awesome {d : DataProvider α} {N : Nat} {o h l c v : Nat → K} {M : K} (hb : PricedBars V d N o h l c v M) (hM : 0 ≤ M)
    {ss sl : SrcKind} (hss : ss ≠ .volume) (hsl : sl ≠ .volume) (ka kb : MaKind) {a b k : Nat} (ha : 1 ≤ a) (hb' : 1 ≤ b)
    (hk : a + b + N + 1 ≤ k) (hr : Room u η top k M) :
    let diff := fun t => average ka a 0 (sourceValue ss o h l c v) t - average kb b 0 (sourceValue sl o h l c v) t
    ∃ y, Runs (noInput fun t => withSrc2 ss sl AwesomeOscillator.next ⟨d, t⟩) (do let l ← Ma.new kb b; let s ← Ma.new ka a; return .new s l) unit N y ∧
      StaysNear V y (max (maLength ka a) (maLength kb b)) (fun t => diff t - diff (t - 1))
        ((38 + 4 * (slack ka a N + slack kb b N)) * (u * M + η)) N := by
  intro diff
  have hδ : 0 ≤ u * M + η := add_nonneg (mul_nonneg A.u_nonneg hM) A.η_nonneg
  have hu := A.u_nonneg
  have hη := A.η_nonneg
  have hk1 : (1 : K) ≤ k := by exact_mod_cast (by omega : 1 ≤ k)
  have p1 := maLength_pos ka ha
  have p2 := maLength_pos kb hb'
  obtain ⟨x1, y1, e1, r1, n1⟩ := source_average A L hb hM hss ka ha (show a + N + 1 ≤ k by omega) hr
  obtain ⟨x2, y2, e2, r2, n2⟩ := source_average A L hb hM hsl kb hb' (show b + N + 1 ≤ k by omega) hr
  have la : (slack ka a N : K) ≤ 18 * k := by exact_mod_cast slack_le ka (show a + N + 1 ≤ k by omega)
  have lb : (slack kb b N : K) ≤ 18 * k := by exact_mod_cast slack_le kb (show b + N + 1 ≤ k by omega)
  obtain ⟨w1, w2, w3, w4⟩ := line_numbers A.u_nonneg A.η_nonneg A.η_small A.top_ge hM hk1 hr.fine hr.wide (Nat.cast_nonneg _) (Nat.cast_nonneg _) la lb
  have hline : ∀ t, t < N → max (maLength ka a) (maLength kb b) - 1 ≤ t → |diff t| ≤ 2 * M := by
    intro t ht hpt
    have h1 := average_abs ka ha (s := 0) (t := t) (w := sourceValue ss o h l c v) (M := M) (by omega) fun i _ hi =>
      sourceValue_abs (hb.bound i (by omega)) hss
    have h2 := average_abs kb hb' (s := 0) (t := t) (w := sourceValue sl o h l c v) (M := M) (by omega) fun i _ hi =>
      sourceValue_abs (hb.bound i (by omega)) hsl
    have := abs_sub (average ka a 0 (sourceValue ss o h l c v) t) (average kb b 0 (sourceValue sl o h l c v) t)
    show |_ - _| ≤ _
    linarith
  have hp : max (maLength ka a - 1) (maLength kb b - 1) = max (maLength ka a) (maLength kb b) - 1 := by omega
  have n3 := stays_sub A n1 n2 (m := 2 * M) (by rw [hp]; exact hline) w1
  rw [hp] at n3
  have n4 := n3.mono w2
  have n5 : StaysNear V (prev fun t => opt2 (· - ·) (y1 t) (y2 t)) (max (maLength ka a) (maLength kb b)) (fun t => diff (t - 1))
      ((16 + 2 * (slack ka a N + slack kb b N)) * (u * M + η)) N := by
    intro t ht
    cases t with
    | zero =>
      unfold startAt
      rw [if_pos (by omega)]
      rfl
    | succ t =>
      have h1 := n4 t (by omega)
      unfold startAt at h1 ⊢
      by_cases hts : t < max (maLength ka a) (maLength kb b) - 1
      · rw [if_pos hts] at h1
        rw [if_pos (by omega)]
        exact h1
      · rw [if_neg hts] at h1
        rw [if_neg (by omega)]
        exact h1
  have e4 : ((16 : K) + 2 * (slack ka a N + slack kb b N)) * (u * M + η) ≤ 88 * k * (u * M + η) := mul_le_mul_of_nonneg_right (by linarith) hδ
  have hE0 : 0 ≤ ((16 : K) + 2 * (slack ka a N + slack kb b N)) * (u * M + η) := by positivity
  have hkM : M ≤ k * M := le_mul_of_one_le_left hM hk1
  have hkη : 0 ≤ (k : K) * η := by positivity
  have hkuM : (k : K) * (u * M) ≤ M / 1000 := by
    have := mul_le_mul_of_nonneg_right hr.fine hM
    linarith
  have hwide := hr.wide
  have n6 := stays_sub A n4 n5 (m := 4 * M) (fun t ht hs => by
    have h1 := hline t ht (by omega)
    have h2 := hline (t - 1) (by omega) (by omega)
    have := abs_sub (diff t) (diff (t - 1))
    linarith) (by linarith)
  rw [show max (max (maLength ka a) (maLength kb b) - 1) (max (maLength ka a) (maLength kb b)) = max (maLength ka a) (maLength kb b) by omega] at n6
  obtain ⟨q1, i1, -⟩ := r1.trace
  obtain ⟨q2, i2, -⟩ := r2.trace
  rw [i1] at r1; rw [i2] at r2
  refine ⟨_, withSrc2_runs e1 e2 ?_, n6.mono ?_⟩
  · simp only [i1, i2, Res.ok_bind, Res.pure_eq]
    exact C53_awesome_oscillator d r1 r2
  · have e5 : ((38 : K) + 4 * (slack ka a N + slack kb b N)) * (u * M + η) =
      2 * (((16 : K) + 2 * (slack ka a N + slack kb b N)) * (u * M + η)) + 6 * (u * M + η) := by ring
    rw [e5]
    linarith

include A L in
/-- One value of a percentage oscillator. -/
private theorem oscillator_near {a b : α} {x y e f D M m : K} (ha : Near V a x e) (hb : Near V b y f) (hM : 0 ≤ M) (hx : |x| ≤ M) (hyM : |y| ≤ M)
    (hD : e + f + u * (2 * M + (e + f)) + η ≤ D) (hm : 0 < m) (hy : m ≤ |y|) (hDm : 2 * D ≤ m) (h1 : 2 * M + (e + f) ≤ top) (h2 : 400 * (1 + 2 * M / m) ≤ top) :
    Near V ((a - b) / b * lit 100) (100 * (x - y) / y) (202 * ((D / m + u) * (1 + 2 * M / m))) := by
  have he := ha.nonneg
  have hf := hb.nonneg
  have hu := A.u_nonneg
  have hus := A.u_small
  have hη := A.η_nonneg
  have hηu := A.η_small
  have lit100 : V.val (lit (100 : ℚ)) = Fl.of R (.fin (100 : K)) := by
    have := val_lit_nat (V := V) L (n := 100) (by norm_num); exact_mod_cast this
  have h100 : |(100 : K)| = 100 := abs_of_nonneg (by norm_num)
  have hdiff : |x - y| ≤ 2 * M := by have := abs_sub x y; linarith
  have nd := (ha.sub A hb hdiff h1).mono hD
  have hy0 : 0 < |y| := lt_of_lt_of_le hm hy
  have hpos : 0 ≤ u * (2 * M + (e + f)) := by positivity
  have hfD : f ≤ D := by linarith
  have hD0 : 0 ≤ D := hf.trans hfD
  have hq : |(x - y) / y| ≤ 2 * M / m := by
    rw [abs_div, div_le_div_iff₀ hy0 hm]
    have := mul_le_mul hdiff hy hm.le (by linarith : 0 ≤ 2 * M)
    linarith
  generalize hQ : 2 * M / m = Q at *
  have hQ0 : 0 ≤ Q := (abs_nonneg _).trans hq
  have hG : D / m ≤ 1 / 2 := by rw [div_le_div_iff₀ hm (by norm_num)]; linarith
  have hG0 : 0 ≤ D / m := div_nonneg hD0 hm.le
  have e1 : 2 * (D + Q * f) / m ≤ 2 * (D / m * (1 + Q)) := by
    rw [show 2 * (D / m * (1 + Q)) = 2 * (D + Q * D) / m by ring]
    refine div_le_div_of_nonneg_right ?_ hm.le
    have := mul_le_mul_of_nonneg_left hfD hQ0
    linarith
  have e2 : D / m * (1 + Q) ≤ 1 / 2 * (1 + Q) := mul_le_mul_of_nonneg_right hG (by linarith)
  have e3 : 0 ≤ D / m * (1 + Q) := by positivity
  have hquot := nd.quot A hb hm hy (by linarith) hq (by linarith)
  have e5 : 2 * (D + Q * f) / m + u * (Q + 2 * (D + Q * f) / m) + η ≤ (2 + 1 / 512) * (D / m * (1 + Q)) + u * (1 + Q) := by
    have g1 := mul_le_mul_of_nonneg_left e1 hu
    have g2 := mul_le_mul_of_nonneg_right hus e3
    have g3 := mul_le_mul_of_nonneg_right hus hu
    linarith
  have n2 := hquot.mono e5
  have hr : 100 * (x - y) / y = (x - y) / y * 100 := by ring
  rw [hr]
  have g0 : u * (1 + Q) ≤ 1 / 1024 * (1 + Q) := mul_le_mul_of_nonneg_right hus (by linarith)
  have g00 : 0 ≤ u * (1 + Q) := by positivity
  refine (n2.mul A (near_of_val lit100) (m := 100 * Q) (by rw [abs_mul, h100]; linarith) ?_).mono ?_
  · rw [h100]; linarith
  · rw [h100]
    have g2 := mul_le_mul_of_nonneg_right hus e3
    have g3 := mul_le_mul_of_nonneg_right hus g00
    have g4 := mul_le_mul_of_nonneg_right hus hu
    have e6 : |(x - y) / y| * 0 + 100 * ((2 + 1 / 512) * (D / m * (1 + Q)) + u * (1 + Q)) + ((2 + 1 / 512) * (D / m * (1 + Q)) + u * (1 + Q)) * 0 =
      (200 + 100 / 512) * (D / m * (1 + Q)) + 100 * (u * (1 + Q)) := by ring
    rw [e6]
    have e7 : 202 * ((D / m + u) * (1 + Q)) = 202 * (D / m * (1 + Q)) + 202 * (u * (1 + Q)) := by ring
    rw [e7]
    have e8 : u * (100 * Q + ((200 + 100 / 512) * (D / m * (1 + Q)) + 100 * (u * (1 + Q)))) =
      100 * (u * (1 + Q)) - 100 * u + (200 + 100 / 512) * (u * (D / m * (1 + Q))) + 100 * (u * (u * (1 + Q))) := by ring
    rw [e8]
    linarith

include A L in
/-- **C94.** Price oscillator with any two averages and any price source, where the exact long average is never below `m` in size: within
`202 (E / m + u) (1 + 2 M / m)` of the exact one, `E` being `16 + 2 (slack short + slack long)` roundings `u M + η`; and it begins on the same
bar. -/
theorem C94_price_oscillator {d : DataProvider α} {N : Nat} {o h l c v : Nat → K} {M : K} (hb : PricedBars V d N o h l c v M) (hM : 0 ≤ M)
    {src : SrcKind} (hs : src ≠ .volume) (ka kb : MaKind) {a b k : Nat} (ha : 1 ≤ a) (hb' : 1 ≤ b) (hk : a + b + N + 1 ≤ k) (hr : Room u η top k M)
    {m : K} (hm : 0 < m) (hEm : 2 * ((16 + 2 * (slack ka a N + slack kb b N)) * (u * M + η)) ≤ m) (htop : 400 * (1 + 2 * M / m) ≤ top)
    (away : ∀ t, t < N → max (maLength ka a) (maLength kb b) ≤ t + 1 → m ≤ |average kb b 0 (sourceValue src o h l c v) t|) :
    let short := average ka a 0 (sourceValue src o h l c v)
    let long := average kb b 0 (sourceValue src o h l c v)
    ∃ y, Runs (noInput fun t => withSrc src PriceOscillator.next ⟨d, t⟩) (do let l ← Ma.new kb b; let s ← Ma.new ka a; return ⟨s, l⟩) unit N y ∧
      StaysNear V y (max (maLength ka a) (maLength kb b) - 1) (fun t => 100 * (short t - long t) / long t)
        (202 * (((16 + 2 * (slack ka a N + slack kb b N)) * (u * M + η) / m + u) * (1 + 2 * M / m))) N := by
  intro short long
  have hk1 : (1 : K) ≤ k := by exact_mod_cast (by omega : 1 ≤ k)
  have p1 := maLength_pos ka ha
  have p2 := maLength_pos kb hb'
  obtain ⟨x1, y1, e1, r1, n1⟩ := source_average A L hb hM hs ka ha (show a + N + 1 ≤ k by omega) hr
  obtain ⟨x2, y2, e2, r2, n2⟩ := source_average A L hb hM hs kb hb' (show b + N + 1 ≤ k by omega) hr
  have ex : ∀ t, t < N → x2 t = x1 t := fun t ht => Except.ok.inj ((e2 t ht).symm.trans (e1 t ht))
  replace r2 := r2.input_congr fun t ht => ex t ht
  have la : (slack ka a N : K) ≤ 18 * k := by exact_mod_cast slack_le ka (show a + N + 1 ≤ k by omega)
  have lb : (slack kb b N : K) ≤ 18 * k := by exact_mod_cast slack_le kb (show b + N + 1 ≤ k by omega)
  obtain ⟨w1, w2, -, -⟩ := line_numbers A.u_nonneg A.η_nonneg A.η_small A.top_ge hM hk1 hr.fine hr.wide (Nat.cast_nonneg _) (Nat.cast_nonneg _) la lb
  obtain ⟨q1, i1, -⟩ := r1.trace
  obtain ⟨q2, i2, -⟩ := r2.trace
  rw [i1] at r1; rw [i2] at r2
  simp only [i1, i2, Res.ok_bind, Res.pure_eq]
  refine ⟨_, withSrc_runs e1 (C53_price_oscillator d r1 r2), fun t ht => ?_⟩
  unfold startAt
  by_cases hts : t < max (maLength ka a) (maLength kb b) - 1
  · rw [if_pos hts]
    show opt2 _ (y1 t) (y2 t) = none
    by_cases h1 : t < maLength ka a - 1
    · rw [stays_before n1 ht h1]; rfl
    · rw [stays_before n2 ht (by omega)]; cases y1 t <;> rfl
  · rw [if_neg hts]
    obtain ⟨z1, g1, g2⟩ := stays_at n1 ht (by omega)
    obtain ⟨z2, g3, g4⟩ := stays_at n2 ht (by omega)
    refine ⟨_, by rw [g1, g3]; rfl, ?_⟩
    exact oscillator_near A L g2 g4 hM
      (average_abs ka ha (by omega) fun i _ hi => sourceValue_abs (hb.bound i (by omega)) hs)
      (average_abs kb hb' (by omega) fun i _ hi => sourceValue_abs (hb.bound i (by omega)) hs) w2 hm (away t ht (by omega)) hEm w1 htop

include A L in
/-- **C94.** Volume oscillator with any two averages of volumes up to `W`, where the exact long average is never below `m` in size: within
`202 (E / m + u) (1 + 2 W / m)` of the exact one, `E` being `6 + 2 (slack short + slack long)` roundings `u W + η`; and it begins on the same
bar. -/
theorem C94_volume_oscillator {d : DataProvider α} {N : Nat} {o h l c v : Nat → K} {M W : K} (hb : PricedBars V d N o h l c v M) (hW0 : 0 ≤ W)
    (hW : ∀ t, t < N → |v t| ≤ W) (ka kb : MaKind) {a b k : Nat} (ha : 1 ≤ a) (hb' : 1 ≤ b) (hk : a + b + N + 1 ≤ k) (hr : Room u η top k W)
    {m : K} (hm : 0 < m) (hEm : 2 * ((6 + 2 * (slack ka a N + slack kb b N)) * (u * W + η)) ≤ m) (htop : 400 * (1 + 2 * W / m) ≤ top)
    (away : ∀ t, t < N → max (maLength ka a) (maLength kb b) ≤ t + 1 → m ≤ |average kb b 0 v t|) :
    let short := average ka a 0 v
    let long := average kb b 0 v
    ∃ y, Runs (noInput fun t => VolumeOscillator.next ⟨d, t⟩) (do let s ← Ma.new ka a; let l ← Ma.new kb b; return ⟨s, l⟩) unit N y ∧
      StaysNear V y (max (maLength ka a) (maLength kb b) - 1) (fun t => 100 * (short t - long t) / long t)
        (202 * (((6 + 2 * (slack ka a N + slack kb b N)) * (u * W + η) / m + u) * (1 + 2 * W / m))) N := by
  intro short long
  have hu := A.u_nonneg
  have hη := A.η_nonneg
  have hδ : 0 ≤ u * W + η := by positivity
  have hk1 : (1 : K) ≤ k := by exact_mod_cast (by omega : 1 ≤ k)
  have p1 := maLength_pos ka ha
  have p2 := maLength_pos kb hb'
  obtain ⟨o', h', l', c', v', bb, hv⟩ := hb.bars
  have nv : StaysNear V (fun t => some (v' t)) 0 v 0 N := fun t ht => by
    unfold startAt
    rw [if_neg (by omega)]
    exact ⟨v' t, rfl, near_of_val (hv t ht).2.2.2.2⟩
  have w := hr.wide
  have fine := hr.fine
  have hku : 0 ≤ (k : K) * u := by positivity
  have hkW : 0 ≤ (k : K) * (W + η) := by positivity
  obtain ⟨y1, r1, n1⟩ := C92_average A L d ka ha (show a + N + 1 ≤ k by omega) hr.small (by linarith) nv hW0 (le_refl _) (fun t ht _ => hW t ht)
    (by rw [add_zero]; linarith)
  obtain ⟨y2, r2, n2⟩ := C92_average A L d kb hb' (show b + N + 1 ≤ k by omega) hr.small (by linarith) nv hW0 (le_refl _) (fun t ht _ => hW t ht)
    (by rw [add_zero]; linarith)
  rw [Nat.zero_add, zero_add, add_zero] at n1 n2
  have la : (slack ka a N : K) ≤ 18 * k := by exact_mod_cast slack_le ka (show a + N + 1 ≤ k by omega)
  have lb : (slack kb b N : K) ≤ 18 * k := by exact_mod_cast slack_le kb (show b + N + 1 ≤ k by omega)
  obtain ⟨w1, w2, -, -⟩ := line_numbers A.u_nonneg A.η_nonneg A.η_small A.top_ge hW0 hk1 hr.fine hr.wide (Nat.cast_nonneg _) (Nat.cast_nonneg _) la lb
  have sa : (0 : K) ≤ slack ka a N := Nat.cast_nonneg _
  have sb : (0 : K) ≤ slack kb b N := Nat.cast_nonneg _
  have qa : 0 ≤ (slack ka a N : K) * (u * W + η) := by positivity
  have qb : 0 ≤ (slack kb b N : K) * (u * W + η) := by positivity
  have hD : (slack ka a N : K) * (u * W + η) + slack kb b N * (u * W + η) + u * (2 * W + (slack ka a N * (u * W + η) + slack kb b N * (u * W + η))) + η ≤
      (6 + 2 * (slack ka a N + slack kb b N)) * (u * W + η) := by
    have h1 : u * (slack ka a N * (u * W + η) + slack kb b N * (u * W + η)) ≤ slack ka a N * (u * W + η) + slack kb b N * (u * W + η) :=
      mul_le_of_le_one_left (by positivity) (by linarith [A.u_small])
    linarith
  obtain ⟨q1, i1, -⟩ := r1.trace
  obtain ⟨q2, i2, -⟩ := r2.trace
  rw [i1] at r1; rw [i2] at r2
  simp only [i1, i2, Res.ok_bind, Res.pure_eq]
  refine ⟨_, C53_volume_oscillator d bb.volume r1 r2, fun t ht => ?_⟩
  unfold startAt
  by_cases hts : t < max (maLength ka a) (maLength kb b) - 1
  · rw [if_pos hts]
    show Option.map _ (safeDiv (opt2 _ (y1 t) (y2 t)) (y2 t)) = none
    by_cases h1 : t < maLength ka a - 1
    · rw [stays_before n1 ht h1]; cases y2 t <;> rfl
    · rw [stays_before n2 ht (by omega)]; cases y1 t <;> rfl
  · rw [if_neg hts]
    obtain ⟨z1, g1, g2⟩ := stays_at n1 ht (by omega)
    obtain ⟨z2, g3, g4⟩ := stays_at n2 ht (by omega)
    have hmt := away t ht (by omega)
    have hne : F64.feq z2 (lit 0) = false := near_feq_zero L g4 (by
      have : (6 + 2 * ((slack ka a N : K) + slack kb b N)) * (u * W + η) = 6 * (u * W + η) + 2 * (slack ka a N * (u * W + η)) + 2 * (slack kb b N * (u * W + η)) := by ring
      linarith)
    refine ⟨(z1 - z2) / z2 * lit 100, by simp [g1, g3, opt2, safeDiv, hne], ?_⟩
    exact oscillator_near A L g2 g4 hW0 (average_abs ka ha (by omega) fun i _ hi => hW i (by omega))
      (average_abs kb hb' (by omega) fun i _ hi => hW i (by omega)) hD hm hmt hEm (by linarith) htop

end
end Pace
