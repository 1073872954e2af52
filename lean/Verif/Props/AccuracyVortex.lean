import Verif.Props.AccuracyRatios

/-!
# C95: vortex and vigor in floats against exact ones
-/

set_option linter.unusedSectionVars false

namespace Pace
open Spec
variable {K : Type} [Field K] [LinearOrder K] [IsStrictOrderedRing K] [RootOps K] {R : Rounding K}
variable {α : Type} [F64 α]

theorem averageRange_one (h l c : Nat → K) : averageRange h l c 1 = startAt 0 (barRange h l c) := by
  funext t
  simp [averageRange, startAt, runningMean_one]

/-- A vortex line: the sum of the last `n` distances from `a` to the previous `b`, by the sum of the last `n` true ranges. -/
def Spec.vortexLine (n : Nat) (a b h l c : Nat → K) (t : Nat) : K :=
  (win (fun t => |a t - b (t - 1)|) n t).sum / (win (barRange h l c) n t).sum

section
variable {V : Valued R α} {u η top : K} (A : R.Accurate u η top) (L : R.Lawful)

include A L in
/-- **C95.** The vortex indicator of any length where the true ranges of a window add up to at least `m`: both lines are within
`(1 + 2 len M / m) (2 S / m + 3 u)` of the exact ones, `S` being `len (62 + 12 N)` roundings; and they begin on the same bar. -/
theorem C95_vortex {d : DataProvider α} {N : Nat} {o h l c v : Nat → K} {M : K} (hb : PricedBars V d N o h l c v M) (hM : 0 ≤ M)
    {len k : Nat} (hlen : 1 ≤ len) (hk : len + N + 1 ≤ k) (hr : Room u η top k M)
    {m : K} (hm : 0 < m) (hSm : 2 * (len * (62 + 12 * N) * (u * M + η)) ≤ m) (htop : 1 + 2 * (2 * len * M / m) ≤ top)
    (moves : ∀ t, t < N → len ≤ t → m ≤ (win (barRange h l c) len t).sum) :
    ∃ y z, Runs (noInput fun t => Vortex.next ⟨d, t⟩) (Vortex.new len) unit N (fun t => (y t, z t)) ∧
      StaysNear V y len (vortexLine len h l h l c) ((1 + 2 * len * M / m) * (2 * (len * (62 + 12 * N) * (u * M + η) / m) + 3 * u)) N ∧
      StaysNear V z len (vortexLine len l h h l c) ((1 + 2 * len * M / m) * (2 * (len * (62 + 12 * N) * (u * M + η) / m) + 3 * u)) N := by
  have hu0 := A.u_nonneg
  have hus := A.u_small
  have hη := A.η_nonneg
  have hηu : η ≤ u / 1024 := A.η_small.trans (by have := mul_le_mul_of_nonneg_right hus hu0; linarith)
  have huM : 0 ≤ u * M := mul_nonneg hu0 hM
  have hδ : 0 ≤ u * M + η := by positivity
  have hl1 : (1 : K) ≤ len := by exact_mod_cast hlen
  have hN0 : (0 : K) ≤ N := Nat.cast_nonneg _
  have hk1 : (1 : K) ≤ k := by exact_mod_cast (by omega : 1 ≤ k)
  have h2M : 2 * M ≤ top := by
    have : 2 * (M + η) ≤ 1000 * (k : K) * (M + η) := mul_le_mul_of_nonneg_right (by linarith) (by positivity)
    linarith [hr.wide]
  obtain ⟨a, a1, a2⟩ := C94_atr A L hb hM (n := 1) le_rfl (by omega : 1 + N + 1 ≤ k) hr
  rw [averageRange_one] at a2
  have a3 : StaysNear V a 0 (barRange h l c) (56 * (u * M + η)) N := fun t ht => (a2 t ht).mono (le_of_eq (by push_cast; ring))
  obtain ⟨o', h', l', c', v', b, hv⟩ := hb.bars
  have np : StaysNear V (fun t => opt2 (fun h p => F64.abs (h - p)) (some (h' t)) (prev (fun t => some (l' t)) t)) 1 (fun t => |h t - l (t - 1)|)
      (2 * (u * M + η)) N := by
    intro t ht
    cases t with
    | zero => simp [Within, startAt, prev, opt2]
    | succ t =>
      obtain ⟨-, v2, -, -, -⟩ := hv (t + 1) ht
      obtain ⟨-, -, w3, -, -⟩ := hv t (by omega)
      unfold startAt
      rw [if_neg (by omega)]
      exact ⟨F64.abs (h' (t + 1) - l' t), by simp [prev, opt2], (Near.gap A v2 w3 (hb.bound (t + 1) ht).2.1 (hb.bound t (by omega)).2.2.1 h2M).abs⟩
  have nm : StaysNear V (fun t => opt2 (fun l p => F64.abs (l - p)) (some (l' t)) (prev (fun t => some (h' t)) t)) 1 (fun t => |l t - h (t - 1)|)
      (2 * (u * M + η)) N := by
    intro t ht
    cases t with
    | zero => simp [Within, startAt, prev, opt2]
    | succ t =>
      obtain ⟨-, -, v3, -, -⟩ := hv (t + 1) ht
      obtain ⟨-, w2, -, -, -⟩ := hv t (by omega)
      unfold startAt
      rw [if_neg (by omega)]
      exact ⟨F64.abs (l' (t + 1) - h' t), by simp [prev, opt2], (Near.gap A v3 w2 (hb.bound (t + 1) ht).2.2.1 (hb.bound t (by omega)).2.1 h2M).abs⟩
  have gp : ∀ t, t < N → 1 ≤ t → |(|h t - l (t - 1)|)| ≤ 2 * M := fun t ht _ => by
    rw [abs_abs]
    have b1 := abs_le.mp (hb.bound t ht).2.1
    have b2 := abs_le.mp (hb.bound (t - 1) (by omega)).2.2.1
    exact abs_le.mpr ⟨by linarith, by linarith⟩
  have gm : ∀ t, t < N → 1 ≤ t → |(|l t - h (t - 1)|)| ≤ 2 * M := fun t ht _ => by
    rw [abs_abs]
    have b1 := abs_le.mp (hb.bound t ht).2.2.1
    have b2 := abs_le.mp (hb.bound (t - 1) (by omega)).2.1
    exact abs_le.mpr ⟨by linarith, by linarith⟩
  obtain ⟨p, p1, p2⟩ := sum_room A L d hlen hk hM hr (by norm_num) (by norm_num) np gp
  obtain ⟨q, q1, q2⟩ := sum_room A L d hlen hk hM hr (by norm_num) (by norm_num) nm gm
  obtain ⟨r, r1, r2⟩ := sum_room A L d hlen hk hM hr (by norm_num) (by norm_num) a3
    (fun t ht _ => barRange_abs fun i hi => let ⟨_, a, b, c⟩ := hb.bound i (by omega); ⟨a, b, c⟩)
  rw [show 1 + len - 1 = len by omega] at p2 q2
  rw [show (56 : K) + 6 + 12 * N = 62 + 12 * N by ring] at r2
  have lδ : 0 ≤ (len : K) * (u * M + η) := by positivity
  have hp : len * (2 + 6 + 12 * N) * (u * M + η) ≤ len * (62 + 12 * N) * (u * M + η) := by linarith
  generalize hS : len * (62 + 12 * N) * (u * M + η) = S at *
  have p3 := p2.mono hp
  have q3 := q2.mono hp
  clear p2 q2
  have hS0 : 0 ≤ S := by rw [← hS]; positivity
  generalize hQ : 2 * len * M / m = Q at *
  have hQ0 : 0 ≤ Q := by rw [← hQ]; positivity
  have key : ∀ {g : Nat → K} {p : Nat → Option α}, StaysNear V p len (fun t => (win g len t).sum) S N → (∀ t, t < N → 1 ≤ t → |g t| ≤ 2 * M) →
      StaysNear V (fun t => safeDiv (p t) (r t)) len (fun t => (win g len t).sum / (win (barRange h l c) len t).sum) ((1 + Q) * (2 * (S / m) + 3 * u)) N := by
    intro g p p2 hg t ht
    unfold startAt
    by_cases hts : t < len
    · rw [if_pos hts]
      show safeDiv (p t) (r t) = none
      rw [stays_before p2 ht hts]; rfl
    rw [if_neg hts]
    obtain ⟨e, e1, e2⟩ := stays_at p2 ht (by omega)
    obtain ⟨f, f1, f2⟩ := stays_at r2 ht (by omega)
    have hmt := moves t ht (by omega)
    have hT : |(win (barRange h l c) len t).sum| = (win (barRange h l c) len t).sum := abs_of_nonneg (by linarith)
    have ne := near_feq_zero L f2 (by rw [hT]; linarith)
    have hB := sum_win_abs (w := g) (show len ≤ t + 1 by omega) fun k h1 h2 => hg k (by omega) (by omega)
    have hq : |(win g len t).sum / (win (barRange h l c) len t).sum| ≤ Q := by
      rw [abs_div, hT, ← hQ, div_le_div_iff₀ (by linarith) hm]
      have := mul_le_mul hB hmt hm.le (by positivity)
      linarith
    have hSq : S / m ≤ 1 / 2 := by rw [div_le_div_iff₀ hm (by norm_num)]; linarith
    have hSq0 : 0 ≤ S / m := div_nonneg hS0 hm.le
    have e3 : 2 * (S + Q * S) / m = 2 * ((1 + Q) * (S / m)) := by ring
    have e4 : (1 + Q) * (S / m) ≤ (1 + Q) * (1 / 2) := mul_le_mul_of_nonneg_left hSq (by linarith)
    refine ⟨e / f, by simp [safeDiv, e1, f1, opt2, ne], (e2.quot A f2 hm (by rw [hT]; exact hmt) hSm hq ?_).mono ?_⟩
    · rw [e3]; linarith
    · rw [e3]
      have e5 := mul_le_mul_of_nonneg_left (show Q + 2 * ((1 + Q) * (S / m)) ≤ 1 + 2 * Q by linarith) hu0
      have e6 := mul_nonneg hu0 hQ0
      linarith
  exact ⟨_, _, C53_vortex d b.high b.low a1 r1 p1 q1, key p3 gp, key q3 gm⟩

theorem average_swma (n s : Nat) (x : Nat → K) : average .swma n s x = sym4 x := by
  funext t
  simp only [average, sym4]

/-- The vigor line as numbers. -/
def Spec.vigorLine (n : Nat) (o h l c : Nat → K) (t : Nat) : K := (win (sym4 fun t => c t - o t) n t).sum / (win (sym4 fun t => h t - l t) n t).sum

theorem vigorLine_abs {o h l c : Nat → K} (hw : WellFormed o h l c) (n t : Nat) :
    |(win (sym4 fun t => c t - o t) n t).sum| ≤ |(win (sym4 fun t => h t - l t) n t).sum| := by
  have h1 := sum_win_le (sym4_le (x := fun t => c t - o t) (y := fun t => h t - l t) fun t => by
    obtain ⟨a, b, c, d⟩ := hw t; linarith) n t
  have h2 := sum_win_le (sym4_le (x := fun t => -(h t - l t)) (y := fun t => c t - o t) fun t => by
    obtain ⟨a, b, c, d⟩ := hw t; linarith) n t
  have e : sym4 (fun t => -(h t - l t)) = fun t => -sym4 (fun t => h t - l t) t := by
    funext t; unfold sym4; ring
  rw [e, sum_win_neg] at h2
  exact abs_le_abs h1 (by linarith)

include A L in
/-- **C95.** The relative vigor index of any length on well-formed bars where the smoothed bar heights of a window add up to at least `m`: its line is
within `6 S / m + 2 u` of the exact one and its signal within `7 S / m + 22 u`, `S` being `len (35 + 12 N)` roundings; they begin on the same bars. -/
theorem C95_vigor {d : DataProvider α} {N : Nat} {o h l c v : Nat → K} {M : K} (hb : PricedBars V d N o h l c v M) (hM : 0 ≤ M)
    (hw : WellFormed o h l c) {len k : Nat} (hlen : 1 ≤ len) (hk : len + N + 3 ≤ k) (hr : Room u η top k M) (hr1 : Room u η top k 1)
    {m : K} (hm : 0 < m) (hSm : 8 * (len * (35 + 12 * N) * (u * M + η)) ≤ m)
    (moves : ∀ t, t < N → len + 2 ≤ t → m ≤ (win (sym4 fun t => h t - l t) len t).sum) :
    ∃ y z, Runs (noInput fun t => RelativeVigorIndex.next ⟨d, t⟩) (RelativeVigorIndex.new len) unit N (fun t => (y t, z t)) ∧
      StaysNear V y (len + 2) (vigorLine len o h l c) (6 * (len * (35 + 12 * N) * (u * M + η) / m) + 2 * u) N ∧
      StaysNear V z (len + 5) (sym4 (vigorLine len o h l c)) (7 * (len * (35 + 12 * N) * (u * M + η) / m) + 22 * u) N := by
  have hu0 := A.u_nonneg
  have hus := A.u_small
  have hη := A.η_nonneg
  have hηu : η ≤ u / 1024 := A.η_small.trans (by have := mul_le_mul_of_nonneg_right hus hu0; linarith)
  have huM : 0 ≤ u * M := mul_nonneg hu0 hM
  have hδ : 0 ≤ u * M + η := by positivity
  have sM : u * M ≤ M / 1024 := by have := mul_le_mul_of_nonneg_right hus hM; linarith
  have hl1 : (1 : K) ≤ len := by exact_mod_cast hlen
  have hN0 : (0 : K) ≤ N := Nat.cast_nonneg _
  have hk1 : (1 : K) ≤ k := by exact_mod_cast (by omega : 1 ≤ k)
  have h2M : 2 * M ≤ top := by
    have : 2 * (M + η) ≤ 1000 * (k : K) * (M + η) := mul_le_mul_of_nonneg_right (by linarith) (by positivity)
    linarith [hr.wide]
  have fine : 12 * (k : K) * u ≤ 1 := by
    have := mul_nonneg (show (0 : K) ≤ k by linarith) hu0
    linarith [hr.fine]
  obtain ⟨o', h', l', c', v', b, hv⟩ := hb.bars
  have no : StaysNear V (fun t => opt2 (· - ·) (some (c' t)) (some (o' t))) 0 (fun t => c t - o t) (2 * (u * M + η)) N := by
    intro t ht
    obtain ⟨v1, -, -, v4, -⟩ := hv t ht
    obtain ⟨m1, -, -, m4⟩ := hb.bound t ht
    unfold startAt
    rw [if_neg (by omega)]
    exact ⟨c' t - o' t, rfl, Near.gap A v4 v1 m4 m1 h2M⟩
  have nh : StaysNear V (fun t => opt2 (· - ·) (some (h' t)) (some (l' t))) 0 (fun t => h t - l t) (2 * (u * M + η)) N := by
    intro t ht
    obtain ⟨-, v2, v3, -, -⟩ := hv t ht
    obtain ⟨-, m2, m3, -⟩ := hb.bound t ht
    unfold startAt
    rw [if_neg (by omega)]
    exact ⟨h' t - l' t, rfl, Near.gap A v2 v3 m2 m3 h2M⟩
  have bo : ∀ t, t < N → |c t - o t| ≤ 2 * M ∧ |h t - l t| ≤ 2 * M := fun t ht => by
    obtain ⟨m1, m2, m3, m4⟩ := hb.bound t ht
    rw [abs_le] at m1 m2 m3 m4
    exact ⟨abs_le.mpr ⟨by linarith, by linarith⟩, abs_le.mpr ⟨by linarith, by linarith⟩⟩
  have room : 40 * (k : K) * (2 * M + 2 * (u * M + η) + η) ≤ top := by
    have : 40 * (k : K) * (2 * M + 2 * (u * M + η) + η) ≤ 1000 * (k : K) * (M + η) := by
      have := mul_le_mul_of_nonneg_left (show 2 * M + 2 * (u * M + η) + η ≤ 25 * (M + η) by linarith) (show (0 : K) ≤ 40 * k by linarith)
      linarith
    linarith [hr.wide]
  have grow : 2 * (u * M + η) + slack .swma len N * (u * (2 * M + 2 * (u * M + η)) + η) ≤ 29 * (u * M + η) := by
    have h2 : u * (2 * M + 2 * (u * M + η)) + η ≤ 3 * (u * M + η) := by
      have := mul_le_mul_of_nonneg_right hus hδ
      linarith
    simp only [slack]
    push_cast
    linarith
  have smooth : ∀ {x : Nat → Option α} {w : Nat → K}, StaysNear V x 0 w (2 * (u * M + η)) N → (∀ t, t < N → |w t| ≤ 2 * M) →
      ∃ y z, Runs (fun t => Swma.next ⟨d, t⟩) Swma.new x N y ∧ Runs (fun t => Sum.next ⟨d, t⟩) (Sum.new len) y N z ∧
        StaysNear V z (len + 2) (fun t => (win (sym4 w) len t).sum) (len * (35 + 12 * N) * (u * M + η)) N := by
    intro x w hx hwb
    obtain ⟨y, y1, y2⟩ := C92_average A L d .swma hlen (by omega : len + N + 1 ≤ k) hr.small fine hx (by linarith) (by positivity) (fun t ht _ => hwb t ht) room
    rw [average_swma] at y2
    have y3 := y2.mono grow
    simp only [maLength] at y3
    obtain ⟨z, z1, z2⟩ := sum_room A L d hlen (by omega : len + N + 1 ≤ k) hM hr (by norm_num) (by norm_num) y3 fun t ht hs => by
      rw [← average_swma 4 0 w]
      exact average_abs .swma (by norm_num) (show 0 + maLength .swma 4 ≤ t + 1 by simp only [maLength]; omega) fun i _ hi => hwb i (by omega)
    rw [show 0 + 4 - 1 + len - 1 = len + 2 by omega, show (29 : K) + 6 + 12 * N = 35 + 12 * N by ring] at z2
    exact ⟨y, z, (C53_ma d len x N).2.2.2.symm.trans y1, z1, z2⟩
  obtain ⟨a, sa, a1, a2, a3⟩ := smooth no fun t ht => (bo t ht).1
  obtain ⟨g, sg, g1, g2, g3⟩ := smooth nh fun t ht => (bo t ht).2
  generalize hS : len * (35 + 12 * N) * (u * M + η) = S at *
  have hS0 : 0 ≤ S := by rw [← hS]; positivity
  have hSq : S / m ≤ 1 / 8 := by rw [div_le_div_iff₀ hm (by norm_num)]; linarith
  have hSq0 : 0 ≤ S / m := div_nonneg hS0 hm.le
  have top2 : 2 ≤ top := by
    have : (2 : K) ≤ 1000 * (k : K) * (1 + η) := by
      have := mul_nonneg (show (0 : K) ≤ k by linarith) hη
      linarith
    linarith [hr1.wide]
  have line : StaysNear V (fun t => safeDiv (sa t) (sg t)) (len + 2) (vigorLine len o h l c) (6 * (S / m) + 2 * u) N := by
    intro t ht
    unfold startAt
    by_cases hts : t < len + 2
    · rw [if_pos hts]
      show safeDiv (sa t) (sg t) = none
      rw [stays_before a3 ht hts]; rfl
    rw [if_neg hts]
    obtain ⟨e, e1, e2⟩ := stays_at a3 ht (by omega)
    obtain ⟨f, f1, f2⟩ := stays_at g3 ht (by omega)
    have hmt := moves t ht (by omega)
    have hT : |(win (sym4 fun t => h t - l t) len t).sum| = (win (sym4 fun t => h t - l t) len t).sum := abs_of_nonneg (by linarith)
    have ne := near_feq_zero L f2 (by rw [hT]; linarith)
    refine ⟨e / f, by simp [safeDiv, e1, f1, opt2, ne], (e2.ratio A f2 hm (by rw [hT]; exact hmt) (vigorLine_abs hw len t) (G := 2 * S) (by linarith) (by linarith) top2).mono ?_⟩
    rw [mul_div_assoc]; linarith
  have bound : ∀ t, |vigorLine len o h l c t| ≤ 1 := fun t => by
    unfold vigorLine
    rw [abs_div]
    exact div_le_one_of_le₀ (vigorLine_abs hw len t) (abs_nonneg _)
  obtain ⟨z, z1, z2⟩ := C92_average A L d .swma hlen (by omega : len + N + 1 ≤ k) hr.small fine line (M := 1) (by norm_num) (by positivity) (fun t _ _ => bound t) (by
    have := mul_le_mul_of_nonneg_left (show 1 + (6 * (S / m) + 2 * u) + η ≤ 25 * (1 + η) by linarith) (show (0 : K) ≤ 40 * k by linarith)
    linarith [hr1.wide])
  rw [average_swma] at z2
  simp only [maLength, show len + 2 + 4 - 1 = len + 5 by omega] at z2
  refine ⟨_, z, C53_relative_vigor d b.open_ b.high b.low b.close a1 g1 a2 g2 ((C53_ma d len _ N).2.2.2.symm.trans z1), line, z2.mono ?_⟩
  simp only [slack]
  push_cast
  have e1 := mul_le_mul_of_nonneg_left (show 1 + (6 * (S / m) + 2 * u) ≤ 2 by linarith) hu0
  linarith

end

end Pace
