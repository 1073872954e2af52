import Verif.Props.AccuracySums

/-!
# C95: money flow, vortex and vigor in floats against exact ones, and the programs of ratios of sums
-/

set_option linter.unusedSectionVars false

namespace Pace
open Spec
variable {K : Type} [Field K] [LinearOrder K] [IsStrictOrderedRing K] [RootOps K] {R : Rounding K}
variable {α : Type} [F64 α]

section
variable {V : Valued R α} {u η top : K} (A : R.Accurate u η top) (L : R.Lawful)

/-- The money flow volume of one bar in floats. -/
theorem near_flow (A : R.Accurate u η top) (L : R.Lawful) {h' l' c' v' : α} {h l c v M W r : K} (hv : V.val h' = Fl.of R (.fin h)) (lv : V.val l' = Fl.of R (.fin l))
    (cv : V.val c' = Fl.of R (.fin c)) (vv : V.val v' = Fl.of R (.fin v)) (hM : 0 ≤ M) (hh : |h| ≤ M) (hl : |l| ≤ M) (hc : |c| ≤ M) (hW : |v| ≤ W)
    (hlc : l ≤ c) (hch : c ≤ h) (hr : 0 < r) (hrange : r ≤ h - l) (hδr : 40 * (u * M + η) ≤ r) (htop : 8 * (M + η) ≤ top) (hWtop : 2 + 2 * W ≤ top) :
    Near V ((lit 2 * c' - l' - h') / (h' - l') * v') ((2 * c - l - h) / (h - l) * v) (W * (31 * ((u * M + η) / r) + 4 * u) + η) := by
  have hu0 := A.u_nonneg
  have hus := A.u_small
  have hη := A.η_nonneg
  have huM : 0 ≤ u * M := mul_nonneg hu0 hM
  have hδ : 0 ≤ u * M + η := by positivity
  have hW0 : 0 ≤ W := (abs_nonneg _).trans hW
  have uδ : u * (u * M + η) ≤ (u * M + η) / 1024 := by have := mul_le_mul_of_nonneg_right hus hδ; linarith
  have sM : u * M ≤ M / 1024 := by have := mul_le_mul_of_nonneg_right hus hM; linarith
  have l2 : V.val (lit (2 : ℚ)) = Fl.of R (.fin (2 : K)) := by have := val_lit_nat (V := V) L (n := 2) (by norm_num); exact_mod_cast this
  have a2 : |(2 : K)| = 2 := abs_of_nonneg (by norm_num)
  have n1 : Near V (lit 2 * c') (2 * c) (2 * (u * M + η)) := by
    refine ((near_of_val l2).mul A (near_of_val cv) (m := 2 * M) (by rw [abs_mul, a2]; linarith) (by linarith)).mono ?_
    rw [mul_zero, mul_zero, mul_zero, add_zero, add_zero, add_zero]
    linarith
  rw [abs_le] at hh hl hc
  have n2 : Near V (lit 2 * c' - l') (2 * c - l) (55 / 10 * (u * M + η)) := by
    refine (n1.sub A (near_of_val lv) (m := 3 * M) (abs_le.mpr ⟨by linarith, by linarith⟩) (by linarith)).mono ?_
    linarith
  have n3 : Near V (lit 2 * c' - l' - h') (2 * c - l - h) (8 * (u * M + η)) := by
    refine (n2.sub A (near_of_val hv) (m := 2 * M) (abs_le.mpr ⟨by linarith, by linarith⟩) (by linarith)).mono ?_
    linarith
  have hp : |h - l| = h - l := abs_of_nonneg (by linarith)
  have hq : |2 * c - l - h| ≤ |h - l| := by rw [hp]; exact abs_le.mpr ⟨by linarith, by linarith⟩
  have n4 := n3.ratio A (Near.gap A hv lv (abs_le.mpr hh) (abs_le.mpr hl) (by linarith)) hr (by rw [hp]; exact hrange) hq
    (G := 10 * (u * M + η)) (by linarith) (by linarith) (by linarith)
  have e1 : 3 * (10 * (u * M + η) / r) + 2 * u = 30 * ((u * M + η) / r) + 2 * u := by ring
  rw [e1] at n4
  have hd : (u * M + η) / r ≤ 1 / 40 := by rw [div_le_div_iff₀ hr (by norm_num)]; linarith
  have hd0 : 0 ≤ (u * M + η) / r := div_nonneg hδ hr.le
  generalize (u * M + η) / r = δ at *
  have hx1 : |(2 * c - l - h) / (h - l)| ≤ 1 := by
    rw [abs_div, div_le_one (by rw [hp]; linarith)]; exact hq
  have hg : 30 * δ + 2 * u ≤ 1 := by linarith
  have hg0 : 0 ≤ 30 * δ + 2 * u := by linarith
  have f1 : |v| * (30 * δ + 2 * u) ≤ W * (30 * δ + 2 * u) := mul_le_mul_of_nonneg_right hW hg0
  have f2 : W * (30 * δ + 2 * u) ≤ W * 1 := mul_le_mul_of_nonneg_left hg hW0
  refine (n4.mul A (near_of_val vv) (m := W) ?_ ?_).mono ?_
  · rw [abs_mul]
    exact (mul_le_mul hx1 hW (abs_nonneg _) (by norm_num)).trans (by linarith)
  · linarith
  · have f3 : u * (W + (|(2 * c - l - h) / (h - l)| * 0 + |v| * (30 * δ + 2 * u) + (30 * δ + 2 * u) * 0)) ≤ u * (W + W * (30 * δ + 2 * u)) :=
      mul_le_mul_of_nonneg_left (by linarith) hu0
    have f4 : u * (W * (30 * δ + 2 * u)) ≤ W * (30 * δ + 2 * u) / 1024 := by
      have := mul_le_mul_of_nonneg_right hus (mul_nonneg hW0 hg0); linarith
    have f5 : 0 ≤ W * δ := mul_nonneg hW0 hd0
    have f6 : 0 ≤ W * u := mul_nonneg hW0 hu0
    linarith

/-- The Chaikin money flow as a line of numbers. -/
def Spec.moneyFlowLine (n : Nat) (h l c v : Nat → K) (t : Nat) : K := (win (flowVolume h l c v) n t).sum / (win v n t).sum

theorem flowVolume_abs {o h l c v : Nat → K} (hw : WellFormed o h l c) {t : Nat} (hv : 0 ≤ v t) : |flowVolume h l c v t| ≤ v t := by
  unfold flowVolume
  split
  · rw [abs_zero]; exact hv
  · next hne =>
    obtain ⟨w1, w2, w3, w4⟩ := hw t
    have hp : 0 < h t - l t := lt_of_le_of_ne (by linarith) (fun e => hne (by linarith))
    rw [abs_mul, abs_of_nonneg hv]
    refine mul_le_of_le_one_left hv ?_
    rw [abs_div, abs_of_pos hp, div_le_one hp]
    exact abs_le.mpr ⟨by linarith, by linarith⟩

include A L in
/-- **C95.** The Chaikin money flow of any length on well-formed bars with volumes between 0 and `W`, where every bar's range is 0 or at least
`r` and the volumes of a window add up to at least `m`: within `6 S / m + 2 u` of the exact one, `S` being
`len (31 W (u M + η) / r + (9 + 8 N) (u W + η))`; and it begins on the same bar. -/
theorem C95_cmf {d : DataProvider α} {N : Nat} {o h l c v : Nat → K} {M W : K} (hb : PricedBars V d N o h l c v M) (hM : 0 ≤ M)
    (hw : WellFormed o h l c) (hv0 : ∀ t, 0 ≤ v t) (hW : ∀ t, t < N → v t ≤ W) {len k : Nat} (hlen : 1 ≤ len) (hk : len + N + 1 ≤ k) (hr : Room u η top k W)
    (hWtop : 2 + 2 * W ≤ top) (htop : 8 * (M + η) ≤ top)
    {r : K} (hr0 : 0 < r) (hδr : 40 * (u * M + η) ≤ r) (range : ∀ t, t < N → h t = l t ∨ r ≤ h t - l t)
    {m : K} (hm : 0 < m) (hSm : 8 * (len * (31 * W * ((u * M + η) / r) + (9 + 8 * N) * (u * W + η))) ≤ m)
    (traded : ∀ t, t < N → len ≤ t + 1 → m ≤ (win v len t).sum) :
    ∃ y, Runs (noInput fun t => ChaikinMoneyFlow.next ⟨d, t⟩) (ChaikinMoneyFlow.new len) unit N y ∧
      StaysNear V y (len - 1) (moneyFlowLine len h l c v) (6 * (len * (31 * W * ((u * M + η) / r) + (9 + 8 * N) * (u * W + η)) / m) + 2 * u) N := by
  have hu0 := A.u_nonneg
  have hus := A.u_small
  have hη := A.η_nonneg
  have huM : 0 ≤ u * M := mul_nonneg hu0 hM
  have hδ : 0 ≤ u * M + η := by positivity
  have hl1 : (1 : K) ≤ len := by exact_mod_cast hlen
  have hN0 : (0 : K) ≤ N := Nat.cast_nonneg _
  have hkk : (len : K) + N + 1 ≤ k := by exact_mod_cast hk
  by_cases hN : N = 0
  · subst hN
    obtain ⟨o', h', l', c', v', b, hv⟩ := hb.bars
    obtain ⟨q, q1, -⟩ := C95_sum (V := V) A L d hlen (x := fun t => some (v' t)) (s := 0) (w := v) (e := 0) (N := 0) (fun t ht => absurd ht (by omega)) (M := 0)
      (by norm_num) (by norm_num) (fun t ht => absurd ht (by omega)) (by simp) (by simp; linarith [A.top_ge])
    obtain ⟨p, p1, -⟩ := C95_sum (V := V) A L d hlen (x := fun t => opt4 (fun h l c v => if F64.feq c h && F64.feq c l || F64.feq h l then lit 0
        else (lit 2 * c - l - h) / (h - l) * v) (some (h' t)) (some (l' t)) (some (c' t)) (some (v' t))) (s := 0) (w := v) (e := 0) (N := 0) (fun t ht => absurd ht (by omega)) (M := 0)
      (by norm_num) (by norm_num) (fun t ht => absurd ht (by omega)) (by simp) (by simp; linarith [A.top_ge])
    exact ⟨_, C53_cmf d b.high b.low b.close b.volume p1 q1, fun t ht => absurd ht (by omega)⟩
  have hW0 : 0 ≤ W := (hv0 0).trans (hW 0 (by omega))
  obtain ⟨o', h', l', c', v', b, hv⟩ := hb.bars
  have va : ∀ t, t < N → |v t| ≤ W := fun t ht => by rw [abs_of_nonneg (hv0 t)]; exact hW t ht
  have hd : (u * M + η) / r ≤ 1 / 40 := by rw [div_le_div_iff₀ hr0 (by norm_num)]; linarith
  have hd0 : 0 ≤ (u * M + η) / r := div_nonneg hδ hr0.le
  have hku : 2 * (N : K) * u ≤ 1 := by
    have := mul_le_mul_of_nonneg_right (show 2 * (N : K) ≤ 1000 * k by linarith) hu0
    linarith [hr.fine]
  have hε0 : 0 ≤ W * (31 * ((u * M + η) / r) + 4 * u) + η := by positivity
  have hε : W * (31 * ((u * M + η) / r) + 4 * u) + η ≤ W + η := by
    have := mul_le_mul_of_nonneg_left (show 31 * ((u * M + η) / r) + 4 * u ≤ 1 by linarith) hW0
    linarith
  have nf : StaysNear V (fun t => opt4 (fun h l c v => if F64.feq c h && F64.feq c l || F64.feq h l then lit 0
        else (lit 2 * c - l - h) / (h - l) * v) (some (h' t)) (some (l' t)) (some (c' t)) (some (v' t))) 0 (flowVolume h l c v)
      (W * (31 * ((u * M + η) / r) + 4 * u) + η) N := by
    intro t ht
    obtain ⟨v1, v2, v3, v4, v5⟩ := hv t ht
    obtain ⟨m1, m2, m3, m4⟩ := hb.bound t ht
    obtain ⟨w1, w2, w3, w4⟩ := hw t
    unfold startAt
    rw [if_neg (by omega)]
    refine ⟨_, rfl, ?_⟩
    unfold flowVolume
    beta_reduce
    have c1 : F64.feq (h' t) (l' t) = decide (h t = l t) := by rw [V.feq, v2, v3, val_feq_fin]
    have c2 : F64.feq (c' t) (h' t) = decide (c t = h t) := by rw [V.feq, v4, v2, val_feq_fin]
    have c3 : F64.feq (c' t) (l' t) = decide (c t = l t) := by rw [V.feq, v4, v3, val_feq_fin]
    rw [c1, c2, c3]
    by_cases e : h t = l t
    · rw [if_pos e, if_pos (by simp [e])]
      exact (near_of_val (V.lit 0 |>.trans (lit_zero L))).mono hε0
    · rw [if_neg e, if_neg (by
        simp only [Bool.or_eq_true, Bool.and_eq_true, decide_eq_true_eq]
        rintro (⟨e1, e2⟩ | e3)
        · exact e (e1.symm.trans e2)
        · exact e e3)]
      exact near_flow A L v2 v3 v4 v5 hM m2 m3 m4 (va t ht) w3 w4 hr0 ((range t ht).resolve_left e) hδr htop hWtop
  have nv : StaysNear V (fun t => some (v' t)) 0 v 0 N := fun t ht => by
    unfold startAt
    rw [if_neg (by omega)]
    exact ⟨_, rfl, near_of_val (hv t ht).2.2.2.2⟩
  have hwide : (1000 : K) * ((len : K) + N + 1) * (W + η) ≤ top := (mul_le_mul_of_nonneg_right (by linarith) (by positivity)).trans hr.wide
  have lW : 0 ≤ (len : K) * W := by positivity
  have lη : 0 ≤ (len : K) * η := by positivity
  have NW : 0 ≤ (N : K) * W := by positivity
  have Nη : 0 ≤ (N : K) * η := by positivity
  obtain ⟨p, p1, p2⟩ := C95_sum A L d hlen nf hW0 hε0 (fun t ht _ => (flowVolume_abs hw (hv0 t)).trans (hW t ht)) hku (by
    have := mul_le_mul_of_nonneg_left (add_le_add_right hε W) (show (0 : K) ≤ len by linarith)
    linarith)
  obtain ⟨q, q1, q2⟩ := C95_sum A L d hlen nv hW0 (le_refl _) (fun t ht _ => va t ht) hku (by rw [add_zero]; linarith)
  rw [Nat.zero_add] at p2 q2
  generalize hS : len * (31 * W * ((u * M + η) / r) + (9 + 8 * N) * (u * W + η)) = S at *
  have luW : 0 ≤ len * (u * W) := by positivity
  have NluW : 0 ≤ (N : K) * (len * (u * W)) := by positivity
  have Nlη : 0 ≤ (N : K) * (len * η) := by positivity
  have el : η ≤ len * η := le_mul_of_one_le_left hη hl1
  have eNl : (N : K) * η ≤ N * (len * η) := mul_le_mul_of_nonneg_left el hN0
  have hp : len * (W * (31 * ((u * M + η) / r) + 4 * u) + η) + (4 * N + 2) * (u * (len * (W + (W * (31 * ((u * M + η) / r) + 4 * u) + η))) + η) ≤ S := by
    have k1 : u * (len * (W + (W * (31 * ((u * M + η) / r) + 4 * u) + η))) ≤ len * (2 * (u * W) + η / 1024) := by
      have k2 := mul_le_mul_of_nonneg_left (mul_le_mul_of_nonneg_left (add_le_add_right hε W) (show (0 : K) ≤ len by linarith)) hu0
      have k3 := mul_le_mul_of_nonneg_left (mul_le_mul_of_nonneg_right hus hη) (show (0 : K) ≤ len by linarith)
      linarith
    have k4 := mul_le_mul_of_nonneg_left (add_le_add_left k1 η) (show (0 : K) ≤ 4 * N + 2 by linarith)
    rw [← hS]
    linarith
  have hq : len * (0 : K) + (4 * N + 2) * (u * (len * (W + 0)) + η) ≤ S := by
    rw [← hS]
    have : 0 ≤ len * (W * ((u * M + η) / r)) := by positivity
    rw [mul_zero, add_zero, zero_add]
    linarith
  refine ⟨_, C53_cmf d b.high b.low b.close b.volume p1 q1, fun t ht => ?_⟩
  unfold startAt
  by_cases hts : t < len - 1
  · rw [if_pos hts]
    show safeDiv (p t) (q t) = none
    rw [stays_before p2 ht hts]; rfl
  · rw [if_neg hts]
    obtain ⟨e, e1, e2⟩ := stays_at p2 ht (by omega)
    obtain ⟨f, f1, f2⟩ := stays_at q2 ht (by omega)
    have hmt := traded t ht (by omega)
    have b0 := sum_win_nonneg hv0 len t
    have hT : |(win v len t).sum| = (win v len t).sum := abs_of_nonneg b0
    have f3 := f2.mono hq
    have ne := near_feq_zero L f3 (by rw [hT]; have := f3.nonneg; linarith)
    refine ⟨e / f, by simp [safeDiv, e1, f1, opt2, ne], ((e2.mono hp).ratio A f3 hm (by rw [hT]; exact hmt) ?_ (G := 2 * S) (by linarith) (by linarith) (by linarith)).mono ?_⟩
    · rw [hT, abs_le, ← sum_win_neg]
      exact ⟨sum_win_le (fun t => (abs_le.mp (flowVolume_abs hw (hv0 t))).1) len t, sum_win_le (fun t => (abs_le.mp (flowVolume_abs hw (hv0 t))).2) len t⟩
    · rw [mul_div_assoc]; linarith

end
end Pace
