import Verif.Props.AccuracyVolatility
import Verif.Props.Content5
import Mathlib.Analysis.Complex.ExponentialBounds

/-!
# C102: the choppiness index in floats against the exact one

Over the real numbers, because of the logarithm.  The code's logarithm (that of the platform) may have any error: the theorem takes it as a
parameter.
-/

set_option linter.unusedSectionVars false

namespace Pace
open Spec
variable {R : Rounding ℝ} {α : Type} [F64 α]

/-- The choppiness index as a line of numbers. -/
noncomputable def Spec.choppinessLine (n : Nat) (h l c : Nat → ℝ) (t : Nat) : ℝ :=
  100 * Real.logb 10 ((win (barRange h l c) n t).sum /
    ((Spec.highest (fun t => some (h t)) n t).getD 0 - (Spec.lowest (fun t => some (l t)) n t).getD 0)) / Real.logb 10 n

/-- The decimal logarithm of a number from 1/2 to `top` is computed up to `g` in size and relative to itself. -/
def Spec.NearLogs (R : Rounding ℝ) (g top : ℝ) : Prop :=
  ∀ k, 1 / 2 ≤ k → k ≤ top → ∃ v, R.log10R k = .fin v ∧ |v - Real.logb 10 k| ≤ g * (1 + |Real.logb 10 k|)

private theorem ln10 : 2 ≤ Real.log 10 := by
  have h : Real.exp 2 ≤ 10 := by
    have h1 := Real.exp_one_lt_d9
    have h2 : Real.exp 2 = Real.exp 1 * Real.exp 1 := by rw [← Real.exp_add]; norm_num
    have h3 := Real.exp_pos 1
    rw [h2]
    nlinarith
  rw [Real.le_log_iff_exp_le (by norm_num)]
  exact h

/-- Above 1/2 the decimal logarithm is not steeper than 1. -/
theorem logb_near {x y e : ℝ} (hx : 1 / 2 ≤ x) (hy : 1 / 2 ≤ y) (h : |x - y| ≤ e) : |Real.logb 10 x - Real.logb 10 y| ≤ e := by
  have key : ∀ a b : ℝ, 1 / 2 ≤ a → 1 / 2 ≤ b → Real.logb 10 a - Real.logb 10 b ≤ |a - b| := by
    intro a b ha hb
    have h10 := ln10
    rw [Real.logb, Real.logb, ← sub_div, div_le_iff₀ (by linarith), ← Real.log_div (by linarith) (by linarith)]
    have h1 := Real.log_le_sub_one_of_pos (show 0 < a / b by apply div_pos <;> linarith)
    have h2 : a / b - 1 = (a - b) / b := by field_simp
    have h3 : (a - b) / b ≤ |a - b| * 2 := by
      rw [div_le_iff₀ (by linarith)]
      have := le_abs_self (a - b)
      have := abs_nonneg (a - b)
      nlinarith
    have := mul_le_mul_of_nonneg_left h10 (abs_nonneg (a - b))
    linarith
  rw [abs_le]
  have h1 := key x y hx hy
  have h2 := key y x hy hx
  rw [abs_sub_comm] at h2
  constructor <;> linarith

theorem logb_le_self {x : ℝ} (hx : 1 ≤ x) : 0 ≤ Real.logb 10 x ∧ Real.logb 10 x ≤ x := by
  refine ⟨Real.logb_nonneg (by norm_num) hx, ?_⟩
  have h10 := ln10
  rw [Real.logb, div_le_iff₀ (by linarith)]
  have := Real.log_le_sub_one_of_pos (show 0 < x by linarith)
  nlinarith

theorem logb_length {n : Nat} (hn : 2 ≤ n) : 3 / 10 ≤ Real.logb 10 n := by
  have h1 : (2 : ℝ) ≤ n := by exact_mod_cast hn
  have h2 : Real.logb 10 2 ≤ Real.logb 10 n := Real.logb_le_logb_of_le (by norm_num) (by norm_num) h1
  have h3 : Real.logb 10 ((2 : ℝ) ^ 10) = 10 * Real.logb 10 2 := by rw [Real.logb_pow]; norm_num
  have h4 : Real.logb 10 ((10 : ℝ) ^ 3) = 3 := by rw [Real.logb_pow, Real.logb_self_eq_one (by norm_num)]; norm_num
  have h5 : Real.logb 10 ((10 : ℝ) ^ 3) ≤ Real.logb 10 ((2 : ℝ) ^ 10) := Real.logb_le_logb_of_le (by norm_num) (by norm_num) (by norm_num)
  linarith

section
variable {V : Valued R α} {u η top : ℝ} (A : R.Accurate u η top) (L : R.Lawful)

include A in
/-- **C102.** If the logarithm is correctly rounded, its error is one rounding. -/
theorem C102_rounded_logs (h : ∀ k, 0 < k → R.log10R k = R.rnd (Real.logb 10 k)) : NearLogs R u top := by
  intro k hk hkt
  have htop := A.top_ge
  have hu := A.u_nonneg
  have hus := A.u_small
  have hη : η ≤ u := A.η_small.trans (by have := mul_le_mul_of_nonneg_right hus hu; linarith)
  have hb : |Real.logb 10 k| ≤ top := by
    rcases le_total 1 k with h1 | h1
    · obtain ⟨h2, h3⟩ := logb_le_self h1
      rw [abs_of_nonneg h2]; linarith
    · have := logb_near hk (show (1 : ℝ) / 2 ≤ 1 by norm_num) (e := 1 / 2) (by rw [abs_le]; constructor <;> linarith)
      rw [Real.logb_one, sub_zero] at this
      linarith
  obtain ⟨v, v1, v2⟩ := A.err _ hb
  refine ⟨v, by rw [h k (by linarith), v1], v2.trans (max_le ?_ ?_)⟩
  · have := mul_nonneg hu (abs_nonneg (Real.logb 10 k)); linarith
  · have := mul_nonneg hu (abs_nonneg (Real.logb 10 k)); linarith

/-- The logarithm of a float that is near a number of at least 1. -/
theorem near_log {g : ℝ} (hg : 0 ≤ g) (logs : NearLogs R g top) {a : α} {x e Λ : ℝ} (ha : Near V a x e) (hx : 1 ≤ x) (he : e ≤ 1 / 2) (hΛ : Real.logb 10 x ≤ Λ) (ht : x + e ≤ top) :
    Near V (F64.log10 a) (Real.logb 10 x) (e + g * (3 / 2 + Λ)) := by
  obtain ⟨v, v1, v2⟩ := ha
  have v3 := abs_le.mp v2
  obtain ⟨w, w1, w2⟩ := logs v (by linarith) (by linarith)
  have l1 := logb_near (show 1 / 2 ≤ v by linarith) (show 1 / 2 ≤ x by linarith) v2
  have l0 := (logb_le_self hx).1
  refine ⟨w, ?_, ?_⟩
  · rw [V.log10, v1]
    have h0 : ¬ v < 0 := by linarith
    have h1 : v ≠ 0 := fun h => by linarith
    show (if v < 0 then Ext.nan else if v = 0 then Ext.ninf else R.log10R v) = Ext.fin w
    rw [if_neg h0, if_neg h1, w1]
  · have l2 : |Real.logb 10 v| ≤ Λ + 1 / 2 := by
      rw [abs_le] at l1 ⊢
      constructor <;> linarith
    have l3 := mul_le_mul_of_nonneg_left l2 hg
    rw [abs_le] at w2 l1 ⊢
    constructor <;> linarith

include A L in
/-- From the ratio of the ranges to the index. -/
theorem near_choppiness {g : ℝ} (hg : 0 ≤ g) (hg1 : 16 * g ≤ 1) (logs : NearLogs R g top) {a : α} {x ρ Q Λ ε : ℝ} (ha : Near V a x ρ) (hx : 1 ≤ x) (hxQ : x ≤ Q)
    (hΛ : Λ = Real.logb 10 Q) (hε : ε = ρ + (g + u) * (2 + Λ)) (hε1 : ε ≤ 1 / 2) (htop : 10000 * (1 + Q) ≤ top) {n : Nat} (hn : 2 ≤ n) (h53 : n ≤ 2 ^ 53) (hnt : (n : ℝ) ≤ top) :
    Near V (lit 100 * F64.log10 a / F64.log10 (lit (n : ℚ))) (100 * Real.logb 10 x / Real.logb 10 n) (1200 * (ε / Real.logb 10 n) + u) := by
  have hu := A.u_nonneg
  have hus := A.u_small
  have hη := A.η_nonneg
  have hηu : η ≤ u / 1024 := A.η_small.trans (by have := mul_le_mul_of_nonneg_right hus hu; linarith)
  have hρ := ha.nonneg
  have hlg := logb_length hn
  obtain ⟨x0, -⟩ := logb_le_self hx
  obtain ⟨Λ0, ΛQ⟩ := logb_le_self (show 1 ≤ Q by linarith)
  rw [← hΛ] at Λ0 ΛQ
  have xΛ : Real.logb 10 x ≤ Λ := by rw [hΛ]; exact Real.logb_le_logb_of_le (by norm_num) (by linarith) hxQ
  have gΛ : 0 ≤ g * Λ := mul_nonneg hg Λ0
  have uΛ : 0 ≤ u * Λ := mul_nonneg hu Λ0
  have eε : ε = ρ + 2 * g + g * Λ + 2 * u + u * Λ := by rw [hε]; ring
  have n1 := near_log hg logs ha hx (by linarith) xΛ (by linarith)
  have lit100 : V.val (lit (100 : ℚ)) = Fl.of R (.fin (100 : ℝ)) := by
    have := val_lit_nat (V := V) L (n := 100) (by norm_num); exact_mod_cast this
  have h100 : |(100 : ℝ)| = 100 := abs_of_nonneg (by norm_num)
  have n2 : Near V (lit 100 * F64.log10 a) (100 * Real.logb 10 x) (101 * ε) := by
    refine ((near_of_val lit100).mul A n1 (m := 100 * Λ) ?_ ?_).mono ?_
    · rw [abs_of_nonneg (by positivity)]; linarith
    · rw [h100]; linarith
    · rw [h100]
      have hz : 0 ≤ ρ + g * (3 / 2 + Λ) := n1.nonneg
      have s := mul_le_mul_of_nonneg_right hus hz
      have e1 : u * (100 * Λ + (100 * (ρ + g * (3 / 2 + Λ)) + |Real.logb 10 x| * 0 + 0 * (ρ + g * (3 / 2 + Λ)))) = 100 * (u * Λ) + 100 * (u * (ρ + g * (3 / 2 + Λ))) := by ring
      rw [e1]
      linarith
  have nn : (1 : ℝ) ≤ n := by exact_mod_cast (by omega : 1 ≤ n)
  have hlit : V.val (lit (n : ℚ)) = Fl.of R (.fin (n : ℝ)) := val_lit_nat L h53
  have n3 : Near V (F64.log10 (lit (n : ℚ))) (Real.logb 10 n) (g * (1 + Real.logb 10 n)) := by
    obtain ⟨w, w1, w2⟩ := logs n (by linarith) hnt
    rw [abs_of_nonneg (show 0 ≤ Real.logb 10 n by linarith)] at w2
    refine ⟨w, ?_, w2⟩
    rw [V.log10, hlit]
    show (if (n : ℝ) < 0 then Ext.nan else if (n : ℝ) = 0 then Ext.ninf else R.log10R n) = Ext.fin w
    rw [if_neg (by linarith), if_neg (by intro h; linarith), w1]
  generalize hlge : Real.logb 10 (n : ℝ) = lam at *
  have hlam : 0 < lam := by linarith
  have habs : |lam| = lam := abs_of_pos hlam
  have gl := mul_le_mul_of_nonneg_right hg1 hlam.le
  have ε0 : 0 ≤ ε := by linarith
  have hq : |100 * Real.logb 10 x / lam| ≤ 100 * Λ / lam := by
    rw [abs_of_nonneg (by positivity)]
    exact div_le_div_of_nonneg_right (by linarith) hlam.le
  have qf : 100 * Λ / lam * (g * (1 + lam)) ≤ 440 * ε := by
    have e1 : 100 * Λ / lam * (g * (1 + lam)) = 100 * (g * Λ) * (1 / lam + 1) := by field_simp
    have e2 : 1 / lam + 1 ≤ 44 / 10 := by
      have : 1 / lam ≤ 1 / (3 / 10) := one_div_le_one_div_of_le (by norm_num) hlg
      norm_num at this ⊢
      linarith
    have := mul_le_mul_of_nonneg_left e2 (show 0 ≤ 100 * (g * Λ) by linarith)
    rw [e1]
    linarith
  have hed : 2 * (101 * ε + 100 * Λ / lam * (g * (1 + lam))) / lam ≤ 1082 * (ε / lam) := by
    rw [← mul_div_assoc]
    exact div_le_div_of_nonneg_right (by linarith) hlam.le
  have d1 : ε / lam ≤ 2 := by rw [div_le_iff₀ hlam]; linarith
  have d0 : 0 ≤ ε / lam := div_nonneg ε0 hlam.le
  have d2 : 100 * Λ / lam ≤ 400 * Q := by
    rw [div_le_iff₀ hlam]
    have := mul_le_mul_of_nonneg_left hlg (show 0 ≤ 400 * Q by linarith)
    linarith
  have d3 : u * (100 * Λ / lam) ≤ 100 * (ε / lam) := by
    have e1 : u * (100 * Λ / lam) = 100 * (u * Λ) / lam := by ring
    rw [e1, ← mul_div_assoc]
    exact div_le_div_of_nonneg_right (by linarith) hlam.le
  refine (n2.quot A n3 hlam (by rw [habs]) (by linarith) hq (by linarith)).mono ?_
  have d4 := mul_le_mul_of_nonneg_left hed hu
  have d5 := mul_le_mul_of_nonneg_right hus d0
  have e6 : u * (100 * Λ / lam + 2 * (101 * ε + 100 * Λ / lam * (g * (1 + lam))) / lam) = u * (100 * Λ / lam) + u * (2 * (101 * ε + 100 * Λ / lam * (g * (1 + lam))) / lam) := by ring
  rw [e6]
  linarith

include A L in
/-- **C102.** The choppiness index of length at least 2 on well-formed bars with prices up to `M`, where the highest high of a window is at least `m` above
its lowest low: with `Q = 2 len M / m` and `ρ` the error of the ratio of the two ranges, it is within `1200 ε / log10 len + u` of the exact
index, `ε = ρ + (g + u) (2 + log10 Q)`, `g` being the error of the logarithm; and it begins on the same bar. -/
theorem C102_choppiness {g : ℝ} (hg : 0 ≤ g) (hg1 : 16 * g ≤ 1) (logs : NearLogs R g top) {d : DataProvider α} {N : Nat} {o h l c v : Nat → ℝ} {M : ℝ}
    (hb : PricedBars V d N o h l c v M) (hM : 0 ≤ M) (hw : WellFormed o h l c) {len k : Nat} (hlen : 2 ≤ len) (hk : len + N + 1 ≤ k) (hr : Room u η top k M)
    {m : ℝ} (hm : 0 < m) (hSm : 2 * (len * (62 + 12 * N) * (u * M + η)) ≤ m)
    (wide : ∀ t, t < N → ∀ hi lo, Spec.highest (fun t => some (h t)) len t = some hi → Spec.lowest (fun t => some (l t)) len t = some lo → m ≤ hi - lo)
    {Q ρ ε : ℝ} (hQ : Q = 2 * len * M / m) (hρ : ρ = (1 + Q) * (2 * (len * (62 + 12 * N) * (u * M + η) / m) + 3 * u))
    (hε : ε = ρ + (g + u) * (2 + Real.logb 10 Q)) (hε1 : ε ≤ 1 / 2) (htop : 10000 * (1 + Q) ≤ top) (hlt : (len : ℝ) ≤ top) :
    ∃ y, Runs (noInput fun t => ChoppinessIndex.next ⟨d, t⟩) (ChoppinessIndex.new len) unit N y ∧
      StaysNear V y (len - 1) (choppinessLine len h l c) (1200 * (ε / Real.logb 10 len) + u) N := by
  have hu := A.u_nonneg
  have hus := A.u_small
  have hη := A.η_nonneg
  have hηu : η ≤ u / 1024 := A.η_small.trans (by have := mul_le_mul_of_nonneg_right hus hu; linarith)
  have huM : 0 ≤ u * M := mul_nonneg hu hM
  have hl2 : (2 : ℝ) ≤ len := by exact_mod_cast hlen
  have hN0 : (0 : ℝ) ≤ N := Nat.cast_nonneg _
  have hk1 : (1 : ℝ) ≤ k := by exact_mod_cast (by omega : 1 ≤ k)
  have h2M : 2 * M ≤ top := by
    have : 2 * (M + η) ≤ 1000 * (k : ℝ) * (M + η) := mul_le_mul_of_nonneg_right (by linarith) (by positivity)
    linarith [hr.wide]
  obtain ⟨a, a1, a2⟩ := C94_atr A L hb hM (n := 1) le_rfl (by omega : 1 + N + 1 ≤ k) hr
  rw [averageRange_one] at a2
  have a3 : StaysNear V a 0 (barRange h l c) (56 * (u * M + η)) N := fun t ht => (a2 t ht).mono (le_of_eq (by push_cast; ring))
  obtain ⟨r, r1, r2⟩ := sum_room A L d (by omega : 1 ≤ len) hk hM hr (by norm_num) (by norm_num) a3
    (fun t ht _ => barRange_abs fun i hi => let ⟨_, a, b, c⟩ := hb.bound i (by omega); ⟨a, b, c⟩)
  rw [show (56 : ℝ) + 6 + 12 * N = 62 + 12 * N by ring, Nat.zero_add] at r2
  obtain ⟨h', l', hi, lo, ch, cl, q1, q2, n1, n2⟩ := bar_extremes hb (n := len) (by omega)
  refine ⟨_, C53_choppiness d ch cl a1 r1 q1 q2, fun t ht => ?_⟩
  unfold startAt
  by_cases hts : t < len - 1
  · rw [if_pos hts]
    show (opt3 _ _ _ _).join = none
    rw [stays_before r2 ht hts]
    rfl
  rw [if_neg hts]
  have hf : len ≤ t + 1 := by omega
  obtain ⟨x, hx⟩ := spec_highest_isSome (x := fun t => some (h t)) hf (show t + 1 - len ≤ t by omega) (le_refl t) rfl
  obtain ⟨y, hy⟩ := spec_lowest_isSome (x := fun t => some (l t)) hf (show t + 1 - len ≤ t by omega) (le_refl t) rfl
  have m1 := n1 t ht
  have m2 := n2 t ht
  rw [hx] at m1
  rw [hy] at m2
  obtain ⟨b, b1, b2⟩ := m1
  obtain ⟨e, e1, e2⟩ := m2
  obtain ⟨s, s1, s2⟩ := stays_at r2 ht (by omega)
  have hD := wide t ht x y hx hy
  have hsp := spread_le_win hw (by omega) hf hx hy
  have hB := sum_win_abs (w := barRange h l c) (e := 2 * M) hf fun i _ h2 => barRange_abs fun j hj => let ⟨_, a, b, c⟩ := hb.bound j (by omega); ⟨a, b, c⟩
  have hcl : choppinessLine len h l c t = 100 * Real.logb 10 ((win (barRange h l c) len t).sum / (x - y)) / Real.logb 10 len := by
    unfold choppinessLine; rw [hx, hy]; rfl
  rw [hcl]
  generalize (win (barRange h l c) len t).sum = T at *
  have hT0 : 0 < T := by linarith
  rw [abs_of_pos hT0] at hB
  have bx := highest_abs hf (fun i hi => (hb.bound i (by omega)).2.1) hx
  have by' := lowest_abs hf (fun i hi => (hb.bound i (by omega)).2.2.1) hy
  have vb : V.val b = Fl.of R (.fin x) := by
    obtain ⟨w, w1, w2⟩ := b2
    obtain rfl : w = x := sub_eq_zero.mp (abs_nonpos_iff.mp w2)
    exact w1
  have ve : V.val e = Fl.of R (.fin y) := by
    obtain ⟨w, w1, w2⟩ := e2
    obtain rfl : w = y := sub_eq_zero.mp (abs_nonpos_iff.mp w2)
    exact w1
  have nd := Near.gap A vb ve bx by' h2M
  have hDabs : |x - y| = x - y := abs_of_pos (by linarith)
  have lδ : 0 ≤ (len : ℝ) * (u * M + η) := by positivity
  have hdS : 2 * (u * M + η) ≤ len * (62 + 12 * N) * (u * M + η) := by
    have h1 : (2 : ℝ) ≤ len * (62 + 12 * N) := by
      have := mul_le_mul hl2 (show (1 : ℝ) ≤ 62 + 12 * N by linarith) (by norm_num) (by linarith)
      linarith
    exact mul_le_mul_of_nonneg_right h1 (by positivity)
  have nd' := nd.mono hdS
  generalize hS : len * (62 + 12 * N) * (u * M + η) = S at *
  have hS0 : 0 ≤ S := by rw [← hS]; positivity
  have hQ0 : 0 ≤ Q := by rw [hQ]; positivity
  have hTQ : T / (x - y) ≤ Q := by
    rw [hQ, div_le_div_iff₀ (by linarith) hm]
    have h1 := mul_le_mul hB hD hm.le (by positivity)
    linarith
  have hT1 : 1 ≤ T / (x - y) := by rw [one_le_div (by linarith)]; exact hsp
  have hSq : S / m ≤ 1 / 2 := by rw [div_le_div_iff₀ hm (by norm_num)]; linarith
  have hSq0 : 0 ≤ S / m := div_nonneg hS0 hm.le
  have e3 : 2 * (S + Q * S) / m = 2 * ((1 + Q) * (S / m)) := by ring
  have e4 : (1 + Q) * (S / m) ≤ (1 + Q) * (1 / 2) := mul_le_mul_of_nonneg_left hSq (by linarith)
  have ratio : Near V (s / (b - e)) (T / (x - y)) ρ := by
    refine (s2.quot A nd' hm (by rw [hDabs]; exact hD) hSm (q := Q) (by rw [abs_of_nonneg (by linarith)]; exact hTQ) (by rw [e3]; linarith)).mono ?_
    rw [e3, hρ]
    have e5 := mul_le_mul_of_nonneg_left (show Q + 2 * ((1 + Q) * (S / m)) ≤ 1 + 2 * Q by linarith) hu
    have e6 := mul_nonneg hu hQ0
    linarith
  have hsm := hr.small
  have ne := near_feq_zero L nd' (by rw [hDabs]; linarith)
  refine ⟨lit 100 * F64.log10 (s / (b - e)) / F64.log10 (lit (len : ℚ)), ?_,
    near_choppiness A L hg hg1 logs ratio hT1 hTQ rfl hε hε1 htop hlen (by omega) hlt⟩
  rw [b1, e1, s1]
  simp only [opt3, Option.join_some, ne]
  rfl

end
end Pace
