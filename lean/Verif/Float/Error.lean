import Verif.Float.Signed

/-!
# Rounding errors

`Rounding.Accurate R u η top`: results up to `top` do not overflow and are rounded with a relative error of at most `u` or an absolute
error of at most `η`.  binary64 is accurate with `u = 2^-53`, `η = 2^-1075`, `top = 2^1023`.
-/

set_option linter.unusedSectionVars false

namespace Pace

/-- Rounding error: relative `u`, absolute `η` (underflow), no overflow up to `top`. -/
structure Rounding.Accurate {K : Type} [Field K] [LinearOrder K] (R : Rounding K) (u η top : K) : Prop where
  u_nonneg : 0 ≤ u
  u_small : u ≤ 1 / 1024
  η_nonneg : 0 ≤ η
  η_small : η ≤ u * u
  top_ge : 1 ≤ top
  err : ∀ k, |k| ≤ top → ∃ v, R.rnd k = .fin v ∧ |v - k| ≤ max (u * |k|) η

namespace Binary64
variable {K : Type} [Field K] [LinearOrder K] [IsStrictOrderedRing K] [FloorRing K]

theorem mag_error {k : K} (hk : 0 < k) : |mag k - k| ≤ max ((2 : K) ^ (-53 : ℤ) * k) ((2 : K) ^ (-1075 : ℤ)) := by
  have hp := two_zpow_pos (K := K) (lastPlace k)
  have h1 : |mag k - k| ≤ 1 / 2 * (2 : K) ^ lastPlace k := by
    have h := roundEven_near (k / (2 : K) ^ lastPlace k)
    have e : mag k - k = -(k / (2 : K) ^ lastPlace k - roundEven (k / (2 : K) ^ lastPlace k)) * (2 : K) ^ lastPlace k := by
      unfold mag
      field_simp
      ring
    rw [e, abs_mul, abs_neg, abs_of_pos hp]
    exact mul_le_mul_of_nonneg_right h hp.le
  refine h1.trans ?_
  have hhalf : ∀ e : ℤ, 1 / 2 * (2 : K) ^ e = (2 : K) ^ (e - 1) := fun e => by
    rw [zpow_sub₀ (by norm_num : (2 : K) ≠ 0), zpow_one]; ring
  rw [hhalf]
  by_cases h : Int.log 2 k - 52 ≤ -1074
  · have : lastPlace k = -1074 := max_eq_right h
    rw [this]
    exact le_max_right _ _
  · have : lastPlace k = Int.log 2 k - 52 := max_eq_left (by omega)
    rw [this]
    refine le_max_of_le_left ?_
    rw [show Int.log 2 k - 52 - 1 = -53 + Int.log 2 k by ring, zpow_add₀ (by norm_num : (2 : K) ≠ 0)]
    exact mul_le_mul_of_nonneg_left (log_le hk) (two_zpow_pos _).le

theorem round_error {k : K} (hk : |k| ≤ (2 : K) ^ (1023 : ℤ)) :
    ∃ v, round k = .fin v ∧ |v - k| ≤ max ((2 : K) ^ (-53 : ℤ) * |k|) ((2 : K) ^ (-1075 : ℤ)) := by
  have big : ∀ {k : K}, 0 < k → k ≤ (2 : K) ^ (1023 : ℤ) → round k = .fin (mag k) := by
    intro k hk h
    rw [round_pos hk, if_neg]
    rw [mag_overflow hk, not_le]
    refine h.trans_lt ?_
    have e : (2 : K) ^ (1024 : ℤ) = 2 * (2 : K) ^ (1023 : ℤ) := by
      rw [show (1024 : ℤ) = 1 + 1023 by norm_num, zpow_add₀ (by norm_num : (2 : K) ≠ 0), zpow_one]
    have l : (2 : K) ^ (970 : ℤ) < (2 : K) ^ (1023 : ℤ) := zpow_lt_zpow_right₀ (by norm_num) (by norm_num)
    rw [e]
    generalize (2 : K) ^ (1023 : ℤ) = P at *
    generalize (2 : K) ^ (970 : ℤ) = Q at *
    linarith
  rcases lt_trichotomy k 0 with h | h | h
  · have h0 : 0 < -k := by linarith
    refine ⟨-mag (-k), ?_, ?_⟩
    · have := big h0 (by rw [abs_of_neg h] at hk; exact hk)
      have := round_fin_neg this
      rwa [neg_neg] at this
    · have := mag_error h0
      rw [abs_of_neg h, ← abs_neg]
      convert this using 2
      ring
  · refine ⟨0, by rw [h, round_zero], ?_⟩
    rw [h]; simp
  · exact ⟨mag k, big h (by rwa [abs_of_pos h] at hk), by rw [abs_of_pos h]; exact mag_error h⟩

end Binary64

theorem binary64_accurate (K : Type) [Field K] [LinearOrder K] [IsStrictOrderedRing K] [FloorRing K] [RootOps K] :
    (Rounding.binary64 K).Accurate ((2 : K) ^ (-53 : ℤ)) ((2 : K) ^ (-1075 : ℤ)) ((2 : K) ^ (1023 : ℤ)) where
  u_nonneg := (Binary64.two_zpow_pos _).le
  u_small := by
    have : (1 / 1024 : K) = (2 : K) ^ (-10 : ℤ) := by norm_num
    rw [this]
    exact Binary64.two_zpow_mono (by norm_num)
  η_nonneg := (Binary64.two_zpow_pos _).le
  η_small := by
    rw [← zpow_add₀ (by norm_num : (2 : K) ≠ 0)]
    exact Binary64.two_zpow_mono (by norm_num)
  top_ge := by
    have : (1 : K) = (2 : K) ^ (0 : ℤ) := by norm_num
    rw [this]
    exact Binary64.two_zpow_mono (by norm_num)
  err _ hk := Binary64.round_error hk

section
variable {K : Type} [Field K] [LinearOrder K] [IsStrictOrderedRing K] {R : Rounding K}
variable {α : Type} [F64 α]

/-- The float `a` is finite and within `e` of the number `k`. -/
def Spec.Near (V : Valued R α) (a : α) (k e : K) : Prop := ∃ v, V.val a = Fl.of R (.fin v) ∧ |v - k| ≤ e

open Spec
variable {V : Valued R α} {u η top : K} (A : R.Accurate u η top)

theorem Spec.Near.mono {a : α} {k e f : K} (h : Near V a k e) (hf : e ≤ f) : Near V a k f := by
  obtain ⟨v, h1, h2⟩ := h
  exact ⟨v, h1, h2.trans hf⟩

theorem Spec.Near.nonneg {a : α} {k e : K} (h : Near V a k e) : 0 ≤ e := by
  obtain ⟨v, _, h2⟩ := h
  exact (abs_nonneg _).trans h2

include A in
theorem Rounding.Accurate.near {k l e b : K} (hl : |k - l| ≤ e) (hb : |l| ≤ b) (ht : b + e ≤ top) :
    ∃ v, R.rnd k = .fin v ∧ |v - l| ≤ e + u * (b + e) + η := by
  have hk : |k| ≤ b + e := by
    have := abs_add_le (k - l) l
    rw [sub_add_cancel] at this
    linarith
  obtain ⟨v, h1, h2⟩ := A.err k (hk.trans ht)
  refine ⟨v, h1, ?_⟩
  have h3 : max (u * |k|) η ≤ u * (b + e) + η :=
    max_le (by have := mul_le_mul_of_nonneg_left hk A.u_nonneg; have := A.η_nonneg; linarith)
      (by have := mul_nonneg A.u_nonneg ((abs_nonneg k).trans hk); linarith)
  have := abs_add_le (v - k) (k - l)
  rw [sub_add_sub_cancel] at this
  linarith

include A in
theorem Spec.Near.add {a b : α} {x y e f m : K} (ha : Near V a x e) (hb : Near V b y f) (hm : |x + y| ≤ m) (ht : m + (e + f) ≤ top) :
    Near V (a + b) (x + y) (e + f + u * (m + (e + f)) + η) := by
  obtain ⟨v, h1, h2⟩ := ha
  obtain ⟨w, h3, h4⟩ := hb
  obtain ⟨z, h5, h6⟩ := A.near (k := v + w) (l := x + y) (e := e + f) (by
    have := abs_add_le (v - x) (w - y)
    rw [show v - x + (w - y) = v + w - (x + y) by ring] at this
    linarith) hm ht
  exact ⟨z, by rw [V.add, h1, h3]; exact h5, h6⟩

include A in
theorem Spec.Near.sub {a b : α} {x y e f m : K} (ha : Near V a x e) (hb : Near V b y f) (hm : |x - y| ≤ m) (ht : m + (e + f) ≤ top) :
    Near V (a - b) (x - y) (e + f + u * (m + (e + f)) + η) := by
  obtain ⟨v, h1, h2⟩ := ha
  obtain ⟨w, h3, h4⟩ := hb
  obtain ⟨z, h5, h6⟩ := A.near (k := v + -w) (l := x - y) (e := e + f) (by
    have := abs_sub (v - x) (w - y)
    rw [show v - x - (w - y) = v + -w - (x - y) by ring] at this
    linarith) hm ht
  exact ⟨z, by rw [V.sub, h1, h3]; exact h5, h6⟩

include A in
theorem Spec.Near.mul {a b : α} {x y e f m : K} (ha : Near V a x e) (hb : Near V b y f) (hm : |x * y| ≤ m)
    (ht : m + (|x| * f + |y| * e + e * f) ≤ top) :
    Near V (a * b) (x * y) (|x| * f + |y| * e + e * f + u * (m + (|x| * f + |y| * e + e * f)) + η) := by
  have he := ha.nonneg
  obtain ⟨v, h1, h2⟩ := ha
  obtain ⟨w, h3, h4⟩ := hb
  obtain ⟨z, h5, h6⟩ := A.near (k := v * w) (l := x * y) (e := |x| * f + |y| * e + e * f) (by
    have e1 : v * w - x * y = x * (w - y) + y * (v - x) + (v - x) * (w - y) := by ring
    rw [e1]
    refine (abs_add_le _ _).trans (add_le_add ((abs_add_le _ _).trans (add_le_add ?_ ?_)) ?_)
    · rw [abs_mul]; exact mul_le_mul_of_nonneg_left h4 (abs_nonneg _)
    · rw [abs_mul]; exact mul_le_mul_of_nonneg_left h2 (abs_nonneg _)
    · rw [abs_mul]; exact mul_le_mul h2 h4 (abs_nonneg _) he) hm ht
  exact ⟨z, by rw [V.mul, h1, h3]; exact h5, h6⟩

include A in
/-- Division by a float that is exactly `n > 0`. -/
theorem Spec.Near.div {a b : α} {x e m n : K} (hn : 0 < n) (ha : Near V a x e) (hb : V.val b = Fl.of R (.fin n)) (hm : |x / n| ≤ m)
    (ht : m + e / n ≤ top) : Near V (a / b) (x / n) (e / n + u * (m + e / n) + η) := by
  obtain ⟨v, h1, h2⟩ := ha
  obtain ⟨z, h5, h6⟩ := A.near (k := v / n) (l := x / n) (e := e / n) (by
    rw [← sub_div, abs_div, abs_of_pos hn]
    exact div_le_div_of_nonneg_right h2 hn.le) hm ht
  refine ⟨z, ?_, h6⟩
  have hb0 : V.val b ≠ Fl.of R (.fin 0) := by
    rw [hb]; intro hc
    have : (Ext.fin n : Ext K) = .fin 0 := hc
    have := Ext.fin.inj this
    linarith
  rw [V.div _ _ hb0, h1, hb]
  exact (if_neg hn.ne' : (if n = 0 then Fl.signInf v else R.rnd (v / n)) = R.rnd (v / n)).trans h5

/-- Error after `k` roundings, each adding `δ` and amplifying what was there by `1 + u`. -/
def drift (u δ : K) : Nat → K
  | 0 => 0
  | k + 1 => (1 + u) * drift u δ k + δ

theorem drift_nonneg {u δ : K} (hu : 0 ≤ u) (hd : 0 ≤ δ) : ∀ k, 0 ≤ drift u δ k
  | 0 => le_refl _
  | k + 1 => by have := drift_nonneg hu hd k; unfold drift; positivity

theorem drift_mono {u δ : K} (hu : 0 ≤ u) (hd : 0 ≤ δ) (k : Nat) : drift u δ k ≤ drift u δ (k + 1) := by
  have := drift_nonneg hu hd k
  have := mul_nonneg hu this
  show _ ≤ (1 + u) * drift u δ k + δ
  linarith

theorem drift_le' {u δ : K} (hu : 0 ≤ u) (hd : 0 ≤ δ) : ∀ k : Nat, (k : K) * u ≤ 1 → drift u δ k ≤ k * δ * (1 + k * u) := by
  intro k
  induction k with
  | zero => intro _; simp [drift]
  | succ k ih =>
    intro hk
    push_cast at hk ⊢
    have hk' : (k : K) * u ≤ 1 := by linarith
    have hk0 : (0 : K) ≤ k := Nat.cast_nonneg k
    have h1 := mul_le_mul_of_nonneg_left (ih hk') (show 0 ≤ 1 + u by linarith)
    show (1 + u) * drift u δ k + δ ≤ _
    have h2 : ((k : K) * u) * (k * u) ≤ k * u := by
      have := mul_nonneg hk0 hu
      nlinarith
    have h3 : (1 + u) * (k * δ * (1 + k * u)) + δ ≤ (k + 1) * δ * (1 + (k + 1) * u) := by
      have h4 : ((k + 1) * δ * (1 + (k + 1) * u)) - ((1 + u) * (k * δ * (1 + k * u)) + δ)
          = δ * (k * u + u - (k * u) * (k * u)) := by ring
      have h5 : 0 ≤ δ * (k * u + u - (k * u) * (k * u)) := mul_nonneg hd (by linarith)
      linarith
    linarith

theorem drift_le {u δ : K} (hu : 0 ≤ u) (hd : 0 ≤ δ) {k : Nat} (hk : (k : K) * u ≤ 1) : drift u δ k ≤ 2 * k * δ := by
  have h1 := drift_le' hu hd k hk
  have hk0 : (0 : K) ≤ k * δ := mul_nonneg (Nat.cast_nonneg k) hd
  nlinarith

end
end Pace
