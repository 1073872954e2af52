import Verif.Lemmas.TaExact

/-!
# The series computed by the moving averages depend only on the past
-/

set_option linter.unusedSectionVars false

namespace Pace
open Spec
section
variable {α : Type} [F64 α]

theorem ago_congr {β : Type} {x y : Nat → Option β} {t : Nat} (h : ∀ k, k ≤ t → x k = y k) (n : Nat) :
    ago x n t = ago y n t := by
  unfold ago; split
  · exact h _ (by omega)
  · rfl

theorem acc0_congr (len : Nat) {x y : Nat → Option α} : ∀ t, (∀ k, k < t → x k = y k) → acc0 len x t = acc0 len y t := by
  intro t
  induction t with
  | zero => intro _; rfl
  | succ t ih =>
    intro h
    rw [acc0, acc0, ih fun k hk => h k (by omega), h t (by omega), ago_congr (fun k hk => h k (by omega))]

theorem windowPresent_congr {β : Type} {x y : Nat → Option β} {t : Nat} (h : ∀ k, k ≤ t → x k = y k) (len : Nat) :
    WindowPresent x len t ↔ WindowPresent y len t := by
  constructor
  · intro hw k h1 h2; rw [← h k h1]; exact hw k h1 h2
  · intro hw k h1 h2; rw [h k h1]; exact hw k h1 h2

theorem rawSum0_congr (len : Nat) {x y : Nat → Option α} {t : Nat} (h : ∀ k, k ≤ t → x k = y k) :
    rawSum0 len x t = rawSum0 len y t := by
  rw [rawSum0, rawSum0, acc0_congr len t fun k hk => h k (by omega), h t (le_refl _)]

theorem sma0_congr (len : Nat) {x y : Nat → Option α} {t : Nat} (h : ∀ k, k ≤ t → x k = y k) :
    sma0 len x t = sma0 len y t := by
  unfold sma0
  rw [rawSum0_congr len h, h t (le_refl _)]
  simp only [windowPresent_congr h]

theorem sum0_congr (len : Nat) {x y : Nat → Option α} {t : Nat} (h : ∀ k, k ≤ t → x k = y k) :
    sum0 len x t = sum0 len y t := by
  unfold sum0
  rw [rawSum0_congr len h]
  simp only [windowPresent_congr h]

theorem ema0_congr (len : Nat) (a : α) {x y : Nat → Option α} : ∀ {t}, (∀ k, k ≤ t → x k = y k) →
    ema0 len a x t = ema0 len a y t := by
  intro t
  induction t with
  | zero => intro h; exact sma0_congr len h
  | succ t ih =>
    intro h
    rw [ema0, ema0, ih fun k hk => h k (by omega), h (t + 1) (le_refl _), sma0_congr len h]

end

variable {K : Type} [Field K] [LinearOrder K] [IsStrictOrderedRing K] [RootOps K]

theorem smoothed_nonneg {a m : K} {u : Nat → K} {n : Nat} (ha0 : 0 ≤ a) (ha1 : a ≤ 1) (hm : 0 ≤ m)
    (hu : ∀ i, i < n → 0 ≤ u i) : 0 ≤ smoothed a m u n := by
  induction n with
  | zero => rw [smoothed_zero]; exact hm
  | succ n ih =>
    rw [smoothed_succ]
    exact add_nonneg (mul_nonneg ha0 (hu n (by omega))) (mul_nonneg (by linarith) (ih fun i hi => hu i (by omega)))

/-- If the start is positive and the factor below one, the smoothed value stays positive. -/
theorem smoothed_pos {a m : K} {u : Nat → K} {n : Nat} (ha0 : 0 ≤ a) (ha1 : a < 1) (hm : 0 < m)
    (hu : ∀ i, i < n → 0 ≤ u i) : 0 < smoothed a m u n := by
  induction n with
  | zero => rw [smoothed_zero]; exact hm
  | succ n ih =>
    rw [smoothed_succ]
    exact add_pos_of_nonneg_of_pos (mul_nonneg ha0 (hu n (by omega)))
      (mul_pos (by linarith) (ih fun i hi => hu i (by omega)))

theorem smoothed_eq_zero {a : K} {u : Nat → K} {n : Nat} (hu : ∀ i, i < n → u i = 0) : smoothed a 0 u n = 0 := by
  induction n with
  | zero => rw [smoothed_zero]
  | succ n ih => rw [smoothed_succ, hu n (by omega), ih fun i hi => hu i (by omega)]; ring

theorem mean_nonneg {l : List K} (h : ∀ a ∈ l, 0 ≤ a) : 0 ≤ mean l :=
  div_nonneg (List.sum_nonneg h) (by positivity)

end Pace
