import Verif.Spec.Stats
import Verif.Lemmas.Series
import Verif.Model.Statistics
import Mathlib.Tactic.LinearCombination
import Mathlib.Algebra.Order.BigOperators.Group.List

/-! # Lemmas on statistics -/

set_option linter.unusedSectionVars false

namespace Pace
open Spec

section field
variable {K : Type} [Field K] [LinearOrder K] [IsStrictOrderedRing K]

theorem sqDev_nonneg (l : List K) : 0 ≤ sqDev l := by
  apply List.sum_nonneg
  intro v hv
  obtain ⟨u, _, rfl⟩ := List.mem_map.mp hv
  positivity

theorem popVar_nonneg (l : List K) : 0 ≤ popVar l :=
  div_nonneg (sqDev_nonneg l) (Nat.cast_nonneg _)

theorem sum_sq_sub (l : List K) (m : K) :
    (l.map fun v => (v - m) ^ 2).sum =
      (l.map fun v => v ^ 2).sum - 2 * m * l.sum + (l.length : K) * m ^ 2 := by
  induction l with
  | nil => simp
  | cons a l ih => simp only [List.map_cons, List.sum_cons, ih, List.length_cons]; push_cast; ring

theorem length_ne_zero {l : List K} (h : l ≠ []) : (l.length : K) ≠ 0 :=
  Nat.cast_ne_zero.mpr (List.length_pos_iff.mpr h).ne'

theorem mean_mul_length {l : List K} (h : l ≠ []) : mean l * (l.length : K) = l.sum := by
  unfold mean; exact div_mul_cancel₀ _ (length_ne_zero h)

/-- `Σ (x - mean)² = Σ x² - mean Σ x`. -/
theorem sqDev_eq {l : List K} (h : l ≠ []) :
    sqDev l = (l.map fun v => v ^ 2).sum - mean l * l.sum := by
  rw [sqDev, sum_sq_sub]
  have := mean_mul_length h
  linear_combination mean l * this

end field

section model
variable {K : Type} [Field K] [LinearOrder K] [IsStrictOrderedRing K] [RootOps K]

theorem natCast_succ_ne (t : Nat) : ((t : K) + 1) ≠ 0 := by
  have : ((t + 1 : Nat) : K) ≠ 0 := Nat.cast_ne_zero.mpr (by omega)
  simpa using this

theorem fin_lit_nat (n : Nat) : (lit (n : ℚ) : Ex K) = fin (n : K) := by simp

/-- State of `Mean` after the inputs `x 0 .. x (t-1)`. -/
def MeanInv (x : Nat → K) (t : Nat) (s : Mean (Ex K)) : Prop :=
  s.sum = fin (hist x t).sum ∧ s.n = t

theorem mean_step (x : Nat → K) (t : Nat) (s : Mean (Ex K)) (h : MeanInv x t s) :
    ∃ s', s.next (fin (x t)) = (fin (mean (hist x (t + 1))), s') ∧ MeanInv x (t + 1) s' := by
  obtain ⟨h1, h2⟩ := h
  refine ⟨⟨fin (hist x (t + 1)).sum, t + 1⟩, ?_, rfl, rfl⟩
  simp only [Mean.next, h1, h2, fin_add]
  have : (hist x t).sum + x t = (hist x (t + 1)).sum := by simp [hist_succ']
  rw [this, fin_lit_nat, fin_div _ _ (Nat.cast_ne_zero.mpr (by omega))]
  simp [mean]

theorem varFromMean_fin {l : List K} (h : l ≠ []) (m : K) :
    Stats.varFromMean (l.map (fin : K → Ex K)) (fin m) =
      fin ((l.map fun v => (v - m) ^ 2).sum / (l.length : K)) := by
  unfold Stats.varFromMean
  have : (l.map (fin : K → Ex K)).map (fun x => sq (x - fin m)) =
      (l.map fun v => (v - m) ^ 2).map fin := by
    simp [pow_two]
  rw [this, fsum_fin, List.length_map, fin_lit_nat, fin_div _ _ (length_ne_zero h)]

/-- State of Welford's algorithm after `x 0 .. x (t-1)`. -/
def WelfordInv (x : Nat → K) (t : Nat) (s : WelfordsVar (Ex K)) : Prop :=
  s.n = t ∧ ∃ m, s.mean = fin m ∧ m * (t : K) = (hist x t).sum ∧
    s.deviation = fin (((hist x t).map fun v => v ^ 2).sum - m * (hist x t).sum)

/-- What Welford's algorithm returns at tick `t`. -/
def welfordOut (x : Nat → K) (t : Nat) : K :=
  if t = 0 then 0 else sampleVar (hist x (t + 1))

theorem welford_step (x : Nat → K) (t : Nat) (s : WelfordsVar (Ex K)) (h : WelfordInv x t s) :
    ∃ s', s.next (fin (x t)) = (fin (welfordOut x t), s') ∧ WelfordInv x (t + 1) s' := by
  obtain ⟨h1, m, h2, h3, h4⟩ := h
  have hn : ((t + 1 : Nat) : K) ≠ 0 := Nat.cast_ne_zero.mpr (by omega)
  have hn' : (t : K) + 1 ≠ 0 := natCast_succ_ne t
  set S := (hist x t).sum with hS
  set v := x t with hv
  have hS' : (hist x (t + 1)).sum = S + v := by simp [hist_succ', hS, hv]
  have hQ' : ((hist x (t + 1)).map fun v => v ^ 2).sum =
      ((hist x t).map fun v => v ^ 2).sum + v ^ 2 := by simp [hist_succ', hv]
  let m' := m + (v - m) / ((t + 1 : Nat) : K)
  have hm' : m' * ((t : K) + 1) = S + v := by
    have : m' * ((t : K) + 1) = m * ((t : K) + 1) + (v - m) := by
      simp only [m']; push_cast; field_simp
    rw [this]; linear_combination h3
  have hdev : ((hist x t).map fun v => v ^ 2).sum - m * S + (v - m) * (v - m') =
      ((hist x t).map fun v => v ^ 2).sum + v ^ 2 - m' * (S + v) := by
    linear_combination (-m') * h3 + m * hm'
  refine ⟨⟨t + 1, fin m', fin (((hist x t).map fun v => v ^ 2).sum + v ^ 2 - m' * (S + v))⟩, ?_,
    rfl, m', rfl, ?_, ?_⟩
  · unfold WelfordsVar.next
    simp only [h1, h2, h4, fin_sub, fin_lit_nat, fin_div _ _ hn, fin_add, fin_mul]
    rw [show m + (v - m) / ((t + 1 : Nat) : K) = m' from rfl, hdev]
    by_cases ht : t = 0
    · simp [ht, welfordOut]
    · have hne : hist x (t + 1) ≠ [] := by
        intro hc; have := congrArg List.length hc; simp at this
      have h1t : ((t + 1 : Nat) : K) - 1 ≠ 0 := by
        push_cast; simpa using ht
      rw [if_neg (by omega), fin_lit, fin_sub]
      simp only [Rat.cast_one]
      rw [fin_div _ _ h1t, welfordOut, if_neg ht, sampleVar, sqDev_eq hne, hQ', hS', hist_length]
      have : mean (hist x (t + 1)) = m' := by
        have e := mean_mul_length hne
        rw [hist_length, hS'] at e
        have : mean (hist x (t + 1)) * ((t : K) + 1) = m' * ((t : K) + 1) := by
          rw [hm', ← e]; push_cast; ring
        exact mul_right_cancel₀ hn' this
      rw [this]
  · rw [hS']; push_cast; exact hm'
  · rw [hS', hQ']

end model
end Pace
