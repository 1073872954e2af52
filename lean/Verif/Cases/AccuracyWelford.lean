import Verif.Cases.Rounded
import Verif.Props.AccuracyWelford

/-! # The theorems on the fast variance in floats (C107) at a concrete case: nine closing prices -/

namespace Pace.Cases
open Pace Spec

private theorem ℓ : (Rounding.binary64 ℝ).Lawful := binary64_lawful ℝ
private theorem acc : (Rounding.binary64 ℝ).Accurate b64u b64η ((2 : ℝ) ^ (1023 : ℤ)) := binary64_accurate ℝ
private theorem roots : RoundedRoots (Rounding.binary64 ℝ) := fun _ _ => rfl

private def c (t : Nat) : Nat := [10, 12, 13, 15, 14, 11, 10, 12, 15].getD t 0
private theorem small : ∀ t, t < 9 → c t ≤ 15 := by decide

private theorem big {x : ℝ} (hx : x ≤ 1099511627776) : x ≤ (2 : ℝ) ^ (1023 : ℤ) :=
  hx.trans (le_trans (by norm_num : (1099511627776 : ℝ) ≤ (2 : ℝ) ^ (40 : ℤ)) (zpow_le_zpow_right₀ (by norm_num) (by norm_num)))

private theorem finer : b64u ≤ 1 / 2 ^ 50 := by
  have := zpow_le_zpow_right₀ (by norm_num : (1 : ℝ) ≤ 2) (show (-53 : ℤ) ≤ -50 by norm_num)
  unfold b64u
  refine this.trans (le_of_eq ?_)
  norm_num

private theorem spread : sampleVar (hist (fun t => (c t : ℝ)) 9) = 34 / 9 := by
  norm_num [hist, List.range_succ, c, sampleVar, sqDev, mean]

private theorem near : ∀ i, i < 9 → Near (Sf.valued (Rounding.binary64 ℝ)) (s (c i)) (c i : ℝ) 0 := fun i hi =>
  near_of_val (s_val (by have := small i hi; omega))

private theorem range : ∀ i, i < 9 → |(c i : ℝ)| ≤ 15 := fun i hi => by
  rw [abs_of_nonneg (Nat.cast_nonneg _)]
  exact_mod_cast small i hi

/-- The alone standing and the built in fast mode on floats. -/
example : ∃ y, Runs (total WelfordsStdev.next) (.ok (WelfordsStdev.new : WelfordsStdev B64)) (fun t => s (c t)) 9 y ∧
    Runs (total StatStdev.next) (.ok (StatStdev.build true : StatStdev B64)) (fun t => s (c t)) 9 y := by
  obtain ⟨y, -, -, h1, h2⟩ := C107_fast (fun t => s (c t)) 9
  exact ⟨_, h1, h2⟩

/-- The fast variance of the nine prices is near `34 / 9`; the first output is 0. -/
example : ∃ y, Runs (total Var.next) (.ok (Var.build true : Var B64)) (fun t => s (c t)) 9 y ∧
    Near (Sf.valued (Rounding.binary64 ℝ)) (y 0) 0 0 ∧ Near (Sf.valued (Rounding.binary64 ℝ)) (y 8) (34 / 9) (1 / 2 ^ 20) := by
  have u0 : 0 ≤ b64u := (Binary64.two_zpow_pos _).le
  have u1 := finer
  obtain ⟨y, -, h1, h2, h3⟩ := C107_variance acc ℓ (V := Sf.valued (Rounding.binary64 ℝ)) (x := fun t => s (c t)) (p := fun t => (c t : ℝ)) (N := 9) (B := 15) (δ := 0) (by norm_num)
    (by norm_num) near range (by norm_num) (by norm_num at u1 ⊢; linarith) (big (by norm_num))
  have h4 := h3 8 (by norm_num) (by norm_num)
  rw [spread] at h4
  exact ⟨y, h1, h2 (by norm_num), h4.mono (by norm_num at u1 ⊢; linarith)⟩

/-- Its root. -/
example : ∃ y, Runs (total StatStdev.next) (.ok (StatStdev.build true : StatStdev B64)) (fun t => s (c t)) 9 y ∧
    Near (Sf.valued (Rounding.binary64 ℝ)) (y 8) (Real.sqrt (34 / 9)) (1 / 2 ^ 20) := by
  have u0 : 0 ≤ b64u := (Binary64.two_zpow_pos _).le
  have u1 := finer
  obtain ⟨y, -, h1, h3⟩ := C107_stdev acc ℓ (V := Sf.valued (Rounding.binary64 ℝ)) roots (x := fun t => s (c t)) (p := fun t => (c t : ℝ)) (N := 9) (B := 15) (δ := 0) (by norm_num)
    (by norm_num) near range (by norm_num) (by norm_num at u1 ⊢; linarith) (big (by norm_num))
  have h4 := h3 8 (by norm_num) (by norm_num) 1 one_pos (by rw [spread]; exact le_root (by norm_num) (by norm_num)) (by norm_num at u1 ⊢; linarith)
  rw [spread] at h4
  exact ⟨y, h1, h4.mono (by norm_num at u1 ⊢; linarith)⟩

end Pace.Cases
