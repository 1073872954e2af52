import Verif.Cases.Rounded
import Verif.Props.WelfordFloat

/-! # The theorems on the sign of the variance in floats (C108) at concrete cases -/

namespace Pace.Cases
open Pace Spec

private theorem ℓ : (Rounding.binary64 ℝ).Lawful := binary64_lawful ℝ

/-- Three times the number `2^-60`, then 1: the fast mean is rounded. -/
private noncomputable def p (i : Nat) : ℝ := if i < 3 then (2 : ℝ) ^ (-60 : ℤ) else 1
private noncomputable def x (i : Nat) : B64 := ⟨Fl.of _ (.fin (p i)), false⟩

private theorem p_ok (i : Nat) : Binary64.Representable (p i) ∧ |p i| ≤ (2 : ℝ) ^ (1021 : ℤ) := by
  unfold p
  split
  · refine ⟨⟨1, -60, by norm_num, by norm_num, by norm_num, by simp⟩, ?_⟩
    rw [abs_of_pos (Binary64.two_zpow_pos _)]
    exact Binary64.two_zpow_mono (by norm_num)
  · refine ⟨⟨1, 0, by norm_num, by norm_num, by norm_num, by simp⟩, ?_⟩
    rw [abs_one]
    exact (le_of_eq (zpow_zero (2 : ℝ)).symm).trans (Binary64.two_zpow_mono (by norm_num))

example : ∃ y z, Runs (total Var.next) (.ok (Var.build true : Var B64)) x 7 y ∧ Runs (total StatStdev.next) (.ok (StatStdev.build true : StatStdev B64)) x 7 z ∧
    F64.le (lit 0) (y 6) = true ∧ F64.le (lit 0) (z 6) = true := by
  obtain ⟨y, z, -, h1, -, h2, h3⟩ := C108_never_negative (Sf.valued (Rounding.binary64 ℝ)) (x := x) (N := 7) (by norm_num) fun i _ => ⟨p i, rfl, p_ok i⟩
  exact ⟨y, z, h1, h2, h3 6 (by norm_num)⟩

example : ∃ y z, Runs (total Var.next) (.ok (Var.build false : Var B64)) x 7 y ∧ Runs (total StatStdev.next) (.ok (StatStdev.build false : StatStdev B64)) x 7 z ∧
    ((z 6).val = Fl.of _ .nan ∨ F64.le (lit 0) (z 6) = true) := by
  obtain ⟨y, z, h1, h2, h3⟩ := C108_default (Sf.valued (Rounding.binary64 ℝ)) ℓ x (N := 7) (by norm_num)
  exact ⟨y, z, h1, h2, (h3 6 (by norm_num)).2⟩

example : ∃ y, Runs (total Var.next) (.ok (Var.build true : Var B64)) (fun _ => s 7) 9 y ∧ (y 8).val = Fl.of _ (.fin 0) := by
  obtain ⟨y, -, h1, h2⟩ := C108_constant (Sf.valued (Rounding.binary64 ℝ)) ℓ (x := fun _ => s 7) (N := 9) (by norm_num) (c := 7)
    (by have := ℓ.int 7 (by norm_num); push_cast at this; exact this)
    (fun i _ => by have := s_val (n := 7) (by norm_num); push_cast at this; exact this)
  exact ⟨y, h1, h2 8 (by norm_num)⟩

/-- The two modes on the same three equal numbers: the default mode gives 1, the fast mode 0. -/
example : ∃ y z, Runs (total Var.next) (.ok (Var.build false : Var B64)) (fun _ => s 7205759403792794) 3 y ∧
    Runs (total Var.next) (.ok (Var.build true : Var B64)) (fun _ => s 7205759403792794) 3 z ∧ (y 2).val = Fl.of _ (.fin 1) ∧ (z 2).val = Fl.of _ (.fin 0) := by
  have v : (s 7205759403792794).val = Fl.of _ (.fin (7205759403792794 : ℝ)) := by have := s_val (n := 7205759403792794) (by norm_num); push_cast at this; exact this
  obtain ⟨y, h1, h2⟩ := C108_default_flat (Sf.valued (Rounding.binary64 ℝ)) (x := fun _ => s 7205759403792794) fun i _ => v
  obtain ⟨z, -, h3, h4⟩ := C108_constant (Sf.valued (Rounding.binary64 ℝ)) ℓ (x := fun _ => s 7205759403792794) (N := 3) (by norm_num) (c := 7205759403792794)
    (by have := ℓ.int 7205759403792794 (by norm_num); push_cast at this; exact this) (fun i _ => v)
  exact ⟨y, z, h1, h3, h2, h4 2 (by norm_num)⟩

end Pace.Cases
