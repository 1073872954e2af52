import Verif.Cases.Data
import Verif.Cases.FloatData
import Verif.Props.Order

/-! # Concrete cases: C86 -/

namespace Pace.Cases
open Pace Spec

/-- An exponential and a weighted average of `2·close + 3·volume`. -/
example := C86_linear (bars 12) .ema (n := 3) (by omega) 2 3 0 bc bv 12
example := C86_linear (bars 12) .swma (n := 3) (by omega) (-1) (1 / 2) 2 bc bv 12

/-- Closes are at most highs. -/
example : ∃ z a b, Runs (fun t => Ma.next ⟨bars 12, t⟩) (Ma.new .rma 3) (flo (startAt 0 bc)) 12 (flo (startAt z a)) ∧
    Runs (fun t => Ma.next ⟨bars 12, t⟩) (Ma.new .rma 3) (flo (startAt 0 bh)) 12 (flo (startAt z b)) ∧ ∀ t, z ≤ t → a t ≤ b t :=
  let ⟨⟨z, a, b, h1, h2, h3⟩, _⟩ := C86_monotone (bars 12) .rma (n := 3) (by omega) 0 bc bh 12
  ⟨z, a, b, h1, h2, fun t ht => h3 t ht fun k _ _ => (bars_sound k).2.2.2.1⟩

example := C86_envelope (bars_ok 12) (fun t => ⟨(bars_sound t).1, (bars_sound t).2.2.1, (bars_sound t).2.1, (bars_sound t).2.2.2.1⟩)
  (src := .hlc3) (by decide) .ema (n := 3) (by omega)

/-- Binary64: lows against highs, with a factor of 1/4. -/
example := C86_float (binary64_lawful ℝ) (Valued.unsigned _) (fbars 12) (n := 3) (s := 1) (N := 12) (by omega) (u := fun t => f (bl t)) (u' := fun t => f (bh t))
  (fun t _ _ => decide_eq_false (not_lt.mpr (by exact_mod_cast (bars_sound t).2.2.2.2.le)))
  (a := f (1 / 4)) (by rw [lit_zero (binary64_lawful ℝ)]; exact decide_eq_true (by norm_num))
  (by rw [lit_one (binary64_lawful ℝ)]; exact decide_eq_true (by norm_num))

/-- A series with a gap against the same series raised by 1. -/
example := C86_extremes (Valued.unsigned (Rounding.binary64 ℝ)) (fbars 12) (n := 3) (N := 12) (by omega) (x := fgap) (x' := fun t => (gap t).map fun x => f (x + 1))
  (fun t _ => by
    unfold fgap
    rcases gap t with _ | x
    · exact .inl ⟨rfl, rfl⟩
    · exact .inr ⟨_, _, rfl, rfl, f_le (by linarith)⟩)

example := C86_sma_breaks_order (Valued.unsigned (Rounding.binary64 ℝ)) (fbars 12) (big := Fl.of _ (.fin (2 ^ 54))) (one := Fl.of _ (.fin 1)) rfl rfl
  (N := 12) (by omega)

end Pace.Cases
