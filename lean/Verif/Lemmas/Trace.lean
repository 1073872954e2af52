import Verif.Lemmas.Series
import Verif.Spec.Content
import Verif.Model.Common
import Verif.Lemmas.TaRuns2

/-! # Runs as sequences of states, for composing components -/

namespace Pace
variable {S I O β γ : Type}

theorem Runs.trace {step : Nat → S → I → Res (O × S)} {s0 : Res S} {x : Nat → I} {N : Nat} {y : Nat → O}
    (h : Runs step s0 x N y) :
    ∃ s : Nat → S, s0 = .ok (s 0) ∧ ∀ t, t < N → step t (s t) (x t) = .ok (y t, s (t + 1)) := by
  classical
  obtain ⟨s, Inv, hs, hI⟩ := h.impl
  let f : Nat → S := fun t => t.rec s fun t q =>
    if h : ∃ s', step t q (x t) = .ok (y t, s') ∧ Inv (t + 1) s' then h.choose else q
  have hf : ∀ t, f (t + 1) = if h : ∃ s', step t (f t) (x t) = .ok (y t, s') ∧ Inv (t + 1) s' then h.choose else f t :=
    fun t => rfl
  have hinv : ∀ t, t ≤ N → Inv t (f t) := by
    intro t
    induction t with
    | zero => intro _; exact hI.init
    | succ t ih =>
      intro ht
      have hex := hI.step t (f t) (by omega) (ih (by omega))
      rw [hf, dif_pos hex]
      exact hex.choose_spec.2
  refine ⟨f, hs, fun t ht => ?_⟩
  have hex := hI.step t (f t) ht (hinv t (by omega))
  rw [hf, dif_pos hex]
  exact hex.choose_spec.1

theorem Runs.of_trace {step : Nat → S → I → Res (O × S)} {s0 : Res S} {x : Nat → I} {N : Nat} {y : Nat → O}
    (s : Nat → S) (h0 : s0 = .ok (s 0)) (h : ∀ t, t < N → step t (s t) (x t) = .ok (y t, s (t + 1))) :
    Runs step s0 x N y := by
  rw [h0]
  exact Impl.runs (Inv := fun t q => q = s t) ⟨rfl, fun t q ht hq => ⟨s (t + 1), by rw [hq]; exact h t ht, rfl⟩⟩

theorem Runs.input_congr {step : Nat → S → I → Res (O × S)} {s0 : Res S} {x x' : Nat → I} {N : Nat} {y : Nat → O}
    (h : Runs step s0 x N y) (hx : ∀ t, t < N → x t = x' t) : Runs step s0 x' N y := by
  obtain ⟨s, h0, hs⟩ := h.trace
  exact Runs.of_trace s h0 fun t ht => by rw [← hx t ht]; exact hs t ht

section
variable {α : Type} [F64 α]
theorem psAdd_eq (a b : Option α) : psAdd a b = opt2 (· + ·) a b := by cases a <;> cases b <;> rfl
theorem psDiff_eq (a b : Option α) : psDiff a b = opt2 (· - ·) a b := by cases a <;> cases b <;> rfl
theorem psMax_eq (a b : Option α) : psMax a b = opt2 F64.fmax a b := by cases a <;> cases b <;> rfl
theorem psMin_eq (a b : Option α) : psMin a b = opt2 F64.fmin a b := by cases a <;> cases b <;> rfl
theorem psAbs_eq (a : Option α) : psAbs a = a.map F64.abs := rfl
theorem psDiv_eq (a b : Option α) : psDiv a b = Spec.safeDiv a b := by cases a <;> cases b <;> rfl
theorem before_eq (x : Nat → Option β) : before x = Spec.prev x := by funext t; cases t <;> rfl
theorem ago_one (x : Nat → Option β) (t : Nat) : ago x 1 t = Spec.prev x t := by
  cases t <;> simp [ago, Spec.prev]
end

end Pace
