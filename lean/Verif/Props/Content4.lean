import Verif.Props.Content3

/-!
# Connors RSI and its streak (C53, C62)
-/

set_option linter.unusedSectionVars false

namespace Pace
open Spec

section float
variable {K : Type} [Field K] [LinearOrder K] [IsStrictOrderedRing K] {R : Rounding K}

theorem streak_bound {α : Type} [F64 α] (x : Nat → Option α) (t : Nat) : |streak x t| ≤ t + 1 := by
  induction t with
  | zero => unfold streak; split <;> norm_num
  | succ t ih =>
    have := abs_le.mp ih
    rw [streak]
    split
    · rw [abs_zero]; positivity
    · split
      · rw [abs_le]; push_cast; omega
      · rw [abs_le]; push_cast; omega

theorem fl_int_le (a b : Int) : F64.le (Fl.of R (.fin (a : K))) (Fl.of R (.fin (b : K))) = decide (a ≤ b) := by
  show decide ((a : K) ≤ b) = _
  simp

theorem fl_int_add (L : R.Lawful) {a b : Int} (h : |a + b| ≤ 2 ^ 53) :
    Fl.of R (.fin (a : K)) + Fl.of R (.fin (b : K)) = Fl.of R (.fin ((a + b : Int) : K)) := by
  show R.rnd (a + b) = _
  rw [← Int.cast_add, L.int _ h]; rfl

theorem fl_int_neg (a : Int) : -Fl.of R (.fin (a : K)) = Fl.of R (.fin ((-a : Int) : K)) := by
  show Ext.fin (-(a : K)) = Ext.fin _
  rw [Int.cast_neg]

theorem fl_int_sub (L : R.Lawful) {a b : Int} (h : |a - b| ≤ 2 ^ 53) :
    Fl.of R (.fin (a : K)) - Fl.of R (.fin (b : K)) = Fl.of R (.fin ((a - b : Int) : K)) := by
  show R.rnd (a + -b) = _
  rw [← sub_eq_add_neg, ← Int.cast_sub, L.int _ h]; rfl

theorem lit_zero' (L : R.Lawful) : (lit 0 : Fl R) = Fl.of R (.fin ((0 : Int) : K)) := by rw [lit_zero L, Int.cast_zero]
theorem lit_one' (L : R.Lawful) : (lit 1 : Fl R) = Fl.of R (.fin ((1 : Int) : K)) := by rw [lit_one L, Int.cast_one]

theorem computeUpDown_eq {α : Type} [F64 α] (v p : Option α) (ud : Option α) : ConnorsRsi.computeUpDown v p ud =
    if sameValue p v = true then some (lit 0)
    else if rises p v = true then
      if F64.le (ud.getD (lit 0)) (lit 0) = true then some (lit 1) else some (ud.getD (lit 0) + lit 1)
    else if fge (ud.getD (lit 0)) (lit 0) = true then some (-(lit 1)) else some (ud.getD (lit 0) - lit 1) := by
  cases v <;> cases p <;> rfl

theorem fl_int_step (L : R.Lawful) {s : Int} (h : |s| ≤ 2 ^ 53 - 1) :
    ((if F64.le (Fl.of R (.fin (s : K))) (lit 0) = true then some (lit 1) else some (Fl.of R (.fin (s : K)) + lit 1))
      = some (Fl.of R (.fin ((max s 0 + 1 : Int) : K)))) ∧
    ((if fge (Fl.of R (.fin (s : K))) (lit 0) = true then some (-(lit 1)) else some (Fl.of R (.fin (s : K)) - lit 1))
      = some (Fl.of R (.fin ((min s 0 - 1 : Int) : K)))) := by
  have hb := abs_le.mp h
  rw [lit_zero' L, lit_one' L]
  constructor
  · rw [fl_int_le, fl_int_add L (by rw [abs_le]; omega)]
    simp only [decide_eq_true_eq]
    split
    · rw [max_eq_right (by assumption)]; rfl
    · rw [max_eq_left (by omega)]
  · rw [fge, fl_int_le, fl_int_neg, fl_int_sub L (by rw [abs_le]; omega)]
    simp only [decide_eq_true_eq]
    split
    · rw [min_eq_right (by assumption)]; rfl
    · rw [min_eq_left (by omega)]

/-- **C62.** The up/down streak of the Connors RSI, for every source series (missing, NaN and infinite values included) and under
every lawful rounding, for up to 2^53 ticks: fed the streak of the previous tick, the code computes the streak of this one. -/
theorem C62_streak (L : R.Lawful) (x : Nat → Option (Fl R)) {t : Nat} (ht : t < 2 ^ 53) :
    ConnorsRsi.computeUpDown (x t) (prev x t) (prev (fun t => some (Fl.of R (.fin (streak x t : K)))) t)
      = some (Fl.of R (.fin (streak x t : K))) := by
  rw [computeUpDown_eq]
  cases t with
  | zero =>
    show (if sameValue none (x 0) = true then _ else if rises none (x 0) = true then _ else
      if fge (lit 0 : Fl R) (lit 0) = true then some (-(lit 1) : Fl R) else _) = _
    rw [streak]
    cases x 0 with
    | none =>
      rw [if_pos (by rfl), lit_zero' L]; rfl
    | some v =>
      rw [if_neg (by simp [sameValue, opt2]), if_neg (by simp [rises, opt2])]
      have := (fl_int_step (K := K) (R := R) L (s := 0) (by norm_num)).2
      rw [lit_zero' L] at this ⊢
      exact this
  | succ t =>
    show (if sameValue (x t) (x (t + 1)) = true then _ else if rises (x t) (x (t + 1)) = true then
      (if F64.le (Fl.of R (.fin (streak x t : K))) (lit 0) = true then some (lit 1)
        else some (Fl.of R (.fin (streak x t : K)) + lit 1)) else
      (if fge (Fl.of R (.fin (streak x t : K))) (lit 0) = true then some (-(lit 1))
        else some (Fl.of R (.fin (streak x t : K)) - lit 1))) = _
    have hb := abs_le.mp (streak_bound x t)
    have hs := fl_int_step (K := K) (R := R) L (s := streak x t) (by rw [abs_le]; omega)
    rw [streak, hs.1, hs.2]
    split
    · rw [lit_zero' L]
    · split <;> rfl

/-- **C53.** Connors RSI: the mean of the RSI of the source, the RSI of the up/down streak of the source and the percent rank of
the one-bar rate of change. -/
theorem C53_connors (L : R.Lawful) {d : DataProvider (Fl R)} {n m k : Nat} {x r ur rc pr : Nat → Option (Fl R)} {N : Nat}
    (hN : N ≤ 2 ^ 53) (hr : Runs (fun t => Rsi.next ⟨d, t⟩) (Rsi.new n) x N r)
    (hur : Runs (fun t => Rsi.next ⟨d, t⟩) (Rsi.new m) (fun t => some (Fl.of R (.fin (streak x t : K)))) N ur)
    (hrc : Runs (fun _ => Roc.next) (Roc.new 1) x N rc) (hpr : Runs (fun t => Prank.next ⟨d, t⟩) (Prank.new k) rc N pr) :
    Runs (fun t => ConnorsRsi.next ⟨d, t⟩) (ConnorsRsi.new n m k) x N
      (fun t => opt3 (fun r u p => (r + u + p) / lit 3) (r t) (ur t) (pr t)) :=
  connors_runs d (ud := fun t => some (Fl.of R (.fin (streak x t : K)))) (fun t ht => (C62_streak L x (by omega)).symm) hr hur hrc hpr

end float

/-! ## The meaning of the streak -/
section streak
variable {α : Type} [F64 α]

/-- **C62.** After an unchanged value the streak is 0. -/
theorem C62_unchanged (x : Nat → Option α) (t : Nat) (h : sameValue (x t) (x (t + 1)) = true) : streak x (t + 1) = 0 := by
  rw [streak, if_pos h]

/-- **C62.** `k + 1` rises in a row, the first after a tick whose streak is not positive: the streak is `k + 1`. -/
theorem C62_rises (x : Nat → Option α) (t k : Nat) (h0 : streak x t ≤ 0)
    (h : ∀ i, i ≤ k → rises (x (t + i)) (x (t + i + 1)) = true ∧ sameValue (x (t + i)) (x (t + i + 1)) = false) :
    streak x (t + k + 1) = k + 1 := by
  induction k with
  | zero =>
    have := h 0 (le_refl _)
    simp only [Nat.add_zero] at this
    rw [Nat.add_zero, streak, if_neg (by simp [this.2]), if_pos this.1]
    simp only [Nat.cast_zero]; omega
  | succ k ih =>
    have := h (k + 1) (le_refl _)
    have e := ih fun i hi => h i (by omega)
    rw [streak, if_neg (by simp only [this.2]; simp), if_pos this.1]
    rw [← Nat.add_assoc, e]; push_cast; omega

/-- **C62.** `k + 1` falls in a row, the first after a tick whose streak is not negative: the streak is `-(k + 1)`. -/
theorem C62_falls (x : Nat → Option α) (t k : Nat) (h0 : 0 ≤ streak x t)
    (h : ∀ i, i ≤ k → rises (x (t + i)) (x (t + i + 1)) = false ∧ sameValue (x (t + i)) (x (t + i + 1)) = false) :
    streak x (t + k + 1) = -(k + 1) := by
  induction k with
  | zero =>
    have := h 0 (le_refl _)
    simp only [Nat.add_zero] at this
    rw [Nat.add_zero, streak, if_neg (by simp [this.2]), if_neg (by simp [this.1])]
    simp only [Nat.cast_zero]; omega
  | succ k ih =>
    have := h (k + 1) (le_refl _)
    have e := ih fun i hi => h i (by omega)
    rw [streak, if_neg (by simp only [this.2]; simp), if_neg (by simp only [this.1]; simp)]
    rw [← Nat.add_assoc, e]; push_cast; omega

/-- The streak of 5, 6, 7, 7, 6, 5, 8. -/
example : (List.range 7).map (streak fun t => some (fin (([5, 6, 7, 7, 6, 5, 8] : List ℚ).getD t 0))) = [-1, 1, 2, 0, -1, -2, 1] := by
  decide +kernel

end streak
end Pace
