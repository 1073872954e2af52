import Verif.Props.Content
import Verif.Props.Ta
import Verif.Props.Ta2

/-! # Lemmas: windows of series that begin at some tick, exact arithmetic of the combinators -/

set_option linter.unusedSectionVars false

namespace Pace
open Spec

theorem startAt_zero {β : Type} (g : Nat → β) : startAt 0 g = fun k => some (g k) := by
  funext k; simp [startAt]

theorem fullWindow_startAt {β : Type} (s : Nat) (g : Nat → β) {n : Nat} (hn : 1 ≤ n) (t : Nat) :
    fullWindow (startAt s g) n t = if s + n ≤ t + 1 then some (win g n t) else none := by
  unfold fullWindow
  by_cases h : s + n ≤ t + 1
  · rw [if_pos (by omega), if_pos h, allSome_eq_some, win_map]
    refine win_congr (by omega) fun k h1 h2 => ?_
    rw [startAt, if_neg (by omega)]
  · rw [if_neg h]
    split
    · rename_i h'
      rw [allSome_eq_none, mem_win h']
      exact ⟨t + 1 - n, le_refl _, by omega, by rw [startAt, if_pos (by omega)]⟩
    · rfl

section
variable {K : Type} [Field K] [LinearOrder K] [IsStrictOrderedRing K] [RootOps K]

theorem safeDiv_fin (a b : K) : safeDiv (some (fin a : Ex K)) (some (fin b)) = if b = 0 then none else some (fin (a / b)) := by
  unfold safeDiv
  by_cases h : b = 0
  · simp [opt2, h]
  · simp [opt2, h, fin_div _ _ h]

theorem safeDiv_none_left (b : Option (Ex K)) : safeDiv (none : Option (Ex K)) b = none := rfl
theorem safeDiv_none_right (a : Option (Ex K)) : safeDiv a (none : Option (Ex K)) = none := by cases a <;> rfl

theorem sum_startAt (d : DataProvider (Ex K)) {n : Nat} (hn : 1 ≤ n) (s : Nat) (g : Nat → K) (N : Nat) :
    Runs (fun t => Sum.next ⟨d, t⟩) (Sum.new n) (flo (startAt s g)) N
      (fun t => if s + n ≤ t + 1 then some (fin (win g n t).sum) else none) :=
  (C22_sum d hn _ N).congr fun t _ => by rw [fullWindow_startAt s g hn]; split <;> rfl

theorem sma_startAt (d : DataProvider (Ex K)) {n : Nat} (hn : 1 ≤ n) (s : Nat) (g : Nat → K) (N : Nat) :
    Runs (fun t => Sma.next ⟨d, t⟩) (Sma.new n) (flo (startAt s g)) N
      (fun t => if s + n ≤ t + 1 then some (fin (mean (win g n t))) else none) :=
  (C21_sma d hn _ N).congr fun t _ => by rw [fullWindow_startAt s g hn]; split <;> rfl

theorem swma_startAt (d : DataProvider (Ex K)) (s : Nat) (g : Nat → K) (N : Nat) :
    Runs (fun t => Swma.next ⟨d, t⟩) Swma.new (flo (startAt s g)) N
      (fun t => if s + 4 ≤ t + 1 then some (fin ((g (t - 3) + 2 * g (t - 2) + 2 * g (t - 1) + g t) / 6)) else none) :=
  (C25_swma d _ N).congr fun t _ => by
    rw [fullWindow_startAt s g (by omega)]
    split
    · rename_i h
      simp only [Option.map_some]
      congr 2
      have e : win g 4 t = [g (t - 3), g (t - 2), g (t - 1), g t] := by
        simp only [win, show List.range 4 = [0, 1, 2, 3] from rfl, List.map_cons, List.map_nil]
        rw [show t + 1 - 4 + 0 = t - 3 by omega, show t + 1 - 4 + 1 = t - 2 by omega, show t + 1 - 4 + 2 = t - 1 by omega,
          show t + 1 - 4 + 3 = t by omega]
      rw [e]; simp
    · rfl

theorem tr_exact {d : DataProvider (Ex K)} {N : Nat} {o h l c v : Nat → K} (hb : ExBars d N o h l c v) {t : Nat} (ht : t < N) :
    Tr.next ⟨d, t⟩ true = .ok (some (fin (barRange h l c t))) := by
  rw [tr_step hb.high hb.low hb.close ht true]
  cases t <;> simp [tr0, barRange]

theorem tr_exact_false {d : DataProvider (Ex K)} {N : Nat} {o h l c v : Nat → K} (hb : ExBars d N o h l c v) {t : Nat} (ht : t < N) :
    Tr.next ⟨d, t⟩ false = .ok ((startAt 1 (barRange h l c) t).map fin) := by
  rw [tr_step hb.high hb.low hb.close ht false]
  cases t <;> simp [tr0, barRange, startAt]

theorem atr_one {d : DataProvider (Ex K)} {N : Nat} {o h l c v : Nat → K} (hb : ExBars d N o h l c v) :
    Runs (noInput fun t => Atr.next ⟨d, t⟩) (Atr.new 1) unit N (fun t => some (fin (barRange h l c t))) := by
  refine (atr_runs (le_refl 1) hb.high hb.low hb.close).congr fun t ht => ?_
  have h1 := tr_exact hb ht
  rw [tr_step hb.high hb.low hb.close ht true] at h1
  rw [← Except.ok.inj h1]
  cases t <;> simp [atr0, rma0, ema0, sma0]

/-- A rise series: `f` of the current and the previous value, from tick 1 on. -/
theorem opt2_prev (f : Ex K → Ex K → Ex K) (g : K → K → K) (hf : ∀ a b, f (fin a) (fin b) = fin (g a b)) (x y : Nat → K) (t : Nat) :
    opt2 f (some (fin (x t))) (prev (fun t => some (fin (y t))) t) = flo (startAt 1 fun t => g (x t) (y (t - 1))) t := by
  cases t with
  | zero => rfl
  | succ t => simp [prev, opt2, hf, startAt]

end
end Pace
