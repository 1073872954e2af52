import Verif.Cases.Runs
import Verif.Props.Schedule2
import Verif.Props.Reflect3
import Verif.Props.Memory
import Verif.Props.Mirror2
import Verif.Props.UnitsTa
import Verif.Props.Content7

/-! # The theorems on schedules (C78), mirrored markets (C77) and memory (C70) at concrete cases -/

namespace Pace.Cases
open Pace Spec Real

private theorem ℓ : (Rounding.binary64 ℝ).Lawful := binary64_lawful ℝ

/-! ## Schedules -/

private def gx (t : Nat) : Option (Ex ℚ) := (gap t).map q

example : calls Wma.next (Wma.new 3) (bars 20) (fun i => 7 + (2 + i)) gx 9 = calls Wma.next (Wma.new 3) ((bars 20).cut 7) (fun i => 2 + i) gx 9 :=
  (C78_start_window (α := Ex ℚ) 3 true).1 (bars 20) 7 9 gx
example : calls (barsOnly Aroon.next) (Aroon.new 3) (bars 20) (fun i => 7 + (2 + i)) unit 9 =
    calls (barsOnly Aroon.next) (Aroon.new 3) ((bars 20).cut 7) (fun i => 2 + i) unit 9 :=
  (C78_start_indicators 3 4 5 6 (q 2) .close).1 (bars 20) 7 9 unit
example := (C78_start_averages (α := Ex ℚ) .sma .swma .ema 3 4 5 .close .hl2 (k := 3) (fun _ => le_refl 3)).1 (bars 20) 7 9 unit
example : ∃ y, Runs (fun i => Sma.next ⟨bars 20, 7 + i⟩) (Sma.new 3) gx 9 y :=
  ⟨_, (C78_start_runs (C78_start_anywhere 3 (q 0) true).1 (bars 20) 7 9 gx _).mpr (sma_runs ((bars 20).cut 7) (by norm_num) gx 9)⟩

/-- Every second bar of a market of ten. -/
private def half : DataProvider (Ex ℚ) :=
  .ofSeries 5 (fun t => some (q (bo (2 * t)))) (fun t => some (q (bh (2 * t)))) (fun t => some (q (bl (2 * t)))) (fun t => some (q (bc (2 * t))))
    (fun t => some (q (bv (2 * t))))
private theorem sampled : Sampled (fun i => 2 * i) 5 (bars 10) half := by
  constructor <;> intro i hi
  · exact (hasCol_hist 5 (fun t => some (q (bo (2 * t)))) i hi).trans (hasCol_hist 10 (fun t => some (q (bo t))) (2 * i) (by omega)).symm
  · exact (hasCol_hist 5 (fun t => some (q (bh (2 * t)))) i hi).trans (hasCol_hist 10 (fun t => some (q (bh t))) (2 * i) (by omega)).symm
  · exact (hasCol_hist 5 (fun t => some (q (bl (2 * t)))) i hi).trans (hasCol_hist 10 (fun t => some (q (bl t))) (2 * i) (by omega)).symm
  · exact (hasCol_hist 5 (fun t => some (q (bc (2 * t)))) i hi).trans (hasCol_hist 10 (fun t => some (q (bc t))) (2 * i) (by omega)).symm
  · exact (hasCol_hist 5 (fun t => some (q (bv (2 * t)))) i hi).trans (hasCol_hist 10 (fun t => some (q (bv t))) (2 * i) (by omega)).symm
  · exact (hasCol_hist 5 (fun _ => none) i hi).trans (hasCol_hist 10 (fun _ => none) (2 * i) (by omega)).symm
example : calls runner (.ok (Strategy.new exCfg)) (bars 10) (fun i => 2 * i) exSig 5 =
    (calls runner (.ok (Strategy.new exCfg)) half id exSig 5).map (List.map (Strategy.rename fun i => 2 * i)) := C78_runner sampled exCfg exSig
example := fun st (h : Backtest exCfg half exSig 5 st) => (C78_metrics sampled exCfg (q 0) false none h).1
example : ∃ st : Nat → Strategy (Ex ℚ), Runs (fun i => runner ⟨bars 10, 2 * i⟩) (.ok (Strategy.new exCfg)) exSig 5 (fun i => Strategy.rename (fun i => 2 * i) (st i)) := by
  obtain ⟨st, h⟩ : ∃ st, Backtest exCfg half exSig 5 st := C57_strategy_complete exCfg exSig (bars_ofSeries 5 _ _ _ _ _)
  exact ⟨st, (C78_metrics sampled exCfg (q 0) false none h).1⟩
example : ∃ y, Runs (fun t => barsOnly Aroon.next ⟨bars 10, t⟩) (Aroon.new 3) unit 10 y ∧
    Runs (fun i => barsOnly Aroon.next ⟨bars 10, 2 * i⟩) (Aroon.new 3) unit 5 (fun i => y (2 * i)) := by
  obtain ⟨y, hy, _⟩ := C54_aroon (bars_ok 10) (by norm_num : 1 ≤ 3)
  exact ⟨y, hy, (C78_memoryless 3 true (fun i hi => by omega)).2.2.2.2 y hy⟩
example : calls Sma.next (Sma.new 3) (bars 20) (fun i => 2 * i) (fun i => some (q (pi i))) 9 = calls Sma.next (Sma.new 3) (bars 20) id (fun i => some (q (pi i))) 9 :=
  (C78_present (bars 20) (fun i => by omega) (fun i => q (pi i)) 9 3 (q 0) true).1
example := (C78_gaps (bars 20) (by norm_num : 2 ≤ 3) (τ := fun i => 2 * i) (fun _ _ h => by dsimp; omega) gap 9).1
example := (C78_highest (bars 20) (by norm_num : 1 ≤ 3) (fun i => 2 * i) gap 9).1
example := C78_wma_panics
example := C78_rsi_gap

/-! ## Mirrored markets -/

private theorem Y : SignSymmetric (Fl (Rounding.binary64 ℝ)) := C77_arithmetic.2.1
example : SignSymmetric (Ex ℝ) := C77_arithmetic.2.2

example : ∃ y, Runs (fun t => Sma.next ⟨fbars 9, t⟩) (Sma.new 3) fgap 9 y ∧
    Runs (fun t => Sma.next ⟨(fbars 9).mirror, t⟩) (Sma.new 3) (fun t => (fgap t).map Neg.neg) 9 (fun t => (y t).map Neg.neg) :=
  ⟨_, sma_runs _ (by norm_num) _ _, (C77_averages Y 3 (f 0) .sma true).1 _ _ _ _ (sma_runs _ (by norm_num) _ _)⟩
example : ∃ y, Runs (noInput fun t => Atr.next ⟨fbars 9, t⟩) (Atr.new 3) unit 9 y ∧ Runs (noInput fun t => Atr.next ⟨(fbars 9).mirror, t⟩) (Atr.new 3) unit 9 y :=
  have h := atr_runs (by norm_num : 1 ≤ 3) (fbars_ok 9).high (fbars_ok 9).low (fbars_ok 9).close
  ⟨_, h, (C77_strength Y 3 4 true .sma .ema).2.1 _ _ _ h⟩
example := (C77_direction Y 3 4 5 (f 2) .sma .ema .rma .close .hl2 (by decide) (by decide)).1 (fbars 9)
example := (C77_channels Y 3 4 5 (f 2)).1 (fbars 9)
private noncomputable def pair (t : Nat) : Option (Fl (Rounding.binary64 ℝ)) × Option (Fl (Rounding.binary64 ℝ)) := (fgap t, some (f 3))
example : ∃ y, Runs (total Cross.next) (.ok .new) pair 9 y ∧ Runs (total Cross.next) (.ok .new) (fun t => ((pair t).2, (pair t).1)) 9
    (fun t => (y t).map fun m => if m = .over then .under else .over) := by
  obtain ⟨y, hy⟩ := total_runs Cross.next (.new : CrossState (Fl (Rounding.binary64 ℝ))) pair 9
  exact ⟨y, hy, ((C77_crossings (v := fgap) (b := fun _ => true) Y (f 3)).1 hy).2⟩
example : ∃ sig, Runs (total ThresholdStrategy.next) (.ok (ThresholdStrategy.mk' (f 4) (f 2))) fgap 9 sig ∧
    Runs (total ThresholdStrategy.next) (.ok (ThresholdStrategy.mk' (-f 2) (-f 4))) (fun t => (fgap t).map Neg.neg) 9 (fun t => (sig t).map opposite) := by
  obtain ⟨sig, hs⟩ := total_runs ThresholdStrategy.next (ThresholdStrategy.mk' (f 4) (f 2)) fgap 9
  exact ⟨sig, hs, (C77_signals (x := pair) (w := fun _ => ⟨none, none, none⟩) Y (f 4) (f 2) (f 20)).1 hs⟩

example := C77_stochastic (bars 9) (by norm_num : 1 ≤ 3) dense (fun t => some (bh t)) (fun t => some (bl t)) 9
private theorem moves : Moves (sourceValue .close bo bh bl bc bv) 2 := ⟨1, by norm_num, by decide +kernel⟩
example : ∃ y : Nat → Option (Ex ℚ) × Option (Ex ℚ),
    Runs (noInput fun t => withSrc .close StochRsi.next ⟨bars 9, t⟩) (StochRsi.new 2 3 4 5) unit 9 y ∧
    Runs (noInput fun t => withSrc .close StochRsi.next ⟨(bars 9).mirror, t⟩) (StochRsi.new 2 3 4 5) unit 9
      (fun t => ((y t).1.map (lit 100 - ·), (y t).2.map (lit 100 - ·))) :=
  (C77_scale_100 (bars_ok 9) (k := .close) (by decide) (le_refl 2) (by norm_num : 1 ≤ 3) (by norm_num : 1 ≤ 4) (by norm_num : 1 ≤ 5)).2.1 moves
example := (C77_scale_other (bars_ok 9) (k := .hl2) (by decide) (by norm_num : 2 ≤ 3) 2).1
example := (C77_relative (bars_ok 9) (k := .hl2) (by decide) (by norm_num : 1 ≤ 3) (by norm_num : 1 ≤ 4) (by norm_num : 1 ≤ 5) .sma .ema pi).1
private theorem piMoves (t : Nat) (ht : t + 1 < 9) : pi (t + 1) ≠ pi t :=
  (by decide +kernel : ∀ t, t < 8 → pi (t + 1) ≠ pi t) t (by omega)
example := C77_relative_volatility (d := bars 9) (N := 9) (by norm_num : 2 ≤ 3) (by norm_num : 1 ≤ 3) (by norm_num) pi
  piMoves
example := C77_money_flow (K := ℝ) 3 realBars 5
private theorem rBars : ExBars realBars 5 (fun t => [9, 10, 12, 14, 15].getD t 0) (fun t => [11, 13, 14, 16, 17].getD t 0)
    (fun t => [8, 9, 11, 13, 12].getD t 0) (fun t => [10, 12, 13, 15, 14].getD t 0) (fun _ => (1 : ℝ)) := bars_ofSeries 5 _ _ _ _ _
example := C77_example rBars

/-! ## Memory -/

/-- Pi, and pi after a different start: from tick 3 on the last three values agree. -/
private def other (t : Nat) : Option ℚ := if t < 2 then some 100 else some (pi t)
private theorem same3 : SameRecent 3 dense 6 other 6 := ⟨by norm_num, by norm_num, by decide +kernel⟩
private def qd (t : Nat) : Option (Ex ℚ) := (dense t).map q
private def qo (t : Nat) : Option (Ex ℚ) := (other t).map q
private theorem same3q : SameRecent 3 qd 6 qo 6 := ⟨by norm_num, by norm_num, by decide +kernel⟩

example : ∃ y y', Runs (fun t => Wma.next ⟨bars 9, t⟩) (Wma.new 3) qd 9 y ∧ Runs (fun t => Wma.next ⟨bars 9, t⟩) (Wma.new 3) qo 9 y' ∧ y 6 = y' 6 :=
  ⟨_, _, wma_runs _ (by norm_num) _ _, wma_runs _ (by norm_num) _ _,
    (C70_window (by norm_num : 1 ≤ 3)).1 (bars 9) (bars 9) _ _ 9 9 _ _ (wma_runs (bars 9) (by norm_num) _ _) (wma_runs (bars 9) (by norm_num) _ _) 6 6 (by norm_num) (by norm_num) same3q⟩
example := (C70_cross (α := Ex ℚ)).1 (bars 9) (bars 9) (fun t => (qd t, qo t)) (fun t => (qd t, qd t)) 9 9
example : ∃ y y', Runs (fun t => Sma.next ⟨bars 9, t⟩) (Sma.new 3) (fun t => finite? (dense t)) 9 y ∧
    Runs (fun t => Sma.next ⟨bars 9, t⟩) (Sma.new 3) (fun t => finite? (other t)) 9 y' ∧ y 6 = y' 6 :=
  ⟨_, _, sma_runs _ (by norm_num) _ _, sma_runs _ (by norm_num) _ _,
    (C70_rolling (by norm_num : 2 ≤ 3) true).1 (bars 9) (bars 9) _ _ 9 9 _ _ (sma_runs (bars 9) (by norm_num) _ _) (sma_runs (bars 9) (by norm_num) _ _) 6 6 (by norm_num)
      (by norm_num) same3⟩
example := (C70_source (by norm_num : 2 ≤ 3) (2 : ℚ)).1 (bars 9) (bars 9) pi (fun t => pi (t + 10)) 9 9
/-- The market from bar 10 on is the same market again. -/
private theorem period (g : Nat → ℚ) (hg : ∀ t, g (t + 10) = g t) : SameRecent 3 g 15 g 5 :=
  ⟨by norm_num, by norm_num, fun i hi => by rw [show 15 - i = (5 - i) + 10 by omega, hg]⟩
private theorem pi10 (t : Nat) : pi (t + 10) = pi t := by simp [pi]
private theorem bo10 (t : Nat) : bo (t + 10) = bo t := by simp only [bo]; rw [show t + 10 + 1 = t + 1 + 10 by omega, pi10]
private theorem bc10 (t : Nat) : bc (t + 10) = bc t := by simp only [bc, pi10]
private theorem bh10 (t : Nat) : bh (t + 10) = bh t := by simp only [bh, bo10, bc10]
private theorem bl10 (t : Nat) : bl (t + 10) = bl t := by simp only [bl, bo10, bc10]
private theorem bv10 (t : Nat) : bv (t + 10) = bv t := by simp only [bv]; rw [show t + 10 + 2 = t + 2 + 10 by omega, pi10]
example : ∃ y, Runs (noInput fun t => Aroon.next ⟨bars 20, t⟩) (Aroon.new 3) unit 20 y ∧ y 15 = y 5 := by
  obtain ⟨y, hy, _⟩ := C54_aroon (bars_ok 20) (by norm_num : 1 ≤ 3)
  exact ⟨y, hy, (C70_bars (by norm_num : 1 ≤ 3) .close).2.2.1 _ _ 20 20 _ _ _ _ _ _ _ _ _ _ y y (bars_ok 20) (bars_ok 20) hy hy 15 5 (by norm_num) (by norm_num)
    (period _ bo10) (period _ bh10) (period _ bl10) (period _ bc10) (period _ bv10)⟩
private def late (t : Nat) : ℚ := if t ≤ 4 then 100 else pi t
private theorem emaRun (x : Nat → ℚ) : ∃ y, Runs (fun t => Ema.next ⟨bars 20, t⟩) (Ema.new 3) (fun t => finite (x t)) 20 y :=
  ⟨_, ema_runs (bars 20) (by norm_num : 1 ≤ 3) (lit 2 / (lit ((3 : ℕ) : ℚ) + lit 1)) _ 20 (emaOk_of_present fun _ _ => rfl)⟩
example : ∃ (y y' : Nat → Option (Ex ℚ)) (p p' : ℚ), y 4 = some (q p) ∧ y' 4 = some (q p') ∧ ∃ r r' : ℚ, y 9 = some (q r) ∧ y' 9 = some (q r') ∧
    r - r' = (1 - 2 / ((3 : ℕ) + 1)) ^ 5 * (p - p') := by
  obtain ⟨y, hy⟩ := emaRun pi
  obtain ⟨y', hy'⟩ := emaRun late
  obtain ⟨p, p', h1, h2, h3⟩ := C70_forgets (bars 20) (bars 20) (by norm_num : 2 ≤ 3) (s := 4) (by norm_num)
    (x := pi) (x' := late) (fun t ht => by simp only [late]; rw [if_neg (by omega)]) (by norm_num : 4 < 20) (.inr (.inl ⟨hy, hy', rfl⟩))
  exact ⟨y, y', p, p', h1, h2, h3 5 (by norm_num)⟩
example := C70_highest_needs_two (K := ℚ)
private theorem big : (Valued.unsigned (Rounding.binary64 ℝ)).val (f (2 ^ 54)) = Fl.of _ (.fin (2 ^ 54)) := by
  show Fl.of _ (.fin (((2 ^ 54 : ℚ)) : ℝ)) = _
  push_cast
  rfl
private theorem one : (Valued.unsigned (Rounding.binary64 ℝ)).val (f 1) = Fl.of _ (.fin 1) := by
  show Fl.of _ (.fin ((1 : ℚ) : ℝ)) = _
  push_cast
  rfl
example := C70_sma_drifts (Valued.unsigned (Rounding.binary64 ℝ)) (fbars 9) big one 9
example := C70_sma_never_forgets (K := ℝ) 1000000

end Pace.Cases
