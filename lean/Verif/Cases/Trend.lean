import Verif.Cases.FloatData
import Verif.Props.TrendFloat

/-! # Concrete cases: C87 -/

namespace Pace.Cases
open Pace Spec

/-- A market that rises by 1 at every bar, from 10. -/
private noncomputable def up (x : ℝ) (t : Nat) : ℝ := x + t
private noncomputable def upBars (N : Nat) : DataProvider (Ex ℝ) := .ofSeries N (fun t => some (fin (up 11 t))) (fun t => some (fin (up 13 t)))
  (fun t => some (fin (up 10 t))) (fun t => some (fin (up 12 t))) (fun t => some (fin (up 5 t)))
private theorem up_ok (N : Nat) : ExBars (upBars N) N (up 11) (up 13) (up 10) (up 12) (up 5) := bars_ofSeries N _ _ _ _ _
private theorem up_rises (x : ℝ) : Rises (up x) := fun t => by unfold up; push_cast; linarith
private theorem up_all : AllRise (up 11) (up 13) (up 10) (up 12) := ⟨up_rises _, up_rises _, up_rises _, up_rises _⟩
private theorem up_wf : WellFormed (up 11) (up 13) (up 10) (up 12) := fun t => by
  unfold up
  refine ⟨?_, ?_, ?_, ?_⟩ <;> linarith
private theorem up_pos (t : Nat) : 0 < sourceValue .hlc3 (up 11) (up 13) (up 10) (up 12) (up 5) t := by
  have : (0 : ℝ) ≤ t := by positivity
  simp only [sourceValue, up]
  linarith

/-- A market that falls by 1 at every bar. -/
private noncomputable def down (x : ℝ) (t : Nat) : ℝ := x - t
private noncomputable def downBars (N : Nat) : DataProvider (Ex ℝ) := .ofSeries N (fun t => some (fin (down 102 t))) (fun t => some (fin (down 103 t)))
  (fun t => some (fin (down 100 t))) (fun t => some (fin (down 101 t))) (fun t => some (fin (down 5 t)))
private theorem down_ok (N : Nat) : ExBars (downBars N) N (down 102) (down 103) (down 100) (down 101) (down 5) := bars_ofSeries N _ _ _ _ _
private theorem down_falls (x : ℝ) : Falls (down x) := fun t => by unfold down; push_cast; linarith
private theorem down_all : AllFall (down 102) (down 103) (down 100) (down 101) := ⟨down_falls _, down_falls _, down_falls _, down_falls _⟩
private theorem down_wf : WellFormed (down 102) (down 103) (down 100) (down 101) := fun t => by
  unfold down
  refine ⟨?_, ?_, ?_, ?_⟩ <;> linarith

example := C87_averages (up_ok 50) (s := .close) (by decide) (kind := .ema) (by decide) (n := 3) (m := 10) (by omega) (by omega)
example := C87_averages (down_ok 50) (s := .hl2) (by decide) (kind := .rma) (by decide) (n := 3) (m := 10) (by omega) (by omega)
example := C87_rising (up_ok 50) up_wf up_all (s := .close) (by decide) (n := 14) (m := 14) (k := 3) (q := 3) (by omega) (by omega) (by omega) (by omega)
example := C87_falling (down_ok 50) down_wf down_all (s := .close) (by decide) (n := 14) (m := 14) (k := 3) (q := 3) (by omega) (by omega) (by omega) (by omega)

/-- The vortex lines of the rising market do not cross. -/
example : ∃ a b : Nat → ℝ, (∀ t, 14 ≤ t → b t < a t) ∧ Runs (noInput fun t => Vortex.next ⟨upBars 50, t⟩) (Vortex.new 14) unit 50
    (fun t => (flo (startAt 14 a) t, flo (startAt 14 b) t)) :=
  (C87_rising (up_ok 50) up_wf up_all (s := .close) (by decide) (n := 14) (m := 14) (k := 3) (q := 3) (by omega) (by omega) (by omega)
    (by omega)).2.2.2.2.2.2.2.2 fun t => by unfold up; linarith

/-- MACD(12, 26) on the rising market. -/
example := (C87_lines (up_ok 50) (s := .hlc3) (by decide) (kind := .ema) (by decide) .ema (n := 12) (m := 26) (g := 9) (by omega) (by omega) (by omega)).2 up_pos

/-- Values 60, 70, 60, 70, ... against the thresholds 50 and 40; the lines 1 and 2. -/
example := (C87_one_side (K := ℝ) (N := 9)).1 (fin 50) (fin 40) (y := fun t => some (fin (if t % 2 = 0 then 60 else 70)))
  (.inl fun t w _ hw => by
    cases hw
    constructor <;> split <;> exact decide_eq_true (by norm_num))
example : Runs (total AroonStrategy.next) (.ok .new) (fun t => (some (fin (t : ℝ)), some (fin ((t : ℝ) + 1)))) 9 (fun _ => none) := by
  obtain ⟨-, -, h⟩ := C87_one_side (K := ℝ) (N := 9)
  exact (h (a := fun t => some (t : ℝ)) (b := fun t => some ((t : ℝ) + 1)) fun t x y _ hx hy => by
    cases hx; cases hy; linarith).1

/-- RSI(14), MACD(12, 26, 9), ... on both markets: no trades. -/
example := C87_sits_out (up_ok 50) up_wf (.inl up_all) (s := .hlc3) (by decide) (kind := .ema) (by decide) .ema (n := 14) (m := 12) (k := 26) (q := 9)
  (by omega) (by omega) (by omega) (by omega) (by omega) (fin 0) (fin 0) (fin 20)
example := C87_sits_out (down_ok 50) down_wf (.inr down_all) (s := .hlc3) (by decide) (kind := .ema) (by decide) .ema (n := 14) (m := 12) (k := 26)
  (q := 9) (by omega) (by omega) (by omega) (by omega) (by omega) (fin 70) (fin 30) (fin 20)

/-! ## Binary64 -/

private noncomputable def fup (x : ℚ) (t : Nat) : Fl (Rounding.binary64 ℝ) := f (x + t)
private noncomputable def fupBars (N : Nat) : DataProvider (Fl (Rounding.binary64 ℝ)) :=
  .ofSeries N (fun t => some (fup 11 t)) (fun t => some (fup 13 t)) (fun t => some (fup 10 t)) (fun t => some (fup 12 t)) (fun t => some (fup 5 t))
private theorem fup_ok (N : Nat) : Bars (fupBars N) N (fup 11) (fup 13) (fup 10) (fup 12) (fup 5) := bars_ofSeries N _ _ _ _ _
private theorem fup_lt (x : ℚ) (t : Nat) : F64.lt (fup x t) (fup x (t + 1)) = true := f_lt (by push_cast; linarith)
private theorem fup_nlt (x : ℚ) (t : Nat) : F64.lt (fup x (t + 1)) (fup x t) = false :=
  decide_eq_false (not_lt.mpr (by exact_mod_cast (show x + (t : ℚ) ≤ x + ((t + 1 : ℕ) : ℚ) by push_cast; linarith)))
private theorem fup_src (N : Nat) : ∀ t, t < N → Src.next ⟨fupBars N, t⟩ .close = .ok (some (fup 12 t)) := fun t ht => by
  exact ctx_barClose (fup_ok N).close ht

/-- RSI(14) of a rising market is 100 (or NaN) in binary64. -/
example : ∃ y, Runs (noInput fun t => withSrc .close Rsi.next ⟨fupBars 50, t⟩) (Rsi.new 14) unit 50 y ∧ StartsAt 14 y ∧
    ∀ t w, y t = some w → NumberOrNan (Valued.unsigned _) 100 w :=
  let ⟨y, h1, h2, h3, _⟩ := C87_ieee_rsi (Valued.unsigned (Rounding.binary64 ℝ)) (binary64_lawful ℝ) (fup_src 50) (n := 14) (by omega)
  ⟨y, h1, h2, h3 (fup_nlt 12)⟩

example := (C87_ieee_no_signal (N := 9) (Valued.unsigned (Rounding.binary64 ℝ))).1 100 (f 100) (f 30)
  (y := fun t => if t % 3 = 0 then none else if t % 3 = 1 then some (f 100) else some (Fl.of _ .nan)) fun t w _ hw => by
    split at hw
    · cases hw
    · split at hw
      · cases hw; left; show Ext.fin _ = Ext.fin _; push_cast; rfl
      · cases hw; right; rfl

example := (C87_ieee_aroon (Valued.unsigned (Rounding.binary64 ℝ)) (fup_ok 50) (n := 14) (by omega)).1 fun t => ⟨fup_lt _ t, fup_lt _ t⟩

example := (C87_ieee_sits_out (Valued.unsigned (Rounding.binary64 ℝ)) (binary64_lawful ℝ) (fup_ok 50) (fup_src 50) (n := 14) (m := 14) (by omega)
  (by omega) (f 70) (f 30)).1 (.inl (fup_nlt 12))
example := (C87_ieee_sits_out (Valued.unsigned (Rounding.binary64 ℝ)) (binary64_lawful ℝ) (fup_ok 50) (fup_src 50) (n := 14) (m := 14) (by omega)
  (by omega) (f 70) (f 30)).2 (.inl fun t => ⟨fup_lt _ t, fup_lt _ t⟩)

end Pace.Cases
