import Verif.Cases.Runs
import Verif.Props.CompoundError
import Verif.Props.Observed
import Verif.Props.Ieee
import Verif.Props.Mirror2

/-! # The theorems on rounded books and mirrored runs (C67, C72, C73, C83, the `ieee` theorems) at concrete cases -/

namespace Pace.Cases
open Pace Spec

private theorem ℓ : (Rounding.binary64 ℝ).Lawful := binary64_lawful ℝ
private theorem four : 4 < 5 := by norm_num

/-- Binary64 floats with signed zeros, given by an integer. -/
noncomputable abbrev s (n : Nat) : B64 := lit (n : ℚ)

theorem s_val {n : Nat} (h : n ≤ 2 ^ 53) : (s n).val = Fl.of _ (.fin (n : ℝ)) := val_lit_nat (V := Sf.valued _) ℓ h

/-- Differences and products of small integers are exact. -/
theorem s_sub {a b : B64} {m n : ℤ} (ha : a.val = Fl.of _ (.fin (m : ℝ))) (hb : b.val = Fl.of _ (.fin (n : ℝ))) (h : |m - n| ≤ 2 ^ 53) :
    (a - b).val = Fl.of _ (.fin ((m - n : ℤ) : ℝ)) := by
  have e : (a - b).val = a.val - b.val := (Sf.valued (Rounding.binary64 ℝ)).sub a b
  rw [e, ha, hb]
  refine Eq.trans (b := Fl.of _ ((Rounding.binary64 ℝ).rnd ((m : ℝ) + -(n : ℝ)))) rfl ?_
  rw [show (m : ℝ) + -(n : ℝ) = ((m - n : ℤ) : ℝ) by push_cast; ring, ℓ.int _ h]

theorem s_mul {a b : B64} {m n : ℤ} (ha : a.val = Fl.of _ (.fin (m : ℝ))) (hb : b.val = Fl.of _ (.fin (n : ℝ))) (h : |m * n| ≤ 2 ^ 53) :
    (a * b).val = Fl.of _ (.fin ((m * n : ℤ) : ℝ)) := by
  have e : (a * b).val = a.val * b.val := (Sf.valued (Rounding.binary64 ℝ)).mul a b
  rw [e, ha, hb]
  refine Eq.trans (b := Fl.of _ ((Rounding.binary64 ℝ).rnd ((m : ℝ) * (n : ℝ)))) rfl ?_
  rw [show (m : ℝ) * (n : ℝ) = ((m * n : ℤ) : ℝ) by push_cast; ring, ℓ.int _ h]

/-! ## The run of C81 in binary64 -/

noncomputable def sCfg : StrategyConfig B64 := ⟨false, true, lit ((100 : Nat) : ℚ), false⟩
noncomputable def sSt : Nat → Strategy B64 := stOf sCfg b64Bars exSig 5
theorem s_backtest : Backtest sCfg b64Bars exSig 5 sSt := computed (C57_strategy_complete sCfg exSig (bars_ofSeries 5 _ _ _ _ _)) _

private def op (t : Nat) : Nat := [9, 10, 12, 14, 15].getD t 0
private def cl (t : Nat) : Nat := [10, 12, 13, 15, 14].getD t 0

theorem s_bars : FloatBars (Sf.valued _) sCfg b64Bars 5 (fun t => (op t : ℝ)) (fun t => (cl t : ℝ)) 100 15 ∧
    ∀ n, n ≤ 5 → |(100 : ℝ)| + |booked (fillSeries sCfg (fun t => (op t : ℝ)) (fun t => (cl t : ℝ))) (deals sCfg exSig n).1| + 2 * 15 ≤ 132 := by
  obtain ⟨_, _, rfl, _, _, h1, h2⟩ := b64Unit_run
  exact ⟨h1, h2⟩

private theorem big : (132 : ℝ) ≤ (2 : ℝ) ^ (900 : ℤ) :=
  le_trans (by norm_num : (132 : ℝ) ≤ (2 : ℝ) ^ (8 : ℤ)) (zpow_le_zpow_right₀ (by norm_num) (by norm_num))

/-- After the run, at most `6 * (2 + 2)` roundings of `u * 132` from the exact equity 102. -/
example : Near (Sf.valued _) (sSt 4).metrics.equity
    (100 + earned (fun k => held sCfg exSig (k + 1)) (fillSeries sCfg (fun t => (op t : ℝ)) (fun t => (cl t : ℝ))) (fun t => (cl t : ℝ)) 4)
    (6 * ((sSt 4).metrics.closedTrades + 2) * (b64u * 132 + b64η)) :=
  (C83_equity_binary64 s_backtest s_bars.1 rfl s_bars.2 big (by norm_num) four).2
private theorem room : (8 * 132 + 7 * ((5 : ℕ) + 2) * b64η : ℝ) ≤ (2 : ℝ) ^ (1023 : ℤ) := by
  obtain ⟨_, a2, a3⟩ := b64_room (n := 7) (by norm_num) (by norm_num) big
  have h0 : (0 : ℝ) < (2 : ℝ) ^ (1023 : ℤ) := Binary64.two_zpow_pos _
  push_cast at *
  generalize (2 : ℝ) ^ (1023 : ℤ) = T at *
  generalize b64η = e at *
  linarith
example := (C83_equity (binary64_accurate ℝ) ℓ s_backtest s_bars.1 rfl s_bars.2 (by norm_num) room four).1

/-- Its closed trades: short 10 to 12 and long 12 to 15. -/
theorem s_closed (T : Trade B64) (hT : T ∈ (sSt 4).trades) (hc : T.isClosed = true) :
    T.pnlField.val = Fl.of _ (.fin (if T.direction = .long then (3 : ℝ) else -2)) := by
  have h := C82_timetable s_backtest four
  have hd : deals sCfg exSig 5 = ([⟨.short, 1, 2⟩, ⟨.long, 2, 4⟩], some (.short, 4)) := by decide
  rw [hd] at h
  have hm := List.mem_map_of_mem (f := fun T : Trade B64 => (T.direction, T.isClosed, T.entryTick, T.entryPrice, T.exitTick, T.exitPrice)) hT
  rw [h] at hm
  obtain ⟨en, ex, sz, h1, h2, h3, h4⟩ := (C40_pnl s_backtest four hT).1 hc
  have h5 := (C44_size s_backtest four hT).1 rfl
  rw [h3] at h5
  simp only [List.map_cons, List.map_nil, Option.toList, List.cons_append, List.nil_append, List.mem_cons, List.not_mem_nil, or_false,
    Prod.mk.injEq] at hm
  have one : (lit 1 : B64).val = Fl.of _ (.fin ((1 : ℤ) : ℝ)) := by
    have := s_val (n := 1) (by norm_num)
    rw [Nat.cast_one] at this
    simpa [s] using this
  have mone : (-(lit 1) : B64).val = Fl.of _ (.fin ((-1 : ℤ) : ℝ)) := by
    have e : (-(lit 1) : B64).val = -(lit 1 : B64).val := (Sf.valued (Rounding.binary64 ℝ)).neg _
    rw [e, one]
    push_cast
    rfl
  have v (n : Nat) (hn : n ≤ 2 ^ 53) : (s n).val = Fl.of _ (.fin ((n : ℤ) : ℝ)) := by
    rw [s_val hn]
    push_cast
    rfl
  have p1 : fillPrice sCfg b64Bars 1 = s 10 := rfl
  have p2 : fillPrice sCfg b64Bars 2 = s 12 := rfl
  have p4 : fillPrice sCfg b64Bars 4 = s 15 := rfl
  rcases hm with ⟨d, _, _, e, _, x⟩ | ⟨d, _, _, e, _, x⟩ | ⟨_, c, _⟩
  · rw [h1, p1] at e; rw [h2, p2] at x; cases e; cases x; cases h5
    rw [h4, d, s_mul (s_mul (s_sub (v 12 (by norm_num)) (v 10 (by norm_num)) (by norm_num)) one (by norm_num)) mone (by norm_num)]
    simp
  · rw [h1, p2] at e; rw [h2, p4] at x; cases e; cases x; cases h5
    rw [h4, d, s_mul (s_mul (s_sub (v 15 (by norm_num)) (v 12 (by norm_num)) (by norm_num)) one (by norm_num)) one (by norm_num)]
    simp
  · rw [hc] at c; cases c

theorem s_list : ∃ T1 T2 T3, (sSt 4).trades = [T1, T2, T3] ∧ T1.isClosed = true ∧ T2.isClosed = true ∧ T3.isClosed = false := by
  have h := C82_timetable s_backtest four
  have hd : deals sCfg exSig 5 = ([⟨.short, 1, 2⟩, ⟨.long, 2, 4⟩], some (.short, 4)) := by decide
  rw [hd] at h
  have h' := congrArg (List.map fun x => x.2.1) h
  simp only [List.map_map, List.map_append] at h'
  match hl : (sSt 4).trades with
  | [] => rw [hl] at h'; simp at h'
  | [_] => rw [hl] at h'; simp at h'
  | [_, _] => rw [hl] at h'; simp at h'
  | [T1, T2, T3] =>
    rw [hl] at h'
    injection h' with e1 h'
    injection h' with e2 h'
    injection h' with e3 h'
    exact ⟨T1, T2, T3, rfl, e1, e2, e3⟩
  | _ :: _ :: _ :: _ :: _ => rw [hl] at h'; simp at h'

theorem s_count : (sSt 4).metrics.closedTrades = 2 := by
  obtain ⟨T1, T2, T3, h, h1, h2, h3⟩ := s_list
  rw [(C40_statistics s_backtest four).closedTrades, h]
  simp [h1, h2, h3]

private noncomputable def profit (T : Trade B64) : ℝ := if T.direction = .long then (3 : ℝ) else -2

private theorem s_total : (((sSt 4).trades.filter (·.isClosed)).map fun T => |profit T|).sum ≤ 6 := by
  obtain ⟨T1, T2, T3, h, h1, h2, h3⟩ := s_list
  have hb (T : Trade B64) : |profit T| ≤ 3 := by
    unfold profit
    split <;> norm_num [abs_le]
  have := hb T1
  have := hb T2
  rw [h]
  simp [h1, h2, h3]
  linarith

private theorem big6 : (6 : ℝ) ≤ (2 : ℝ) ^ (900 : ℤ) := le_trans (by norm_num) big
/-- Net profit against gross profit and loss of the run, within 12 roundings. -/
example : ∃ net gross loss long short : ℝ, (sSt 4).metrics.netProfit.val = Fl.of _ (.fin net) ∧
    (sSt 4).metrics.grossProfit.val = Fl.of _ (.fin gross) ∧ (sSt 4).metrics.grossLoss.val = Fl.of _ (.fin loss) ∧
    (sSt 4).metrics.longNetProfit.val = Fl.of _ (.fin long) ∧ (sSt 4).metrics.shortNetProfit.val = Fl.of _ (.fin short) ∧
    |net - (gross - loss)| ≤ 6 * ((2 : ℕ) : ℝ) * (b64u * 6 + b64η) ∧ |net - (long + short)| ≤ 6 * ((2 : ℕ) : ℝ) * (b64u * 6 + b64η) := by
  rw [← s_count]
  exact C83_identities_binary64 s_backtest four profit s_closed s_total big6 (by rw [s_count]; norm_num)
private theorem room6 : (3 * 6 + 2 * ((sSt 4).metrics.closedTrades : ℝ) * b64η : ℝ) ≤ (2 : ℝ) ^ (1023 : ℤ) := by
  rw [s_count]
  obtain ⟨_, a2, a3⟩ := b64_room (n := 7) (by norm_num) (by norm_num) big
  have h0 : (0 : ℝ) < (2 : ℝ) ^ (1023 : ℤ) := Binary64.two_zpow_pos _
  push_cast at *
  generalize (2 : ℝ) ^ (1023 : ℤ) = T at *
  generalize b64η = e at *
  linarith
private theorem few : ((sSt 4).metrics.closedTrades : ℝ) * (2 : ℝ) ^ (-53 : ℤ) ≤ 1 := by
  rw [s_count]
  norm_num
example := C83_statistics (binary64_accurate ℝ) ℓ (V := Sf.valued _) s_backtest four profit s_closed s_total few room6
example := C83_identities (binary64_accurate ℝ) ℓ (V := Sf.valued _) s_backtest four profit s_closed s_total few room6

/-! ## The run of C82 in binary64 -/

private theorem small : (2 : ℝ) ^ (-100 : ℤ) ≤ 80 := by norm_num
private theorem large : (100 : ℝ) ≤ (2 : ℝ) ^ (100 : ℤ) := by norm_num
example : ∃ (cfg : StrategyConfig B64) (st : Nat → Strategy B64), cfg.buyWithEquity = true ∧ Backtest cfg b64Bars exSig 5 st ∧
    Near (Sf.valued _) (st 4).metrics.equity (worth 100 (fillSeries cfg (fun t => (op t : ℝ)) (fun t => (cl t : ℝ))) (deals cfg exSig 5) (cl 4))
      (((st 4).metrics.closedTrades + 1) * (48 * ((1 + 1 / 4) * (b64u * 100)) / 80) *
        worth 100 (fillSeries cfg (fun t => (op t : ℝ)) (fun t => (cl t : ℝ))) (deals cfg exSig 5) (cl 4)) := by
  obtain ⟨cfg, st, h1, h2, h3, h4, h5⟩ := b64Compound_run
  exact ⟨cfg, st, h1, h2, (C83_compound_binary64 h2 h3 h1 h4 (by norm_num) small large h5 four).2⟩
example : ∃ (cfg : StrategyConfig B64) (st : Nat → Strategy B64), Backtest cfg b64Bars exSig 5 st ∧
    Near (Sf.valued _) (st 4).metrics.netProfit (wealth 100 (fillSeries cfg (fun t => (op t : ℝ)) (fun t => (cl t : ℝ))) (deals cfg exSig 5).1 - 100)
      ((st 4).metrics.closedTrades * (48 * ((1 + 1 / 4) * (b64u * 100)) / 80) *
        wealth 100 (fillSeries cfg (fun t => (op t : ℝ)) (fun t => (cl t : ℝ))) (deals cfg exSig 5).1) := by
  obtain ⟨cfg, st, h1, h2, h3, h4, h5⟩ := b64Compound_run
  refine ⟨cfg, st, h2, (C83_compound (binary64_accurate ℝ) ℓ h2 h3 h1 h4 (b64_far (by norm_num) small (by norm_num) large ?_) h5 four).1⟩
  unfold b64u
  norm_num

/-! ## IEEE floats with signed zeros -/

theorem sTv : ∃ tv, TvRun b64Bars sCfg (s 0) sSt 5 tv := (C57_tradingview_metrics s_backtest (s 0)).mpr fun t ht _ =>
  ⟨⟨_, (bars_ofSeries 5 _ _ _ _ _).low t ht⟩, ⟨_, (bars_ofSeries 5 _ _ _ _ _).high t ht⟩⟩
theorem s_cobra : ∃ co, CobraRun b64Bars sCfg false none (fun _ => none) sSt 5 co :=
  (C57_cobra_metrics s_backtest false none (fun _ => none)).mpr fun t ht => ⟨fun _ =>
    ⟨⟨_, (bars_ofSeries 5 _ _ _ _ _).low t ht⟩, ⟨_, (bars_ofSeries 5 _ _ _ _ _).high t ht⟩⟩, by simp⟩
/-- Prices 3, 1, 4, ... -/
noncomputable def sx (t : Nat) : Option B64 := some (s ([3, 1, 4, 1, 5].getD t 9))

private noncomputable abbrev W : Valued (Rounding.binary64 ℝ) B64 := Sf.valued (Rounding.binary64 ℝ)

private theorem w_val {n : Nat} (h : n ≤ 2 ^ 53) : W.val (s n) = Fl.of _ (.fin (n : ℝ)) := s_val h

example := C34_rsi_range_ieee W ℓ b64Bars (len := 2) (N := 5) (le_refl 2) sx (fun _ _ _ => rfl)
example := C41_nonneg_ieee W ℓ s_backtest four
example : ∀ T ∈ (sSt 4).trades, ∃ z, T.fillSize = some z ∧ (z.val = Fl.of _ .nan ∨ F64.le (lit 0) z = true) :=
  fun _ h => C44_nonneg_ieee W ℓ s_backtest four h
example : (tradePnl (s 2) (s 10) (s 13) false).val = -(tradePnl (s 2) (s 10) (s 13) true).val := C45_antisymmetric_ieee W ℓ _ _ _
example : F64.feq (tradePnl (s 2) (s 10) (s 10) true) (lit 0) = true :=
  C45_zero_at_entry_ieee W ℓ _ _ (w_val (n := 2) (by norm_num)) (w_val (n := 10) (by norm_num)) true
private theorem s_le {m n : Nat} (hm : m ≤ 2 ^ 53) (hn : n ≤ 2 ^ 53) (h : m ≤ n) : F64.le (s m) (s n) = true := by
  have e : F64.le (s m) (s n) = F64.le (s m).val (s n).val := W.le _ _
  rw [e, s_val hm, s_val hn]
  exact decide_eq_true (by exact_mod_cast h)
example : F64.lt (tradePnl (s 2) (s 10) (s 13) true) (lit 0) = false :=
  (C45_sign_ieee W ℓ (w_val (n := 2) (by norm_num)) (w_val (n := 10) (by norm_num)) (w_val (n := 13) (by norm_num))
    (by simpa [s] using s_le (m := 0) (n := 2) (by norm_num) (by norm_num) (by norm_num))).1 (s_le (by norm_num) (by norm_num) (by norm_num))
example : ∃ tv, TvRun b64Bars sCfg (s 0) sSt 5 tv ∧ F64.le (tv 4).data.percentProfitable (lit 1) = true :=
  let ⟨tv, h⟩ := sTv
  ⟨tv, h, (C49_percent_range_ieee W ℓ s_backtest h (by norm_num) four).2⟩
example : ∃ tv, TvRun b64Bars sCfg (s 0) sSt 5 tv ∧ F64.le (lit 0) (tv 4).data.percentProfitable = true :=
  let ⟨tv, h⟩ := sTv
  ⟨tv, h, (C49_percent_range_binary64 s_backtest h (by norm_num) four).1⟩
example : ∃ tv, TvRun b64Bars sCfg (s 0) sSt 5 tv ∧ F64.le (tv 1).data.maxDrawdown (tv 4).data.maxDrawdown = true :=
  let ⟨tv, h⟩ := sTv
  ⟨tv, h, ((C48_monotone_ieee W ℓ h four).2.2 1 (by norm_num)).1⟩
example : ∃ co, CobraRun b64Bars sCfg false none (fun _ => none) sSt 5 co ∧ F64.le (co 4).data.equityCurveMaxDd (lit 0) = true :=
  let ⟨co, h⟩ := s_cobra
  ⟨co, h, (C48_cobra_monotone_ieee W ℓ h four).1⟩
example : tradeDirectionFromF64 (some (s 1)) = some .long :=
  (C52_from_f64_ieee W ℓ (some (s 1))).1.mpr (by have := w_val (n := 1) (by norm_num); simpa using this)
example : tradeDirectionFromF64 (some (tradeDirectionToF64 (some .short) : B64)) = some .short := C52_roundtrip_ieee W ℓ _
example : Metrics.profitFactor (s 3) (s 0) = none :=
  (C58_optional_ieee W ℓ (s 3) (s 0)).1.mpr (by have := w_val (n := 0) (by norm_num); simpa using this)
example := C62_streak_ieee W ℓ sx (t := 0) (by norm_num) (ud := none) rfl

/-! ## Observed configuration -/

example := (C67_configuration ⟨bars 5, 3⟩).1
example := (C67_constructed 3 (q (1/2)) true).1 _ rfl
example := C67_aroon_data (fun t => [some 50, some 100, some (0 : ℚ)].getD t none) (fun t => [some 100, some 50, some (0 : ℚ)].getD t none) 3

/-! ## Mirrored runs -/

example := C72_opposite W ℓ sCfg rfl b64Bars exSig 5
example := C72_opposite_backtest W ℓ rfl s_backtest
example := C72_mirror W ℓ sCfg rfl b64Bars exSig 5
example := C72_mirror_backtest W ℓ rfl s_backtest
example := C72_binary64 rfl s_backtest
example : ∃ (cfg : StrategyConfig (Ex ℝ)) (em : Nat → EquityMetrics (Ex ℝ)) (tv : Nat → TvMetrics (Ex ℝ)) (st' : Nat → Strategy (Ex ℝ)),
    Backtest cfg realBars.mirror (fun t => (exSig t).map opposite) 5 st' ∧ EquityRun realBars.mirror cfg.initialCapital st' 5 em ∧
    TvRun realBars.mirror cfg (fin 0) st' 5 tv := by
  obtain ⟨cfg, st, em, tv, h1, h2, h3, h4, h5, h6⟩ := realBars_run
  obtain ⟨st', h⟩ := C72_mirror_metrics (exact_lawful) h1 h4 h5 h6
  exact ⟨cfg, em, tv, st', h⟩
example := C73_capital sCfg rfl (s 500) b64Bars exSig 5
example := C73_capital_backtest rfl (s 500) s_backtest
example : ∃ (cfg : StrategyConfig (Ex ℝ)) (st st' : Nat → Strategy (Ex ℝ)), Backtest cfg realBars exSig 5 st ∧
    Backtest cfg realBars (fun t => (exSig t).map opposite) 5 st' ∧
    ∃ e e' : ℝ, (st 4).metrics.equity = fin e ∧ (st' 4).metrics.equity = fin e' ∧ e + e' = 2 * 100 := by
  obtain ⟨cfg, st, em, tv, h1, h2, h3, h4, h5, h6⟩ := realBars_run
  obtain ⟨st', h, h', _⟩ := C72_zero_sum h3 h1 h2 h4 h6
  exact ⟨cfg, st, st', h4, h, h' 4 (by norm_num)⟩
example : ∃ (cfg : StrategyConfig (Ex ℝ)) (st st' : Nat → Strategy (Ex ℝ)), Backtest cfg realBars exSig 5 st ∧
    Backtest { (cfg : StrategyConfig (Ex ℝ)) with initialCapital := fin (500 : ℝ) } realBars exSig 5 st' ∧
    ∃ e : ℝ, (st 4).metrics.equity = fin e ∧ (st' 4).metrics.equity = fin (e + (500 - 100)) := by
  obtain ⟨cfg, st, em, tv, h1, h2, h3, h4, h5, h6⟩ := realBars_run
  obtain ⟨st', h, h'⟩ := C73_shift h3.1 h1 h2 h4 500
  exact ⟨cfg, st, st', h4, h, (h' 4 (by norm_num)).2⟩
example := C72_not_equity_sized

end Pace.Cases
