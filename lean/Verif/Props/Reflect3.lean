import Verif.Props.Reflect2

/-!
# The market seen upside down: whole programs (C77)
-/

set_option linter.unusedSectionVars false

namespace Pace
open Spec

section
variable {K : Type} [Field K] [LinearOrder K] [IsStrictOrderedRing K] {R : Rounding K}

/-- What a program's signals must do for the mirrored program: turn around. -/
def Spec.SignalsTurn {O O' Q Q' : Type} (out : O → O') (sgn : Q → O → Option TradeDirection × Q) (q0 : Q)
    (sgn' : Q' → O' → Option TradeDirection × Q') (q0' : Q') : Prop :=
  ∀ (N : Nat) (y : Nat → O) (sig : Nat → Option TradeDirection), Runs (total sgn) (.ok q0) y N sig →
    Runs (total sgn') (.ok q0') (fun t => out (y t)) N (fun t => (sig t).map opposite)

/-- **C77.** A whole backtest with a fixed trade size, rounding included: if the indicator turns over with the market and the signals
turn around with the indicator, the program on the mirrored bars makes the mirrored trades and reports the same metrics, tick by tick. -/
theorem C77_program (L : R.Lawful) {S S' Q Q' O O' : Type} {ind : Ctx (Fl R) → S → Res (O × S)} {ind0 : Res S}
    {ind' : Ctx (Fl R) → S' → Res (O' × S')} {ind0' : Res S'} {out : O → O'} (hi : BarsMirror out ind ind0 ind' ind0')
    {sgn : Q → O → Option TradeDirection × Q} {q0 : Q} {sgn' : Q' → O' → Option TradeDirection × Q'} {q0' : Q'}
    (hsgn : SignalsTurn out sgn q0 sgn' q0')
    {d : DataProvider (Fl R)} {N : Nat} {o h l c v : Nat → Fl R} (hb : Bars d N o h l c v)
    {y : Nat → O} (hy : Runs (noInput fun t => ind ⟨d, t⟩) ind0 unit N y)
    {sig : Nat → Option TradeDirection} (hs : Runs (total sgn) (.ok q0) y N sig)
    (cfg : StrategyConfig (Fl R)) (hf : cfg.buyWithEquity = false) (rfr : Fl R) :
    ∃ (st st' : Nat → Strategy (Fl R)) (tv : Nat → TvMetrics (Fl R)),
      Runs (noInput fun t => Program.next ind sgn ⟨d, t⟩) (Program.new ind0 q0 cfg rfr) unit N (fun t => (y t, sig t, st t, tv t)) ∧
      Runs (noInput fun t => Program.next ind' sgn' ⟨d.mirror, t⟩) (Program.new ind0' q0' cfg rfr) unit N
        (fun t => (out (y t), (sig t).map opposite, st' t, tv t)) ∧
      ∀ t, t < N → MirroredBooks (Valued.unsigned R) (st t) (st' t) := by
  obtain ⟨st, tv, hst, htv, hrun⟩ := C65_program hb hy hs cfg rfr
  obtain ⟨em, hem⟩ := (C57_equity_metrics hst).mpr fun t ht _ => ⟨⟨l t, hb.low t ht⟩, h t, hb.high t ht⟩
  obtain ⟨st', hst', -, htv'⟩ := C72_mirror_metrics L hf hst hem htv
  obtain ⟨st'', hst'', hm⟩ := C72_mirror_backtest (Valued.unsigned R) L hf hst
  refine ⟨st, st', tv, hrun, program_runs (hi d N y hy) (hsgn N y sig hs) cfg rfr hst' htv', fun t ht => ?_⟩
  have := Runs.unique hst' hst'' t ht
  rw [this]
  exact hm t ht

/-- **C77.** The hypotheses of `C77_program` are met by the crate's own pairs of indicator and strategy: Aroon, DMI, vortex, relative
vigor, and the threshold strategies of the indicators that change their sign (with thresholds negated and exchanged). -/
theorem C77_programs (L : R.Lawful) (n m : Nat) (strong : Fl R) (th : Thresholds (Fl R)) (k : SrcKind) (hk : k ≠ .volume ∧ k ≠ .ohlc4) :
    let c : Option (Fl R) → Option (Fl R) := Option.map Neg.neg
    let swap : Option (Fl R) × Option (Fl R) → Option (Fl R) × Option (Fl R) := fun y => (y.2, y.1)
    let th' : Thresholds (Fl R) := ⟨-th.overbought, -th.oversold⟩
    (BarsMirror (α := Fl R) swap Aroon.next (Aroon.new n) Aroon.next (Aroon.new n) ∧
      SignalsTurn swap AroonStrategy.next .new AroonStrategy.next .new) ∧
    (BarsMirror (α := Fl R) (fun y => ⟨y.minus, y.plus, y.adx⟩) Dmi.next (Dmi.new n m) Dmi.next (Dmi.new n m) ∧
      SignalsTurn (fun y => ⟨y.minus, y.plus, y.adx⟩) DmiStrategy.next (.new strong) DmiStrategy.next (.new strong)) ∧
    (BarsMirror (α := Fl R) swap Vortex.next (Vortex.new n) Vortex.next (Vortex.new n) ∧
      SignalsTurn swap CrossStrategy.next .new CrossStrategy.next .new) ∧
    (BarsMirror (α := Fl R) (fun y => (c y.1, c y.2)) RelativeVigorIndex.next (RelativeVigorIndex.new n) RelativeVigorIndex.next (RelativeVigorIndex.new n) ∧
      SignalsTurn (fun y => (c y.1, c y.2)) CrossStrategy.next .new CrossStrategy.next .new) ∧
    (BarsMirror c (withSrc k ChandeMomentumOscillator.next) (ChandeMomentumOscillator.new n) (withSrc k.mirror ChandeMomentumOscillator.next)
        (ChandeMomentumOscillator.new n) ∧
      SignalsTurn c ThresholdStrategy.next (ChandeMomentumOscillatorStrategy.new th) ThresholdStrategy.next (ChandeMomentumOscillatorStrategy.new th')) ∧
    (BarsMirror c (withSrc k CommodityChannelIndex.next) (CommodityChannelIndex.new n) (withSrc k.mirror CommodityChannelIndex.next)
        (CommodityChannelIndex.new n) ∧
      SignalsTurn c ThresholdStrategy.next (CommodityChannelIndexStrategy.new th) ThresholdStrategy.next (CommodityChannelIndexStrategy.new th')) ∧
    (BarsMirror c (fun c (s : Unit) => do return (← BalanceOfPower.next c, s)) (.ok ()) (fun c (s : Unit) => do return (← BalanceOfPower.next c, s)) (.ok ()) ∧
      SignalsTurn c ThresholdStrategy.next (BalanceOfPowerStrategy.new th) ThresholdStrategy.next (BalanceOfPowerStrategy.new th')) := by
  have Y := signSymmetric L
  have A := C77_strength Y n m true .sma .sma
  have B := C77_direction Y n m n (lit 0) .sma .sma .sma k k hk hk
  have T : ∀ th : Thresholds (Fl R), SignalsTurn (Option.map Neg.neg) ThresholdStrategy.next (ThresholdStrategy.mk' th.oversold th.overbought)
      ThresholdStrategy.next (ThresholdStrategy.mk' (-th.overbought) (-th.oversold)) := fun th N y sig h =>
    (C77_signals Y th.oversold th.overbought strong (v := y) (x := fun _ => (none, none)) (w := fun _ => ⟨none, none, none⟩)).1 h
  have S : ∀ (N : Nat) (y : Nat → Option (Fl R) × Option (Fl R)) (sig : Nat → Option TradeDirection), _ := fun N y sig =>
    C77_signals Y (N := N) (sig := sig) strong strong strong (v := fun _ => none) (x := y) (w := fun _ => ⟨none, none, none⟩)
  exact ⟨⟨A.2.2.2.2.2.1, fun N y sig h => (S N y sig).2.2.1 h⟩,
    ⟨A.2.2.2.2.1, fun N y sig h => (C77_signals Y strong strong strong (v := fun _ => none) (x := fun _ => (none, none)) (w := y)).2.2.2 h⟩,
    ⟨A.2.2.2.2.2.2, fun N y sig h => ((S N y sig).2.1 h).2⟩,
    ⟨B.2.1, fun N y sig h => ((S N y sig).2.1 h).1⟩,
    ⟨B.2.2.2.2.1, T th⟩, ⟨B.2.2.2.2.2.1, T th⟩, ⟨B.1, T th⟩⟩

end

/-! ## The arithmetic -/

/-- **C77.** The arithmetic this is about: every correctly rounded one without a sign on zero, so binary64 and exact arithmetic. -/
theorem C77_arithmetic :
    (∀ (K : Type) [Field K] [LinearOrder K] [IsStrictOrderedRing K] (R : Rounding K), R.Lawful → SignSymmetric (Fl R)) ∧
    SignSymmetric (Fl (Rounding.binary64 ℝ)) ∧ SignSymmetric (Ex ℝ) :=
  ⟨fun _ _ _ _ _ L => signSymmetric L, signSymmetric (binary64_lawful ℝ), signSymmetric exact_lawful⟩

section
variable {K : Type} [Field K] [LinearOrder K] [IsStrictOrderedRing K] [LawfulRoots K]

private theorem exact_sub_right_comm (a b c : Ext K) :
    Fl.add (Rounding.exact K) (Fl.add (Rounding.exact K) a b.neg) c.neg = Fl.add (Rounding.exact K) (Fl.add (Rounding.exact K) a c.neg) b.neg := by
  rcases a with a | _ | _ | _ <;> rcases b with b | _ | _ | _ <;> rcases c with c | _ | _ | _ <;> try rfl
  show Ext.fin _ = Ext.fin _
  congr 1
  ring

/-- **C77.** The money flow of the mirrored market is negated, if nothing is rounded. -/
theorem C77_money_flow (n : Nat) :
    BarsMirror (α := Ex K) (Option.map Neg.neg) ChaikinMoneyFlow.next (ChaikinMoneyFlow.new n) ChaikinMoneyFlow.next (ChaikinMoneyFlow.new n) := by
  have Y : SignSymmetric (Ex K) := signSymmetric exact_lawful
  refine .of _ (fun s h => ?_) fun _ _ _ _ h => Y.cmf (fun a b c => exact_sub_right_comm a b c) h
  unfold ChaikinMoneyFlow.new at h
  obtain ⟨a, ha, h⟩ := Res.bind_ok h
  obtain ⟨b, hb, h⟩ := Res.bind_ok h
  cases h
  rw [ha] at hb
  cases hb
  have e : a.rescale Neg.neg = a := (Y.linear.new_sum n).state ha
  simp [ChaikinMoneyFlow.new, ha, ChaikinMoneyFlow.reflect, e]

private theorem signals_turn {p : Nat → K} {N : Nat} {sig sig' : Nat → Option TradeDirection} (h : RsiSignals p N sig)
    (h' : RsiSignals (fun t => -p t) N sig') (t : Nat) (ht : t < N) : sig' t = (sig t).map opposite := by
  have a1 := h.long t ht
  have a2 := h.short t ht
  have b1 := h'.long t ht
  have b2 := h'.short t ht
  have eg : ∀ t, avgGain 14 (fun t => -p t) t = avgLoss 14 p t := fun t => by unfold avgGain avgLoss; rw [gain_neg]
  have el : ∀ t, avgLoss 14 (fun t => -p t) t = avgGain 14 p t := fun t => by unfold avgGain avgLoss; rw [loss_neg]
  simp only [eg, el, and_comm (a := avgLoss 14 p (t - 1) = 0)] at b1 b2
  rw [← a2] at b1
  rw [← a1] at b2
  cases e : sig t with
  | none =>
    cases e' : sig' t with
    | none => rfl
    | some x =>
      cases x with
      | long => rw [e] at b1; exact absurd (b1.mp e') (by simp)
      | short => rw [e] at b2; exact absurd (b2.mp e') (by simp)
  | some x =>
    cases x with
    | long => rw [b2.mpr e]; rfl
    | short => rw [b1.mpr e]; rfl

private theorem rsiAt_turn (p : Nat → K) (t : Nat) : rsiAt (fun t => -p t) t = lit 100 - rsiAt p t := by
  have eg : avgGain 14 (fun t => -p t) t = avgLoss 14 p t := by unfold avgGain avgLoss; rw [gain_neg]
  have el : avgLoss 14 (fun t => -p t) t = avgGain 14 p t := by unfold avgGain avgLoss; rw [loss_neg]
  unfold rsiAt
  rw [eg, el]
  have hu : 0 ≤ avgGain 14 p t := wilder_nonneg (by norm_num) (fun _ => le_max_right _ _) _
  have hd : 0 ≤ avgLoss 14 p t := wilder_nonneg (by norm_num) (fun _ => le_max_right _ _) _
  generalize avgGain 14 p t = u at *
  generalize avgLoss 14 p t = w at *
  by_cases h : u = 0 ∧ w = 0
  · rw [if_pos h, if_pos h.symm]
    rw [fin_lit]
    rfl
  · rw [if_neg h, if_neg (fun e => h e.symm), fin_lit, fin_sub]
    have h0 : u + w ≠ 0 := fun e => h ⟨by linarith, by linarith⟩
    have h1 : w + u ≠ 0 := by rwa [add_comm]
    congr 1
    field_simp
    push_cast
    ring

/-- **C77.** The project's example program on the mirrored market, in exact arithmetic: the RSI counts from the other end, every signal
turns around, and the equity and all metrics are the same on every tick. -/
theorem C77_example {d : DataProvider (Ex K)} {N : Nat} {o h l c v : Nat → K} (hb : ExBars d N o h l c v) :
    ∃ (sig : Nat → Option TradeDirection) (st st' : Nat → Strategy (Ex K)) (tv : Nat → TvMetrics (Ex K)), RsiSignals c N sig ∧
      Runs (noInput fun t => Program.next RelativeStrengthIndex.defaultNext ThresholdStrategy.next ⟨d, t⟩)
        (Program.new RelativeStrengthIndex.default (RelativeStrengthIndexStrategy.new exampleThresholds) exampleConfig (lit 0)) unit N
        (fun t => (startAt 14 (rsiAt c) t, sig t, st t, tv t)) ∧
      Runs (noInput fun t => Program.next RelativeStrengthIndex.defaultNext ThresholdStrategy.next ⟨d.mirror, t⟩)
        (Program.new RelativeStrengthIndex.default (RelativeStrengthIndexStrategy.new exampleThresholds) exampleConfig (lit 0)) unit N
        (fun t => (startAt 14 (fun t => lit 100 - rsiAt c t) t, (sig t).map opposite, st' t, tv t)) ∧
      ∀ t, t < N → MirroredBooks (Valued.unsigned _) (st t) (st' t) := by
  obtain ⟨sig, hs, hrule⟩ := example_signals c N
  obtain ⟨sig', hs', hrule'⟩ := example_signals (fun t => -c t) N
  have hs'' := hs'.congr (y' := fun t => (sig t).map opposite) (signals_turn hrule hrule')
  obtain ⟨st, tv, hst, htv, hrun⟩ := C65_program hb (example_rsi hb) hs exampleConfig (lit 0)
  obtain ⟨em, hem⟩ := (C57_equity_metrics hst).mpr fun t ht _ => ⟨⟨fin (l t), hb.low t ht⟩, fin (h t), hb.high t ht⟩
  have hf : (exampleConfig : StrategyConfig (Ex K)).buyWithEquity = false := rfl
  obtain ⟨st', hst', -, htv'⟩ := C72_mirror_metrics exact_lawful hf hst hem htv
  obtain ⟨st'', hst'', hm⟩ := C72_mirror_backtest (Valued.unsigned (Rounding.exact K)) exact_lawful hf hst
  have e : rsiAt (fun t => -c t) = fun t => lit 100 - rsiAt c t := funext (rsiAt_turn c)
  have hy := example_rsi (exBars_mirror hb)
  rw [e] at hy hs''
  refine ⟨sig, st, st', tv, hrule, hrun, program_runs hy hs'' _ _ hst' htv', fun t ht => ?_⟩
  rw [Runs.unique hst' hst'' t ht]
  exact hm t ht

end

/-! ## The hypotheses are met -/

/-- Five rising and falling bars are exact bars, and their closes move. -/
example : ∃ o h l c v : Nat → ℝ, ExBars realBars 5 o h l c v ∧ Moves c 2 ∧ ∀ t, t + 1 < 5 → c (t + 1) ≠ c t :=
  ⟨_, _, _, _, _, bars_ofSeries 5 _ _ _ _ _, ⟨1, by norm_num, by norm_num⟩, fun t ht => by
    rcases t with _ | _ | _ | _ | t
    · norm_num
    · norm_num
    · norm_num
    · norm_num
    · omega⟩

/-- A program of Aroon and its strategy on these bars meets the hypotheses of `C77_program`. -/
example : ∃ (y : Nat → Option (Ex ℝ) × Option (Ex ℝ)) (sig : Nat → Option TradeDirection) (st st' : Nat → Strategy (Ex ℝ)) (tv : Nat → TvMetrics (Ex ℝ)),
    Runs (noInput fun t => Program.next Aroon.next AroonStrategy.next ⟨realBars, t⟩) (Program.new (Aroon.new 2) .new exampleConfig (lit 0)) unit 5
      (fun t => (y t, sig t, st t, tv t)) ∧
    Runs (noInput fun t => Program.next Aroon.next AroonStrategy.next ⟨realBars.mirror, t⟩) (Program.new (Aroon.new 2) .new exampleConfig (lit 0)) unit 5
      (fun t => (((y t).2, (y t).1), (sig t).map opposite, st' t, tv t)) := by
  have hb : Bars realBars 5 _ _ _ _ _ := bars_ofSeries 5 _ _ _ _ _
  obtain ⟨y, z, hy, _⟩ := C63_aroon hb (len := 2) (by norm_num)
  have P := (C77_programs (R := Rounding.exact ℝ) exact_lawful 2 2 (lit 0) ⟨lit 0, lit 0⟩ .close ⟨by simp, by simp⟩).1
  obtain ⟨sig, hs⟩ := total_runs AroonStrategy.next .new (fun t => (y t, z t)) 5
  obtain ⟨st, st', tv, h1, h2, _⟩ := C77_program exact_lawful P.1 P.2 hb hy hs exampleConfig rfl (lit 0)
  exact ⟨_, sig, st, st', tv, h1, h2⟩

end Pace
