import Verif.Lemmas.MissingContent
import Verif.Props.Causal
import Verif.Props.Schedule2

/-!
# C79: no assertion, no own index and no unsigned subtraction fails after construction

The crate indexes its own buffers, subtracts `usize` values (window starts, `length - 1`, `tick - last_none_tick`, …) and asserts in several
places.  With overflow checks a failure of any of these is a panic, without them the subtraction wraps around to a huge number.  None of
them can happen: whatever the data, the inputs (missing, infinite, not a number), the parameters accepted by the constructor and the bars at
which the component is called — as long as the bar index does not go back — the only panics are an `unwrap` of a missing value and a bar
index outside the data.
-/

set_option linter.unusedSectionVars false

namespace Pace
open Spec
variable {α : Type} [F64 α]

/-- **C79** The components of `ta`. -/
theorem C79_ta (n : Nat) (a : α) (biased na : Bool) (k : MaKind) :
    OnlyMissing Sma.next (Sma.new (α := α) n) ∧ OnlyMissing Sum.next (Sum.new (α := α) n) ∧
    OnlyMissing Ema.next (Ema.new (α := α) n) ∧ OnlyMissing Ema.next (Ema.withAlpha n a) ∧
    OnlyMissing Rma.next (Rma.new (α := α) n) ∧ OnlyMissing Wma.next (Wma.new (α := α) n) ∧
    OnlyMissing Swma.next (Swma.new (α := α)) ∧ OnlyMissing Ma.next (Ma.new (α := α) k n) ∧
    OnlyMissing Dev.next (Dev.new (α := α) n) ∧ OnlyMissing Stdev.next (Stdev.new (α := α) n biased) ∧
    OnlyMissing (α := α) (anyCtx Change.next) (Change.new (α := α) n) ∧ OnlyMissing (α := α) (anyCtx Roc.next) (Roc.new (α := α) n) ∧
    OnlyMissing Prank.next (Prank.new (α := α) n) ∧ OnlyMissing Highest.next (Highest.new (α := α) n) ∧
    OnlyMissing Lowest.next (Lowest.new (α := α) n) ∧ OnlyMissing (α := α) (barsOnly HighestBars.next) (HighestBars.new n) ∧
    OnlyMissing (α := α) (barsOnly LowestBars.next) (LowestBars.new n) ∧ OnlyMissing Stoch.next (Stoch.new (α := α) n) ∧
    OnlyMissing (α := α) (noState fun c => Tr.next c na) (.ok ()) ∧ OnlyMissing (barsOnly Atr.next) (Atr.new (α := α) n) ∧
    OnlyMissing Rsi.next (Rsi.new (α := α) n) :=
  ⟨(smaS n).only, (sumS n).only, (emaS n).only, (emaS' n a).only, (rmaS n).only, (wmaS n).only, swmaS.only, (maS k n).only, (devS n).only,
    (stdevS n biased).only, (changeS n).only, (rocS n).only, (prankS n).only, (highestS n).only, (lowestS n).only, (highestBarsS n).only,
    (lowestBarsS n).only, (stochS n).only, (Sound.ofNoState _ fun c => tr_good c na).only, (atrS n).only, (rsiS n).only⟩

/-- **C79** The sources. -/
theorem C79_src (k : SrcKind) : OnlyMissing (α := α) (noState fun c => Src.next c k) (.ok ()) :=
  (Sound.ofNoState _ fun _ => Good.src k).only

/-- **C79** Every indicator, fed by its own source. -/
theorem C79_indicators (n m p q : Nat) (x : α) (k : SrcKind) :
    OnlyMissing (α := α) (barsOnly Aroon.next) (Aroon.new n) ∧
    OnlyMissing (α := α) (noState BalanceOfPower.next) (.ok ()) ∧
    OnlyMissing (barsOnly (withSrc k BollingerBandsPercentB.next)) (BollingerBands.new n x) ∧
    OnlyMissing (barsOnly (withSrc k BollingerBandsWidth.next)) (BollingerBands.new n x) ∧
    OnlyMissing (α := α) (barsOnly ChaikinMoneyFlow.next) (ChaikinMoneyFlow.new n) ∧
    OnlyMissing (barsOnly ChandeKrollStop.next) (ChandeKrollStop.new p q x) ∧
    OnlyMissing (α := α) (barsOnly (withSrc k ChandeMomentumOscillator.next)) (ChandeMomentumOscillator.new n) ∧
    OnlyMissing (α := α) (barsOnly ChoppinessIndex.next) (ChoppinessIndex.new n) ∧
    OnlyMissing (α := α) (barsOnly (withSrc k CommodityChannelIndex.next)) (CommodityChannelIndex.new n) ∧
    OnlyMissing (α := α) (barsOnly (withSrc k ConnorsRsi.next)) (ConnorsRsi.new n m p) ∧
    OnlyMissing (α := α) (barsOnly (withSrc k CoppockCurve.next)) (CoppockCurve.new n m p) ∧
    OnlyMissing (α := α) (barsOnly Dmi.next) (Dmi.new n m) ∧
    OnlyMissing (α := α) (barsOnly DonchianChannels.next) (DonchianChannels.new n) ∧
    OnlyMissing (α := α) (barsOnly (withSrc k RelativeStrengthIndex.next)) (Rsi.new n) ∧
    OnlyMissing (α := α) (barsOnly RelativeVigorIndex.next) (RelativeVigorIndex.new n) ∧
    OnlyMissing (α := α) (barsOnly (withSrc k RelativeVolatilityIndex.next)) (RelativeVolatilityIndex.new n m) ∧
    OnlyMissing (α := α) (barsOnly (withSrc k StochRsi.next)) (StochRsi.new n m p q) ∧
    OnlyMissing (α := α) (barsOnly UltimateOscillator.next) (UltimateOscillator.new n m p) ∧
    OnlyMissing (α := α) (barsOnly Vortex.next) (Vortex.new n) ∧
    OnlyMissing (α := α) (barsOnly (withSrc k WilliamsPercentRank.next)) (WilliamsPercentRank.new n) :=
  ⟨(aroonS n).only, (Sound.ofNoState _ balanceOfPower_good).only, ((percentBS n x).withSrc k).only, ((widthS n x).withSrc k).only,
    (moneyFlowS n).only, (chandeKrollS p q x).only, ((chandeMomentumS n).withSrc k).only, (choppinessS n).only,
    ((channelS n).withSrc k).only, ((connorsS n m p).withSrc k).only, ((coppockS n m p).withSrc k).only, (dmiS n m).only, (donchianS n).only,
    ((rsiS n).withSrc k).only, (vigorS n).only, ((volatilityS n m).withSrc k).only, ((stochRsiS n m p q).withSrc k).only,
    (ultimateS n m p).only, (vortexS n).only, ((williamsS n).withSrc k).only⟩

/-- **C79** The four indicators over caller-chosen averages of any kind. -/
theorem C79_averages (k₁ k₂ k₃ : MaKind) (n m l : Nat) (s₁ s₂ : SrcKind) :
    OnlyMissing (α := α) (barsOnly (withSrc2 s₁ s₂ AwesomeOscillator.next)) (do return ⟨← Ma.new k₁ n, ← Ma.new k₂ m, none⟩) ∧
    OnlyMissing (α := α) (barsOnly (withSrc2 s₁ s₂ Macd.next)) (do return ⟨← Ma.new k₁ n, ← Ma.new k₂ m, ← Ma.new k₃ l⟩) ∧
    OnlyMissing (α := α) (barsOnly (withSrc s₁ PriceOscillator.next)) (do return ⟨← Ma.new k₁ n, ← Ma.new k₂ m⟩) ∧
    OnlyMissing (α := α) (barsOnly VolumeOscillator.next) (do return ⟨← Ma.new k₁ n, ← Ma.new k₂ m⟩) :=
  ⟨((awesomeS (maS k₁ n) (maS k₂ m)).withSrc2 s₁ s₂).only, ((macdS (maS k₁ n) (maS k₂ m) (maS k₃ l)).withSrc2 s₁ s₂).only,
    ((priceOscS (maS k₁ n) (maS k₂ m)).withSrc s₁).only, (volumeOscS (maS k₁ n) (maS k₂ m)).only⟩

/-! ## The strategy runner and the metrics -/

private theorem pnl_good (c : Ctx α) (t : Trade α) (p : α) : Good c (fun _ => True) (t.pnl p) :=
  (Good.unwrap' _).step fun _ => (Good.unwrap' _).step fun _ => trivial

private theorem closeLast_good (c : Ctx α) (s : Strategy α) (t : Trade α) (p : Option α) (n : Nat) :
    Good c (fun _ => True) (s.closeLast t p n) :=
  (Good.unwrap' _).step fun _ => (pnl_good c _ _).step fun _ => trivial

private theorem openNew_good (c : Ctx α) (s : Strategy α) (dir : TradeDirection) (p : Option α) (n : Nat) :
    Good c (fun _ => True) (s.openNew dir p n) := by
  unfold Strategy.openNew
  dsimp only
  split
  · exact (Good.unwrap' _).step fun _ => trivial
  · exact trivial

private theorem fill_good (c : Ctx α) (s : Strategy α) (dir : TradeDirection) (n : Nat) (o cl : Option α) :
    Good c (fun _ => True) (s.fill dir n o cl) := by
  have hop (s : Strategy α) (b : Bool) (p : Option α) : Good c (fun _ => True)
      (if b then do let s ← s.openNew dir p n; pure { s with unfilled := none } else do let s ← pure s; pure { s with unfilled := none } :
        Res (Strategy α)) := by
    cases b
    · exact trivial
    · exact (openNew_good c s dir p n).step fun _ => trivial
  unfold Strategy.fill
  cases hl : s.trades.getLast? with
  | none =>
    simp only [Res.pure_eq, Res.ok_bind]
    exact openNew_good c s dir _ n |>.step fun _ => trivial
  | some last =>
    by_cases hc : (!decide (last.direction = dir) && !last.isClosed) = true
    · simp only [hc, if_true]
      refine (closeLast_good c s last _ n).step fun s' => ?_
      simp only [Res.pure_eq, Res.ok_bind]
      exact hop s' _ _
    · simp only [hc, Bool.false_eq_true, if_false, Res.pure_eq, Res.ok_bind]
      exact hop s _ _

private theorem mark_good (c : Ctx α) (s : Strategy α) (cl : Option α) : Good c (fun _ => True) (s.markToMarket cl) := by
  unfold Strategy.markToMarket
  cases s.trades.getLast? with
  | none => exact trivial
  | some last =>
    dsimp only
    split
    · exact (Good.unwrap' _).step fun _ => (pnl_good c _ _).step fun _ => trivial
    · exact trivial

private theorem next_good (c : Ctx α) (s : Strategy α) (dir : Option TradeDirection) : Good c (fun _ => True) (s.next c dir) := by
  unfold Strategy.next
  refine Good.barOpen.step fun o => Good.barClose.step fun cl => ?_
  dsimp only
  split
  · exact (fill_good c _ _ _ o cl).step fun _ => mark_good c _ cl
  · exact mark_good c _ cl

/-- **C79** The strategy runner, whatever signals it is given. -/
theorem C79_strategy (cfg : StrategyConfig α) : OnlyMissing runner (.ok (Strategy.new cfg)) :=
  Sound.only ⟨fun _ _ => True, fun _ _ => trivial, fun c s v _ => (next_good c s v).step fun _ => trivial, fun _ _ => trivial,
    fun e he => by cases he⟩

private theorem equity_good (c : Ctx α) (s : EquityMetrics α) (st : Strategy α) : Good c (fun _ => True) (s.next c st) := by
  unfold EquityMetrics.next
  cases st.trades.getLast? with
  | none => exact trivial
  | some last =>
    dsimp only
    split
    · refine Good.barLow.step fun _ => (Good.unwrap' _).step fun _ => Good.barHigh.step fun _ => (Good.unwrap' _).step fun _ => ?_
      exact (pnl_good c _ _).step fun _ => (pnl_good c _ _).step fun _ => trivial
    · exact trivial

private theorem tv_good (c : Ctx α) (s : TvMetrics α) (st : Strategy α) : Good c (fun _ => True) (s.next c st) :=
  (equity_good c _ st).step fun _ => trivial

private theorem cobra_good (c : Ctx α) (y : Option Int) (s : CobraMetrics α) (st : Strategy α) : Good c (fun _ => True) (s.next c y st) := by
  have key (s : CobraMetrics α) (r : α) : Good c (fun _ => True) (match s.returnsStartYear with
      | some y0 => do
        let by_ ← unwrap y
        if by_ < y0 then return s
        return s.onReturns r
      | none => return s.onReturns r : Res (CobraMetrics α)) := by
    cases s.returnsStartYear with
    | none => exact trivial
    | some y0 =>
      refine (Good.unwrap' y).step fun b => ?_
      split <;> exact trivial
  unfold CobraMetrics.next
  cases st.events.onTradeExit with
  | none => exact (equity_good c _ st).step fun em => key _ _
  | some e => exact ((Good.unwrap' _).step fun _ => trivial : Good c (fun _ => True) (s.onExit st e)).step fun s => (equity_good c _ st).step fun em => key _ _

/-- **C79** The metrics, fed with any strategy states (and, for the monthly ones, any years). -/
theorem C79_metrics (st : Strategy α) (a : α) (est : Bool) (y0 : Option Int) :
    OnlyMissing (α := α) (fun c s st => do let s ← EquityMetrics.next c s st; return (s, s)) (.ok (EquityMetrics.new a)) ∧
    OnlyMissing (α := α) (fun c s st => do let s ← TvMetrics.next c s st; return (s, s)) (.ok (TvMetrics.new st a)) ∧
    OnlyMissing (α := α) (fun c s (i : Option Int × Strategy α) => do let s ← CobraMetrics.next c i.1 s i.2; return (s, s))
      (.ok (CobraMetrics.new st est y0)) :=
  ⟨Sound.only ⟨fun _ _ => True, fun _ _ => trivial, fun c s v _ => (equity_good c s v).step fun _ => trivial, fun _ _ => trivial,
      fun e he => by cases he⟩,
    Sound.only ⟨fun _ _ => True, fun _ _ => trivial, fun c s v _ => (tv_good c s v).step fun _ => trivial, fun _ _ => trivial,
      fun e he => by cases he⟩,
    Sound.only ⟨fun _ _ => True, fun _ _ => trivial, fun c s v _ => (cobra_good c v.1 s v.2).step fun _ => trivial, fun _ _ => trivial,
      fun e he => by cases he⟩⟩

/-! ## Consequences -/

/-- **C79** In particular: no constructor and no call at bars that do not go back subtracts below zero … -/
theorem C79_no_underflow {S I O : Type} {next : Ctx α → S → I → Res (O × S)} {new : Res S} (h : OnlyMissing next new)
    (d : DataProvider α) {τ : Nat → Nat} (hτ : Monotone τ) (x : Nat → I) (N : Nat) : calls next new d τ x N ≠ .error .underflow := by
  intro he
  cases hn : new with
  | error e =>
    have := h.1 e hn
    subst this
    rw [hn] at he
    cases he
  | ok st =>
    obtain ⟨i, _, h1 | h1⟩ := h.2 st hn d τ hτ x N _ he
    · cases h1
    · cases h1.1

/-- **C79** … and as long as the bars are inside the data, the only panic left is the `unwrap` of a missing value. -/
theorem C79_inside {S I O : Type} {next : Ctx α → S → I → Res (O × S)} {new : Res S} (h : OnlyMissing next new) {st : S} (hn : new = .ok st)
    (d : DataProvider α) {τ : Nat → Nat} (hτ : Monotone τ) {N : Nat} (hb : ∀ i < N, HasBar ⟨d, τ i⟩) (x : Nat → I) :
    (∃ l, calls next new d τ x N = .ok l) ∨ calls next new d τ x N = .error .unwrapNone := by
  cases hc : calls next new d τ x N with
  | ok l => exact .inl ⟨l, rfl⟩
  | error e =>
    right
    obtain ⟨i, hi, h1 | h1⟩ := h.2 st hn d τ hτ x N e hc
    · rw [h1]
    · exact absurd (hb i hi) h1.2

/-! ## Concrete cases -/

private def nowhere : DataProvider (Ex ℚ) := ⟨[], [], [], [], [], [], 0, 0⟩
private def q (v : ℚ) : Option (Ex ℚ) := some (fin v)

/-- **C79** The bars must not go back: a component called at bar 5 with a missing value and then at bar 2 subtracts `2 - 5` (with a forward
schedule it does not).  So one component must not be shared between two passes over the data without being rebuilt. -/
theorem C79_backwards :
    calls Sma.next (Sma.new 3) nowhere (fun i => [5, 2].getD i 0) (fun i => [none, q 1].getD i none) 2 = .error .underflow ∧
    calls Sum.next (Sum.new 3) nowhere (fun i => [5, 2].getD i 0) (fun i => [none, q 1].getD i none) 2 = .error .underflow ∧
    calls Sma.next (Sma.new 3) nowhere (fun i => [2, 5].getD i 0) (fun i => [none, q 1].getD i none) 2 = .ok [none, none] := by
  decide +kernel

/-- Both kinds of panic in the statement do occur: a bar outside the data, and a missing value after the average has been seeded. -/
example :
    calls (barsOnly Vortex.next) (Vortex.new 2) nowhere id unit 1 = .error .outOfBounds ∧
    calls Ema.next (Ema.new 2) nowhere id (fun i => [q 1, q 2, none].getD i none) 3 = .error .unwrapNone ∧
    (calls Ema.next (Ema.new 0) nowhere id (fun i => [q 1].getD i none) 1 : Res (List (Option (Ex ℚ)))) = .error .assertFailed := by
  decide +kernel

end Pace
