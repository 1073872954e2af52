import Verif.Lemmas.ScheduleContent
import Verif.Lemmas.ScheduleStrategy
import Verif.Props.Causal
import Verif.Props.Signals
import Verif.Props.Strategy2

/-!
# C78: components that are not called on every bar from the first one on

Every component reads the bar number from the shared context and keeps its own state, so *when* it is called matters.  `StartsAfter k`
says that a component created during the run is as good as one created at the first bar of the data that starts there, as long as at least
`k` bars lie before its first call.
-/

set_option linter.unusedSectionVars false

namespace Pace
open Spec
variable {α : Type} [F64 α]

/-! ## Starting later -/

/-- **C78** Running sums, averages, deviations, RSI and differences may be started at any bar: nothing before it matters and nothing of
their result depends on the bar number. -/
theorem C78_start_anywhere (n : Nat) (a : α) (biased : Bool) :
    StartsAfter 0 Sma.next (Sma.new (α := α) n) ∧ StartsAfter 0 Sum.next (Sum.new (α := α) n) ∧
    StartsAfter 0 Ema.next (Ema.new (α := α) n) ∧ StartsAfter 0 Ema.next (Ema.withAlpha n a) ∧
    StartsAfter 0 Rma.next (Rma.new (α := α) n) ∧ StartsAfter 0 Dev.next (Dev.new (α := α) n) ∧
    StartsAfter 0 Stdev.next (Stdev.new (α := α) n biased) ∧ StartsAfter 0 Rsi.next (Rsi.new (α := α) n) ∧
    StartsAfter (α := α) 0 (anyCtx Change.next) (Change.new (α := α) n) ∧ StartsAfter (α := α) 0 (anyCtx Roc.next) (Roc.new (α := α) n) :=
  ⟨startsAfter (smaC n), startsAfter (sumC n), startsAfter (emaC n),
    startsAfter ⟨fun s => EmaLater s, ema_follows, fun s i st h => ema_start h s i⟩,
    startsAfter (rmaC n), startsAfter (devC n), startsAfter (stdevC n biased), startsAfter (rsiC n),
    startsAfter (.ofAnyCtx 0 _ _), startsAfter (.ofAnyCtx 0 _ _)⟩

/-- **C78** The components that decide by the bar number whether their window is full may be started as soon as a full window of bars lies
behind (`length - 1` bars before, `length` for the percent rank, three for the symmetrically weighted average, one for the true range). -/
theorem C78_start_window (n : Nat) (na : Bool) :
    StartsAfter (n - 1) Wma.next (Wma.new (α := α) n) ∧ StartsAfter 3 Swma.next (Swma.new (α := α)) ∧
    StartsAfter (n - 1) Highest.next (Highest.new (α := α) n) ∧ StartsAfter (n - 1) Lowest.next (Lowest.new (α := α) n) ∧
    StartsAfter n Prank.next (Prank.new (α := α) n) ∧ StartsAfter (n - 1) Stoch.next (Stoch.new (α := α) n) ∧
    StartsAfter (α := α) (n - 1) (barsOnly HighestBars.next) (HighestBars.new n) ∧
    StartsAfter (α := α) (n - 1) (barsOnly LowestBars.next) (LowestBars.new n) ∧
    StartsAfter (α := α) 1 (noState fun c => Tr.next c na) (.ok ()) ∧ StartsAfter 1 (barsOnly Atr.next) (Atr.new (α := α) n) :=
  ⟨startsAfter (wmaC n), startsAfter swmaC, startsAfter (highestC n), startsAfter (lowestC n), startsAfter (prankC n), startsAfter (stochC n),
    startsAfter (highestBarsC n), startsAfter (lowestBarsC n), startsAfter (.ofNoState 1 _ fun _ _ _ hl => tr_later hl le_rfl na),
    startsAfter (atrC n)⟩

/-- **C78** Every indicator, fed by its own source, may be started at any bar with the stated number of bars before it. -/
theorem C78_start_indicators (n m p q : Nat) (x : α) (k : SrcKind) :
    StartsAfter (α := α) (n - 1) (barsOnly Aroon.next) (Aroon.new n) ∧
    StartsAfter (α := α) 0 (noState BalanceOfPower.next) (.ok ()) ∧
    StartsAfter 0 (barsOnly (withSrc k BollingerBandsPercentB.next)) (BollingerBands.new n x) ∧
    StartsAfter 0 (barsOnly (withSrc k BollingerBandsWidth.next)) (BollingerBands.new n x) ∧
    StartsAfter (α := α) 0 (barsOnly ChaikinMoneyFlow.next) (ChaikinMoneyFlow.new n) ∧
    StartsAfter (max 1 (max p q - 1)) (barsOnly ChandeKrollStop.next) (ChandeKrollStop.new p q x) ∧
    StartsAfter (α := α) 0 (barsOnly (withSrc k ChandeMomentumOscillator.next)) (ChandeMomentumOscillator.new n) ∧
    StartsAfter (α := α) (max 1 (n - 1)) (barsOnly ChoppinessIndex.next) (ChoppinessIndex.new n) ∧
    StartsAfter (α := α) 0 (barsOnly (withSrc k CommodityChannelIndex.next)) (CommodityChannelIndex.new n) ∧
    StartsAfter (α := α) p (barsOnly (withSrc k ConnorsRsi.next)) (ConnorsRsi.new n m p) ∧
    StartsAfter (α := α) (n - 1) (barsOnly (withSrc k CoppockCurve.next)) (CoppockCurve.new n m p) ∧
    StartsAfter (α := α) 1 (barsOnly Dmi.next) (Dmi.new n m) ∧
    StartsAfter (α := α) (n - 1) (barsOnly DonchianChannels.next) (DonchianChannels.new n) ∧
    StartsAfter (α := α) 0 (barsOnly (withSrc k RelativeStrengthIndex.next)) (Rsi.new n) ∧
    StartsAfter (α := α) 3 (barsOnly RelativeVigorIndex.next) (RelativeVigorIndex.new n) ∧
    StartsAfter (α := α) 0 (barsOnly (withSrc k RelativeVolatilityIndex.next)) (RelativeVolatilityIndex.new n m) ∧
    StartsAfter (α := α) (m - 1) (barsOnly (withSrc k StochRsi.next)) (StochRsi.new n m p q) ∧
    StartsAfter (α := α) 1 (barsOnly UltimateOscillator.next) (UltimateOscillator.new n m p) ∧
    StartsAfter (α := α) 1 (barsOnly Vortex.next) (Vortex.new n) ∧
    StartsAfter (α := α) (n - 1) (barsOnly (withSrc k WilliamsPercentRank.next)) (WilliamsPercentRank.new n) :=
  ⟨startsAfter (aroonC n), startsAfter (.ofNoState 0 _ fun _ _ _ hl => balanceOfPower_later hl), startsAfter ((percentBC n x).withSrc k),
    startsAfter ((widthC n x).withSrc k), startsAfter (moneyFlowC n), startsAfter (chandeKrollC p q x),
    startsAfter ((chandeMomentumC n).withSrc k), startsAfter (choppinessC n), startsAfter ((channelC n).withSrc k),
    startsAfter ((connorsC n m p).withSrc k), startsAfter ((coppockC n m p).withSrc k), startsAfter (dmiC n m), startsAfter (donchianC n),
    startsAfter ((rsiC n).withSrc k), startsAfter (vigorC n), startsAfter ((volatilityC n m).withSrc k),
    startsAfter ((stochRsiC n m p q).withSrc k), startsAfter (ultimateC n m p), startsAfter (vortexC n), startsAfter ((williamsC n).withSrc k)⟩

/-- **C78** The four indicators over caller-chosen averages of any kind: three bars if one of them is the symmetrically weighted average,
none otherwise. -/
theorem C78_start_averages (k₁ k₂ k₃ : MaKind) (n m l : Nat) (s₁ s₂ : SrcKind) {k : Nat}
    (hk : (k₁ = .swma ∨ k₂ = .swma ∨ k₃ = .swma) → 3 ≤ k) :
    StartsAfter (α := α) k (barsOnly (withSrc2 s₁ s₂ AwesomeOscillator.next)) (do return ⟨← Ma.new k₁ n, ← Ma.new k₂ m, none⟩) ∧
    StartsAfter (α := α) k (barsOnly (withSrc2 s₁ s₂ Macd.next)) (do return ⟨← Ma.new k₁ n, ← Ma.new k₂ m, ← Ma.new k₃ l⟩) ∧
    StartsAfter (α := α) k (barsOnly (withSrc s₁ PriceOscillator.next)) (do return ⟨← Ma.new k₁ n, ← Ma.new k₂ m⟩) ∧
    StartsAfter (α := α) k (barsOnly VolumeOscillator.next) (do return ⟨← Ma.new k₁ n, ← Ma.new k₂ m⟩) := by
  have h (j : MaKind) (hj : j = .swma → 3 ≤ k) : maLookback j ≤ k := by
    cases j
    case swma => exact hj rfl
    all_goals exact Nat.zero_le _
  have c₁ := (maC (α := α) k₁ n).weaken (h k₁ fun e => hk (.inl e))
  have c₂ := (maC (α := α) k₂ m).weaken (h k₂ fun e => hk (.inr (.inl e)))
  have c₃ := (maC (α := α) k₃ l).weaken (h k₃ fun e => hk (.inr (.inr e)))
  exact ⟨startsAfter ((awesomeC c₁ c₂).withSrc2 s₁ s₂), startsAfter ((macdC c₁ c₂ c₃).withSrc2 s₁ s₂),
    startsAfter ((priceOscC c₁ c₂).withSrc s₁), startsAfter (volumeOscC c₁ c₂)⟩


/-- **C78** What is computed from a component's outputs alone — every signal of every strategy in `content/` — starts later together with
the component: same signals as on the data that starts there. -/
theorem C78_start_signals {S I M Q O : Type} {k : Nat} {next : Ctx α → S → I → Res (M × S)} {new : Res S} (h : StartsAfter k next new)
    (f : Q → M → O × Q) (q0 : Q) : StartsAfter k (pipe next fun _ => total f 0) (do return (← new, q0)) := by
  have key : ∀ (d : DataProvider α) (τ : Nat → Nat) (N : Nat) (x : Nat → I) (n t : Nat) (s : S) (q : Q),
      runFrom (fun i => pipe next (fun _ => total f 0) ⟨d, τ i⟩) x t n (s, q) =
        (runFrom (fun i => next ⟨d, τ i⟩) x t n s).map fun p =>
          ((p.1.foldl (fun (acc : List O × Q) m => (acc.1 ++ [(f acc.2 m).1], (f acc.2 m).2)) ([], q)).1, p.2,
            (p.1.foldl (fun (acc : List O × Q) m => (acc.1 ++ [(f acc.2 m).1], (f acc.2 m).2)) ([], q)).2) := by
    intro d τ N x n
    have app : ∀ (ms : List M) (os : List O) (q : Q),
        ms.foldl (fun (acc : List O × Q) m => (acc.1 ++ [(f acc.2 m).1], (f acc.2 m).2)) (os, q) =
          (os ++ (ms.foldl (fun (acc : List O × Q) m => (acc.1 ++ [(f acc.2 m).1], (f acc.2 m).2)) ([], q)).1,
            (ms.foldl (fun (acc : List O × Q) m => (acc.1 ++ [(f acc.2 m).1], (f acc.2 m).2)) ([], q)).2) := by
      intro ms
      induction ms with
      | nil => intro os q; simp
      | cons m ms ih =>
        intro os q
        simp only [List.foldl_cons]
        rw [ih, ih ([] ++ _)]
        simp
    induction n with
    | zero => intro t s q; rfl
    | succ n ih =>
      intro t s q
      simp only [runFrom, pipe, total]
      cases next ⟨d, τ t⟩ s (x t) with
      | error _ => rfl
      | ok p =>
        simp only [Res.ok_bind, Res.pure_eq]
        rw [ih]
        cases runFrom (fun i => next ⟨d, τ i⟩) x (t + 1) n p.2 with
        | error _ => rfl
        | ok r =>
          simp only [Except.map, Res.ok_bind, List.foldl_cons]
          rw [app r.1 ([] ++ _)]
          simp
  intro d s N x
  have e := h d s N x
  unfold calls at e ⊢
  cases new with
  | error _ => rfl
  | ok st =>
    simp only [outputs, run, Res.ok_bind, Res.pure_eq] at e ⊢
    rw [key d (fun i => s + (k + i)) N, key (d.cut s) (fun i => k + i) N]
    revert e
    cases runFrom (fun i => next ⟨d, s + (k + i)⟩) x 0 N st with
    | error _ =>
      cases runFrom (fun i => next ⟨d.cut s, k + i⟩) x 0 N st with
      | error _ => intro e; simpa using e
      | ok _ => intro e; cases e
    | ok a =>
      cases runFrom (fun i => next ⟨d.cut s, k + i⟩) x 0 N st with
      | error _ => intro e; cases e
      | ok b => intro e; have e : a.1 = b.1 := Except.ok.inj e; simp only [Except.map, Res.ok_bind]; rw [e]

/-- **C78** With no look-back the statement is about the ordinary run: the component created at bar `s` computes the series it would
compute on the data from bar `s` on. -/
theorem C78_start_runs {S I O : Type} {next : Ctx α → S → I → Res (O × S)} {new : Res S} (h : StartsAfter 0 next new) (d : DataProvider α)
    (s N : Nat) (x : Nat → I) (y : Nat → O) :
    Runs (fun i => next ⟨d, s + i⟩) new x N y ↔ Runs (fun t => next ⟨d.cut s, t⟩) new x N y := by
  have e := h d s N x
  unfold calls at e
  simp only [Nat.zero_add] at e
  unfold Runs
  rw [e]

/-- The RSI strategy started during the run, after any number of bars. -/
example (n : Nat) (th : Thresholds α) :
    StartsAfter (α := α) 0 (pipe (barsOnly (withSrc .close RelativeStrengthIndex.next)) fun _ => total ThresholdStrategy.next 0)
      (do return (← Rsi.new n, RelativeStrengthIndexStrategy.new th)) :=
  C78_start_signals (startsAfter ((rsiC n).withSrc .close)) _ _

end Pace
