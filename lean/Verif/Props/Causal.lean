import Verif.Lemmas.Causal
import Verif.Lemmas.TaExact

/-!
# C51: no look-ahead
-/

set_option linter.unusedSectionVars false

namespace Pace
variable {α : Type}

/-- On tick `t` the result of `next` (output, new state, or panic) is determined by its state, its input and the bars
`0, ..., t`: two data sets that agree on those bars give the same. -/
def Spec.NoLookAhead {S I O : Type} (next : Ctx α → S → I → Res (O × S)) : Prop :=
  ∀ (t : Nat) (d d' : DataProvider α), AgreeUpTo (t + 1) d d' → ∀ s i, next ⟨d, t⟩ s i = next ⟨d', t⟩ s i

/-- The same for a component without input. -/
def Spec.NoLookAhead' {S O : Type} (next : Ctx α → S → Res (O × S)) : Prop :=
  NoLookAhead fun c s (_ : Unit) => next c s

/-- A component that feeds its outputs to a second one on the same tick, e.g. an indicator and its strategy. -/
def Spec.pipe {S₁ S₂ I M O : Type} (first : Ctx α → S₁ → I → Res (M × S₁)) (second : Ctx α → S₂ → M → Res (O × S₂))
    (c : Ctx α) (s : S₁ × S₂) (i : I) : Res (O × S₁ × S₂) := do
  let (m, s₁) ← first c s.1 i
  let (o, s₂) ← second c s.2 m
  return (o, s₁, s₂)

/-- The strategy runner as a component whose output is its complete public state. -/
def Spec.runner [F64 α] (c : Ctx α) (s : Strategy α) (dir : Option TradeDirection) : Res (Strategy α × Strategy α) := do
  let s ← s.next c dir
  return (s, s)

open Spec

theorem noLookAhead_of_sameView {S I O : Type} {next : Ctx α → S → I → Res (O × S)}
    (h : ∀ c c', SameView c c' → next c = next c') : NoLookAhead next := fun t _ _ ha s i => by
  rw [h _ _ (sameView_of_agree ha (Nat.lt_succ_self t))]

theorem Spec.AgreeUpTo.mono {n m : Nat} {d d' : DataProvider α} (ha : AgreeUpTo n d d') (h : m ≤ n) : AgreeUpTo m d d' :=
  ⟨fun t ht => ha.open_ t (by omega), fun t ht => ha.high t (by omega), fun t ht => ha.low t (by omega),
    fun t ht => ha.close t (by omega), fun t ht => ha.volume t (by omega), fun t ht => ha.time t (by omega)⟩

/-- **C51.** A component without look-ahead returns, however it was created, the same outputs over the first `n` ticks (or
panics in the same way) on two data sets that agree on the first `n` bars, when it is given the same inputs on those ticks.
Later bars and later inputs are arbitrary. -/
theorem C51_outputs {S I O : Type} {next : Ctx α → S → I → Res (O × S)} (h : NoLookAhead next) (s0 : Res S) (n : Nat)
    (d d' : DataProvider α) (ha : AgreeUpTo n d d') (x x' : Nat → I) (hx : ∀ t, t < n → x t = x' t) :
    outputs (fun t => next ⟨d, t⟩) x n s0 = outputs (fun t => next ⟨d', t⟩) x' n s0 :=
  outputs_congr (fun t ht => by funext s i; exact h t d d' (ha.mono (by omega)) s i) hx s0

/-- **C51.** Chaining components (source, indicator, indicator strategy, strategy runner, metrics) introduces no look-ahead. -/
theorem C51_pipe {S₁ S₂ I M O : Type} {first : Ctx α → S₁ → I → Res (M × S₁)} {second : Ctx α → S₂ → M → Res (O × S₂)}
    (h1 : NoLookAhead first) (h2 : NoLookAhead second) : NoLookAhead (pipe first second) := fun t d d' ha s i => by
  unfold pipe
  rw [h1 t d d' ha]
  congr 1
  funext p
  show (second ⟨d, t⟩ s.2 p.1 >>= _) = (second ⟨d', t⟩ s.2 p.1 >>= _)
  rw [h2 t d d' ha]

variable [F64 α]

private theorem aux' {S O : Type} {next : Ctx α → S → Res (O × S)} (h : ∀ c c', SameView c c' → next c = next c') :
    NoLookAhead' next := noLookAhead_of_sameView fun c c' hc => by funext s _; rw [h c c' hc]

/-- **C51.** The first `n` outputs of a longer run are the outputs of the run of `n` ticks: the past is never revised. -/
theorem C51_prefix {S I O : Type} (step : Nat → S → I → Res (O × S)) (x : Nat → I) (s0 : Res S) (n m : Nat) (os : List O)
    (h : outputs step x (n + m) s0 = .ok os) : outputs step x n s0 = .ok (os.take n) := by
  cases s0 with
  | error e => simp [outputs] at h
  | ok s =>
    simp only [outputs, run, Res.ok_bind, runFrom_append] at h ⊢
    cases h1 : runFrom step x 0 n s with
    | error e => simp [h1] at h
    | ok p =>
      have hl := runFrom_length step x n 0 s p.1 p.2 h1
      simp only [h1, Res.ok_bind, Nat.zero_add] at h ⊢
      cases h2 : runFrom step x n m p.2 with
      | error e => simp [h2] at h
      | ok q =>
        simp only [h2, Res.ok_bind, Res.pure_eq, Except.ok.injEq] at h ⊢
        rw [← h, List.take_left' hl]

/-- **C51.** Technical analysis components with an input. -/
theorem C51_ta : NoLookAhead (α := α) Sma.next ∧ NoLookAhead (α := α) Sum.next ∧ NoLookAhead (α := α) Ema.next ∧
    NoLookAhead (α := α) Rma.next ∧ NoLookAhead (α := α) Wma.next ∧ NoLookAhead (α := α) Swma.next ∧
    NoLookAhead (α := α) Ma.next ∧ NoLookAhead (α := α) Dev.next ∧ NoLookAhead (α := α) Stdev.next ∧
    NoLookAhead (α := α) Prank.next ∧ NoLookAhead (α := α) Highest.next ∧ NoLookAhead (α := α) Lowest.next ∧
    NoLookAhead (α := α) Stoch.next ∧ NoLookAhead (α := α) Rsi.next ∧ NoLookAhead (α := α) WindowValidator.next :=
  ⟨noLookAhead_of_sameView fun _ _ h => h.sma, noLookAhead_of_sameView fun _ _ h => h.sum,
    noLookAhead_of_sameView fun _ _ h => h.ema, noLookAhead_of_sameView fun _ _ h => h.rma,
    noLookAhead_of_sameView fun _ _ h => h.wma, noLookAhead_of_sameView fun _ _ h => h.swma,
    noLookAhead_of_sameView fun _ _ h => h.ma, noLookAhead_of_sameView fun _ _ h => h.dev,
    noLookAhead_of_sameView fun _ _ h => h.stdev, noLookAhead_of_sameView fun _ _ h => h.prank,
    noLookAhead_of_sameView fun _ _ h => h.highest, noLookAhead_of_sameView fun _ _ h => h.lowest,
    noLookAhead_of_sameView fun _ _ h => h.stoch, noLookAhead_of_sameView fun _ _ h => h.rsi,
    noLookAhead_of_sameView fun _ _ h => h.validator⟩

/-- **C51.** Technical analysis components that read the bars. -/
theorem C51_ta_bars : NoLookAhead' (α := α) HighestBars.next ∧ NoLookAhead' (α := α) LowestBars.next ∧
    NoLookAhead' (α := α) Atr.next ∧
    NoLookAhead' (α := α) (fun c (na : Bool) => do return (← Tr.next c na, na)) ∧
    NoLookAhead' (α := α) (fun c (k : SrcKind) => do return (← Src.next c k, k)) :=
  ⟨aux' fun _ _ h => h.highestBars, aux' fun _ _ h => h.lowestBars, aux' fun _ _ h => h.atr,
    aux' fun _ _ h => by rw [h.tr], aux' fun _ _ h => by rw [h.src]⟩

/-- **C51.** Content indicators that take a source value. -/
theorem C51_content : NoLookAhead (α := α) AwesomeOscillator.next ∧ NoLookAhead (α := α) BollingerBandsPercentB.next ∧
    NoLookAhead (α := α) BollingerBandsWidth.next ∧ NoLookAhead (α := α) ChandeMomentumOscillator.next ∧
    NoLookAhead (α := α) CommodityChannelIndex.next ∧ NoLookAhead (α := α) ConnorsRsi.next ∧
    NoLookAhead (α := α) CoppockCurve.next ∧ NoLookAhead (α := α) Macd.next ∧ NoLookAhead (α := α) PriceOscillator.next ∧
    NoLookAhead (α := α) RelativeStrengthIndex.next ∧ NoLookAhead (α := α) RelativeVolatilityIndex.next ∧
    NoLookAhead (α := α) StochRsi.next ∧ NoLookAhead (α := α) WilliamsPercentRank.next :=
  ⟨noLookAhead_of_sameView fun _ _ h => h.awesome, noLookAhead_of_sameView fun _ _ h => h.bbpb,
    noLookAhead_of_sameView fun _ _ h => h.bbw, noLookAhead_of_sameView fun _ _ h => h.cmo,
    noLookAhead_of_sameView fun _ _ h => h.cci, noLookAhead_of_sameView fun _ _ h => h.crsi,
    noLookAhead_of_sameView fun _ _ h => h.coppock, noLookAhead_of_sameView fun _ _ h => h.macd,
    noLookAhead_of_sameView fun _ _ h => h.priceOsc, noLookAhead_of_sameView fun _ _ h => h.rsiContent,
    noLookAhead_of_sameView fun _ _ h => h.rvi, noLookAhead_of_sameView fun _ _ h => h.stochRsi,
    noLookAhead_of_sameView fun _ _ h => h.williams⟩

/-- **C51, any averages.** With averages of the user's own that only read the context through its accessors (two contexts that agree
up to the current bar look the same to them), MACD and the three oscillators still do not look ahead. -/
theorem C51_any_averages {A B G : Type} {short : AnyMa α A} {long : AnyMa α B} {signal : AnyMa α G}
    (hs : ∀ c c', SameView c c' → short c = short c') (hl : ∀ c c', SameView c c' → long c = long c')
    (hg : ∀ c c', SameView c c' → signal c = signal c') :
    NoLookAhead (MacdOf.next short long signal) ∧ NoLookAhead (AwesomeOscillatorOf.next short long) ∧
      NoLookAhead (PriceOscillator.nextOf short long) ∧ NoLookAhead' (VolumeOscillator.nextOf short long) :=
  ⟨noLookAhead_of_sameView fun c c' h => by funext s v; unfold MacdOf.next; rw [hs c c' h, hl c c' h, hg c c' h],
    noLookAhead_of_sameView fun c c' h => by funext s v; unfold AwesomeOscillatorOf.next; rw [hs c c' h, hl c c' h],
    noLookAhead_of_sameView fun c c' h => by funext s v; unfold PriceOscillator.nextOf; rw [hs c c' h, hl c c' h],
    aux' fun c c' h => by funext s; unfold VolumeOscillator.nextOf; rw [hs c c' h, hl c c' h, h.barVolume]⟩

/-- The crate's own components are such averages. -/
example : (∀ c c' : Ctx α, SameView c c' → Wma.next c = Wma.next c') ∧ ∀ c c' : Ctx α, SameView c c' → Ma.next c = Ma.next c' :=
  ⟨fun _ _ h => h.wma, fun _ _ h => h.ma⟩

/-- **C51.** Content indicators that read the bars. -/
theorem C51_content_bars : NoLookAhead' (α := α) Aroon.next ∧
    NoLookAhead' (α := α) (fun c (s : Unit) => do return (← BalanceOfPower.next c, s)) ∧
    NoLookAhead' (α := α) ChaikinMoneyFlow.next ∧ NoLookAhead' (α := α) ChandeKrollStop.next ∧
    NoLookAhead' (α := α) ChoppinessIndex.next ∧ NoLookAhead' (α := α) Dmi.next ∧
    NoLookAhead' (α := α) DonchianChannels.next ∧ NoLookAhead' (α := α) RelativeVigorIndex.next ∧
    NoLookAhead' (α := α) UltimateOscillator.next ∧ NoLookAhead' (α := α) VolumeOscillator.next ∧
    NoLookAhead' (α := α) Vortex.next :=
  ⟨aux' fun _ _ h => h.aroon, aux' fun _ _ h => by rw [h.bop], aux' fun _ _ h => h.cmf, aux' fun _ _ h => h.cks,
    aux' fun _ _ h => h.chop, aux' fun _ _ h => h.dmi, aux' fun _ _ h => h.donchian, aux' fun _ _ h => h.rvgi,
    aux' fun _ _ h => h.ultimate, aux' fun _ _ h => h.volumeOsc, aux' fun _ _ h => h.vortex⟩

/-- **C51.** The strategy runner: trades, events, equity and all other public fields after each of the first `n` ticks. -/
theorem C51_strategy : NoLookAhead (α := α) runner :=
  noLookAhead_of_sameView fun _ _ h => by funext s i; unfold runner; rw [h.strategy]

/-- **C51.** The metrics, fed with the strategy's state on each tick. -/
theorem C51_metrics :
    NoLookAhead (α := α) (fun c s st => do let s ← EquityMetrics.next c s st; return (s, s)) ∧
    NoLookAhead (α := α) (fun c s st => do let s ← TvMetrics.next c s st; return (s, s)) ∧
    NoLookAhead (α := α) (fun c s (i : Option Int × Strategy α) => do
      let s ← CobraMetrics.next c i.1 s i.2; return (s, s)) :=
  ⟨noLookAhead_of_sameView fun _ _ h => by rw [h.equityMetrics], noLookAhead_of_sameView fun _ _ h => by rw [h.tv],
    noLookAhead_of_sameView fun _ _ h => by rw [h.cobra]⟩

/-- **C51.** With the project's own price sources the input, too, is read off the data without look-ahead. -/
theorem C51_with_src {S O : Type} (k : SrcKind) {next : Ctx α → S → Option α → Res (O × S)} (hn : NoLookAhead next) :
    NoLookAhead' (withSrc k next) := fun t d d' ha s _ => by
  simp only [withSrc, (sameView_of_agree ha (Nat.lt_succ_self t)).src]
  congr 1
  funext v
  exact hn t d d' ha s v

/-- **C51.** A complete backtest: RSI of the close, its threshold strategy, the runner, the TradingView metrics. -/
theorem C51_backtest (s0 : Res _) (n : Nat) (d d' : DataProvider α) (ha : AgreeUpTo n d d') :
    let backtest := pipe (pipe (pipe (fun c s (_ : Unit) => withSrc .close RelativeStrengthIndex.next c s)
      (fun _ s v => .ok (ThresholdStrategy.next s v))) runner)
      (fun c s (st : Strategy α) => do let s ← TvMetrics.next c s st; return ((st, s), s))
    outputs (fun t => backtest ⟨d, t⟩) unit n s0 = outputs (fun t => backtest ⟨d', t⟩) unit n s0 :=
  C51_outputs (C51_pipe (C51_pipe (C51_pipe (C51_with_src .close (noLookAhead_of_sameView fun _ _ h => h.rsiContent))
    (fun _ _ _ _ _ _ => rfl)) C51_strategy) (noLookAhead_of_sameView fun _ _ h => by funext s i; simp only [h.tv]))
    s0 n d d' ha unit unit fun _ _ => rfl

/-- A look-ahead would be noticed: reading the close of the next bar is rejected by the definition. -/
example : ¬ NoLookAhead (α := Ex ℚ) (fun c (s : Unit) (_ : Unit) => do return (← c.data.getClose (c.index + 1), s)) := by
  intro h
  have := h 0 (.ofSeries 2 unit' unit' unit' (fun _ => none) unit')
    (.ofSeries 2 unit' unit' unit' (fun t => if t = 1 then some (fin 1) else none) unit')
    ⟨fun _ _ => rfl, fun _ _ => rfl, fun _ _ => rfl, fun t ht => by
      have : t = 0 := by omega
      subst this; rfl, fun _ _ => rfl, fun _ _ => rfl⟩ () ()
  revert this
  decide +kernel

/-- Two data sets that differ from the third bar on agree up to two bars. -/
example (o h l c v o' h' l' c' v' : α) : AgreeUpTo 2
    (.ofSeries 3 (fun _ => some o) (fun _ => some h) (fun _ => some l) (fun _ => some c) (fun _ => some v))
    (.ofSeries 3 (fun t => some (if t = 2 then o' else o)) (fun t => some (if t = 2 then h' else h))
      (fun t => some (if t = 2 then l' else l)) (fun t => some (if t = 2 then c' else c))
      (fun t => some (if t = 2 then v' else v))) := by
  constructor <;> intro t ht <;>
    (obtain rfl | rfl : t = 0 ∨ t = 1 := by omega) <;> rfl

end Pace
