import Verif.Lemmas.ReflectContent2
import Verif.Props.Mirror2
import Verif.Props.UnitsTa

/-!
# The market seen upside down (C77)

Negate every price, so that highs become lows: indicators of direction change their sign or exchange their two lines, indicators of
strength do not change, signals turn around, and a program that trades on them earns the same money.
-/

set_option linter.unusedSectionVars false

namespace Pace
open Spec

section
variable {α : Type} [F64 α]

theorem Spec.Mirrors.of {S S' I I' O O' : Type} {i : I → I'} {o : O → O'} {next : Ctx α → S → I → Res (O × S)} {new : Res S}
    {next' : Ctx α → S' → I' → Res (O' × S')} {new' : Res S'} (r : S → S') (h0 : ∀ s, new = .ok s → new' = .ok (r s))
    (h : ∀ c s x y s1, next c s x = .ok (y, s1) → next' c.mirror (r s) (i x) = .ok (o y, r s1)) :
    Mirrors i o next new next' new' := fun d x N y hr => by
  obtain ⟨s, h1, hs⟩ := hr.trace
  exact Runs.of_trace (fun t => r (s t)) (h0 _ h1) fun t ht => h ⟨d, t⟩ _ _ _ _ (hs t ht)

theorem Spec.BarsMirror.of {S S' O O' : Type} {o : O → O'} {next : Ctx α → S → Res (O × S)} {new : Res S}
    {next' : Ctx α → S' → Res (O' × S')} {new' : Res S'} (r : S → S') (h0 : ∀ s, new = .ok s → new' = .ok (r s))
    (h : ∀ c s y s1, next c s = .ok (y, s1) → next' c.mirror (r s) = .ok (o y, r s1)) :
    BarsMirror o next new next' new' := fun d N y hr => by
  obtain ⟨s, h1, hs⟩ := hr.trace
  exact Runs.of_trace (fun t => r (s t)) (h0 _ h1) fun t ht => h ⟨d, t⟩ _ _ _ (hs t ht)

private theorem fixed {S : Type} {r : S → S} {new : Res S} (h : Fixed r new) : ∀ s, new = .ok s → new = .ok (r s) := fun s e => by
  rw [e, h.state e]

variable (Y : SignSymmetric α)
include Y

theorem withSrc_mirror {S S' O O' : Type} {o : O → O'} {next : Ctx α → S → Option α → Res (O × S)}
    {next' : Ctx α → S' → Option α → Res (O' × S')} {r : S → S'}
    (h : ∀ c s x y s1, next c s x = .ok (y, s1) → next' c.mirror (r s) (ng x) = .ok (o y, r s1))
    {k : SrcKind} (hk : k ≠ .volume ∧ k ≠ .ohlc4) (c : Ctx α) (s : S) (y : O) (s1 : S) (hn : withSrc k next c s = .ok (y, s1)) :
    withSrc k.mirror next' c.mirror (r s) = .ok (o y, r s1) := by
  unfold withSrc at hn ⊢
  obtain ⟨v, h1, h2⟩ := Res.bind_ok hn
  rw [Y.src hk.1 hk.2 h1]
  exact h c s v y s1 h2

theorem withSrc2_mirror {S S' O O' : Type} {o : O → O'} {next : Ctx α → S → Option α × Option α → Res (O × S)}
    {next' : Ctx α → S' → Option α × Option α → Res (O' × S')} {r : S → S'}
    (h : ∀ c s x y s1, next c s x = .ok (y, s1) → next' c.mirror (r s) (ng x.1, ng x.2) = .ok (o y, r s1))
    {k k₂ : SrcKind} (hk : k ≠ .volume ∧ k ≠ .ohlc4) (hl : k₂ ≠ .volume ∧ k₂ ≠ .ohlc4)
    (c : Ctx α) (s : S) (y : O) (s1 : S) (hn : withSrc2 k k₂ next c s = .ok (y, s1)) :
    withSrc2 k.mirror k₂.mirror next' c.mirror (r s) = .ok (o y, r s1) := by
  unfold withSrc2 at hn ⊢
  obtain ⟨v, h1, h2⟩ := Res.bind_ok hn
  obtain ⟨w, h3, h4⟩ := Res.bind_ok h2
  rw [Y.src hk.1 hk.2 h1, Res.ok_bind, Y.src hl.1 hl.2 h3]
  exact h c s (v, w) y s1 h4

private theorem newHighest {n : Nat} (s : Lowest α) (h : Lowest.new n = .ok s) : Highest.new n = .ok (s.flip Neg.neg) := by
  unfold Lowest.new at h
  obtain ⟨a, ha, h⟩ := Res.bind_ok h
  cases h
  simp [Highest.new, ha, Lowest.flip, WindowCache.rescale]
private theorem newLowest {n : Nat} (s : Highest α) (h : Highest.new n = .ok s) : Lowest.new n = .ok (s.flip Neg.neg) := by
  unfold Highest.new at h
  obtain ⟨a, ha, h⟩ := Res.bind_ok h
  cases h
  simp [Lowest.new, ha, Highest.flip, WindowCache.rescale]
private theorem fixSma {n : Nat} {s : Sma α} (h : Sma.new n = .ok s) : s.rescale Neg.neg = s := (Y.linear.new_sma n).state h
private theorem fixSum {n : Nat} {s : Sum α} (h : Sum.new n = .ok s) : s.rescale Neg.neg = s := (Y.linear.new_sum n).state h
private theorem fixSwma {s : Swma α} (h : Swma.new = .ok s) : s.rescale Neg.neg = s := Y.linear.new_swma.state h
private theorem newDev {n : Nat} (s : Dev α) (h : Dev.new n = .ok s) : Dev.new n = .ok (s.rescale Neg.neg) := by
  unfold Dev.new at h
  obtain ⟨a, ha, h⟩ := Res.bind_ok h
  obtain ⟨b, hb, h⟩ := Res.bind_ok h
  cases h
  simp [Dev.new, ha, hb, Dev.rescale, fixSma Y hb]
private theorem newStdev {n : Nat} {bi : Bool} (s : Stdev α) (h : Stdev.new n bi = .ok s) : Stdev.new n bi = .ok s.reflect := by
  unfold Stdev.new at h
  obtain ⟨a, ha, h⟩ := Res.bind_ok h
  obtain ⟨b, hb, h⟩ := Res.bind_ok h
  cases h
  simp [Stdev.new, ha, hb, Stdev.reflect, fixSma Y hb, WindowCache.rescale]

/-- **C77.** Averages, sums, differences: the average of the negated numbers is the negated average.  Deviations do not change, the
highest becomes the lowest. -/
theorem C77_averages (n : Nat) (a : α) (k : MaKind) (biased : Bool) :
    let c : Option α → Option α := Option.map Neg.neg
    Mirrors c c Sma.next (Sma.new n) Sma.next (Sma.new n) ∧ Mirrors c c Sum.next (Sum.new n) Sum.next (Sum.new n) ∧
    Mirrors c c Ema.next (Ema.new n) Ema.next (Ema.new n) ∧ Mirrors c c Ema.next (Ema.withAlpha n a) Ema.next (Ema.withAlpha n a) ∧
    Mirrors c c Rma.next (Rma.new n) Rma.next (Rma.new n) ∧ Mirrors c c Wma.next (Wma.new n) Wma.next (Wma.new n) ∧
    Mirrors c c Swma.next Swma.new Swma.next Swma.new ∧ Mirrors c c Ma.next (Ma.new k n) Ma.next (Ma.new k n) ∧
    Mirrors (α := α) c c (fun _ => Change.next) (Change.new n) (fun _ => Change.next) (Change.new n) ∧
    Mirrors c id Dev.next (Dev.new n) Dev.next (Dev.new n) ∧ Mirrors c id Stdev.next (Stdev.new n biased) Stdev.next (Stdev.new n biased) ∧
    Mirrors c c Highest.next (Highest.new n) Lowest.next (Lowest.new n) ∧
    Mirrors c c Lowest.next (Lowest.new n) Highest.next (Highest.new n) := by
  intro c
  refine ⟨?_, ?_, ?_, ?_, ?_, ?_, ?_, ?_, ?_, ?_, ?_, ?_, ?_⟩
  · exact .of (Sma.rescale Neg.neg) (fixed (Y.linear.new_sma n)) fun _ _ _ _ _ h => Y.sma h
  · exact .of (Sum.rescale Neg.neg) (fixed (Y.linear.new_sum n)) fun _ _ _ _ _ h => Y.sum h
  · exact .of (Ema.rescale Neg.neg) (fixed (Y.linear.new_ema n)) fun _ _ _ _ _ h => Y.ema h
  · exact .of (Ema.rescale Neg.neg) (fixed (Y.linear.new_emaAlpha n a)) fun _ _ _ _ _ h => Y.ema h
  · exact .of (Rma.rescale Neg.neg) (fixed (Y.linear.new_rma n)) fun _ _ _ _ _ h => Y.rma h
  · exact .of (Wma.rescale Neg.neg) (fixed (Y.linear.new_wma n)) fun _ _ _ _ _ h => Y.wma h
  · exact .of (Swma.rescale Neg.neg) (fixed Y.linear.new_swma) fun _ _ _ _ _ h => Y.swma h
  · exact .of (Ma.rescale Neg.neg) (fixed (Y.linear.new_ma k n)) fun _ _ _ _ _ h => Y.ma h
  · refine Mirrors.of (α := α) (Change.rescale Neg.neg) (fixed (Y.linear.new_change n)) (fun _ s x y s1 h => ?_)
    exact Y.change (s := s) (s1 := s1) (x := x) (o := y) h
  · exact .of (Dev.rescale Neg.neg) (newDev Y) fun _ _ _ _ _ h => Y.dev h
  · exact .of Stdev.reflect (newStdev Y) fun _ _ _ _ _ h => Y.stdev h
  · exact .of (Highest.flip Neg.neg) (newLowest Y) fun _ _ _ _ _ h => Y.highest h
  · exact .of (Lowest.flip Neg.neg) (newHighest Y) fun _ _ _ _ _ h => Y.lowest h

/-- **C77.** Indicators that measure movement regardless of its direction see no difference: true range and its average, choppiness, the
volume oscillator and the average directional index (third line of the DMI, whose two other lines change places).  Aroon up and down and
the two vortex lines change places as well. -/
theorem C77_strength (n m : Nat) (na : Bool) (k₁ k₂ : MaKind) :
    BarsMirror (α := α) id (fun c (s : Unit) => do return (← Tr.next c na, s)) (.ok ()) (fun c (s : Unit) => do return (← Tr.next c na, s)) (.ok ()) ∧
    BarsMirror (α := α) id Atr.next (Atr.new n) Atr.next (Atr.new n) ∧
    BarsMirror (α := α) id ChoppinessIndex.next (ChoppinessIndex.new n) ChoppinessIndex.next (ChoppinessIndex.new n) ∧
    BarsMirror (α := α) id VolumeOscillator.next (do
        let short ← Ma.new k₁ n
        let long ← Ma.new k₂ m
        return ⟨short, long⟩) VolumeOscillator.next (do
        let short ← Ma.new k₁ n
        let long ← Ma.new k₂ m
        return ⟨short, long⟩) ∧
    BarsMirror (α := α) (fun y => ⟨y.minus, y.plus, y.adx⟩) Dmi.next (Dmi.new n m) Dmi.next (Dmi.new n m) ∧
    BarsMirror (α := α) (fun y : Option α × Option α => (y.2, y.1)) Aroon.next (Aroon.new n) Aroon.next (Aroon.new n) ∧
    BarsMirror (α := α) (fun y => (y.2, y.1)) Vortex.next (Vortex.new n) Vortex.next (Vortex.new n) := by
  refine ⟨.of id (fun _ h => h) fun c s y s1 h => ?_, .of id (fun _ h => h) fun _ _ _ _ h => Y.atr h, .of _ (fun s h => ?_) fun _ _ _ _ h => Y.chop h,
    .of id (fun _ h => h) fun _ _ _ _ h => Y.volumeOscillator h, .of Dmi.swap (fun s h => ?_) fun _ _ _ _ h => Y.dmi h,
    .of Aroon.flip (fun s h => ?_) fun _ _ _ _ h => Y.aroon h, .of Vortex.swap (fun s h => ?_) fun _ _ _ _ h => Y.vortex h⟩
  · obtain ⟨a, ha, h⟩ := Res.bind_ok h
    cases h
    simp [Y.tr ha]
  · unfold ChoppinessIndex.new at h
    obtain ⟨a, ha, h⟩ := Res.bind_ok h
    obtain ⟨b, hb, h⟩ := Res.bind_ok h
    obtain ⟨u, hu, h⟩ := Res.bind_ok h
    obtain ⟨l, hl, h⟩ := Res.bind_ok h
    cases h
    simp [ChoppinessIndex.new, ha, hb, newHighest Y _ hl, newLowest Y _ hu, ChoppinessIndex.reflect]
  · unfold Dmi.new at h
    obtain ⟨a, ha, h⟩ := Res.bind_ok h
    obtain ⟨b, hb, h⟩ := Res.bind_ok h
    obtain ⟨u, hu, h⟩ := Res.bind_ok h
    obtain ⟨l, hl, h⟩ := Res.bind_ok h
    cases h
    rw [ha] at hb hu
    cases hb; cases hu
    simp [Dmi.new, ha, hl, Dmi.swap]
  · unfold Aroon.new at h
    obtain ⟨a, ha, h⟩ := Res.bind_ok h
    obtain ⟨b, hb, h⟩ := Res.bind_ok h
    cases h
    unfold HighestBars.new at ha
    unfold LowestBars.new at hb
    obtain ⟨_, hc, ha⟩ := Res.bind_ok ha
    obtain ⟨_, _, hb⟩ := Res.bind_ok hb
    cases ha; cases hb
    simp [Aroon.new, HighestBars.new, LowestBars.new, hc, Aroon.flip, HighestBars.flip, LowestBars.flip]
  · unfold Vortex.new at h
    obtain ⟨a, ha, h⟩ := Res.bind_ok h
    obtain ⟨b, hb, h⟩ := Res.bind_ok h
    obtain ⟨u, hu, h⟩ := Res.bind_ok h
    obtain ⟨l, hl, h⟩ := Res.bind_ok h
    cases h
    rw [ha] at hb hu
    cases hb; cases hu
    simp [Vortex.new, ha, hl, Vortex.swap]

/-- **C77.** Indicators of direction change their sign: balance of power, relative vigor, awesome oscillator, MACD, Chande momentum,
commodity channel, and the width of the Bollinger bands (which is relative to the mean price).  A source that reads the high must read
the low. -/
theorem C77_direction (n m l : Nat) (mult : α) (k₁ k₂ k₃ : MaKind) (s₁ s₂ : SrcKind) (h₁ : s₁ ≠ .volume ∧ s₁ ≠ .ohlc4)
    (h₂ : s₂ ≠ .volume ∧ s₂ ≠ .ohlc4) :
    let c : Option α → Option α := Option.map Neg.neg
    let maPair : Res (AwesomeOscillator α) := do
      let long ← Ma.new k₂ m
      let short ← Ma.new k₁ n
      return .new short long
    let maTriple : Res (Macd α) := do
      let short ← Ma.new k₁ n
      let long ← Ma.new k₂ m
      let signal ← Ma.new k₃ l
      return ⟨short, long, signal⟩
    BarsMirror c (fun c (s : Unit) => do return (← BalanceOfPower.next c, s)) (.ok ()) (fun c (s : Unit) => do return (← BalanceOfPower.next c, s)) (.ok ()) ∧
    BarsMirror (fun y => (c y.1, c y.2)) RelativeVigorIndex.next (RelativeVigorIndex.new n) RelativeVigorIndex.next (RelativeVigorIndex.new n) ∧
    BarsMirror c (withSrc2 s₁ s₂ AwesomeOscillator.next) maPair (withSrc2 s₁.mirror s₂.mirror AwesomeOscillator.next) maPair ∧
    BarsMirror (fun y => (c y.1, c y.2)) (withSrc2 s₁ s₂ Macd.next) maTriple (withSrc2 s₁.mirror s₂.mirror Macd.next) maTriple ∧
    BarsMirror c (withSrc s₁ ChandeMomentumOscillator.next) (ChandeMomentumOscillator.new n) (withSrc s₁.mirror ChandeMomentumOscillator.next)
      (ChandeMomentumOscillator.new n) ∧
    BarsMirror c (withSrc s₁ CommodityChannelIndex.next) (CommodityChannelIndex.new n) (withSrc s₁.mirror CommodityChannelIndex.next)
      (CommodityChannelIndex.new n) ∧
    BarsMirror c (withSrc s₁ BollingerBandsWidth.next) (BollingerBands.new n mult) (withSrc s₁.mirror BollingerBandsWidth.next)
      (BollingerBands.new n mult) := by
  refine ⟨.of id (fun _ h => h) fun c s y s1 h => ?_, .of _ (fun s h => ?_) fun _ _ _ _ h => Y.vigor h,
    .of _ (fixed (Y.linear.new_awesome k₁ k₂ n m)) (withSrc2_mirror Y (fun _ _ _ _ _ h => Y.awesome h) h₁ h₂),
    .of _ (fixed (Y.linear.new_macd k₁ k₂ k₃ n m l)) (withSrc2_mirror Y (o := fun y => (y.1.map Neg.neg, y.2.map Neg.neg)) (fun _ _ _ _ _ h => Y.macd h) h₁ h₂),
    .of _ (fun s h => ?_) (withSrc_mirror Y (fun _ _ _ _ _ h => Y.cmo h) h₁),
    .of _ (fun s h => ?_) (withSrc_mirror Y (fun _ _ _ _ _ h => Y.cci h) h₁),
    .of _ (fun s h => ?_) (withSrc_mirror Y (fun _ _ _ _ _ h => Y.width h) h₁)⟩
  · obtain ⟨a, ha, h⟩ := Res.bind_ok h
    cases h
    simp [Y.balance ha]
  · unfold RelativeVigorIndex.new at h
    obtain ⟨a, ha, h⟩ := Res.bind_ok h
    obtain ⟨b, hb, h⟩ := Res.bind_ok h
    obtain ⟨u, hu, h⟩ := Res.bind_ok h
    obtain ⟨l, hl, h⟩ := Res.bind_ok h
    obtain ⟨w, hw, h⟩ := Res.bind_ok h
    cases h
    rw [ha] at hb hw
    cases hb; cases hw
    rw [hu] at hl
    cases hl
    simp [RelativeVigorIndex.new, RelativeVigorIndex.reflect, ha, hu, fixSwma Y ha, fixSum Y hu]
  · unfold ChandeMomentumOscillator.new at h
    obtain ⟨_, hc, h⟩ := Res.bind_ok h
    obtain ⟨a, ha, h⟩ := Res.bind_ok h
    obtain ⟨b, hb, h⟩ := Res.bind_ok h
    cases h
    rw [ha] at hb
    cases hb
    simp [ChandeMomentumOscillator.new, hc, ha, ChandeMomentumOscillator.reflect]
  · unfold CommodityChannelIndex.new at h
    obtain ⟨a, ha, h⟩ := Res.bind_ok h
    obtain ⟨b, hb, h⟩ := Res.bind_ok h
    cases h
    simp [CommodityChannelIndex.new, ha, newDev Y _ hb, CommodityChannelIndex.rescale, fixSma Y ha]
  · unfold BollingerBands.new at h
    obtain ⟨a, ha, h⟩ := Res.bind_ok h
    obtain ⟨b, hb, h⟩ := Res.bind_ok h
    cases h
    simp [BollingerBands.new, ha, newStdev Y _ hb, BollingerBands.reflect, fixSma Y ha]

/-- **C77.** Channels and stops turn over: the upper Donchian line is the negated lower one, and the Chande Kroll stop of short positions
is the negated stop of long ones. -/
theorem C77_channels (n p q : Nat) (x : α) :
    let c : Option α → Option α := Option.map Neg.neg
    BarsMirror (fun y => ⟨c y.lower, c y.basis, c y.upper⟩) DonchianChannels.next (DonchianChannels.new n) DonchianChannels.next (DonchianChannels.new n) ∧
    BarsMirror (fun y => ⟨c y.firstLowStop, c y.firstHighStop, c y.stopShort, c y.stopLong⟩) ChandeKrollStop.next (ChandeKrollStop.new p q x)
      ChandeKrollStop.next (ChandeKrollStop.new p q x) := by
  refine ⟨.of _ (fun s h => ?_) fun _ _ _ _ h => Y.donchian h, .of _ (fun s h => ?_) fun _ _ _ _ h => Y.chandeKroll h⟩
  · unfold DonchianChannels.new at h
    obtain ⟨a, ha, h⟩ := Res.bind_ok h
    obtain ⟨b, hb, h⟩ := Res.bind_ok h
    cases h
    simp [DonchianChannels.new, newHighest Y _ hb, newLowest Y _ ha, DonchianChannels.reflect]
  · unfold ChandeKrollStop.new at h
    obtain ⟨a, ha, h⟩ := Res.bind_ok h
    obtain ⟨b, hb, h⟩ := Res.bind_ok h
    obtain ⟨u, hu, h⟩ := Res.bind_ok h
    obtain ⟨l, hl, h⟩ := Res.bind_ok h
    obtain ⟨w, hw, h⟩ := Res.bind_ok h
    cases h
    simp [ChandeKrollStop.new, ha, newHighest Y _ hu, newLowest Y _ hb, newHighest Y _ hw, newLowest Y _ hl, ChandeKrollStop.reflect]

omit Y in
private theorem total_map {S S' I I' O O' : Type} {f : S → I → O × S} {f' : S' → I' → O' × S'} {i : I → I'} {o : O → O'} {s0 : S} {s0' : S'}
    (r : S → S') (P : S → Prop) (h0 : s0' = r s0) (p0 : P s0) (hp : ∀ s x, P s → P (f s x).2)
    (h : ∀ s x, P s → f' (r s) (i x) = (o (f s x).1, r (f s x).2)) {x : Nat → I} {N : Nat} {y : Nat → O} (hr : Runs (total f) (.ok s0) x N y) :
    Runs (total f') (.ok s0') (fun t => i (x t)) N (fun t => o (y t)) := by
  obtain ⟨s, h1, hs⟩ := hr.trace
  cases h1
  have hP : ∀ t, t ≤ N → P (s t) := by
    intro t
    induction t with
    | zero => intro _; exact p0
    | succ t ih =>
      intro ht
      have e : f (s t) (x t) = (y t, s (t + 1)) := Except.ok.inj (hs t ht)
      have := hp _ (x t) (ih (by omega))
      rwa [e] at this
  refine Runs.of_trace (fun t => r (s t)) (by rw [h0]) fun t ht => ?_
  have e : f (s t) (x t) = (y t, s (t + 1)) := Except.ok.inj (hs t ht)
  have := h (s t) (x t) (hP t ht.le)
  rw [e] at this
  exact congrArg Except.ok this

/-- **C77.** Crossings turn around when both lines are negated, and when they change places; a threshold is negated with its line. -/
theorem C77_crossings {x : Nat → Option α × Option α} {v : Nat → Option α} {N : Nat} {y : Nat → Option CrossMode} {b : Nat → Bool} (th : α) :
    let c : Option α → Option α := Option.map Neg.neg
    let turn : Option CrossMode → Option CrossMode := Option.map fun m => if m = .over then .under else .over
    (Runs (total Cross.next) (.ok .new) x N y → Runs (total Cross.next) (.ok .new) (fun t => (c (x t).1, c (x t).2)) N (fun t => turn (y t)) ∧
      Runs (total Cross.next) (.ok .new) (fun t => ((x t).2, (x t).1)) N (fun t => turn (y t))) ∧
    (Runs (total CrossOver.next) (.ok .new) x N b → Runs (total CrossUnder.next) (.ok .new) (fun t => (c (x t).1, c (x t).2)) N b) ∧
    (Runs (total CrossUnder.next) (.ok .new) x N b → Runs (total CrossOver.next) (.ok .new) (fun t => (c (x t).1, c (x t).2)) N b) ∧
    (Runs (total CrossThreshold.next) (.ok (.new th)) v N y →
      Runs (total CrossThreshold.next) (.ok (.new (-th))) (fun t => c (v t)) N (fun t => turn (y t))) ∧
    (Runs (total CrossOverThreshold.next) (.ok (.new th)) v N b → Runs (total CrossUnderThreshold.next) (.ok (.new (-th))) (fun t => c (v t)) N b) ∧
    (Runs (total CrossUnderThreshold.next) (.ok (.new th)) v N b → Runs (total CrossOverThreshold.next) (.ok (.new (-th))) (fun t => c (v t)) N b) := by
  have e : (fun m : CrossMode => if m = .over then CrossMode.under else .over) = CrossMode.flip := by funext m; cases m <;> rfl
  simp only [e]
  exact ⟨fun h => ⟨total_map (i := fun x => (ng x.1, ng x.2)) CrossState.reflect (fun _ => True) rfl trivial (fun _ _ _ => trivial) (fun s x _ => Y.cross s x) h,
      total_map (i := fun x => (x.2, x.1)) CrossState.swap (fun _ => True) rfl trivial (fun _ _ _ => trivial) (fun s x _ => Y.cross_swap s x) h⟩,
    fun h => total_map (i := fun x => (ng x.1, ng x.2)) (o := id) CrossState.reflect (fun _ => True) rfl trivial (fun _ _ _ => trivial) (fun s x _ => Y.under s x) h,
    fun h => total_map (i := fun x => (ng x.1, ng x.2)) (o := id) CrossState.reflect (fun _ => True) rfl trivial (fun _ _ _ => trivial) (fun s x _ => Y.over s x) h,
    fun h => total_map CrossThresholdState.reflect (fun _ => True) rfl trivial (fun _ _ _ => trivial) (fun s x _ => Y.threshold s x) h,
    fun h => total_map (o := id) CrossThresholdState.reflect (fun _ => True) rfl trivial (fun _ _ _ => trivial) (fun s x _ => Y.underThreshold s x) h,
    fun h => total_map (o := id) CrossThresholdState.reflect (fun _ => True) rfl trivial (fun _ _ _ => trivial) (fun s x _ => Y.overThreshold s x) h⟩

/-- **C77.** The trading signals of the mirrored indicators are the opposite ones: a threshold strategy with its thresholds negated and
exchanged, the crossing strategies (relative vigor: both lines negated; vortex: lines exchanged), Aroon and DMI. -/
theorem C77_signals {N : Nat} {sig : Nat → Option TradeDirection} (over under strong : α) {v : Nat → Option α} {x : Nat → Option α × Option α}
    {w : Nat → DmiData α} :
    let c : Option α → Option α := Option.map Neg.neg
    let turned : Nat → Option TradeDirection := fun t => (sig t).map opposite
    (Runs (total ThresholdStrategy.next) (.ok (ThresholdStrategy.mk' over under)) v N sig →
      Runs (total ThresholdStrategy.next) (.ok (ThresholdStrategy.mk' (-under) (-over))) (fun t => c (v t)) N turned) ∧
    (Runs (total CrossStrategy.next) (.ok .new) x N sig →
      Runs (total CrossStrategy.next) (.ok .new) (fun t => (c (x t).1, c (x t).2)) N turned ∧
      Runs (total CrossStrategy.next) (.ok .new) (fun t => ((x t).2, (x t).1)) N turned) ∧
    (Runs (total AroonStrategy.next) (.ok .new) x N sig → Runs (total AroonStrategy.next) (.ok .new) (fun t => ((x t).2, (x t).1)) N turned) ∧
    (Runs (total DmiStrategy.next) (.ok (.new strong)) w N sig →
      Runs (total DmiStrategy.next) (.ok (.new strong)) (fun t => ⟨(w t).minus, (w t).plus, (w t).adx⟩) N turned) := by
  refine ⟨fun h => ?_, fun h => ⟨?_, ?_⟩, fun h => ?_, fun h => ?_⟩
  · exact total_map ThresholdStrategy.reflect (fun s => s.crossOver.prevValue = s.crossUnder.prevValue) rfl rfl (fun s x _ => rfl)
      (fun s x hs => Y.thresholdStrategy s hs x) h
  · exact total_map (i := fun x => (ng x.1, ng x.2)) CrossState.reflect (fun _ => True) rfl trivial (fun _ _ _ => trivial)
      (fun s x _ => Y.crossStrategy s x) h
  · exact total_map (i := fun x => (x.2, x.1)) CrossState.swap (fun _ => True) rfl trivial (fun _ _ _ => trivial)
      (fun s x _ => Y.crossStrategy_swap s x) h
  · exact total_map (i := fun x => (x.2, x.1)) AroonStrategy.swap (fun _ => True) rfl trivial (fun _ _ _ => trivial)
      (fun s x _ => Y.aroonStrategy s x) h
  · exact total_map DmiStrategy.swap (fun _ => True) rfl trivial (fun _ _ _ => trivial) (fun s x _ => Y.dmiStrategy s x) h

end
end Pace
