import Verif.Lemmas.TaRuns2

/-!
# C57: constructors and panic freedom of the ta components
-/

set_option linter.unusedSectionVars false

namespace Pace
variable {α : Type} [F64 α]

/-- A call succeeds (does not panic). -/
def Spec.Succeeds {β : Type} (r : Res β) : Prop := ∃ b, r = .ok b

/-- Driven for `N` ticks the component never panics. -/
def Spec.NeverPanics {S I O : Type} (step : Nat → S → I → Res (O × S)) (s0 : Res S) (x : Nat → I) (N : Nat) : Prop :=
  ∃ os, outputs step x N s0 = .ok os

open Spec

theorem Runs.neverPanics {S I O : Type} {step : Nat → S → I → Res (O × S)} {s0 : Res S} {x : Nat → I} {N : Nat} {y : Nat → O}
    (h : Runs step s0 x N y) : NeverPanics step s0 x N := ⟨_, h⟩

/-- **C57.** Every ta constructor succeeds exactly for a length of at least 1 (`Rsi`: at least 2); otherwise it panics. -/
theorem C57_constructors (len : Nat) :
    (Succeeds (Sma.new (α := α) len) ↔ 1 ≤ len) ∧ (Succeeds (Sum.new (α := α) len) ↔ 1 ≤ len) ∧
    (Succeeds (Ema.new (α := α) len) ↔ 1 ≤ len) ∧ (∀ a : α, Succeeds (Ema.withAlpha len a) ↔ 1 ≤ len) ∧
    (Succeeds (Rma.new (α := α) len) ↔ 1 ≤ len) ∧ (Succeeds (Wma.new (α := α) len) ↔ 1 ≤ len) ∧
    (Succeeds (Dev.new (α := α) len) ↔ 1 ≤ len) ∧ (∀ b, Succeeds (Stdev.new (α := α) len b) ↔ 1 ≤ len) ∧
    (Succeeds (Change.new (α := α) len) ↔ 1 ≤ len) ∧ (Succeeds (Roc.new (α := α) len) ↔ 1 ≤ len) ∧
    (Succeeds (Prank.new (α := α) len) ↔ 1 ≤ len) ∧ (Succeeds (Highest.new (α := α) len) ↔ 1 ≤ len) ∧
    (Succeeds (Lowest.new (α := α) len) ↔ 1 ≤ len) ∧ (Succeeds (HighestBars.new len) ↔ 1 ≤ len) ∧
    (Succeeds (LowestBars.new len) ↔ 1 ≤ len) ∧ (Succeeds (Stoch.new (α := α) len) ↔ 1 ≤ len) ∧
    (Succeeds (Atr.new (α := α) len) ↔ 1 ≤ len) ∧ (Succeeds (Rsi.new (α := α) len) ↔ 2 ≤ len) ∧
    (Succeeds (WindowValidator.new len) ↔ 1 ≤ len) := by
  let x : Nat → Option α := fun _ => none
  have e {β : Type} {P : β → Prop} {r : Res β} (h : ∃ s, r = .ok s ∧ P s) : Succeeds r := let ⟨s, hs, _⟩ := h; ⟨s, hs⟩
  have n {β : Type} {f : Res β} {k : Nat} (h : Succeeds (do assert (decide (k ≤ len)); f)) : k ≤ len := by
    by_contra hc; simp [hc, Succeeds] at h
  refine ⟨⟨n, fun h => e (sma_init x h)⟩, ⟨n, fun h => e (sum_init x h)⟩, ⟨n, fun h => e (ema_init x _ h)⟩,
    fun a => ⟨n, fun h => e (ema_init x a h)⟩, ⟨n, fun h => e (rma_init x h)⟩, ⟨n, fun h => e (wma_init x h)⟩,
    ⟨n, fun h => e (dev_init x h)⟩, fun b => ⟨n, fun h => e (stdev_init x b h)⟩,
    ⟨n, fun h => (change_runs len h x 0).exists_state⟩, ⟨n, fun h => e (roc_init x h)⟩, ⟨n, fun h => e (prank_init x h)⟩,
    ⟨n, fun h => e (highest_init x h)⟩, ⟨n, fun h => e (lowest_init x h)⟩, ⟨n, fun h => ⟨_, highestBars_new h⟩⟩,
    ⟨n, fun h => ⟨_, lowestBars_new h⟩⟩, ⟨n, fun h => e (stoch_init x x x h)⟩,
    ⟨n, fun h => e (atr_init (fun _ => lit 0) (fun _ => lit 0) (fun _ => lit 0) h)⟩, ⟨n, fun h => e (rsi_init x h)⟩,
    ⟨n, fun h => e (validator_init x h)⟩⟩

/-- `Swma` has the fixed length 4: its constructor always succeeds. -/
theorem C57_swma_constructor : Succeeds (Swma.new (α := α)) := by
  obtain ⟨s, hs, _⟩ := swma_init (α := α) (fun _ => none); exact ⟨s, hs⟩

/-- **C57.** Components whose inputs may contain gaps anywhere: created with a length of at least 1 and fed once per tick from
the first bar, they never panic, whatever the data and the inputs. -/
theorem C57_gap_tolerant (d : DataProvider α) {len : Nat} (hlen : 1 ≤ len) (x h l : Nat → Option α) (b : Bool) (N : Nat) :
    NeverPanics (fun t => Sma.next ⟨d, t⟩) (Sma.new len) x N ∧ NeverPanics (fun t => Sum.next ⟨d, t⟩) (Sum.new len) x N ∧
    NeverPanics (fun t => Wma.next ⟨d, t⟩) (Wma.new len) x N ∧ NeverPanics (fun t => Swma.next ⟨d, t⟩) Swma.new x N ∧
    NeverPanics (fun t => Dev.next ⟨d, t⟩) (Dev.new len) x N ∧
    NeverPanics (fun t => Stdev.next ⟨d, t⟩) (Stdev.new len b) x N ∧
    NeverPanics (fun _ => Change.next) (Change.new len) x N ∧ NeverPanics (fun _ => Roc.next) (Roc.new len) x N ∧
    NeverPanics (fun t => Prank.next ⟨d, t⟩) (Prank.new len) x N ∧
    NeverPanics (fun t => Highest.next ⟨d, t⟩) (Highest.new len) x N ∧
    NeverPanics (fun t => Lowest.next ⟨d, t⟩) (Lowest.new len) x N ∧
    NeverPanics (fun t => Stoch.next ⟨d, t⟩) (Stoch.new len) (fun t => (x t, h t, l t)) N :=
  ⟨(sma_runs d hlen x N).neverPanics, (sum_runs d hlen x N).neverPanics, (wma_runs d hlen x N).neverPanics,
    (swma_runs d x N).neverPanics, (dev_runs d hlen x N).neverPanics, (stdev_runs d hlen b x N).neverPanics,
    (change_runs len hlen x N).neverPanics, (roc_runs len hlen x N).neverPanics, (prank_runs d hlen x N).neverPanics,
    (highest_runs d hlen x N).neverPanics, (lowest_runs d hlen x N).neverPanics, (stoch_runs d hlen x h l N).neverPanics⟩

/-- **C57.** The recursive averages never panic when no input is missing. -/
theorem C57_recursive (d : DataProvider α) {len : Nat} (hlen : 1 ≤ len) (a : α) (x : Nat → Option α) (N : Nat)
    (hx : ∀ t, t < N → (x t).isSome) :
    NeverPanics (fun t => Ema.next ⟨d, t⟩) (Ema.withAlpha len a) x N ∧
    NeverPanics (fun t => Ema.next ⟨d, t⟩) (Ema.new len) x N ∧
    NeverPanics (fun t => Rma.next ⟨d, t⟩) (Rma.new len) x N ∧
    (2 ≤ len → NeverPanics (fun t => Rsi.next ⟨d, t⟩) (Rsi.new len) x N) :=
  ⟨(ema_runs d hlen a x N (emaOk_of_present hx)).neverPanics, (ema_runs d hlen _ x N (emaOk_of_present hx)).neverPanics,
    (rma_runs d hlen x N (emaOk_of_present hx)).neverPanics,
    fun h2 => (rsi_runs d h2 x N fun t ht _ => hx (t + 1) ht).neverPanics⟩

/-- **C57.** The components that read the bars never panic on complete bars (`HighestBars`, `LowestBars` also on bars with
missing values). -/
theorem C57_bars (d : DataProvider α) {len : Nat} (hlen : 1 ≤ len) {o h l c v : Nat → α} {N : Nat} (hb : Bars d N o h l c v) :
    NeverPanics (noInput fun t => HighestBars.next ⟨d, t⟩) (HighestBars.new len) unit N ∧
    NeverPanics (noInput fun t => LowestBars.next ⟨d, t⟩) (LowestBars.new len) unit N ∧
    NeverPanics (noInput fun t => Atr.next ⟨d, t⟩) (Atr.new len) unit N ∧
    ∀ t, t < N → ∀ na, Succeeds (Tr.next ⟨d, t⟩ na) :=
  ⟨(highestBars_runs hlen hb.high).neverPanics, (lowestBars_runs hlen hb.low).neverPanics,
    (atr_runs hlen hb.high hb.low hb.close).neverPanics, fun t ht na => ⟨_, tr_step hb.high hb.low hb.close ht na⟩⟩

/-- The completeness hypotheses are needed: with length 2, one missing input after the seed makes `Ema` panic, and a missing
high makes `Tr` panic. -/
example : ¬ NeverPanics (fun t => Ema.next ⟨DataProvider.ofSeries 3 unit' unit' unit' unit' unit', t⟩) (Ema.new 2)
      (fun t => if t = 2 then none else some (fin (1 : ℚ))) 3 ∧
    ¬ Succeeds (Tr.next ⟨DataProvider.ofSeries 1 unit' (fun _ => none) (fun _ => some (fin (1 : ℚ))) unit' unit', 0⟩ true) := by
  have h1 : outputs (fun t => Ema.next ⟨DataProvider.ofSeries 3 unit' unit' unit' unit' unit', t⟩)
      (fun t => if t = 2 then none else some (fin (1 : ℚ))) 3 (Ema.new 2) = .error .unwrapNone := by decide +kernel
  have h2 : Tr.next ⟨DataProvider.ofSeries 1 unit' (fun _ => none) (fun _ => some (fin (1 : ℚ))) unit' unit', 0⟩ true
      = .error .unwrapNone := by decide +kernel
  constructor
  · rintro ⟨os, h⟩; rw [h1] at h; simp at h
  · rintro ⟨o, h⟩; rw [h2] at h; simp at h

/-- The hypotheses are met by every series of present values and every choice of bars. -/
example (o h l c v : Nat → α) : Bars (DataProvider.ofSeries 5 (fun t => some (o t)) (fun t => some (h t)) (fun t => some (l t))
      (fun t => some (c t)) (fun t => some (v t))) 5 o h l c v := bars_ofSeries 5 o h l c v

end Pace
