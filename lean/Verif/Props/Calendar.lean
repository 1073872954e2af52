import Verif.Model.Calendar
import Verif.Spec.Calendar
import Verif.Props.Metrics4
import Mathlib.Tactic.Ring
import Mathlib.Tactic.Linarith

/-!
# The year of a bar, and which bars count for the Cobra ratios (C74)
-/

set_option linter.unusedSectionVars false

namespace Pace
open Spec Calendar

/-- Leap years before year `y`, counted from year 0. -/
private def leaps (y : Nat) : Nat := (y + 3) / 4 + (y + 399) / 400 - (y + 99) / 100

private theorem leaps_succ (y : Nat) : leaps (y + 1) = leaps y + (yearDays y - 365) := by
  unfold leaps yearDays
  by_cases h : leapYear y
  · rw [if_pos h]; unfold leapYear at h; omega
  · rw [if_neg h]; unfold leapYear at h; omega

private theorem daysTo_eq (n : Nat) : daysTo n + 719528 = 365 * (1970 + n) + leaps (1970 + n) := by
  induction n with
  | zero => rfl
  | succ n ih =>
    have h1 : daysTo (n + 1) = daysTo n + yearDays (1970 + n) := by
      simp [daysTo, List.range_succ]
    have h2 := leaps_succ (1970 + n)
    have h3 : yearDays (1970 + n) = 365 ∨ yearDays (1970 + n) = 366 := by unfold yearDays; split <;> simp
    rw [← Nat.add_assoc, h1]
    omega

private theorem cycle_bounds {c : Nat} (h : c < 146097) :
    365 * cycleYear c + yearDelta (cycleYear c) ≤ c ∧ c < 365 * (cycleYear c + 1) + yearDelta (cycleYear c + 1) ∧ cycleYear c < 400 := by
  unfold cycleYear
  simp only
  obtain ⟨y, hy⟩ : ∃ y, y = c / 365 := ⟨_, rfl⟩
  rw [← hy]
  split
  · cases y with
    | zero => unfold yearDelta at *; omega
    | succ k =>
      simp only [Nat.add_sub_cancel]
      unfold yearDelta at *
      omega
  · unfold yearDelta at *; omega

private theorem yearDelta_shift (q c : Nat) : leaps (400 * q + c) = 97 * q + yearDelta c := by
  unfold leaps yearDelta; omega

private theorem yearOfDays_bounds (d : Nat) : ∃ y : Nat, yearOfDays d = y ∧ 365 * y + leaps y ≤ d + 719528 ∧
    d + 719528 < 365 * (y + 1) + leaps (y + 1) := by
  refine ⟨400 * ((d + 719528) / 146097) + cycleYear ((d + 719528) % 146097), ?_, ?_⟩
  · unfold yearOfDays
    have h1 : ((d : Int) + 719528) = ((d + 719528 : Nat) : Int) := by push_cast; ring
    simp only [h1]
    have h2 : (((d + 719528 : Nat) : Int) % 146097).toNat = (d + 719528) % 146097 := by omega
    rw [h2]
    push_cast
    ring
  · obtain ⟨h1, h2, h3⟩ := cycle_bounds (Nat.mod_lt (d + 719528) (by norm_num : 146097 > 0))
    rw [Nat.add_assoc, yearDelta_shift, yearDelta_shift]
    generalize cycleYear ((d + 719528) % 146097) = c at *
    have := Nat.div_add_mod (d + 719528) 146097
    omega

private theorem leaps_mono {a b : Nat} (h : a ≤ b) : leaps a ≤ leaps b := by
  induction h with
  | refl => exact le_refl _
  | step _ ih => rw [leaps_succ]; omega

private theorem yearOfDays_iff (d y : Nat) : yearOfDays d = y ↔ 365 * y + leaps y ≤ d + 719528 ∧ d + 719528 < 365 * (y + 1) + leaps (y + 1) := by
  obtain ⟨z, h1, h2, h3⟩ := yearOfDays_bounds d
  rw [h1, Int.natCast_inj]
  constructor
  · rintro rfl; exact ⟨h2, h3⟩
  · rintro ⟨g2, g3⟩
    rcases lt_trichotomy z y with h | h | h
    · have := leaps_mono (show z + 1 ≤ y by omega); omega
    · exact h
    · have := leaps_mono (show y + 1 ≤ z by omega); omega

private theorem toI64_small {ms : Nat} (h : ms < 2 ^ 63) : toI64 ms = ms := by unfold toI64; omega

private theorem newYear_eq {y : Nat} (hy : 1970 ≤ y) : newYear y + 719528 * 86400000 = (365 * y + leaps y) * 86400000 := by
  have := daysTo_eq (y - 1970)
  rw [show 1970 + (y - 1970) = y by omega] at this
  unfold newYear
  rw [← this]; ring

theorem newYear_mono {a b : Nat} (ha : 1970 ≤ a) (h : a ≤ b) : newYear a ≤ newYear b := by
  have h1 := newYear_eq ha
  have h2 := newYear_eq (ha.trans h)
  have h3 := leaps_mono h
  omega

private theorem yearOfDays_ge {ms : Nat} {y : Nat} (hy : 1970 ≤ y) : (y : Int) ≤ yearOfDays ((ms / 86400000 : Nat) : Int) ↔ newYear y ≤ ms := by
  obtain ⟨z, h1, h2, h3⟩ := yearOfDays_bounds (ms / 86400000)
  rw [h1, Int.ofNat_le]
  have e := newYear_eq hy
  constructor
  · intro h
    have := leaps_mono h
    omega
  · intro h
    by_contra hc
    have := leaps_mono (show z + 1 ≤ y by omega)
    omega

/-- **C74.** The year of a time is the Gregorian one: the year that began at the latest new year (midnight UTC of 1 January) not after it. -/
theorem C74_year {ms y : Nat} (h : ms < 2 ^ 63) (hy : 1970 ≤ y) :
    yearOfMillis ms = some (y : Int) ↔ y ≤ 262143 ∧ newYear y ≤ ms ∧ ms < newYear (y + 1) := by
  unfold yearOfMillis
  simp only [toI64_small h]
  rw [show ((ms : Int) / 86400000) = ((ms / 86400000 : Nat) : Int) by push_cast; rfl]
  have a := yearOfDays_ge (ms := ms) hy
  have b := yearOfDays_ge (ms := ms) (show 1970 ≤ y + 1 by omega)
  rw [← a, ← not_le, ← b]
  push_cast
  split
  · simp only [Option.some.injEq]; omega
  · simp only [reduceCtorEq, false_iff]; omega

/-- **C74.** There is no date exactly for times from the year 262144 on. -/
theorem C74_no_year {ms : Nat} (h : ms < 2 ^ 63) : yearOfMillis ms = none ↔ newYear 262144 ≤ ms := by
  unfold yearOfMillis
  simp only [toI64_small h]
  rw [show ((ms : Int) / 86400000) = ((ms / 86400000 : Nat) : Int) by push_cast; rfl]
  rw [← yearOfDays_ge (by norm_num : 1970 ≤ 262144)]
  obtain ⟨z, h1, _⟩ := yearOfDays_bounds (ms / 86400000)
  rw [h1]
  push_cast
  split
  · simp only [reduceCtorEq, false_iff]; omega
  · simp only [true_iff]; omega

/-- **C74.** Only the low 64 bits of a time matter: a time too large for a signed 64-bit number is dated by its remainder, and is taken
for a time before 1970 (if for a date at all) whenever that remainder is 2⁶³ or more. -/
theorem C74_large_times (ms : Nat) :
    yearOfMillis ms = yearOfMillis (ms % 2 ^ 64) ∧ (2 ^ 63 ≤ ms % 2 ^ 64 → ∀ y, yearOfMillis ms = some y → y < 1970) := by
  have e : toI64 ms = toI64 (ms % 2 ^ 64) := by unfold toI64; omega
  refine ⟨by unfold yearOfMillis; rw [e], fun h y hy => ?_⟩
  unfold yearOfMillis at hy
  simp only at hy
  split at hy
  · rw [← Option.some.inj hy]
    have hneg : toI64 ms / 86400000 < 0 := by unfold toI64; omega
    generalize toI64 ms / 86400000 = d at hneg
    obtain ⟨_, h2, h3⟩ := cycle_bounds (c := ((d + 719528) % 146097).toNat) (by omega)
    unfold yearOfDays
    simp only
    generalize hc : cycleYear ((d + 719528) % 146097).toNat = c at *
    unfold yearDelta at *
    omega
  · cases hy

/-- A time of 2⁶⁴ - 1 is one millisecond before 1970; one of 2⁶³ is so long before that there is no date. -/
example : yearOfMillis (2 ^ 64 - 1) = some 1969 ∧ yearOfMillis (2 ^ 64) = some 1970 ∧ yearOfMillis (2 ^ 63) = none := by decide +kernel

/-- 1 January 2018, the default start year, is 1514764800 seconds after 1970. -/
example : newYear 2018 = 1514764800 * 1000 ∧ yearOfMillis 1514764800000 = some 2018 ∧ yearOfMillis 1514764799999 = some 2017 := by
  decide +kernel

section
variable {α : Type} [F64 α] {d : DataProvider α} {N : Nat} {τ : Nat → Nat}

/-- `co t` is the Cobra metrics component after tick `t`, dating each bar by its own time. -/
def DatedCobraRun (d : DataProvider α) (cfg : StrategyConfig α) (estimated : Bool) (startYear : Option Int) (st : Nat → Strategy α) (N : Nat)
    (co : Nat → CobraMetrics α) : Prop := CobraRun d cfg estimated startYear (fun t => Ctx.barYear ⟨d, t⟩) st N co

/-- The bars have times, in milliseconds since 1970, that chrono can represent. -/
def HasTimes (d : DataProvider α) (N : Nat) (τ : Nat → Nat) : Prop :=
  HasCol d.time N (fun t => some (τ t)) ∧ ∀ t, t < N → τ t < newYear 262144

theorem newYear_max : newYear 262144 < 2 ^ 63 := by
  have := newYear_eq (show 1970 ≤ 262144 by norm_num)
  unfold leaps at this
  omega

theorem HasTimes.barYear (h : HasTimes d N τ) {t : Nat} (ht : t < N) : Ctx.barYear ⟨d, t⟩ = yearOfMillis (τ t) := by
  unfold Ctx.barYear Ctx.barTime DataProvider.getTime Pace.index
  rw [h.1 t ht]

/-- **C74.** With start year `y` a bar counts for the ratios exactly if its time is not before midnight (UTC) of 1 January of `y`. -/
theorem C74_counted (h : HasTimes d N τ) {y : Nat} (hy : 1970 ≤ y) {t : Nat} (ht : t < N) :
    counted (some (y : Int)) (Ctx.barYear ⟨d, t⟩) = true ↔ newYear y ≤ τ t := by
  have hlt : τ t < 2 ^ 63 := (h.2 t ht).trans newYear_max
  rw [h.barYear ht]
  cases e : yearOfMillis (τ t) with
  | none =>
    rw [C74_no_year hlt] at e
    exact absurd (h.2 t ht) (by omega)
  | some z =>
    simp only [counted, decide_eq_true_eq]
    unfold yearOfMillis at e
    simp only [toI64_small hlt] at e
    rw [show ((τ t : Nat) : Int) / 86400000 = ((τ t / 86400000 : Nat) : Int) by push_cast; rfl] at e
    split at e
    · simp only [Option.some.injEq] at e
      rw [← e]
      exact yearOfDays_ge hy
    · cases e

/-- **C74.** If the times never decrease, the bars that count are all bars from some tick on. -/
theorem C74_suffix (h : HasTimes d N τ) (hm : ∀ s t, s ≤ t → t < N → τ s ≤ τ t) {y : Nat} (hy : 1970 ≤ y) {s t : Nat} (hst : s ≤ t)
    (ht : t < N) (hs : counted (some (y : Int)) (Ctx.barYear ⟨d, s⟩) = true) : counted (some (y : Int)) (Ctx.barYear ⟨d, t⟩) = true := by
  rw [C74_counted h hy (by omega)] at hs
  rw [C74_counted h hy ht]
  exact hs.trans (hm s t hst ht)

/-- **C74.** With complete, dated bars the Cobra metrics never panic, whatever the start year; without a time for every bar they do as
soon as a start year is configured. -/
theorem C74_runs {o h l c v : Nat → α} (hb : Bars d N o h l c v) {cfg : StrategyConfig α} {sig : Nat → Option TradeDirection}
    {st : Nat → Strategy α} (hst : Backtest cfg d sig N st) (est : Bool) (y : Int) :
    (∃ co, DatedCobraRun d cfg est (some y) st N co) ↔ ∀ t, t < N → Ctx.barYear ⟨d, t⟩ ≠ none := by
  unfold DatedCobraRun
  rw [C57_cobra_metrics hst]
  exact ⟨fun h t ht => (h t ht).2 (by simp), fun h t ht => ⟨fun _ => ⟨⟨_, hb.low t ht⟩, ⟨_, hb.high t ht⟩⟩, fun _ => h t ht⟩⟩

theorem HasTimes.dated (h : HasTimes d N τ) {t : Nat} (ht : t < N) : Ctx.barYear ⟨d, t⟩ ≠ none := by
  rw [h.barYear ht]
  intro e
  rw [C74_no_year ((h.2 t ht).trans newYear_max)] at e
  exact absurd (h.2 t ht) (by omega)

end

section
variable {K : Type} [Field K] [LinearOrder K] [IsStrictOrderedRing K] [RootOps K] {d : DataProvider (Ex K)} {cfg : StrategyConfig (Ex K)}
  {sig : Nat → Option TradeDirection} {N : Nat} {st : Nat → Strategy (Ex K)} {cap : K} {τ : Nat → Nat}

/-- **C74.** In exact arithmetic, with start year `y`: Omega, Sharpe and Sortino after tick `t` are those of the relative changes of the
equity on the bars so far whose time is at or after midnight (UTC) of 1 January of `y`. -/
theorem C74_ratios (hb : Backtest cfg d sig N st) {est : Bool} {y : Nat} (hy : 1970 ≤ y) (hτ : HasTimes d N τ)
    {co : Nat → CobraMetrics (Ex K)} (h : DatedCobraRun d cfg est (some (y : Int)) st N co) (hf : FinitePrices d) (hc : cfg.initialCapital = fin cap) :
    ∃ e : Nat → K, (∀ k, k < N → (st k).metrics.equity = fin (e k)) ∧ ∀ t, t < N →
      ∀ ρ : List K, ρ = ((List.range (t + 1)).filter fun k => decide (newYear y ≤ τ k)).map
        (fun k => relChange (e k) (if k = 0 then cap else e (k - 1))) →
      (co t).data.omega = fin (ratio (ρ.map (max 0)).sum (ρ.map fun x => max 0 (-x)).sum * RootOps.sqrt 365) ∧
      (co t).data.sharpe = fin (ratio (mean ρ) (RootOps.sqrt (variance est ρ)) * RootOps.sqrt 365) ∧
      (co t).data.sortino =
        fin (ratio (mean ρ) (RootOps.sqrt (variance est (ρ.map fun x => max 0 (-x)))) * RootOps.sqrt 365) := by
  obtain ⟨e, he, hr⟩ := C61_cobra_ratios hb h hf hc
  refine ⟨e, he, fun t ht ρ hρ => hr t ht ρ ?_⟩
  have hc : (List.range (t + 1)).filter (fun k => decide (newYear y ≤ τ k)) = countedTicks (some (y : Int)) (fun t => Ctx.barYear ⟨d, t⟩) t := by
    unfold countedTicks
    apply List.filter_congr
    intro k hk
    have hk : k < N := by have := List.mem_range.mp hk; omega
    rw [Bool.eq_iff_iff, C74_counted hτ hy hk, decide_eq_true_eq]
  rw [hρ, hc]

end

/-! ## A concrete run -/

/-- The five bars of `exBars`, one a day from 30 December 2017. -/
def datedBars : DataProvider (Ex ℚ) := { exBars with time := (List.range 5).map fun k => some (1514764800000 + (k - 2) * 86400000 - (2 - k) * 86400000) }

/-- Their times. -/
def datedTau : Nat → Nat := fun k => 1514764800000 + (k - 2) * 86400000 - (2 - k) * 86400000

/-- The hypotheses of the theorems above are met. -/
theorem datedBars_run : HasTimes datedBars 5 datedTau ∧ (List.range 5).map (fun t => Ctx.barYear ⟨datedBars, t⟩) = [some 2017, some 2017, some 2018, some 2018, some 2018] ∧
    (∀ s t, s ≤ t → t < 5 → datedTau s ≤ datedTau t) ∧ ∃ st co, Backtest exCfg datedBars exSig 5 st ∧ DatedCobraRun datedBars exCfg false (some 2018) st 5 co := by
  have hT : HasTimes datedBars 5 datedTau := by
    have := newYear_eq (show 1970 ≤ 262144 by norm_num)
    unfold leaps at this
    refine ⟨fun t ht => ?_, fun t ht => ?_⟩
    · simp [datedBars, datedTau, ht]
    · unfold datedTau; omega
  have hb0 := bars_ofSeries (α := Ex ℚ) 5 (fun t => (fin ([9, 10, 12, 14, 15].getD t 0))) (fun t => (fin ([11, 13, 14, 16, 17].getD t 0)))
    (fun t => (fin ([8, 9, 11, 13, 12].getD t 0))) (fun t => (fin ([10, 12, 13, 15, 14].getD t 0))) (fun _ => (fin 1))
  have hb := (Bars.mk hb0.open_ hb0.high hb0.low hb0.close hb0.volume : Bars datedBars 5 _ _ _ _ _)
  refine ⟨hT, by decide +kernel, fun s t h _ => by unfold datedTau; omega, ?_⟩
  obtain ⟨st, h⟩ := C57_strategy_complete exCfg exSig hb
  obtain ⟨co, hco⟩ := (C74_runs hb h false 2018).mpr fun t ht => hT.dated ht
  exact ⟨st, co, h, hco⟩

end Pace
