import Verif.Props.Schedule
import Verif.Props.Calendar
import Verif.Lemmas.TaExact2
import Verif.Lemmas.Trace

/-!
# C78, continued: components that are not called on every bar
-/

set_option linter.unusedSectionVars false

namespace Pace
open Spec

section
variable {α : Type} [F64 α]

/-! ## The strategy runner and the metrics -/

/-- **C78** The runner looks at nothing but the bar it is called on: called at the bars `τ 0, τ 1, …` only, it does what it does on the data
made of these bars, with the ticks of the trades renamed and nothing else changed. -/
theorem C78_runner {τ : Nat → Nat} {N : Nat} {d d' : DataProvider α} (h : Sampled τ N d d') (cfg : StrategyConfig α)
    (sig : Nat → Option TradeDirection) :
    calls runner (.ok (Strategy.new cfg)) d τ sig N =
      (calls runner (.ok (Strategy.new cfg)) d' id sig N).map (List.map (Strategy.rename τ)) := by
  have e : (.ok (Strategy.new cfg) : Res (Strategy α)) = (Except.ok (Strategy.new cfg)).map (Strategy.rename τ) := rfl
  unfold calls
  conv_lhs => rw [e]
  refine outputs_rename (step := fun i => runner ⟨d', id i⟩) (Strategy.rename τ) (Strategy.rename τ) sig sig N (fun t s ht => ?_) _
  have := next_rename (c := ⟨d', t⟩) (c' := ⟨d, τ t⟩) (h.sameBar ht) rfl s (sig t)
  unfold runner
  rw [this]
  simp only [id]
  cases Strategy.next ⟨d', t⟩ s (sig t) <;> rfl

private theorem same_runs {S I I' O : Type} {step : Nat → S → I → Res (O × S)} {step' : Nat → S → I' → Res (O × S)} {x : Nat → I} {x' : Nat → I'}
    {N : Nat} (hs : ∀ t s, t < N → step' t s (x' t) = step t s (x t)) (s0 : Res S) (y : Nat → O) :
    Runs step s0 x N y ↔ Runs step' s0 x' N y := by
  have e := outputs_rename (step := step) (step' := step') id id x x' N
    (fun t s ht => by
      simp only [id]
      rw [hs t s ht]
      cases step t s (x t) <;> rfl) s0
  have e0 : s0.map id = s0 := by cases s0 <;> rfl
  rw [e0] at e
  unfold Runs
  rw [e]
  cases outputs step x N s0 with
  | error _ => exact Iff.rfl
  | ok l => simp [Except.map]

/-- **C78** The three metrics components likewise: fed with the renamed strategy at the bars `τ 0, τ 1, …` they report what they report on the
data made of these bars (the years of the reported months included). -/
theorem C78_metrics {τ : Nat → Nat} {N : Nat} {d d' : DataProvider α} (h : Sampled τ N d d') (cfg : StrategyConfig α) (rfr : α) (est : Bool)
    (y0 : Option Int) {sig : Nat → Option TradeDirection} {st : Nat → Strategy α} (hst : Backtest cfg d' sig N st) :
    Runs (fun i => runner ⟨d, τ i⟩) (.ok (Strategy.new cfg)) sig N (fun i => (st i).rename τ) ∧
    (∀ em, EquityRun d' cfg.initialCapital st N em ↔
      Runs (fun i s x => do let s ← EquityMetrics.next ⟨d, τ i⟩ s x; return (s, s)) (.ok (EquityMetrics.new cfg.initialCapital))
        (fun i => (st i).rename τ) N em) ∧
    (∀ tv, TvRun d' cfg rfr st N tv ↔
      Runs (fun i s x => do let s ← TvMetrics.next ⟨d, τ i⟩ s x; return (s, s)) (.ok (TvMetrics.new (Strategy.new cfg) rfr))
        (fun i => (st i).rename τ) N tv) ∧
    (∀ co, DatedCobraRun d' cfg est y0 st N co ↔
      Runs (fun i s x => do let s ← CobraMetrics.next ⟨d, τ i⟩ (Ctx.barYear ⟨d, τ i⟩) s x; return (s, s))
        (.ok (CobraMetrics.new (Strategy.new cfg) est y0)) (fun i => (st i).rename τ) N co) := by
  refine ⟨?_, fun em => ?_, fun tv => ?_, fun co => ?_⟩
  · have e := C78_runner h cfg sig
    have h2 : calls runner (.ok (Strategy.new cfg)) d' id sig N = .ok ((List.range N).map st) := hst
    rw [h2] at e
    unfold Runs
    unfold calls at e
    rw [e]
    simp [Except.map]
  · exact same_runs (fun t s ht => by rw [equity_rename (h.sameBar ht)]) _ _
  · exact same_runs (fun t s ht => by rw [tv_rename (h.sameBar ht)]) _ _
  · refine same_runs (fun t s ht => ?_) _ _
    have hy : Ctx.barYear ⟨d, τ t⟩ = Ctx.barYear ⟨d', t⟩ := by
      have e : Ctx.barTime ⟨d, τ t⟩ = Ctx.barTime ⟨d', t⟩ := by
        unfold Ctx.barTime DataProvider.getTime
        simp only [h.time t ht, Pace.index]
      unfold Ctx.barYear
      rw [e]
    rw [hy, cobra_rename (h.sameBar ht)]

/-! ## Components without memory -/

private theorem memoryless {S O : Type} {next : Ctx α → S → Unit → Res (O × S)} {new : Res S} {d : DataProvider α} {M : Nat} {y : Nat → O}
    (hs : ∀ c s r, next c s () = .ok r → r.2 = s) (h : Runs (fun t => next ⟨d, t⟩) new unit M y) {τ : Nat → Nat} {N : Nat}
    (hτ : ∀ i, i < N → τ i < M) : Runs (fun i => next ⟨d, τ i⟩) new unit N (fun i => y (τ i)) := by
  rcases Nat.eq_zero_or_pos M with rfl | hM
  · obtain rfl : N = 0 := by
      rcases Nat.eq_zero_or_pos N with h | h
      · exact h
      · exact absurd (hτ 0 h) (Nat.not_lt_zero _)
    exact h
  obtain ⟨s, h0, hstep⟩ := h.trace
  have hc : ∀ t, t ≤ M → s t = s 0 := by
    intro t
    induction t with
    | zero => intro _; rfl
    | succ t ih => intro ht; rw [← ih (by omega)]; exact hs _ _ _ (hstep t (by omega))
  refine Runs.of_trace (fun _ => s 0) h0 fun i hi => ?_
  have := hstep (τ i) (hτ i hi)
  rw [hc (τ i + 1) (by have := hτ i hi; omega), hc (τ i) (by have := hτ i hi; omega)] at this
  exact this

private theorem highestBars_same {c : Ctx α} {st : HighestBars} {r : Option Int × HighestBars} (h : st.next c = .ok r) : r.2 = st := by
  unfold HighestBars.next at h
  obtain ⟨b, hb, h⟩ := Res.bind_ok h
  cases b with
  | false => have := Except.ok.inj h; subst this; rfl
  | true =>
    simp only [Bool.not_true, Bool.false_eq_true, if_false] at h
    obtain ⟨o, _, h⟩ := Res.bind_ok h
    obtain ⟨o, _, h⟩ := Res.bind_ok h
    have := Except.ok.inj h
    subst this; rfl

private theorem lowestBars_same {c : Ctx α} {st : LowestBars} {r : Option Int × LowestBars} (h : st.next c = .ok r) : r.2 = st := by
  unfold LowestBars.next at h
  obtain ⟨b, hb, h⟩ := Res.bind_ok h
  cases b with
  | false => have := Except.ok.inj h; subst this; rfl
  | true =>
    simp only [Bool.not_true, Bool.false_eq_true, if_false] at h
    obtain ⟨o, _, h⟩ := Res.bind_ok h
    obtain ⟨o, _, h⟩ := Res.bind_ok h
    have := Except.ok.inj h
    subst this; rfl

/-- **C78** The true range, the balance of power, the highest/lowest-bars offsets and Aroon have no memory: called at any bars, in any order,
they return what the run over all bars returns there. -/
theorem C78_memoryless (n : Nat) (na : Bool) {d : DataProvider α} {M N : Nat} {τ : Nat → Nat} (hτ : ∀ i, i < N → τ i < M) :
    (∀ y, Runs (fun t => noState (fun c => Tr.next c na) ⟨d, t⟩) (.ok ()) unit M y →
      Runs (fun i => noState (fun c => Tr.next c na) ⟨d, τ i⟩) (.ok ()) unit N (fun i => y (τ i))) ∧
    (∀ y, Runs (fun t => noState BalanceOfPower.next ⟨d, t⟩) (.ok ()) unit M y →
      Runs (fun i => noState BalanceOfPower.next ⟨d, τ i⟩) (.ok ()) unit N (fun i => y (τ i))) ∧
    (∀ y, Runs (fun t => barsOnly HighestBars.next ⟨d, t⟩) (HighestBars.new n) unit M y →
      Runs (fun i => barsOnly HighestBars.next ⟨d, τ i⟩) (HighestBars.new n) unit N (fun i => y (τ i))) ∧
    (∀ y, Runs (fun t => barsOnly LowestBars.next ⟨d, t⟩) (LowestBars.new n) unit M y →
      Runs (fun i => barsOnly LowestBars.next ⟨d, τ i⟩) (LowestBars.new n) unit N (fun i => y (τ i))) ∧
    (∀ y, Runs (fun t => barsOnly Aroon.next ⟨d, t⟩) (Aroon.new n) unit M y →
      Runs (fun i => barsOnly Aroon.next ⟨d, τ i⟩) (Aroon.new n) unit N (fun i => y (τ i))) := by
  refine ⟨fun y h => memoryless (fun c s r hr => ?_) h hτ, fun y h => memoryless (fun c s r hr => ?_) h hτ,
    fun y h => memoryless (fun c s r hr => ?_) h hτ, fun y h => memoryless (fun c s r hr => ?_) h hτ,
    fun y h => memoryless (fun c s r hr => ?_) h hτ⟩
  · rfl
  · rfl
  · exact highestBars_same hr
  · exact lowestBars_same hr
  · unfold barsOnly Aroon.next at hr
    obtain ⟨b0, _, hr⟩ := Res.bind_ok hr
    cases b0 with
    | false => have := Except.ok.inj hr; subst this; rfl
    | true =>
    simp only [Bool.not_true, Bool.false_eq_true, if_false] at hr
    obtain ⟨⟨a, b⟩, h1, hr⟩ := Res.bind_ok hr
    obtain ⟨⟨e, f⟩, h2, hr⟩ := Res.bind_ok hr
    have h1 := highestBars_same h1
    have h2 := lowestBars_same h2
    simp only at h1 h2 hr
    have := Except.ok.inj hr
    rw [← this]
    simp only [h1, h2]

/-! ## Bars left out, nothing missing -/

private theorem calls_congr {S I O : Type} {next : Ctx α → S → I → Res (O × S)} {new : Res S} {d : DataProvider α} {τ : Nat → Nat} {x : Nat → I}
    {N : Nat} (Ok : Nat → S → Prop) (init : ∀ s, new = .ok s → Ok 0 s)
    (step : ∀ i s, Ok i s → next ⟨d, τ i⟩ s (x i) = next ⟨d, i⟩ s (x i))
    (keep : ∀ i s r, Ok i s → next ⟨d, i⟩ s (x i) = .ok r → Ok (i + 1) r.2) : calls next new d τ x N = calls next new d id x N := by
  have key : ∀ n i s, Ok i s → runFrom (fun i => next ⟨d, τ i⟩) x i n s = runFrom (fun i => next ⟨d, id i⟩) x i n s := by
    intro n
    induction n with
    | zero => intro i s _; rfl
    | succ n ih =>
      intro i s h
      simp only [runFrom, id]
      rw [step i s h]
      cases hr : next ⟨d, i⟩ s (x i) with
      | error _ => rfl
      | ok r =>
        simp only [Res.ok_bind]
        rw [ih (i + 1) r.2 (keep i s r h hr)]
        rfl
  unfold calls
  cases hn : new with
  | error _ => rfl
  | ok s => simp only [outputs, run, Res.ok_bind]; rw [key N 0 s (init s hn)]

private theorem validator_any {v : WindowValidator} (h : v.wasNone = false) (c : Ctx α) (a : α) : v.next c (some a) = .ok (true, v) := by
  simp [WindowValidator.next, h]

private theorem sma_any {s : Sma α} (h : s.batchValidator.wasNone = false) (c c' : Ctx α) (a : α) : s.next c (some a) = s.next c' (some a) := by
  simp only [Sma.next, validator_any h, Res.ok_bind]

private theorem sma_keep {s b : Sma α} (h : s.batchValidator.wasNone = false) {c : Ctx α} {a : α} {r : Option α}
    (hr : s.next c (some a) = .ok (r, b)) : b.batchValidator.wasNone = false := by
  unfold Sma.next at hr
  by_cases h1 : s.length = 1
  · rw [if_pos h1] at hr
    have := congrArg Prod.snd (Except.ok.inj hr)
    simp only at this; subst this; exact h
  · rw [if_neg h1] at hr
    dsimp only at hr
    rw [validator_any h] at hr
    simp only [Res.ok_bind] at hr
    obtain ⟨f, -, hr⟩ := Res.bind_ok hr
    have := congrArg Prod.snd (Except.ok.inj hr)
    simp only at this; subst this; exact h

private theorem sma_start {n : Nat} {s : Sma α} (h : Sma.new n = .ok s) :
    1 ≤ n ∧ s.length = n ∧ s.inputCache = ⟨n, []⟩ ∧ s.batchValidator.wasNone = false := by
  by_cases hl : 1 ≤ n
  · have : (Sma.new n : Res (Sma α)) = .ok ⟨n, lit (n : ℚ), lit 0, WindowCache.new n, ⟨n, 0, false⟩⟩ := by
      simp [Sma.new, WindowValidator.new, hl]
    rw [this] at h
    have := Except.ok.inj h
    subst this
    exact ⟨hl, rfl, rfl, rfl⟩
  · simp [Sma.new, hl] at h

private def SmaFresh (i n : Nat) (s : Sma α) : Prop :=
  s.batchValidator.wasNone = false ∧ s.length = n ∧ s.inputCache.length = n ∧ s.inputCache.values.length ≤ i

private theorem smaFresh_step {i n : Nat} {s b : Sma α} (h : SmaFresh i n s) {c : Ctx α} {a : α} {r : Option α}
    (hr : s.next c (some a) = .ok (r, b)) : SmaFresh (i + 1) n b ∧ (n ≠ 1 → r.isSome → n ≤ i + 1) := by
  obtain ⟨h1, h2, h3, h4⟩ := h
  obtain ⟨g1, g2, g3⟩ := sma_next_grows hr
  refine ⟨⟨sma_keep h1 hr, g1.trans h2, ?_, by omega⟩, fun hn hs => ?_⟩
  · unfold Sma.next at hr
    by_cases hl : s.length = 1
    · rw [if_pos hl] at hr
      have := congrArg Prod.snd (Except.ok.inj hr)
      simp only at this; subst this; exact h3
    · rw [if_neg hl] at hr
      dsimp only at hr
      rw [validator_any h1] at hr
      simp only [Res.ok_bind] at hr
      obtain ⟨f, -, hr⟩ := Res.bind_ok hr
      have := congrArg Prod.snd (Except.ok.inj hr)
      simp only at this; subst this; exact h3
  · have := g3 (by omega) (by omega) hs
    omega

private structure EmaFresh (i : Nat) (s : Ema α) : Prop where
  pos : 1 ≤ s.length
  sma : SmaFresh i s.length s.sma
  prev : i < s.length → s.prevValue = none

private theorem atLength_eq (c : Ctx α) {n : Nat} (hn : 1 ≤ n) : c.atLength n = .ok (decide (n ≤ c.index + 1)) := by
  unfold Ctx.atLength
  rw [usub_of_le hn]
  simp only [Res.ok_bind, Res.pure_eq]
  congr 1
  exact decide_eq_decide.mpr (by omega)

private theorem ema_any {i : Nat} {s : Ema α} (h : EmaFresh i s) {d : DataProvider α} {j : Nat} (hj : i ≤ j) (a : α) :
    s.next ⟨d, j⟩ (some a) = s.next ⟨d, i⟩ (some a) := by
  obtain ⟨h1, h2, h3⟩ := h
  unfold Ema.next
  by_cases hl : s.length = 1
  · rw [if_pos hl, if_pos hl]
  rw [if_neg hl, if_neg hl, usub_of_le h1]
  simp only [Res.ok_bind]
  by_cases hl2 : s.length = 1 + 0 ∨ s.length - 1 = 0
  · omega
  rw [atLength_eq _ (by omega), atLength_eq _ (by omega)]
  simp only [Res.ok_bind]
  rw [sma_any h2.1 ⟨d, j⟩ ⟨d, i⟩ a]
  by_cases hi : s.length - 1 ≤ i + 1
  · rw [decide_eq_true hi, decide_eq_true (by omega)]
  · rw [decide_eq_false hi]
    by_cases hjl : s.length - 1 ≤ j + 1
    · rw [decide_eq_true hjl, h3 (by omega)]
      simp only [Bool.not_true, Bool.not_false, Bool.false_eq_true, if_false, if_true]
      cases hs : s.sma.next ⟨d, i⟩ (some a) with
      | error _ => rfl
      | ok r =>
        obtain ⟨o, b⟩ := r
        have := (smaFresh_step h2 hs).2 (by omega)
        cases o with
        | none =>
          simp only [Res.ok_bind, Res.pure_eq]
        | some _ => exact absurd (this rfl) (by omega)
    · rw [decide_eq_false hjl]

private theorem ema_keep {i : Nat} {s : Ema α} (h : EmaFresh i s) {d : DataProvider α} {a : α} {r : Option α × Ema α}
    (hr : s.next ⟨d, i⟩ (some a) = .ok r) : EmaFresh (i + 1) r.2 := by
  obtain ⟨h1, h2, h3⟩ := h
  unfold Ema.next at hr
  by_cases hl : s.length = 1
  · rw [if_pos hl] at hr
    have := Except.ok.inj hr; subst this
    refine ⟨h1, ⟨h2.1, h2.2.1, h2.2.2.1, by have := h2.2.2.2; simp only; omega⟩, fun hi => ?_⟩
    have hi : i + 1 < s.length := hi
    exact h3 (by omega)
  rw [if_neg hl, usub_of_le h1] at hr
  simp only [Res.ok_bind] at hr
  rw [atLength_eq _ (by omega)] at hr
  simp only [Res.ok_bind] at hr
  by_cases hi : s.length - 1 ≤ i + 1
  · rw [decide_eq_true hi] at hr
    simp only [Bool.not_true, Bool.false_eq_true, if_false] at hr
    cases hp : s.prevValue with
    | some p =>
      rw [hp] at hr
      have := Except.ok.inj hr; subst this
      refine ⟨h1, ⟨h2.1, h2.2.1, h2.2.2.1, by have := h2.2.2.2; simp only; omega⟩, fun hi => ?_⟩
      have hi : i + 1 < s.length := hi
      rw [h3 (by omega)] at hp
      cases hp
    | none =>
      rw [hp] at hr
      obtain ⟨⟨o, b⟩, hs, hr⟩ := Res.bind_ok hr
      have := Except.ok.inj hr; subst this
      obtain ⟨g1, g2⟩ := smaFresh_step h2 hs
      refine ⟨h1, g1, fun hi => ?_⟩
      have hi : i + 1 < s.length := hi
      cases o with
      | none => rfl
      | some _ => exact absurd (g2 hl rfl) (by omega)
  · rw [decide_eq_false hi] at hr
    simp only [Bool.not_false, if_true] at hr
    obtain ⟨⟨o, b⟩, hs, hr⟩ := Res.bind_ok hr
    have := Except.ok.inj hr; subst this
    obtain ⟨g1, g2⟩ := smaFresh_step h2 hs
    exact ⟨h1, g1, fun hi => h3 (by omega)⟩

private theorem ema_fresh {n : Nat} {a : α} {s : Ema α} (h : Ema.withAlpha n a = .ok s) : EmaFresh 0 s := by
  unfold Ema.withAlpha at h
  obtain ⟨_, h0, h⟩ := Res.bind_ok h
  obtain ⟨m, hm, h⟩ := Res.bind_ok h
  have := Except.ok.inj h; subst this
  obtain ⟨g1, g2, g3, g4⟩ := sma_start hm
  exact ⟨g1, ⟨g4, g2, by rw [g3], by rw [g3]; exact le_rfl⟩, fun _ => rfl⟩

private theorem dev_any {s : Dev α} (h : s.sma.batchValidator.wasNone = false) (c c' : Ctx α) (a : α) : s.next c (some a) = s.next c' (some a) := by
  unfold Dev.next
  rw [sma_any h c c']

private theorem dev_keep {s : Dev α} (h : s.sma.batchValidator.wasNone = false) {c : Ctx α} {a : α} {r : Option α × Dev α}
    (hr : s.next c (some a) = .ok r) : r.2.sma.batchValidator.wasNone = false := by
  unfold Dev.next at hr
  by_cases hl : s.length = 1
  · rw [if_pos hl] at hr
    have := Except.ok.inj hr; subst this; exact h
  rw [if_neg hl] at hr
  obtain ⟨⟨m, b⟩, hs, hr⟩ := Res.bind_ok hr
  have hk := sma_keep h hs
  cases m with
  | none => have := Except.ok.inj hr; subst this; exact hk
  | some m =>
    simp only at hr
    split at hr
    · have := Except.ok.inj hr; subst this; exact hk
    · obtain ⟨l, _, hr⟩ := Res.bind_ok hr
      have := Except.ok.inj hr; subst this; exact hk

private theorem dev_new_fresh {n : Nat} {s : Dev α} (h : Dev.new n = .ok s) : s.sma.batchValidator.wasNone = false := by
  unfold Dev.new at h
  obtain ⟨_, h0, h⟩ := Res.bind_ok h
  obtain ⟨m, hm, h⟩ := Res.bind_ok h
  have := Except.ok.inj h; subst this
  exact (sma_start hm).2.2.2

private theorem stdev_any {s : Stdev α} (h : s.sma.batchValidator.wasNone = false) (c c' : Ctx α) (a : α) :
    s.next c (some a) = s.next c' (some a) := by
  unfold Stdev.next
  rw [sma_any h c c']

private theorem stdev_keep {s : Stdev α} (h : s.sma.batchValidator.wasNone = false) {c : Ctx α} {a : α} {r : Option α × Stdev α}
    (hr : s.next c (some a) = .ok r) : r.2.sma.batchValidator.wasNone = false := by
  unfold Stdev.next at hr
  by_cases hl : s.length = 1
  · rw [if_pos hl] at hr
    split at hr <;> (have := Except.ok.inj hr; subst this; exact h)
  rw [if_neg hl] at hr
  obtain ⟨⟨m, b⟩, hs, hr⟩ := Res.bind_ok hr
  have hk := sma_keep h hs
  cases m with
  | none => have := Except.ok.inj hr; subst this; exact hk
  | some m =>
    obtain ⟨l, _, hr⟩ := Res.bind_ok hr
    simp only at hr
    split at hr
    · have := Except.ok.inj hr; subst this; exact hk
    · obtain ⟨l, _, hr⟩ := Res.bind_ok hr
      have := Except.ok.inj hr; subst this; exact hk

private theorem stdev_new_fresh {n : Nat} {b : Bool} {s : Stdev α} (h : Stdev.new n b = .ok s) : s.sma.batchValidator.wasNone = false := by
  unfold Stdev.new at h
  obtain ⟨_, h0, h⟩ := Res.bind_ok h
  obtain ⟨m, hm, h⟩ := Res.bind_ok h
  have := Except.ok.inj h; subst this
  exact (sma_start hm).2.2.2

/-- **C78** As long as no value is missing, leaving out bars (`i ≤ τ i`: at most one call per bar) makes no difference to the running sum, the
averages, the deviations, the differences and the bands: they see the sequence of their inputs and nothing else. -/
theorem C78_present (d : DataProvider α) {τ : Nat → Nat} (hτ : ∀ i, i ≤ τ i) (x : Nat → α) (N n : Nat) (a : α) (biased : Bool) :
    let v : Nat → Option α := fun i => some (x i)
    calls Sma.next (Sma.new n) d τ v N = calls Sma.next (Sma.new n) d id v N ∧
    calls Sum.next (Sum.new n) d τ v N = calls Sum.next (Sum.new n) d id v N ∧
    calls Ema.next (Ema.new n) d τ v N = calls Ema.next (Ema.new n) d id v N ∧
    calls Ema.next (Ema.withAlpha n a) d τ v N = calls Ema.next (Ema.withAlpha n a) d id v N ∧
    calls Rma.next (Rma.new n) d τ v N = calls Rma.next (Rma.new n) d id v N ∧
    calls Dev.next (Dev.new n) d τ v N = calls Dev.next (Dev.new n) d id v N ∧
    calls Stdev.next (Stdev.new n biased) d τ v N = calls Stdev.next (Stdev.new n biased) d id v N ∧
    calls (anyCtx Change.next) (Change.new n) d τ v N = calls (anyCtx Change.next) (Change.new n) d id v N ∧
    calls (anyCtx Roc.next) (Roc.new n) d τ v N = calls (anyCtx Roc.next) (Roc.new n) d id v N ∧
    calls BollingerBandsPercentB.next (BollingerBands.new n a) d τ v N = calls BollingerBandsPercentB.next (BollingerBands.new n a) d id v N ∧
    calls BollingerBandsWidth.next (BollingerBands.new n a) d τ v N = calls BollingerBandsWidth.next (BollingerBands.new n a) d id v N ∧
    calls CommodityChannelIndex.next (CommodityChannelIndex.new n) d τ v N =
      calls CommodityChannelIndex.next (CommodityChannelIndex.new n) d id v N := by
  intro v
  have ema (al : α) : calls Ema.next (Ema.withAlpha n al) d τ v N = calls Ema.next (Ema.withAlpha n al) d id v N :=
    calls_congr EmaFresh (fun s h => ema_fresh h) (fun i s h => ema_any h (hτ i) _) (fun i s r h hr => ema_keep h hr)
  refine ⟨?_, ?_, ema _, ema _, ?_, ?_, ?_, rfl, rfl, ?_, ?_, ?_⟩
  · exact calls_congr (fun _ s => s.batchValidator.wasNone = false) (fun s h => (sma_start h).2.2.2) (fun i s h => sma_any h _ _ _)
      (fun i s r h hr => sma_keep h hr)
  · refine calls_congr (fun _ s => s.batchValidator.wasNone = false) (fun s h => ?_) (fun i s h => ?_) (fun i s r h hr => ?_)
    · unfold Sum.new at h
      obtain ⟨_, h0, h⟩ := Res.bind_ok h
      obtain ⟨w, hw, h⟩ := Res.bind_ok h
      have := Except.ok.inj h; subst this
      unfold WindowValidator.new at hw
      obtain ⟨_, _, hw⟩ := Res.bind_ok hw
      have := Except.ok.inj hw; subst this
      rfl
    · simp only [Sum.next, v, validator_any h]
    · simp only [Sum.next, v, validator_any h] at hr
      obtain ⟨f, -, hr⟩ := Res.bind_ok hr
      have := Except.ok.inj hr; subst this
      exact h
  · refine calls_congr (fun i s => EmaFresh i s.ema) (fun s h => ?_) (fun i s h => ?_) (fun i s r h hr => ?_)
    · unfold Rma.new at h
      obtain ⟨_, h0, h⟩ := Res.bind_ok h
      obtain ⟨w, hw, h⟩ := Res.bind_ok h
      have := Except.ok.inj h; subst this
      exact ema_fresh hw
    · simp only [Rma.next, v, ema_any h (hτ i)]
    · unfold Rma.next at hr
      obtain ⟨⟨o, e⟩, he, hr⟩ := Res.bind_ok hr
      have := Except.ok.inj hr; subst this
      exact ema_keep h he
  · exact calls_congr (fun _ s => s.sma.batchValidator.wasNone = false) (fun s h => dev_new_fresh h) (fun i s h => dev_any h _ _ _)
      (fun i s r h hr => dev_keep h hr)
  · exact calls_congr (fun _ s => s.sma.batchValidator.wasNone = false) (fun s h => stdev_new_fresh h) (fun i s h => stdev_any h _ _ _)
      (fun i s r h hr => stdev_keep h hr)
  · refine calls_congr (fun _ s => s.basis.batchValidator.wasNone = false ∧ s.stdev.sma.batchValidator.wasNone = false) (fun s h => ?_)
      (fun i s h => ?_) (fun i s r h hr => ?_)
    · unfold BollingerBands.new at h
      obtain ⟨a, ha, h⟩ := Res.bind_ok h
      obtain ⟨b, hb, h⟩ := Res.bind_ok h
      have := Except.ok.inj h; subst this
      exact ⟨(sma_start ha).2.2.2, stdev_new_fresh hb⟩
    · unfold BollingerBandsPercentB.next
      simp only [v]
      rw [sma_any h.1 ⟨d, τ i⟩ ⟨d, i⟩]
      simp only [stdev_any h.2 ⟨d, τ i⟩ ⟨d, i⟩]
    · unfold BollingerBandsPercentB.next at hr
      obtain ⟨⟨a1, a2⟩, ha, hr⟩ := Res.bind_ok hr
      obtain ⟨⟨b1, b2⟩, hb, hr⟩ := Res.bind_ok hr
      have hk : a2.batchValidator.wasNone = false ∧ b2.sma.batchValidator.wasNone = false := ⟨sma_keep h.1 ha, stdev_keep h.2 hb⟩
      simp only [v] at hr
      rcases a1 with _ | a1 <;> rcases b1 with _ | b1
      · have := Except.ok.inj hr; subst this; exact hk
      · have := Except.ok.inj hr; subst this; exact hk
      · have := Except.ok.inj hr; subst this; exact hk
      · simp only at hr
        split at hr <;> (have := Except.ok.inj hr; subst this; exact hk)
  · refine calls_congr (fun _ s => s.basis.batchValidator.wasNone = false ∧ s.stdev.sma.batchValidator.wasNone = false) (fun s h => ?_)
      (fun i s h => ?_) (fun i s r h hr => ?_)
    · unfold BollingerBands.new at h
      obtain ⟨a, ha, h⟩ := Res.bind_ok h
      obtain ⟨b, hb, h⟩ := Res.bind_ok h
      have := Except.ok.inj h; subst this
      exact ⟨(sma_start ha).2.2.2, stdev_new_fresh hb⟩
    · unfold BollingerBandsWidth.next
      simp only [v]
      rw [sma_any h.1 ⟨d, τ i⟩ ⟨d, i⟩]
      simp only [stdev_any h.2 ⟨d, τ i⟩ ⟨d, i⟩]
    · unfold BollingerBandsWidth.next at hr
      obtain ⟨⟨a1, a2⟩, ha, hr⟩ := Res.bind_ok hr
      obtain ⟨⟨b1, b2⟩, hb, hr⟩ := Res.bind_ok hr
      have hk : a2.batchValidator.wasNone = false ∧ b2.sma.batchValidator.wasNone = false := ⟨sma_keep h.1 ha, stdev_keep h.2 hb⟩
      simp only [v] at hr
      rcases a1 with _ | a1 <;> rcases b1 with _ | b1
      · have := Except.ok.inj hr; subst this; exact hk
      · have := Except.ok.inj hr; subst this; exact hk
      · have := Except.ok.inj hr; subst this; exact hk
      · simp only at hr
        split at hr <;> (have := Except.ok.inj hr; subst this; exact hk)
  · refine calls_congr (fun _ s => s.sma.batchValidator.wasNone = false ∧ s.dev.sma.batchValidator.wasNone = false) (fun s h => ?_)
      (fun i s h => ?_) (fun i s r h hr => ?_)
    · unfold CommodityChannelIndex.new at h
      obtain ⟨a, ha, h⟩ := Res.bind_ok h
      obtain ⟨b, hb, h⟩ := Res.bind_ok h
      have := Except.ok.inj h; subst this
      exact ⟨(sma_start ha).2.2.2, dev_new_fresh hb⟩
    · unfold CommodityChannelIndex.next
      simp only [v]
      rw [sma_any h.1 ⟨d, τ i⟩ ⟨d, i⟩]
      simp only [dev_any h.2 ⟨d, τ i⟩ ⟨d, i⟩]
    · unfold CommodityChannelIndex.next at hr
      obtain ⟨⟨a1, a2⟩, ha, hr⟩ := Res.bind_ok hr
      obtain ⟨⟨b1, b2⟩, hb, hr⟩ := Res.bind_ok hr
      have := Except.ok.inj hr; subst this
      exact ⟨sma_keep h.1 ha, dev_keep h.2 hb⟩

/-! ## Bars left out and values missing -/

/-- The state of a validator that was called at the bars `τ 0 ≤ τ 1 ≤ …`. -/
private structure GapInv (τ : Nat → Nat) (x : Nat → Option α) (len t : Nat) (v : WindowValidator) : Prop where
  len : v.length = len
  none : v.wasNone = false → ∀ k, k < t → (x k).isSome
  last : v.wasNone = true → ∃ j, j < t ∧ x j = .none ∧ v.lastNoneIndex = τ j ∧ ∀ k, j < k → k < t → (x k).isSome

open Classical in
private theorem gap_step {d : DataProvider α} {τ : Nat → Nat} (hτ : Monotone τ) {x : Nat → Option α} {len t : Nat} (hlen : 1 ≤ len)
    {v : WindowValidator} (h : GapInv τ x len t v) :
    ∃ v', v.next ⟨d, τ t⟩ (x t) = .ok (decide (Clear len τ x t), v') ∧ GapInv τ x len (t + 1) v' := by
  obtain ⟨h1, h2, h3⟩ := h
  unfold WindowValidator.next
  cases hx : x t with
  | none =>
    refine ⟨{ v with lastNoneIndex := τ t, wasNone := true }, ?_, ⟨h1, by simp, fun _ => ⟨t, by omega, hx, rfl, fun k h4 h5 => by omega⟩⟩⟩
    have : ¬ Clear len τ x t := fun hc => by have := hc t le_rfl hx; omega
    simp [this]
  | some a =>
    cases hw : v.wasNone with
    | false =>
      refine ⟨v, ?_, ⟨h1, fun _ k hk => ?_, fun hw' => by rw [hw] at hw'; cases hw'⟩⟩
      · have : Clear len τ x t := fun j hj hn => by
          rcases Nat.lt_or_ge j t with h | h
          · have := h2 hw j h; rw [hn] at this; cases this
          · rw [show j = t by omega, hx] at hn; cases hn
        simp [this]
      · rcases Nat.lt_or_ge k t with h | h
        · exact h2 hw k h
        · rw [show k = t by omega, hx]; rfl
    | true =>
      obtain ⟨j, h4, h5, h6, h7⟩ := h3 hw
      have h8 : τ j ≤ τ t := hτ h4.le
      refine ⟨v, ?_, ⟨h1, (fun hw' => by rw [hw] at hw'; cases hw'), fun _ => ⟨j, by omega, h5, h6, fun k hk1 hk2 => ?_⟩⟩⟩
      · have : Clear len τ x t ↔ len ≤ τ t - τ j := by
          constructor
          · intro hc; have := hc j h4.le h5; omega
          · intro hl k hk hn
            rcases Nat.lt_or_ge j k with h | h
            · rcases Nat.lt_or_ge k t with h' | h'
              · have := h7 k h h'; rw [hn] at this; cases this
              · rw [show k = t by omega, hx] at hn; cases hn
            · have := hτ h; omega
        simp [this, h6, h1, usub_of_le h8]
      · rcases Nat.lt_or_ge k t with h' | h'
        · exact h7 k hk1 h'
        · rw [show k = t by omega, hx]; rfl

/-! ## Highest and lowest of the last calls -/

private theorem recent_ne {β : Type} (x : Nat → β) {n i : Nat} (h : 1 ≤ n) : recent x n i ≠ [] := win_ne_nil x (by omega)

private theorem all_recent {β : Type} (x : Nat → β) (n i : Nat) : (⟨n, hist x (i + 1)⟩ : WindowCache β).all = .ok (recent x n i) := by
  unfold recent
  rcases Nat.le_total n (i + 1) with h | h
  · rw [cache_hist_all x h, Nat.min_eq_left h]
  · rw [cache_hist_all_short x h, Nat.min_eq_right h]
    congr 1
    rw [win_eq_drop x le_rfl]
    simp

end

section
variable {K : Type} [Field K] [LinearOrder K] [IsStrictOrderedRing K] [RootOps K]
open Classical

private theorem rawSum_any {n i : Nat} (hn : 1 ≤ n) (x : Nat → Option K) :
    rawSum0 n (flo x) i = fin (recent x n i).reduceOption.sum := by
  have hr : ∀ l : List (Option K), l.reduceOption.sum = (l.map fun o => o.getD 0).sum := by
    intro l
    induction l with
    | nil => rfl
    | cons o l ih => cases o <;> simp [ih]
  have hx : addOpt (acc0 n (flo x) i) (flo x i)
      = fin (((hist (fun k => (x k).getD 0) i).drop (i - (n - 1))).sum + (x i).getD 0) := by
    rw [acc0_exact]
    show addOpt _ ((x i).map fin) = _
    cases x i <;> simp [addOpt]
  rw [rawSum0, hx]
  congr 1
  unfold recent
  rw [hr, win_map (fun o : Option K => o.getD 0), win_eq_drop _ (by omega), hist_succ', List.drop_append_of_le_length (by simp; omega), List.sum_append]
  rw [show i + 1 - min n (i + 1) = i - (n - 1) by omega]
  simp

private theorem clear_flo {n : Nat} {τ : Nat → Nat} {x : Nat → Option K} {i : Nat} : Clear n τ (flo x) i ↔ Clear n τ x i := by
  unfold Clear
  constructor <;> intro h j hj hn <;> exact h j hj (by simpa [flo] using hn)

/-- **C78** The mean and the sum on any schedule that does not go back, with values missing: a value is reported once `n` calls were made and
no missing value was passed less than `n` *bars* ago, and it is the sum of the present values among the last `n` *calls* (the mean divides it by
`n`, however many are present). -/
theorem C78_gaps (d : DataProvider (Ex K)) {n : Nat} (hn : 2 ≤ n) {τ : Nat → Nat} (hτ : Monotone τ) (x : Nat → Option K) (N : Nat) :
    Runs (fun i => Sma.next ⟨d, τ i⟩) (Sma.new n) (flo x) N
      (fun i => if n ≤ i + 1 ∧ Clear n τ x i then some (fin ((recent x n i).reduceOption.sum / n)) else none) ∧
    Runs (fun i => Sum.next ⟨d, τ i⟩) (Sum.new n) (flo x) N
      (fun i => if n ≤ i + 1 ∧ Clear n τ x i then some (fin (recent x n i).reduceOption.sum) else none) := by
  have hn1 : 1 ≤ n := by omega
  have hv : ∃ v, WindowValidator.new n = .ok v ∧ GapInv τ (flo x) n 0 v :=
    ⟨⟨n, 0, false⟩, by simp [WindowValidator.new, hn1], ⟨rfl, fun _ k hk => absurd hk (Nat.not_lt_zero k), fun h => Bool.noConfusion h⟩⟩
  obtain ⟨v, hv, hI⟩ := hv
  have hK : (n : K) ≠ 0 := by exact_mod_cast (show n ≠ 0 by omega)
  constructor
  · have hnew : Sma.new (α := Ex K) n = .ok ⟨n, lit (n : ℚ), lit 0, ⟨n, []⟩, v⟩ := by simp [Sma.new, hn1, hv]; rfl
    rw [hnew]
    refine Impl.runs (Inv := fun t s => s.length = n ∧ s.lengthF64 = lit (n : ℚ) ∧ s.sum = acc0 n (flo x) t ∧
      s.inputCache = ⟨n, hist (flo x) t⟩ ∧ GapInv τ (flo x) n t s.batchValidator) ⟨⟨rfl, rfl, rfl, rfl, hI⟩, fun t s _ h => ?_⟩
    obtain ⟨h1, ha, hb, hc, hd⟩ := h
    obtain ⟨w, hw1, hw2⟩ := gap_step (d := d) hτ hn1 hd
    refine ⟨{ s with sum := acc0 n (flo x) (t + 1), inputCache := ⟨n, hist (flo x) (t + 1)⟩, batchValidator := w }, ?_, h1, ha, rfl, rfl, hw2⟩
    unfold Sma.next
    simp only [h1, show n ≠ 1 by omega, if_false, hc, cache_hist_next, hw1, Res.ok_bind, cache_hist_isFilled,
      cache_hist_first hn1, cache_hist_last, hb, ha, Res.pure_eq]
    have hr := rawSum_any (i := t) hn1 x
    by_cases hf : n ≤ t + 1 ∧ Clear n τ x t
    · rw [if_pos hf]
      have : (decide (n ≤ t + 1) && decide (Clear n τ (flo x) t)) = true := by simp [hf.1, clear_flo.mpr hf.2]
      rw [if_pos this]
      have e : rawSum0 n (flo x) t / lit (n : ℚ) = fin ((recent x n t).reduceOption.sum / n) := by
        rw [hr, fin_lit_nat]
        exact fin_div _ _ hK
      rw [← e]
      rfl
    · rw [if_neg hf]
      have : ¬ (decide (n ≤ t + 1) && decide (Clear n τ (flo x) t)) = true := by
        simp only [Bool.and_eq_true, decide_eq_true_eq, clear_flo]; exact hf
      rw [if_neg this]
      rfl
  · have hnew : Sum.new (α := Ex K) n = .ok ⟨n, lit 0, ⟨n, []⟩, v⟩ := by simp [Sum.new, hn1, hv]; rfl
    rw [hnew]
    refine Impl.runs (Inv := fun t s => s.sum = acc0 n (flo x) t ∧
      s.inputCache = ⟨n, hist (flo x) t⟩ ∧ GapInv τ (flo x) n t s.batchValidator) ⟨⟨rfl, rfl, hI⟩, fun t s _ h => ?_⟩
    obtain ⟨hb, hc, hd⟩ := h
    obtain ⟨w, hw1, hw2⟩ := gap_step (d := d) hτ hn1 hd
    refine ⟨{ s with sum := acc0 n (flo x) (t + 1), inputCache := ⟨n, hist (flo x) (t + 1)⟩, batchValidator := w }, ?_, rfl, rfl, hw2⟩
    unfold Sum.next
    simp only [hc, cache_hist_next, hw1, Res.ok_bind, cache_hist_isFilled,
      cache_hist_first hn1, cache_hist_last, hb, Res.pure_eq]
    have hr := rawSum_any (i := t) hn1 x
    by_cases hf : n ≤ t + 1 ∧ Clear n τ x t
    · rw [if_pos hf]
      have : (decide (n ≤ t + 1) && decide (Clear n τ (flo x) t)) = true := by simp [hf.1, clear_flo.mpr hf.2]
      rw [if_pos this, ← hr]
      rfl
    · rw [if_neg hf]
      have : ¬ (decide (n ≤ t + 1) && decide (Clear n τ (flo x) t)) = true := by
        simp only [Bool.and_eq_true, decide_eq_true_eq, clear_flo]; exact hf
      rw [if_neg this]
      rfl

/-- **C78** `Highest`/`Lowest` on *any* schedule: the greatest/least present value of the last `n` calls — of all calls, if there were fewer —
reported as soon as the *bar number* reaches `n - 1`.  Started late they report extremes of windows that are not full. -/
theorem C78_highest (d : DataProvider (Ex K)) {n : Nat} (hn : 1 ≤ n) (τ : Nat → Nat) (x : Nat → Option K) (N : Nat) :
    Runs (fun i => Highest.next ⟨d, τ i⟩) (Highest.new n) (flo x) N
      (fun i => if n ≤ τ i + 1 then (recent x n i).reduceOption.max?.map fin else none) ∧
    Runs (fun i => Lowest.next ⟨d, τ i⟩) (Lowest.new n) (flo x) N
      (fun i => if n ≤ τ i + 1 then (recent x n i).reduceOption.min?.map fin else none) := by
  constructor
  · obtain ⟨s, hs, hI⟩ := highest_init (flo x) hn
    rw [hs]
    refine Impl.runs (Inv := HighestInv n (flo x)) ⟨hI, fun t s _ h => ?_⟩
    obtain ⟨h1, h2⟩ := h
    refine ⟨{ s with inputCache := ⟨n, hist (flo x) (t + 1)⟩ }, ?_, h1, rfl⟩
    unfold Highest.next
    simp only [h2, cache_hist_next, Ctx.atLength, h1, usub_of_le hn, Res.ok_bind, Res.pure_eq]
    by_cases hf : n ≤ τ t + 1
    · have e : recent (flo x) n t = (recent x n t).map fun o => o.map fin := by
        unfold recent; rw [← win_map (fun o : Option K => o.map fin)]
      rw [if_pos hf, ← pick_max_exact (recent_ne x hn), ← e]
      simp [show n - 1 ≤ τ t by omega, all_recent, highest_ok (recent_ne (flo x) hn)]
    · simp [hf, show ¬ n - 1 ≤ τ t by omega]
  · obtain ⟨s, hs, hI⟩ := lowest_init (flo x) hn
    rw [hs]
    refine Impl.runs (Inv := LowestInv n (flo x)) ⟨hI, fun t s _ h => ?_⟩
    obtain ⟨h1, h2⟩ := h
    refine ⟨{ s with inputCache := ⟨n, hist (flo x) (t + 1)⟩ }, ?_, h1, rfl⟩
    unfold Lowest.next
    simp only [h2, cache_hist_next, Ctx.atLength, h1, usub_of_le hn, Res.ok_bind, Res.pure_eq]
    by_cases hf : n ≤ τ t + 1
    · have e : recent (flo x) n t = (recent x n t).map fun o => o.map fin := by
        unfold recent; rw [← win_map (fun o : Option K => o.map fin)]
      rw [if_pos hf, ← pick_min_exact (recent_ne x hn), ← e]
      simp [show n - 1 ≤ τ t by omega, all_recent, lowest_ok (recent_ne (flo x) hn)]
    · simp [hf, show ¬ n - 1 ≤ τ t by omega]

end

/-! ## Concrete cases -/

private def noBars : DataProvider (Ex ℚ) := ⟨[], [], [], [], [], [], 0, 0⟩
private def q (v : ℚ) : Option (Ex ℚ) := some (fin v)

/-- Started at bar 10, `Highest(3)` reports from its first call on, over windows that are not full; started at bar 0 it waits. -/
example :
    calls Highest.next (Highest.new 3) noBars (fun i => 10 + i) (fun i => [q 5, q 4, q 3, q 1].getD i none) 4 = .ok [q 5, q 5, q 5, q 4] ∧
    calls Highest.next (Highest.new 3) noBars id (fun i => [q 5, q 4, q 3, q 1].getD i none) 4 = .ok [none, none, q 5, q 4] := by
  decide +kernel

/-- The mean of three calls with a missing value among them is reported when the bars in between were left out (4/3 = (1 + 3)/3); called on
every bar it is not. -/
example :
    calls Sma.next (Sma.new 3) noBars (fun i => [0, 1, 10, 11].getD i 0) (fun i => [q 1, none, q 3, q 5].getD i none) 4
      = .ok [none, none, q (4 / 3), q (8 / 3)] ∧
    calls Sma.next (Sma.new 3) noBars id (fun i => [q 1, none, q 3, q 5].getD i none) 4 = .ok [none, none, none, none] := by
  decide +kernel

/-- The weighted average *panics* on that schedule (it takes the validator's word for it), and so does the symmetrically weighted one. -/
theorem C78_wma_panics :
    (∃ e, calls Wma.next (Wma.new 3) noBars (fun i => [0, 1, 10].getD i 0) (fun i => [q 1, none, q 3].getD i none) 3 = .error e) ∧
    (∃ e, calls Swma.next Swma.new noBars (fun i => [0, 1, 10].getD i 0) (fun i => [q 1, none, q 3].getD i none) 3 = .error e) ∧
    calls Wma.next (Wma.new 3) noBars id (fun i => [q 1, none, q 3].getD i none) 3 = .ok [none, none, none] :=
  ⟨⟨.unwrapNone, by decide +kernel⟩, ⟨.unwrapNone, by decide +kernel⟩, by decide +kernel⟩

/-- The relative strength index is *not* among the components of `C78_present`: its first difference is missing, and when bars are left out
during its warm-up the averages of gains and losses stop waiting for it one call early. -/
theorem C78_rsi_gap :
    calls Rsi.next (Rsi.new 3) noBars (fun i => [0, 1, 9, 10, 11].getD i 0) (fun i => [q 1, q 2, q 4, q 3, q 5].getD i none) 5 ≠
      calls Rsi.next (Rsi.new 3) noBars id (fun i => [q 1, q 2, q 4, q 3, q 5].getD i none) 5 := by
  decide +kernel

/-- A mean started at bar 7: same values as on the data from bar 7 on. -/
example (d : DataProvider (Ex ℚ)) :
    calls Sma.next (Sma.new 2) d (fun i => 7 + i) (fun i => [q 1, none, q 3, q 5].getD i none) 4 = .ok [none, none, none, q 4] := by
  have h := (C78_start_anywhere (α := Ex ℚ) 2 (lit 0) true).1 d 7 4 (fun i => [q 1, none, q 3, q 5].getD i none)
  simp only [Nat.zero_add] at h
  rw [h]
  exact sma_runs (d.cut 7) (by norm_num) (fun i => [q 1, none, q 3, q 5].getD i none) 4 |>.trans (by decide +kernel)

/-- Every other bar of `d`: the data of `C78_runner` and `C78_metrics` exist. -/
example (d : DataProvider (Ex ℚ)) {M : Nat} {o h l c v : Nat → Ex ℚ} (hb : Bars d (2 * M) o h l c v) (ht : HasCol d.time (2 * M) fun _ => none) :
    Sampled (fun i => 2 * i) M d
      (DataProvider.ofSeries M (fun t => some (o (2 * t))) (fun t => some (h (2 * t))) (fun t => some (l (2 * t))) (fun t => some (c (2 * t)))
        fun t => some (v (2 * t))) := by
  constructor <;> intro i hi
  · rw [hb.open_ (2 * i) (by omega)]; exact hasCol_hist _ _ i hi
  · rw [hb.high (2 * i) (by omega)]; exact hasCol_hist _ _ i hi
  · rw [hb.low (2 * i) (by omega)]; exact hasCol_hist _ _ i hi
  · rw [hb.close (2 * i) (by omega)]; exact hasCol_hist _ _ i hi
  · rw [hb.volume (2 * i) (by omega)]; exact hasCol_hist _ _ i hi
  · rw [ht (2 * i) (by omega)]
    simp [DataProvider.ofSeries, hi]

end Pace
