import Verif.Props.OnlyPosition
import Verif.Props.Signals
import Verif.Props.Position
import Mathlib.Data.Sign.Basic
import Mathlib.Algebra.BigOperators.Intervals

/-!
# Which side a crossing strategy is on (C91)

Level 1 (`Fl R`): any rounded arithmetic, values that are numbers or infinite.
-/

set_option linter.unusedSectionVars false

namespace Pace
open Spec

section float
variable {K : Type} [Field K] [LinearOrder K] [IsStrictOrderedRing K] {R : Rounding K}

/-- The indicator has no value before tick `s` and a value that is not NaN from there on. -/
def Spec.ValuesFrom (v : Nat → Option (Fl R)) (s N : Nat) : Prop :=
  ∀ t, t < N → (t < s → v t = none) ∧ (s ≤ t → ∃ w, v t = some w ∧ w ≠ Fl.of R .nan)

private theorem ext_lt_of_not_le {a b : Ext K} (ha : a ≠ .nan) (hb : b ≠ .nan) (h : ¬ Ext.le a b = true) : Ext.lt b a = true := by
  revert ha hb h
  rcases a with _ | _ | _ | a <;> rcases b with _ | _ | _ | b <;> simp [Ext.le, Ext.lt]

private theorem ext_le_left {a b : Ext K} (h : Ext.le a b = true) : a ≠ .nan := by
  revert h
  rcases a with _ | _ | _ | a <;> rcases b with _ | _ | _ | b <;> simp [Ext.le]

private theorem ext_le_right {a b : Ext K} (h : Ext.le a b = true) : b ≠ .nan := by
  revert h
  rcases a with _ | _ | _ | a <;> rcases b with _ | _ | _ | b <;> simp [Ext.le]

private theorem ext_le_refl {a : Ext K} (h : a ≠ .nan) : Ext.le a a = true := by
  revert h
  rcases a with _ | _ | _ | a <;> simp [Ext.le]

private theorem lt_of_not_le {a b : Fl R} (ha : a ≠ Fl.of R .nan) (hb : b ≠ Fl.of R .nan) (h : ¬ F64.le a b = true) :
    F64.lt b a = true := ext_lt_of_not_le ha hb h

private theorem lt_le_false {a b c : Fl R} (h1 : F64.lt a b = true) (h2 : F64.le c a = true) (h3 : F64.lt b c = true) : False := by
  revert h1 h2 h3
  show Ext.lt a b = true → Ext.le c a = true → Ext.lt b c = true → False
  rcases a with _ | _ | _ | a <;> rcases b with _ | _ | _ | b <;> rcases c with _ | _ | _ | c <;> simp [Ext.le, Ext.lt]
  intros; linarith

variable {v : Nat → Option (Fl R)} {over under : Fl R} {N s : Nat} {y : Nat → Option TradeDirection}

/-- **C91.** The rule "long when the value rises through `over`, short when it falls through `under`", with `under` not above `over`:
whenever the value is above `over`, the most recent signal is long, and whenever it is below `under`, the most recent signal is short -
unless the value has been on that side from the beginning. In between there is no signal. -/
theorem C91_latest (hy : ThresholdRule v over under N y) (hle : F64.le under over = true) (hv : ValuesFrom v s N) {t : Nat}
    (ht : t < N) {w : Fl R} (hw : v t = some w) :
    (F64.lt over w = true → ∀ k p, k < t → v k = some p → F64.le p over = true → latest y (t + 1) = some .long) ∧
    (F64.lt w under = true → ∀ k p, k < t → v k = some p → F64.le under p = true → latest y (t + 1) = some .short) ∧
    (F64.le w over = true → F64.le under w = true → y t = none) := by
  have hon : over ≠ Fl.of R .nan := ext_le_right hle
  have hun : under ≠ Fl.of R .nan := ext_le_left hle
  refine ⟨?_, ?_, ?_⟩
  · revert w
    induction t with
    | zero => intro w _ _ k p hk; omega
    | succ t ih =>
      intro w hw h k p hk hp hpo
      have hks : s ≤ k := by
        by_contra hlt
        rw [((hv k (by omega)).1 (by omega))] at hp
        cases hp
      obtain ⟨u, hu, hun'⟩ := (hv t (by omega)).2 (by omega)
      by_cases hc : F64.le u over = true
      · have : y (t + 1) = some .long := (hy (t + 1) ht).1.mpr ⟨t, u, w, rfl, hu, hw, hc, h⟩
        rw [latest, this]
      · have hlt := lt_of_not_le hun' hon hc
        have hkt : k < t := by
          rcases Nat.lt_succ_iff_lt_or_eq.mp hk with hk | rfl
          · exact hk
          · rw [hu] at hp; cases hp; exact absurd hpo hc
        have hi := ih (by omega) hu hlt k p hkt hp hpo
        have hn : y (t + 1) ≠ some .short := by
          intro e
          obtain ⟨⟨s', p', w', e1, e2, e3, e4, e5⟩, _⟩ := (hy (t + 1) ht).2.mp e
          rw [hw] at e3
          cases e3
          exact lt_le_false h hle e5
        rw [latest]
        cases hyt : y (t + 1) with
        | none => exact hi
        | some dir => cases dir with
          | long => rfl
          | short => exact absurd hyt hn
  · revert w
    induction t with
    | zero => intro w _ _ k p hk; omega
    | succ t ih =>
      intro w hw h k p hk hp hpo
      have hks : s ≤ k := by
        by_contra hlt
        rw [((hv k (by omega)).1 (by omega))] at hp
        cases hp
      have hn : ¬ RisesThrough v over (t + 1) := by
        rintro ⟨s', p', w', e1, e2, e3, e4, e5⟩
        rw [hw] at e3
        cases e3
        exact lt_le_false e5 hle h
      obtain ⟨u, hu, hun'⟩ := (hv t (by omega)).2 (by omega)
      by_cases hc : F64.le under u = true
      · have : y (t + 1) = some .short := (hy (t + 1) ht).2.mpr ⟨⟨t, u, w, rfl, hu, hw, hc, h⟩, hn⟩
        rw [latest, this]
      · have hlt := lt_of_not_le hun hun' hc
        have hkt : k < t := by
          rcases Nat.lt_succ_iff_lt_or_eq.mp hk with hk | rfl
          · exact hk
          · rw [hu] at hp; cases hp; exact absurd hpo hc
        have hi := ih (by omega) hu hlt k p hkt hp hpo
        rw [latest]
        cases hyt : y (t + 1) with
        | none => exact hi
        | some dir => cases dir with
          | long => exact absurd ((hy (t + 1) ht).1.mp hyt) hn
          | short => rfl
  · intro h1 h2
    cases hyt : y t with
    | none => rfl
    | some dir => cases dir with
      | long =>
        obtain ⟨s', p', w', e1, e2, e3, e4, e5⟩ := (hy t ht).1.mp hyt
        rw [hw] at e3; cases e3
        exact (not_lt_of_le h1 e5).elim
      | short =>
        obtain ⟨⟨s', p', w', e1, e2, e3, e4, e5⟩, _⟩ := (hy t ht).2.mp hyt
        rw [hw] at e3; cases e3
        exact (not_lt_of_le h2 e5).elim
where
  not_lt_of_le {a b : Fl R} (h1 : F64.le a b = true) (h2 : F64.lt b a = true) : False := by
    revert h1 h2
    show Ext.le a b = true → Ext.lt b a = true → False
    rcases a with _ | _ | _ | a <;> rcases b with _ | _ | _ | b <;> simp [Ext.le, Ext.lt]

/-- The signal rule of two lines: long exactly when `a` crosses over `b`, short exactly when `b` crosses over `a`. -/
def Spec.CrossRule (a b : Nat → Option (Fl R)) (N : Nat) (y : Nat → Option TradeDirection) : Prop :=
  ∀ t, t < N → (y t = some .long ↔ CrossesOver a b t) ∧ (y t = some .short ↔ CrossesOver b a t)

/-- Before tick `s` one of the lines is missing; from there on both have a value that is not NaN. -/
def Spec.LinesFrom (a b : Nat → Option (Fl R)) (s N : Nat) : Prop :=
  ∀ t, t < N → (t < s → a t = none ∨ b t = none) ∧
    (s ≤ t → ∃ u w, a t = some u ∧ b t = some w ∧ u ≠ Fl.of R .nan ∧ w ≠ Fl.of R .nan)

/-- The other direction and the lines the other way round. -/
private theorem rule_swap {a b : Nat → Option (Fl R)} (hy : CrossRule a b N y) : CrossRule b a N fun t => (y t).map opposite := by
  intro t ht
  obtain ⟨h1, h2⟩ := hy t ht
  rw [← h1, ← h2]
  dsimp only
  generalize y t = z
  rcases z with _ | (_ | _) <;> simp [opposite]

private theorem latest_swap (y : Nat → Option TradeDirection) (n : Nat) :
    latest (fun t => (y t).map opposite) n = (latest y n).map opposite := by
  induction n with
  | zero => rfl
  | succ n ih =>
    rw [latest, latest, ih]
    cases y n <;> rfl

private theorem lines_over {a b : Nat → Option (Fl R)} (hy : CrossRule a b N y) (hv : LinesFrom a b s N) {f : Nat} (hf : y f ≠ none)
    {t : Nat} (ht : t < N) (hft : f ≤ t) {u w : Fl R} (hu : a t = some u) (hw : b t = some w) (h : F64.lt w u = true) :
    latest y (t + 1) = some .long := by
  have hno : y t ≠ some .short := by
    intro e
    obtain ⟨_, _, _, vb, va, _, _, _, e4, e5, _, e7⟩ := (hy t ht).2.mp e
    rw [hw] at e4; rw [hu] at e5
    cases e4; cases e5
    exact lt_lt_false h e7
  revert u w
  induction t with
  | zero =>
    intro u w _ _ _
    have : f = 0 := by omega
    subst this
    rw [latest]
    cases hy0 : y 0 with
    | none => exact absurd hy0 hf
    | some dir => cases dir with
      | long => rfl
      | short => exact absurd hy0 hno
  | succ t ih =>
    intro u w hu hw h
    rw [latest]
    cases hyt : y (t + 1) with
    | some dir => cases dir with
      | long => rfl
      | short => exact absurd hyt hno
    | none =>
      have hft' : f ≤ t := by
        rcases Nat.le_succ_iff.mp hft with h | rfl
        · exact h
        · exact absurd hyt hf
      -- the lines are present on tick `t`, because there was a signal before
      have hst : s ≤ t := by
        by_contra hlt
        have hfs : ¬ s ≤ f := by omega
        have hm := (hv f (by omega)).1 (by omega)
        cases hyf : y f with
        | none => exact hf hyf
        | some dir => cases dir with
          | long =>
            obtain ⟨_, _, _, _, _, _, _, _, e4, e5, _⟩ := (hy f (by omega)).1.mp hyf
            rw [e4, e5] at hm; simp at hm
          | short =>
            obtain ⟨_, _, _, _, _, _, _, _, e4, e5, _⟩ := (hy f (by omega)).2.mp hyf
            rw [e4, e5] at hm; simp at hm
      obtain ⟨pu, pw, hpu, hpw, nu, nw⟩ := (hv t (by omega)).2 hst
      have hlt : F64.lt pw pu = true := by
        by_cases hc : F64.le pu pw = true
        · have : y (t + 1) = some .long := (hy (t + 1) ht).1.mpr ⟨t, pu, pw, u, w, rfl, hpu, hpw, hu, hw, hc, h⟩
          rw [this] at hyt; cases hyt
        · exact lt_of_not_le nu nw hc
      refine ih (by omega) hft' ?_ hpu hpw hlt
      intro e
      obtain ⟨_, _, _, vb, va, _, _, _, e4, e5, _, e7⟩ := (hy t (by omega)).2.mp e
      rw [hpw] at e4; rw [hpu] at e5
      cases e4; cases e5
      exact lt_lt_false hlt e7
where
  lt_lt_false {a b : Fl R} (h1 : F64.lt a b = true) (h2 : F64.lt b a = true) : False := by
    revert h1 h2
    show Ext.lt a b = true → Ext.lt b a = true → False
    rcases a with _ | _ | _ | a <;> rcases b with _ | _ | _ | b <;> simp [Ext.lt]
    intros; linarith

/-- **C91.** Two lines. Once there was a signal, the most recent signal says which line is above: long while `a` is above `b`, short while
`b` is above `a`; while they are equal there is no signal. -/
theorem C91_lines {a b : Nat → Option (Fl R)} (hy : CrossRule a b N y) (hv : LinesFrom a b s N) {f : Nat} (hf : y f ≠ none)
    {t : Nat} (ht : t < N) (hft : f ≤ t) {u w : Fl R} (hu : a t = some u) (hw : b t = some w) :
    (F64.lt w u = true → latest y (t + 1) = some .long) ∧ (F64.lt u w = true → latest y (t + 1) = some .short) ∧
    (F64.le u w = true → F64.le w u = true → y t = none) := by
  refine ⟨lines_over hy hv hf ht hft hu hw, fun h => ?_, fun h1 h2 => ?_⟩
  · have hv' : LinesFrom b a s N := fun t ht => ⟨fun h => ((hv t ht).1 h).symm, fun h => by
      obtain ⟨u, w, h1, h2, h3, h4⟩ := (hv t ht).2 h
      exact ⟨w, u, h2, h1, h4, h3⟩⟩
    have := lines_over (rule_swap hy) hv' (f := f) (by simpa using hf) ht hft hw hu h
    rw [latest_swap] at this
    cases hl : latest y (t + 1) with
    | none => rw [hl] at this; cases this
    | some dir => rw [hl] at this; cases dir <;> simp [opposite] at this ⊢
  · cases hyt : y t with
    | none => rfl
    | some dir => cases dir with
      | long =>
        obtain ⟨_, _, _, va, vb, _, _, _, e4, e5, _, e7⟩ := (hy t ht).1.mp hyt
        rw [hu] at e4; rw [hw] at e5
        cases e4; cases e5
        exact (C91_latest.not_lt_of_le h1 e7).elim
      | short =>
        obtain ⟨_, _, _, vb, va, _, _, _, e4, e5, _, e7⟩ := (hy t ht).2.mp hyt
        rw [hw] at e4; rw [hu] at e5
        cases e4; cases e5
        exact (C91_latest.not_lt_of_le h2 e7).elim

private theorem rule_const {θ : Fl R} (hθ : θ ≠ Fl.of R .nan) (hy : ThresholdRule v θ θ N y) : CrossRule v (fun _ => some θ) N y := by
  intro t ht
  have hle : F64.le θ θ = true := ext_le_refl hθ
  rw [← over0_iff, ← over0_iff, ← under0_eq v (fun _ => some θ), risesThrough_iff, fallsThrough_iff]
  exact ⟨(hy t ht).1, C55_no_conflict hle hy t ht⟩

/-- **C91.** One threshold. Once there was a signal, the most recent signal says on which side of the threshold the value is. -/
theorem C91_one_threshold {θ : Fl R} (hθ : θ ≠ Fl.of R .nan) (hy : ThresholdRule v θ θ N y) (hv : ValuesFrom v s N) {f : Nat}
    (hf : y f ≠ none) {t : Nat} (ht : t < N) (hft : f ≤ t) {w : Fl R} (hw : v t = some w) :
    (F64.lt θ w = true → latest y (t + 1) = some .long) ∧ (F64.lt w θ = true → latest y (t + 1) = some .short) ∧
    (F64.le w θ = true → F64.le θ w = true → y t = none) := by
  refine C91_lines (rule_const hθ hy) (s := s) (fun t ht => ⟨fun h => .inl ((hv t ht).1 h), fun h => ?_⟩) hf ht hft hw rfl
  obtain ⟨w, h1, h2⟩ := (hv t ht).2 h
  exact ⟨w, θ, h1, rfl, h2, hθ⟩

/-- **C91.** A value that is missing on one tick hides the crossing: there is no signal on that tick and none on the next one, whatever
the value is then, so the strategy can stay on the wrong side. -/
theorem C91_missed (hy : ThresholdRule v over under N y) {t : Nat} (ht : t + 1 < N) (hm : v t = none) :
    y t = none ∧ y (t + 1) = none := by
  have aux : ∀ k, k < N → ¬ RisesThrough v over k → ¬ FallsThrough v under k → y k = none := by
    intro k hk h1 h2
    cases hyk : y k with
    | none => rfl
    | some dir => cases dir with
      | long => exact absurd ((hy k hk).1.mp hyk) h1
      | short => exact absurd ((hy k hk).2.mp hyk).1 h2
  refine ⟨aux t (by omega) ?_ ?_, aux (t + 1) ht ?_ ?_⟩
  · rintro ⟨_, _, _, _, _, e, _⟩; rw [hm] at e; cases e
  · rintro ⟨_, _, _, _, _, e, _⟩; rw [hm] at e; cases e
  · rintro ⟨_, _, _, e0, e, _⟩; cases e0; rw [hm] at e; cases e
  · rintro ⟨_, _, _, e0, e, _⟩; cases e0; rw [hm] at e; cases e

/-! ## The strategies of the library -/

private theorem held_of_latest {α : Type} [F64 α] {cfg : StrategyConfig α} (hc : cfg.continous = true) {t : Nat} {dir : TradeDirection}
    (hd : latest y (t + 1) = some dir) : held cfg y (if cfg.onBarClose then t + 1 else t + 2) = side dir := by
  cases hb : cfg.onBarClose with
  | true =>
    have := C88_continuous (cfg := cfg) (sig := y) hc t
    rw [hb] at this
    simp only [if_true, hd] at this ⊢
    exact this
  | false =>
    have := C88_continuous (cfg := cfg) (sig := y) hc (t + 1)
    rw [hb] at this
    simp only [Bool.false_eq_true, if_false, hd] at this ⊢
    exact this

private theorem rule_congr {y' : Nat → Option TradeDirection} (h : ∀ t, t < N → y t = y' t) (hy : ThresholdRule v over under N y') :
    ThresholdRule v over under N y := fun t ht => by rw [h t ht]; exact hy t ht

/-- **C91.** Every strategy with an oversold and an overbought threshold, both set to `θ` (the default, 0, of the awesome oscillator, balance
of power, Coppock, price and volume oscillator strategies): run on an indicator whose values are numbers from tick `s` on, in continuous
mode, its position is long while the indicator is above `θ` and short while it is below, from the first signal on. The position is the one
after tick `t` with fills at the close, and the one after tick `t+1` with fills at the open. -/
theorem C91_strategies {α : Type} [F64 α] {cfg : StrategyConfig α} (hc : cfg.continous = true) {θ : Fl R} (hθ : θ ≠ Fl.of R .nan)
    (hv : ValuesFrom v s N) :
    ∀ new ∈ ([AwesomeOscillatorStrategy.new, BalanceOfPowerStrategy.new, BollingerBandsPercentBStrategy.new,
        ChaikinMoneyFlowStrategy.new, ChandeMomentumOscillatorStrategy.new, CommodityChannelIndexStrategy.new,
        ConnorsRelativeStrengthIndexStrategy.new, CoppockCurveStrategy.new, PriceOscillatorStrategy.new,
        RelativeStrengthIndexStrategy.new, RelativeVolatilityIndexStrategy.new, StochRelativeStrengthIndexStrategy.new,
        VolumeOscillatorStrategy.new] : List (Thresholds (Fl R) → ThresholdStrategy (Fl R))),
      ∀ y, Runs (total ThresholdStrategy.next) (.ok (new ⟨θ, θ⟩)) v N y → ∀ f, y f ≠ none → ∀ t w, t < N → f ≤ t → v t = some w →
        (F64.lt θ w = true → held cfg y (if cfg.onBarClose then t + 1 else t + 2) = 1) ∧
        (F64.lt w θ = true → held cfg y (if cfg.onBarClose then t + 1 else t + 2) = -1) := by
  intro new hnew y hr f hf t w ht hft hw
  obtain ⟨y', h1, h2⟩ := C55_threshold ⟨θ, θ⟩ v N new hnew
  obtain ⟨g1, g2, _⟩ := C91_one_threshold hθ (rule_congr (hr.unique h1) h2) hv hf ht hft hw
  exact ⟨fun h => held_of_latest hc (g1 h), fun h => held_of_latest hc (g2 h)⟩

/-- **C91.** The vortex and the relative vigor strategy, in the same way: long while the first line is above the second, short while it is
below. -/
theorem C91_cross_strategies {α : Type} [F64 α] {cfg : StrategyConfig α} (hc : cfg.continous = true) {a b : Nat → Option (Fl R)}
    (hv : LinesFrom a b s N) (hr : Runs (total CrossStrategy.next) (.ok CrossState.new) (fun t => (a t, b t)) N y) {f : Nat}
    (hf : y f ≠ none) {t : Nat} (ht : t < N) (hft : f ≤ t) {u w : Fl R} (hu : a t = some u) (hw : b t = some w) :
    (F64.lt w u = true → held cfg y (if cfg.onBarClose then t + 1 else t + 2) = 1) ∧
    (F64.lt u w = true → held cfg y (if cfg.onBarClose then t + 1 else t + 2) = -1) := by
  obtain ⟨y', h1, h2⟩ := C55_cross a b N
  have hy : CrossRule a b N y := fun t ht => by rw [hr.unique h1 t ht]; exact h2 t ht
  obtain ⟨g1, g2, _⟩ := C91_lines hy hv hf ht hft hu hw
  exact ⟨fun h => held_of_latest hc (g1 h), fun h => held_of_latest hc (g2 h)⟩

/-- **C91.** The MACD strategy, with the threshold zero. -/
theorem C91_macd {α : Type} [F64 α] {cfg : StrategyConfig α} (L : R.Lawful) (hc : cfg.continous = true) (hv : ValuesFrom v s N)
    (hr : Runs (total ThresholdStrategy.next) (.ok MacdStrategy.new) v N y) {f : Nat} (hf : y f ≠ none) {t : Nat} (ht : t < N)
    (hft : f ≤ t) {w : Fl R} (hw : v t = some w) :
    (F64.lt (Fl.of R (.fin 0)) w = true → held cfg y (if cfg.onBarClose then t + 1 else t + 2) = 1) ∧
    (F64.lt w (Fl.of R (.fin 0)) = true → held cfg y (if cfg.onBarClose then t + 1 else t + 2) = -1) := by
  have hn : (MacdStrategy.new : ThresholdStrategy (Fl R)) = AwesomeOscillatorStrategy.new ⟨Fl.of R (.fin 0), Fl.of R (.fin 0)⟩ := by
    rw [MacdStrategy.new, lit_zero L]; rfl
  rw [hn] at hr
  exact C91_strategies hc (fun h => by cases h) hv _ (by simp) y hr f hf t w ht hft hw

/-- **C91.** The Williams %R strategy, which rises through its overbought and falls through its oversold threshold: long above the
overbought threshold and short below the oversold one, once the indicator has been on the other side of that threshold. In between it
keeps the side it came from. -/
theorem C91_williams {α : Type} [F64 α] {cfg : StrategyConfig α} (hc : cfg.continous = true) {k : Thresholds (Fl R)}
    (hle : F64.le k.oversold k.overbought = true) (hv : ValuesFrom v s N)
    (hr : Runs (total ThresholdStrategy.next) (.ok (WilliamsPercentRankStrategy.new k)) v N y) {t : Nat} (ht : t < N) {w : Fl R}
    (hw : v t = some w) {j : Nat} (hj : j < t) {p : Fl R} (hp : v j = some p) :
    (F64.lt k.overbought w = true → F64.le p k.overbought = true → held cfg y (if cfg.onBarClose then t + 1 else t + 2) = 1) ∧
    (F64.lt w k.oversold = true → F64.le k.oversold p = true → held cfg y (if cfg.onBarClose then t + 1 else t + 2) = -1) ∧
    (F64.le w k.overbought = true → F64.le k.oversold w = true → latest y (t + 1) = latest y t) := by
  obtain ⟨y', h1, h2⟩ := C55_williams k v N
  obtain ⟨g1, g2, g3⟩ := C91_latest (rule_congr (hr.unique h1) h2) hle hv ht hw
  exact ⟨fun a b => held_of_latest hc (g1 a j p hj hp b), fun a b => held_of_latest hc (g2 a j p hj hp b),
    fun a b => by rw [latest, g3 a b]⟩

end float

section exact
variable {K : Type} [Field K] [LinearOrder K] [IsStrictOrderedRing K] [RootOps K] {cfg : StrategyConfig (Ex K)} {d : DataProvider (Ex K)} {N : Nat}
  {y : Nat → Option TradeDirection} {st : Nat → Strategy (Ex K)} {o h l c vol w : Nat → K} {θ cap : K} {s f : Nat}

private theorem latest_before (hf : ∀ k, k < f → y k = none) : ∀ n, n ≤ f → latest y n = none := by
  intro n
  induction n with
  | zero => intro _; rfl
  | succ n ih => intro hn; rw [latest, hf n (by omega)]; exact ih (by omega)

/-- **C91.** What such a strategy earns. In exact arithmetic, with one unit per trade, fills at the close, continuous mode, and an
indicator that is never exactly on the threshold: from the tick `f` of the first signal on, every price change counts with the sign of the
indicator before it - the equity is the initial capital plus the sum of `sign (w k - θ) · (c (k+1) - c k)`. -/
theorem C91_equity (H : Backtest cfg d y N st) (hb : ExBars d N o h l c vol) (hcl : cfg.onBarClose = true) (hco : cfg.continous = true)
    (hu : cfg.buyWithEquity = false) (hcap : cfg.initialCapital = fin cap) {v : Nat → Option (Ex K)}
    (hy : ThresholdRule v (fin θ) (fin θ) N y) (hv : ∀ t, t < N → v t = if t < s then none else some (fin (w t)))
    (hne : ∀ t, t < N → s ≤ t → w t ≠ θ) (hf : y f ≠ none) (hbefore : ∀ k, k < f → y k = none) {t : Nat} (ht : t < N) :
    (st t).metrics.equity = fin (cap + ∑ k ∈ Finset.Ico f t, (SignType.sign (w k - θ) : K) * (c (k + 1) - c k)) := by
  rw [(C81_equity H hb hu hcap ht).1, fin_inj]
  have hvals : ValuesFrom v s N := fun t ht => ⟨fun h => by rw [hv t ht, if_pos h], fun h =>
    ⟨fin (w t), by rw [hv t ht, if_neg (by omega)], fun e => by cases e⟩⟩
  have hfs : fillSeries cfg o c = c := by rw [fillSeries, if_pos hcl]
  have hp : ∀ k, k < N → ((held cfg y (k + 1) : ℤ) : K) = if k < f then 0 else (SignType.sign (w k - θ) : K) := by
    intro k hk
    have hh := C88_continuous (cfg := cfg) (sig := y) hco k
    rw [hcl, if_pos rfl] at hh
    by_cases hkf : k < f
    · rw [hh, latest_before hbefore (k + 1) (by omega), if_pos hkf]; simp
    · rw [if_neg hkf]
      have hfN : f < N := by omega
      -- a signal needs a value on its tick
      have hsf : s ≤ f := by
        by_contra hlt
        have hm : v f = none := by rw [hv f hfN, if_pos (by omega)]
        cases hyf : y f with
        | none => exact hf hyf
        | some dir => cases dir with
          | long =>
            obtain ⟨_, _, _, _, _, e, _⟩ := (hy f hfN).1.mp hyf
            rw [hm] at e; cases e
          | short =>
            obtain ⟨⟨_, _, _, _, _, e, _⟩, _⟩ := (hy f hfN).2.mp hyf
            rw [hm] at e; cases e
      have hwk : v k = some (fin (w k)) := by rw [hv k hk, if_neg (by omega)]
      obtain ⟨g1, g2, _⟩ := C91_one_threshold (θ := fin θ) (fun e => by cases e) hy hvals hf hk (by omega) hwk
      rcases lt_or_gt_of_ne (hne k hk (by omega)) with hlt | hgt
      · have : latest y (k + 1) = some .short := g2 (decide_eq_true hlt)
        rw [hh, this, sign_neg (by linarith)]; simp [side]
      · have : latest y (k + 1) = some .long := g1 (decide_eq_true hgt)
        rw [hh, this, sign_pos (by linarith)]; simp [side]
  rw [earned, hfs, sub_self, mul_zero, add_zero, Finset.range_eq_Ico]
  congr 1
  rw [Finset.sum_congr rfl fun k hk => by rw [hp k (by have := (Finset.mem_Ico.mp hk).2; omega)]]
  rw [← Finset.sum_filter_add_sum_filter_not (Finset.Ico 0 t) (fun k => k < f)]
  rw [Finset.sum_eq_zero (s := (Finset.Ico 0 t).filter fun k => k < f) fun k hk => by
    rw [if_pos (Finset.mem_filter.mp hk).2, zero_mul], zero_add]
  refine Finset.sum_congr ?_ fun k hk => ?_
  · ext k; simp
  · rw [if_neg (by have := (Finset.mem_Ico.mp hk).1; omega)]

end exact
end Pace
