import Verif.Props.Ta2
import Verif.Model.Content
import Verif.Lemmas.NonNeg

/-!
# Encodings (C52) and the signal strategies of content/ (C55)
-/

set_option linter.unusedSectionVars false

namespace Pace
open Spec

/-! ## C52 -/

section
variable {K : Type} [Field K] [LinearOrder K] [IsStrictOrderedRing K] {R : Rounding K}

theorem fl_feq (v : Fl R) (k : K) : F64.feq v (Fl.of R (.fin k)) = true ↔ v = Fl.of R (.fin k) := by
  match v with
  | .nan => exact ⟨fun h => Bool.noConfusion h, fun h => by cases h⟩
  | .pinf => exact ⟨fun h => by simp [F64.feq, Ext.feq, Fl.of] at h, fun h => by cases h⟩
  | .ninf => exact ⟨fun h => by simp [F64.feq, Ext.feq, Fl.of] at h, fun h => by cases h⟩
  | .fin a =>
    constructor
    · intro h
      have h' : decide ((Ext.fin a : Ext K) = Ext.fin k) = true := h
      exact (of_decide_eq_true h' : (Ext.fin a : Ext K) = Ext.fin k)
    · intro h
      have h' : decide ((Ext.fin a : Ext K) = Ext.fin k) = true := decide_eq_true (show (Ext.fin a : Ext K) = Ext.fin k from h)
      exact h'

theorem lit_neg_one (L : R.Lawful) : (-(lit 1) : Fl R) = Fl.of R (.fin (-1)) := by rw [lit_one L]; rfl

theorem of_fin_ne {a b : K} (h : a ≠ b) : Fl.of R (.fin a) ≠ Fl.of R (.fin b) := fun e => h (Ext.fin.inj e)

/-- **C52.** `trade_direction_from_f64` says Long exactly for 1, Short exactly for -1 and nothing for every other float (NaN and the
infinities included) and for `None`. -/
theorem C52_from_f64 (L : R.Lawful) (v : Option (Fl R)) :
    (tradeDirectionFromF64 v = some .long ↔ v = some (Fl.of R (.fin 1))) ∧
    (tradeDirectionFromF64 v = some .short ↔ v = some (Fl.of R (.fin (-1)))) := by
  rcases v with _ | v
  · simp [tradeDirectionFromF64]
  · have e1 := fl_feq v 1
    have e2 := fl_feq v (-1)
    have hne : Fl.of R (.fin (1 : K)) ≠ Fl.of R (.fin (-1)) := of_fin_ne (by norm_num)
    have hd : tradeDirectionFromF64 (some v) = if F64.feq v (Fl.of R (.fin 1)) then some .long
        else if F64.feq v (Fl.of R (.fin (-1))) then some .short else none := by
      rw [← lit_neg_one L, ← lit_one L]; rfl
    rw [hd, Option.some.injEq, Option.some.injEq, ← e1, ← e2]
    by_cases h1 : F64.feq v (Fl.of R (.fin 1)) = true
    · have h2 : F64.feq v (Fl.of R (.fin (-1))) = false := by
        rw [← Bool.not_eq_true]; intro h; exact hne ((e1.mp h1).symm.trans (e2.mp h))
      rw [h1, h2]; simp
    · rw [Bool.not_eq_true] at h1
      rw [h1]
      cases F64.feq v (Fl.of R (.fin (-1))) <;> simp

/-- **C52.** Decoding what `trade_direction_to_f64` wrote gives the direction (or its absence) back. -/
theorem C52_roundtrip (L : R.Lawful) (d : Option TradeDirection) :
    tradeDirectionFromF64 (some (tradeDirectionToF64 d : Fl R)) = d := by
  have h := C52_from_f64 L (some (tradeDirectionToF64 d : Fl R))
  rcases d with _ | _ | _
  · have e : (tradeDirectionToF64 none : Fl R) = Fl.of R (.fin 0) := lit_zero L
    rw [e] at h ⊢
    rcases hd : tradeDirectionFromF64 (some (Fl.of R (.fin (0 : K)))) with _ | _ | _
    · rfl
    · exact absurd (Option.some.inj (h.1.mp hd)) (of_fin_ne (by norm_num))
    · exact absurd (Option.some.inj (h.2.mp hd)) (of_fin_ne (by norm_num))
  · exact h.1.mpr (congrArg some (lit_one L))
  · exact h.2.mpr (congrArg some (lit_neg_one L))

end

/-- **C52.** `get_opposite` is an involution without fixed points. -/
theorem C52_opposite (d : TradeDirection) : d.getOpposite.getOpposite = d ∧ d.getOpposite ≠ d := by
  cases d <;> exact ⟨rfl, by decide⟩

/-- **C52.** `Timeframe`: encoding always succeeds and decodes to the same timeframe; a number decodes iff it is below 3, and then
encodes to itself. -/
theorem C52_timeframe :
    (∀ f : Timeframe, ∃ n, f.tryInto = some n ∧ Timeframe.tryFrom n = some f) ∧
    (∀ n : Nat, n < 3 → ∃ f, Timeframe.tryFrom n = some f ∧ f.tryInto = some n) ∧
    (∀ n : Nat, 3 ≤ n → Timeframe.tryFrom n = none) := by
  refine ⟨fun f => ?_, fun n hn => ?_, fun n hn => ?_⟩
  · cases f <;> exact ⟨_, rfl, rfl⟩
  · match n, hn with
    | 0, _ => exact ⟨_, rfl, rfl⟩
    | 1, _ => exact ⟨_, rfl, rfl⟩
    | 2, _ => exact ⟨_, rfl, rfl⟩
  · match n, hn with
    | n + 3, _ => rfl

/-! ## C55 -/

section
variable {K : Type} [Field K] [LinearOrder K] [IsStrictOrderedRing K] {R : Rounding K}

/-- `v` goes from at most `θ` on the previous tick to above `θ` on tick `t`, both values present. -/
def Spec.RisesThrough (v : Nat → Option (Fl R)) (θ : Fl R) (t : Nat) : Prop :=
  ∃ s p w, t = s + 1 ∧ v s = some p ∧ v t = some w ∧ F64.le p θ = true ∧ F64.lt θ w = true

/-- `v` goes from at least `θ` on the previous tick to below `θ` on tick `t`, both values present. -/
def Spec.FallsThrough (v : Nat → Option (Fl R)) (θ : Fl R) (t : Nat) : Prop :=
  ∃ s p w, t = s + 1 ∧ v s = some p ∧ v t = some w ∧ F64.le θ p = true ∧ F64.lt w θ = true

theorem risesThrough_iff (v : Nat → Option (Fl R)) (θ : Fl R) (t : Nat) :
    over0 v (fun _ => some θ) t = true ↔ RisesThrough v θ t := by
  rw [over0_iff]
  constructor
  · rintro ⟨s, pa, pb, va, vb, h1, h2, h3, h4, h5, h6, h7⟩
    cases h3; cases h5
    exact ⟨s, pa, va, h1, h2, h4, h6, h7⟩
  · rintro ⟨s, p, w, h1, h2, h3, h4, h5⟩
    exact ⟨s, p, θ, w, θ, h1, h2, rfl, h3, rfl, h4, h5⟩

theorem fallsThrough_iff (v : Nat → Option (Fl R)) (θ : Fl R) (t : Nat) :
    under0 v (fun _ => some θ) t = true ↔ FallsThrough v θ t := by
  rw [under0_eq, over0_iff]
  constructor
  · rintro ⟨s, pa, pb, va, vb, h1, h2, h3, h4, h5, h6, h7⟩
    cases h2; cases h4
    exact ⟨s, pb, vb, h1, h3, h5, h6, h7⟩
  · rintro ⟨s, p, w, h1, h2, h3, h4, h5⟩
    exact ⟨s, θ, p, θ, w, h1, rfl, h2, rfl, h3, h4, h5⟩

/-- Rising through `lo` and falling through `hi` on the same tick is impossible when `lo <= hi`. -/
theorem rise_fall_exclusive {v : Nat → Option (Fl R)} {lo hi : Fl R} (h : F64.le lo hi = true) {t : Nat} :
    RisesThrough v lo t → ¬ FallsThrough v hi t := by
  rintro ⟨s, p, w, rfl, h2, h3, h4, h5⟩ ⟨s', p', w', e, g2, g3, g4, g5⟩
  cases e
  rw [h2] at g2; rw [h3] at g3
  cases g2; cases g3
  revert h h4 h5 g4 g5
  match lo, hi, p, w with
  | lo, hi, p, w =>
    show Ext.le lo hi = true → Ext.le p lo = true → Ext.lt lo w = true → Ext.le hi p = true → Ext.lt w hi = true → False
    rcases lo with _ | _ | _ | lo <;> rcases hi with _ | _ | _ | hi <;> rcases p with _ | _ | _ | p <;>
      rcases w with _ | _ | _ | w <;> simp [Ext.le, Ext.lt]
    intros; linarith

/-- The signal rule: Long exactly when `v` rises through `long`, otherwise Short exactly when `v` falls through `short`. -/
def Spec.ThresholdRule (v : Nat → Option (Fl R)) (long short : Fl R) (N : Nat) (y : Nat → Option TradeDirection) : Prop :=
  ∀ t, t < N → (y t = some .long ↔ RisesThrough v long t) ∧
    (y t = some .short ↔ FallsThrough v short t ∧ ¬ RisesThrough v long t)

theorem thresholdStrategy_runs (over under : Fl R) (v : Nat → Option (Fl R)) (N : Nat) :
    ∃ y, Runs (total ThresholdStrategy.next) (.ok (ThresholdStrategy.mk' over under)) v N y ∧ ThresholdRule v over under N y := by
  refine ⟨fun t => if over0 v (fun _ => some over) t then some .long else if under0 v (fun _ => some under) t then some .short else none,
    Impl.runs (Inv := fun t s => ThreshInv over v t s.crossOver ∧ ThreshInv under v t s.crossUnder) ⟨⟨rfl, rfl⟩, ?_⟩, ?_⟩
  · rintro t s _ ⟨h1, h2⟩
    obtain ⟨s1, e1, g1⟩ := threshOver_step h1
    obtain ⟨s2, e2, g2⟩ := threshUnder_step h2
    exact ⟨⟨s1, s2⟩, by simp only [total, ThresholdStrategy.next, e1, e2], g1, g2⟩
  · intro t _
    rw [← risesThrough_iff, ← fallsThrough_iff]
    dsimp only
    cases over0 v (fun _ => some over) t <;> cases under0 v (fun _ => some under) t <;> simp

/-- **C55.** Every strategy with oversold/overbought thresholds except Williams %R: Long exactly when the indicator rises through
the oversold threshold, otherwise Short exactly when it falls through the overbought threshold. -/
theorem C55_threshold (c : Thresholds (Fl R)) (v : Nat → Option (Fl R)) (N : Nat) :
    ∀ new ∈ ([AwesomeOscillatorStrategy.new, BalanceOfPowerStrategy.new, BollingerBandsPercentBStrategy.new,
        ChaikinMoneyFlowStrategy.new, ChandeMomentumOscillatorStrategy.new, CommodityChannelIndexStrategy.new,
        ConnorsRelativeStrengthIndexStrategy.new, CoppockCurveStrategy.new, PriceOscillatorStrategy.new,
        RelativeStrengthIndexStrategy.new, RelativeVolatilityIndexStrategy.new, StochRelativeStrengthIndexStrategy.new,
        VolumeOscillatorStrategy.new] : List (Thresholds (Fl R) → ThresholdStrategy (Fl R))),
      ∃ y, Runs (total ThresholdStrategy.next) (.ok (new c)) v N y ∧ ThresholdRule v c.oversold c.overbought N y := by
  intro new hnew
  have : new c = ThresholdStrategy.mk' c.oversold c.overbought := by
    simp only [List.mem_cons, List.not_mem_nil, or_false] at hnew
    rcases hnew with rfl | rfl | rfl | rfl | rfl | rfl | rfl | rfl | rfl | rfl | rfl | rfl | rfl <;> rfl
  rw [this]
  exact thresholdStrategy_runs _ _ v N

/-- **C55.** The Williams %R strategy has the thresholds the other way round: Long when the indicator rises through the *overbought*
threshold, otherwise Short when it falls through the *oversold* threshold. -/
theorem C55_williams (c : Thresholds (Fl R)) (v : Nat → Option (Fl R)) (N : Nat) :
    ∃ y, Runs (total ThresholdStrategy.next) (.ok (WilliamsPercentRankStrategy.new c)) v N y ∧
      ThresholdRule v c.overbought c.oversold N y :=
  thresholdStrategy_runs _ _ v N

/-- **C55.** The MACD strategy: Long when the signal input rises through 0, Short when it falls through 0. -/
theorem C55_macd (L : R.Lawful) (v : Nat → Option (Fl R)) (N : Nat) :
    ∃ y, Runs (total ThresholdStrategy.next) (.ok MacdStrategy.new) v N y ∧ ∀ t, t < N →
      (y t = some .long ↔ RisesThrough v (Fl.of R (.fin 0)) t) ∧ (y t = some .short ↔ FallsThrough v (Fl.of R (.fin 0)) t) := by
  obtain ⟨y, h1, h2⟩ := thresholdStrategy_runs (Fl.of R (.fin 0)) (Fl.of R (.fin 0)) v N
  refine ⟨y, by rw [MacdStrategy.new, lit_zero L]; exact h1, fun t ht => ⟨(h2 t ht).1, (h2 t ht).2.trans ⟨And.left, fun h => ⟨h, ?_⟩⟩⟩⟩
  exact fun h' => rise_fall_exclusive (lo := Fl.of R (.fin 0)) (hi := Fl.of R (.fin 0)) (show Ext.le (.fin (0 : K)) (.fin 0) = true by simp [Ext.le]) h' h

/-- **C55.** With thresholds in the usual order the two signals never compete: Short exactly when the indicator falls through the
short threshold. -/
theorem C55_no_conflict {v : Nat → Option (Fl R)} {long short : Fl R} (hle : F64.le long short = true) {N : Nat}
    {y : Nat → Option TradeDirection} (h : ThresholdRule v long short N y) :
    ∀ t, t < N → (y t = some .short ↔ FallsThrough v short t) :=
  fun t ht => (h t ht).2.trans ⟨And.left, fun g => ⟨g, fun g' => rise_fall_exclusive hle g' g⟩⟩

/-- **C55.** Vortex and relative vigor strategies: Long exactly when the first line crosses over the second, Short exactly when the
second crosses over the first. -/
theorem C55_cross (a b : Nat → Option (Fl R)) (N : Nat) :
    ∃ y, Runs (total CrossStrategy.next) (.ok CrossState.new) (fun t => (a t, b t)) N y ∧ ∀ t, t < N →
      (y t = some .long ↔ CrossesOver a b t) ∧ (y t = some .short ↔ CrossesOver b a t) := by
  refine ⟨fun t => (cross0 a b t).map CrossMode.toDirection, Impl.runs (Inv := CrossInv a b) ⟨rfl, fun t s _ h => ?_⟩, fun t _ => ?_⟩
  · obtain ⟨s', h1, h2⟩ := cross_step h
    exact ⟨s', by simp only [total, CrossStrategy.next, h1], h2⟩
  · have hex := crosses_exclusive a b t
    rw [← over0_iff, ← over0_iff, ← under0_eq a b] at *
    dsimp only
    unfold cross0
    revert hex
    cases over0 a b t <;> cases under0 a b t <;> simp [CrossMode.toDirection]

/-- **C55.** DMI strategy: the crossings of plus and minus count only on ticks where adx exceeds the strong-trend threshold; a
missing or NaN adx never signals. -/
theorem C55_dmi (strong : Fl R) (x : Nat → DmiData (Fl R)) (N : Nat) :
    ∃ y, Runs (total DmiStrategy.next) (.ok (DmiStrategy.new strong)) x N y ∧ ∀ t, t < N →
      (y t = some .long ↔ (∃ a, (x t).adx = some a ∧ F64.lt strong a = true) ∧
        CrossesOver (fun t => (x t).plus) (fun t => (x t).minus) t) ∧
      (y t = some .short ↔ (∃ a, (x t).adx = some a ∧ F64.lt strong a = true) ∧
        CrossesOver (fun t => (x t).minus) (fun t => (x t).plus) t) := by
  set a := fun t => (x t).plus with ha
  set b := fun t => (x t).minus with hb
  refine ⟨fun t => if ((x t).adx.map fun w => fgt w strong).getD false then (cross0 a b t).map CrossMode.toDirection else none,
    Impl.runs (Inv := fun t s => s.thresholdStrongTrend = strong ∧ CrossInv a b t s.cross) ⟨⟨rfl, rfl⟩, fun t s _ h => ?_⟩,
    fun t _ => ?_⟩
  · obtain ⟨s', h1, h2⟩ := cross_step h.2
    refine ⟨{ s with cross := s' }, ?_, h.1, h2⟩
    simp only [total, DmiStrategy.next]
    rw [show Cross.next s.cross ((x t).plus, (x t).minus) = (cross0 a b t, s') from h1, h.1]
  · have hex := crosses_exclusive a b t
    rw [← over0_iff, ← over0_iff, ← under0_eq a b] at *
    dsimp only
    unfold cross0
    revert hex
    rcases h : (x t).adx with _ | w
    · simp
    · cases hs : F64.lt strong w <;> cases over0 a b t <;> cases under0 a b t <;>
        simp [CrossMode.toDirection, fgt, hs]

end

/-! ### Aroon strategy -/

section
variable {α : Type} [F64 α]

/-- Armed on tick `t`: set by a crossing, cleared after a strong tick. -/
def aroonArmed (up down : Nat → Option α) : Nat → Bool
  | 0 => (cross0 down up 0).isSome
  | t + 1 => (cross0 down up (t + 1)).isSome ||
      (aroonArmed up down t && !(fge (AroonStrategy.strength (up t) (down t)) (lit 1) ||
        fge (AroonStrategy.strength (down t) (up t)) (lit 1)))

def aroonSignal0 (up down : Nat → Option α) (t : Nat) : Option TradeDirection :=
  if aroonArmed up down t then
    if fge (AroonStrategy.strength (up t) (down t)) (lit 1) then some .long
    else if fge (AroonStrategy.strength (down t) (up t)) (lit 1) then some .short else none
  else none

theorem aroonStrategy_runs (up down : Nat → Option α) (N : Nat) :
    Runs (total AroonStrategy.next) (.ok AroonStrategy.new) (fun t => (up t, down t)) N (aroonSignal0 up down) := by
  refine Impl.runs (Inv := fun t s => CrossInv down up t s.cross ∧
    aroonArmed up down t = ((cross0 down up t).isSome || s.crossMode)) ⟨⟨rfl, by simp [aroonArmed, AroonStrategy.new]⟩, ?_⟩
  rintro t s _ ⟨h1, h2⟩
  obtain ⟨s', e, h3⟩ := cross_step h1
  refine ⟨⟨AroonStrategy.strength (up t) (down t), AroonStrategy.strength (down t) (up t),
    aroonArmed up down t && !(fge (AroonStrategy.strength (up t) (down t)) (lit 1) ||
      fge (AroonStrategy.strength (down t) (up t)) (lit 1)), s'⟩, ?_, h3, rfl⟩
  simp only [total, AroonStrategy.next, e, aroonSignal0, h2]
  cases (cross0 down up t).isSome <;> cases s.crossMode <;> cases fge (AroonStrategy.strength (up t) (down t)) (lit 1) <;>
    cases fge (AroonStrategy.strength (down t) (up t)) (lit 1) <;> rfl

end

section
variable {K : Type} [Field K] [LinearOrder K] [IsStrictOrderedRing K] {R : Rounding K}

/-- The strategy is armed on tick `t`: the two lines crossed, in either direction, on some tick up to `t`, and no signal was given
from then until before `t`. -/
def Spec.AroonArmed (up down : Nat → Option (Fl R)) (y : Nat → Option TradeDirection) (t : Nat) : Prop :=
  ∃ s, s ≤ t ∧ (CrossesOver up down s ∨ CrossesOver down up s) ∧ ∀ k, s ≤ k → k < t → y k = none

theorem aroonArmed_iff (up down : Nat → Option (Fl R)) (t : Nat) :
    aroonArmed up down t = true ↔ AroonArmed up down (aroonSignal0 up down) t := by
  set y := aroonSignal0 up down with hy
  have hc : ∀ t, (cross0 down up t).isSome = true ↔
      (CrossesOver up down t ∨ CrossesOver down up t) := by
    intro t
    rw [← over0_iff, ← over0_iff, ← under0_eq]
    unfold cross0
    cases over0 down up t <;> cases under0 down up t <;> simp
  have hn : ∀ t, aroonArmed up down t = true → (y t = none ↔
      (fge (AroonStrategy.strength (up t) (down t)) (lit 1) ||
        fge (AroonStrategy.strength (down t) (up t)) (lit 1)) = false) := by
    intro t ht
    rw [hy, aroonSignal0, ht]
    cases fge (AroonStrategy.strength (up t) (down t)) (lit 1) <;>
      cases fge (AroonStrategy.strength (down t) (up t)) (lit 1) <;> simp
  have ha : ∀ t, aroonArmed up down t = true ↔ AroonArmed up down y t := by
    intro t
    induction t with
    | zero =>
      rw [aroonArmed, hc]
      constructor
      · intro h; exact ⟨0, le_refl _, h, fun k h1 h2 => by omega⟩
      · rintro ⟨s, h1, h2, _⟩
        obtain rfl : s = 0 := by omega
        exact h2
    | succ t ih =>
      rw [aroonArmed, Bool.or_eq_true, hc, Bool.and_eq_true, Bool.not_eq_true']
      constructor
      · rintro (h | ⟨h1, h2⟩)
        · exact ⟨t + 1, le_refl _, h, fun k h1 h2 => by omega⟩
        · obtain ⟨s, g1, g2, g3⟩ := ih.mp h1
          refine ⟨s, by omega, g2, fun k k1 k2 => ?_⟩
          rcases Nat.lt_or_ge k t with hk | hk
          · exact g3 k k1 hk
          · obtain rfl : k = t := by omega
            exact (hn k h1).mpr h2
      · rintro ⟨s, g1, g2, g3⟩
        rcases Nat.lt_or_ge t s with hs | hs
        · obtain rfl : s = t + 1 := by omega
          exact Or.inl g2
        · have h1 := ih.mpr ⟨s, hs, g2, fun k k1 k2 => g3 k k1 (by omega)⟩
          exact Or.inr ⟨h1, (hn t h1).mp (g3 t hs (by omega))⟩
  exact ha t

end

section
variable {K : Type} [Field K] [LinearOrder K] [IsStrictOrderedRing K] [RootOps K]

theorem aroon_strength_ge (a b : Option K) :
    fge (AroonStrategy.strength (a.map (fin : K → Ex K)) (b.map fin)) (lit 1) = true ↔ ∃ x y, a = some x ∧ b = some y ∧ 100 ≤ x ∧ y < 50 := by
  rcases a with _ | x
  · simp [AroonStrategy.strength]
  rcases b with _ | y
  · simp [AroonStrategy.strength]
  simp only [AroonStrategy.strength, Option.map_some, fin_lit, fin_fgt, fin_lt]
  push_cast
  by_cases h : 50 < x ∧ y < 50
  · simp only [h.1, h.2, decide_true, Bool.and_self, if_true, fin_sub]
    rw [fin_div _ _ (by norm_num : (50 : K) ≠ 0), fin_sub, fin_fge]
    simp only [decide_eq_true_eq, Option.some.injEq]
    constructor
    · intro h'
      refine ⟨x, y, rfl, rfl, ?_, h.2⟩
      have : (100 - x) / 50 ≤ 0 := by linarith
      rw [div_le_iff₀ (by norm_num)] at this; linarith
    · rintro ⟨_, _, rfl, rfl, h1, h2⟩
      have : (100 - x) / 50 ≤ 0 := div_nonpos_of_nonpos_of_nonneg (by linarith) (by norm_num)
      linarith
  · rw [if_neg (by simpa using h), fin_fge]
    simp only [decide_eq_true_eq, Option.some.injEq]
    constructor
    · intro h'; exact absurd h' (by norm_num)
    · rintro ⟨_, _, rfl, rfl, h1, h2⟩; exact absurd ⟨by linarith, h2⟩ h

/-- `100 ≤ u` and `w < 50`, where one may be NaN or infinite (`Ex K`). -/
theorem aroon_strength_ge' (a b : Option (Ex K)) :
    fge (AroonStrategy.strength a b) (lit 1) = true ↔
      ∃ x y, a = some x ∧ b = some y ∧ F64.le (lit 100) x = true ∧ F64.lt y (lit 50) = true := by
  rcases a with _ | x
  · cases b <;> simp [AroonStrategy.strength]
  rcases b with _ | y
  · simp [AroonStrategy.strength]
  have key : ∀ c : Bool, (fge (if c then lit 1 - (lit 100 - x) / lit 50 else (lit 0 : Ex K)) (lit 1) = true ↔
      c = true ∧ fge (lit 1 - (lit 100 - x) / lit 50 : Ex K) (lit 1) = true) := by
    intro c; cases c <;> simp
  have e : AroonStrategy.strength (some x) (some y) =
      if fgt x (lit 50) && F64.lt y (lit 50) then lit 1 - (lit 100 - x) / lit 50 else (lit 0 : Ex K) := rfl
  rw [e, key, Bool.and_eq_true]
  have hx : (fgt x (lit 50) = true ∧ fge (lit 1 - (lit 100 - x) / lit 50 : Ex K) (lit 1) = true) ↔ F64.le (lit 100) x = true := by
    have h50 : (50 : K) ≠ 0 := by norm_num
    rcases x with _ | _ | _ | x
    · exact ⟨fun h => Bool.noConfusion (show false = true from h.1), fun h => Bool.noConfusion (show false = true from h)⟩
    · have e : ((lit 1 : Ex K) - (lit 100 - Fl.of _ .pinf) / lit 50 : Ex K) = Fl.of _ .pinf := by
        rw [show ((lit 100 : Ex K) - Fl.of _ .pinf) = Fl.of _ .ninf from rfl]
        have : ((Fl.of _ .ninf : Ex K) / lit 50) = Fl.of _ .ninf := by
          exact (if_neg (by norm_num) : (if ((50 : ℚ) : K) < 0 then Ext.pinf else Ext.ninf) = Ext.ninf)
        rw [this]; rfl
      have e' : fge ((lit 1 : Ex K) - (lit 100 - Fl.of _ .pinf) / lit 50 : Ex K) (lit 1) = true := by rw [e]; rfl
      exact ⟨fun _ => rfl, fun _ => ⟨rfl, e'⟩⟩
    · exact ⟨fun h => Bool.noConfusion (show false = true from h.1), fun h => Bool.noConfusion (show false = true from h)⟩
    · have h := aroon_strength_ge (some x) (some (0 : K))
      have e : AroonStrategy.strength (some (fin x : Ex K)) (some (fin 0)) =
        if fgt (fin x : Ex K) (lit 50) && F64.lt (fin 0 : Ex K) (lit 50) then lit 1 - (lit 100 - fin x) / lit 50 else (lit 0 : Ex K) := rfl
      rw [Option.map_some, Option.map_some, e, show F64.lt (fin 0 : Ex K) (lit 50) = true by simp, Bool.and_true] at h
      have h' : (fgt (fin x : Ex K) (lit 50) = true ∧ fge (lit 1 - (lit 100 - fin x) / lit 50 : Ex K) (lit 1) = true) ↔ 100 ≤ x := by
        constructor
        · rintro ⟨g1, g2⟩
          rw [g1, if_pos rfl] at h
          obtain ⟨a, b, r1, r2, r3, -⟩ := h.mp g2
          cases r1; exact r3
        · intro g
          have g2 := h.mpr ⟨x, 0, rfl, rfl, g, by norm_num⟩
          cases hc : fgt (fin x : Ex K) (lit 50)
          · rw [hc] at g2; simp at g2; exact absurd g2 (by norm_num)
          · rw [hc, if_pos rfl] at g2; exact ⟨rfl, g2⟩
      refine h'.trans ?_
      have e2 : F64.le (lit 100 : Ex K) (fin x) = true ↔ (100 : K) ≤ x := by simp
      exact e2.symm
  constructor
  · rintro ⟨⟨h1, h2⟩, h3⟩
    exact ⟨x, y, rfl, rfl, hx.mp ⟨h1, h3⟩, h2⟩
  · rintro ⟨_, _, h1, h2, h3, h4⟩
    cases h1; cases h2
    exact ⟨⟨(hx.mpr h3).1, h4⟩, (hx.mpr h3).2⟩

/-- **C55.** Aroon strategy, exact arithmetic: Long exactly on an armed tick with up at least 100 and down below 50, Short exactly on
an armed tick with down at least 100 and up below 50; a signal disarms until the lines cross again.  The lines may be missing, NaN or
infinite on any tick. -/
theorem C55_aroon_any (up down : Nat → Option (Ex K)) (N : Nat) :
    ∃ y, Runs (total AroonStrategy.next) (.ok AroonStrategy.new) (fun t => (up t, down t)) N y ∧ ∀ t, t < N →
      (y t = some .long ↔ AroonArmed up down y t ∧
        ∃ u w, up t = some u ∧ down t = some w ∧ F64.le (lit 100) u = true ∧ F64.lt w (lit 50) = true) ∧
      (y t = some .short ↔ AroonArmed up down y t ∧
        ∃ u w, up t = some u ∧ down t = some w ∧ F64.lt u (lit 50) = true ∧ F64.le (lit 100) w = true) := by
  refine ⟨_, aroonStrategy_runs up down N, fun t _ => ?_⟩
  set y := aroonSignal0 up down with hy
  have su := aroon_strength_ge' (up t) (down t)
  have sd := aroon_strength_ge' (down t) (up t)
  have ha : ∀ t, aroonArmed up down t = true ↔ AroonArmed up down y t := aroonArmed_iff up down
  rw [← ha, ← su]
  have sd' : fge (AroonStrategy.strength (down t) (up t)) (lit 1) = true ↔
      ∃ u w, up t = some u ∧ down t = some w ∧ F64.lt u (lit 50) = true ∧ F64.le (lit 100) w = true :=
    sd.trans ⟨fun ⟨w, u, h1, h2, h3, h4⟩ => ⟨u, w, h2, h1, h4, h3⟩, fun ⟨u, w, h1, h2, h3, h4⟩ => ⟨w, u, h2, h1, h4, h3⟩⟩
  have hex : ¬ (fge (AroonStrategy.strength (up t) (down t)) (lit 1) = true ∧
      fge (AroonStrategy.strength (down t) (up t)) (lit 1) = true) := by
    rw [su, sd']
    rintro ⟨⟨u, w, h1, h2, h3, h4⟩, ⟨u', w', g1, g2, g3, g4⟩⟩
    rw [h1] at g1; cases g1
    rcases u with _ | _ | _ | u
    · cases h3
    · cases g3
    · cases h3
    · have a1 : ((100 : ℚ) : K) ≤ u := of_decide_eq_true h3
      have a2 : u < ((50 : ℚ) : K) := of_decide_eq_true g3
      push_cast at a1 a2
      linarith
  rw [← sd', hy, aroonSignal0]
  revert hex
  cases aroonArmed up down t <;> cases fge (AroonStrategy.strength (up t) (down t)) (lit 1) <;>
    cases fge (AroonStrategy.strength (down t) (up t)) (lit 1) <;> simp

/-- **C55.** The same for lines that are real numbers wherever they are present. -/
theorem C55_aroon (up down : Nat → Option K) (N : Nat) :
    ∃ y, Runs (total AroonStrategy.next) (.ok AroonStrategy.new) (fun t => (flo up t, flo down t)) N y ∧ ∀ t, t < N →
      (y t = some .long ↔ AroonArmed (flo up) (flo down) y t ∧ ∃ u w, up t = some u ∧ down t = some w ∧ 100 ≤ u ∧ w < 50) ∧
      (y t = some .short ↔ AroonArmed (flo up) (flo down) y t ∧ ∃ u w, up t = some u ∧ down t = some w ∧ u < 50 ∧ 100 ≤ w) := by
  obtain ⟨y, h1, h2⟩ := C55_aroon_any (flo up) (flo down) N
  refine ⟨y, h1, fun t ht => ?_⟩
  have h := h2 t ht
  rw [h.1, h.2]
  simp only [flo]
  constructor <;> refine and_congr_right fun _ => ?_ <;> cases up t <;> cases down t <;>
    simp [fin_lit, fin_lt, fin_le]

end

/-- RSI values 20, 40, 80, 60 with thresholds 30 and 70: Long on the rise through 30, Short on the fall through 70. -/
example : outputs (total ThresholdStrategy.next)
      (fun t => (([none, some (fin 20), some (fin 40), some (fin 80), some (fin 60)] : List (Option (Ex ℚ))).getD t none)) 5
      (.ok (RelativeStrengthIndexStrategy.new ⟨fin 30, fin 70⟩))
    = .ok [none, none, some .long, none, some .short] := by decide +kernel

/-- The Williams strategy with thresholds -80 and -20 on -90, -50, -10, -50, -90: Long only on the rise through -20, Short only on
the fall through -80. -/
example : outputs (total ThresholdStrategy.next)
      (fun t => (([some (fin (-90)), some (fin (-50)), some (fin (-10)), some (fin (-50)), some (fin (-90))] :
        List (Option (Ex ℚ))).getD t none)) 5 (.ok (WilliamsPercentRankStrategy.new ⟨fin (-80), fin (-20)⟩))
    = .ok [none, none, some .long, none, some .short] := by decide +kernel

/-- Aroon: the lines cross on tick 1, up reaches 100 on tick 2 (Long), and stays there without a new signal; after the next
crossing down reaches 100 (Short). -/
example : outputs (total AroonStrategy.next)
      (fun t => (([(some (fin 20), some (fin 60)), (some (fin 80), some (fin 40)), (some (fin 100), some (fin 20)),
        (some (fin 100), some (fin 20)), (some (fin 40), some (fin 100))] : List (Option (Ex ℚ) × Option (Ex ℚ))).getD t (none, none))) 5
      (.ok AroonStrategy.new)
    = .ok [none, none, some .long, none, some .short] := by decide +kernel

/-- DMI: a crossing counts only with adx above the threshold 25. -/
example : outputs (total DmiStrategy.next)
      (fun t => (([⟨some (fin 10), some (fin 20), some (fin 30)⟩, ⟨some (fin 30), some (fin 20), some (fin 20)⟩,
        ⟨some (fin 10), some (fin 20), some (fin 26)⟩, ⟨some (fin 30), some (fin 20), none⟩] :
        List (DmiData (Ex ℚ))).getD t ⟨none, none, none⟩)) 4 (.ok (DmiStrategy.new (fin 25)))
    = .ok [none, none, some .short, none] := by decide +kernel

end Pace
