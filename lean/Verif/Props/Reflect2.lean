import Verif.Props.Reflect
import Verif.Props.Content8
import Verif.Props.Program

/-!
# The market seen upside down, in exact arithmetic (C77)

Indicators with a scale from 0 to 100 count from the other end of the scale.  Without rounding, these identities are exact.
-/

set_option linter.unusedSectionVars false

namespace Pace
open Spec

section
variable {K : Type} [Field K] [LinearOrder K] [IsStrictOrderedRing K]

/-! ## Windows of negated series -/

theorem win_neg (x : Nat → K) (n t : Nat) : win (fun t => -x t) n t = (win x n t).map Neg.neg := by simp [win]

theorem sum_map_neg (l : List K) : (l.map Neg.neg).sum = -l.sum := by
  induction l with
  | nil => simp
  | cons a l ih => simp [ih, add_comm]

theorem win_sum_sub (x y : Nat → K) (n t : Nat) : (win (fun t => x t - y t) n t).sum = (win x n t).sum - (win y n t).sum := by
  unfold win
  generalize List.range n = r
  induction r with
  | nil => simp
  | cons a r ih => simp only [List.map_cons, List.sum_cons, ih]; ring

theorem mean_map_neg (l : List K) : mean (l.map Neg.neg) = -mean l := by simp [mean, sum_map_neg, neg_div]

theorem cutSqDev_neg (l : List K) : cutSqDev (l.map Neg.neg) = cutSqDev l := by
  unfold cutSqDev
  rw [mean_map_neg, List.map_map]
  congr 1
  refine List.map_congr_left fun w _ => ?_
  have : -w - -mean l = -(w - mean l) := by ring
  simp only [Function.comp_apply, this, cutDev, abs_neg]
  split
  · rfl
  · rw [neg_sq]

theorem max?_antitone {f : K → K} (hf : Antitone f) (l : List K) : (l.map f).max? = l.min?.map f := by
  cases l with
  | nil => rfl
  | cons a l =>
    simp only [List.map_cons, List.max?_cons', List.min?_cons', Option.map_some]
    congr 1
    induction l generalizing a with
    | nil => rfl
    | cons b l ih =>
      simp only [List.map_cons, List.foldl_cons, ← hf.map_min]
      exact ih _

theorem min?_antitone {f : K → K} (hf : Antitone f) (l : List K) : (l.map f).min? = l.max?.map f := by
  cases l with
  | nil => rfl
  | cons a l =>
    simp only [List.map_cons, List.max?_cons', List.min?_cons', Option.map_some]
    congr 1
    induction l generalizing a with
    | nil => rfl
    | cons b l ih =>
      simp only [List.map_cons, List.foldl_cons, ← hf.map_max]
      exact ih _

theorem reduceOption_mapped (f : K → K) (l : List (Option K)) : (l.map (Option.map f)).reduceOption = l.reduceOption.map f := by
  induction l with
  | nil => rfl
  | cons a l ih => cases a <;> simp_all

theorem highest_antitone {f : K → K} (hf : Antitone f) (x : Nat → Option K) (n t : Nat) :
    Spec.highest (fun t => (x t).map f) n t = (Spec.lowest x n t).map f := by
  unfold Spec.highest Spec.lowest
  split
  · rw [← win_map, reduceOption_mapped, max?_antitone hf]
  · rfl

theorem lowest_antitone {f : K → K} (hf : Antitone f) (x : Nat → Option K) (n t : Nat) :
    Spec.lowest (fun t => (x t).map f) n t = (Spec.highest x n t).map f := by
  unfold Spec.highest Spec.lowest
  split
  · rw [← win_map, reduceOption_mapped, min?_antitone hf]
  · rfl

theorem antitone_neg : Antitone (fun a : K => -a) := fun _ _ h => neg_le_neg h
theorem antitone_sub (k : K) : Antitone (fun a : K => k - a) := fun _ _ h => sub_le_sub_left h k

theorem mean_sub (k : K) {l : List K} (h : l ≠ []) : mean (l.map fun a => k - a) = k - mean l := by
  have e : ∀ l : List K, (l.map fun a => k - a).sum = l.length * k - l.sum := by
    intro l
    induction l with
    | nil => simp
    | cons a l ih => simp only [List.map_cons, List.sum_cons, ih, List.length_cons]; push_cast; ring
  have h0 : (l.length : K) ≠ 0 := by simpa using h
  simp only [mean, e, List.length_map, sub_div]
  rw [mul_div_cancel_left₀ _ h0]

theorem smaSeries_sub (k : K) (x : Nat → Option K) {n : Nat} (hn : 1 ≤ n) (t : Nat) :
    smaSeries (fun t => (x t).map fun a => k - a) n t = (smaSeries x n t).map fun a => k - a := by
  unfold smaSeries
  rw [fullWindow_map]
  cases h : fullWindow x n t with
  | none => rfl
  | some v =>
    have := (fullWindow_length h).1
    simp only [Option.map_some]
    rw [mean_sub k (by rintro rfl; simp at this; omega)]

/-- The stochastic of the series seen from the other end of its scale. -/
theorem ownStochastic_sub (k : K) (x : Nat → Option K) (n t : Nat) :
    ownStochastic (fun t => (x t).map fun a => k - a) n t = (ownStochastic x n t).map fun a => 100 - a := by
  have key : ∀ w hi lo : K, ¬ hi = lo → 100 * (k - w - (k - hi)) / (k - lo - (k - hi)) = 100 - 100 * (w - lo) / (hi - lo) := by
    intro w hi lo h
    have : hi - lo ≠ 0 := sub_ne_zero.mpr h
    have e : k - lo - (k - hi) = hi - lo := by ring
    rw [e]
    field_simp
    ring
  have hc : ∀ hi lo : K, (k - lo = k - hi) ↔ hi = lo := fun hi lo => by
    constructor
    · intro h; linarith
    · intro h; rw [h]
  induction t with
  | zero =>
    unfold ownStochastic
    rw [highest_antitone (antitone_sub k), lowest_antitone (antitone_sub k)]
    cases x 0 <;> cases Spec.highest x n 0 <;> cases Spec.lowest x n 0 <;> try rfl
    simp only [Option.map_some, hc]
    split
    · rfl
    · next h => simp only [Option.map_some]; rw [key _ _ _ h]
  | succ t ih =>
    unfold ownStochastic
    rw [highest_antitone (antitone_sub k), lowest_antitone (antitone_sub k)]
    cases x (t + 1) <;> cases Spec.highest x n (t + 1) <;> cases Spec.lowest x n (t + 1) <;> try rfl
    simp only [Option.map_some, hc]
    split
    · exact ih
    · next h => simp only [Option.map_some]; rw [key _ _ _ h]

theorem gain_neg (p : Nat → K) : gain (fun t => -p t) = loss p := by
  funext t; simp only [gain, loss]; congr 1; ring
theorem loss_neg (p : Nat → K) : loss (fun t => -p t) = gain p := by
  funext t; simp only [gain, loss]; congr 1; ring

theorem rateOfChange_neg (x : Nat → K) (n t : Nat) : rateOfChange (fun t => -x t) n t = rateOfChange x n t := by
  unfold rateOfChange
  simp only [ne_eq, neg_eq_zero]
  split
  · next h => congr 1; rw [show (100 : K) * (-x t - -x (t - n)) = -(100 * (x t - x (t - n))) by ring, neg_div_neg_eq]
  · rfl

theorem sourceValue_neg (k : SrcKind) (hk : k ≠ .volume) (o h l c v : Nat → K) (t : Nat) :
    sourceValue k.mirror (fun t => -o t) (fun t => -l t) (fun t => -h t) (fun t => -c t) v t = -sourceValue k o h l c v t := by
  cases k <;> simp only [SrcKind.mirror, sourceValue] <;> first | rfl | ring | exact absurd rfl hk

variable [RootOps K]

theorem exBars_mirror {d : DataProvider (Ex K)} {N : Nat} {o h l c v : Nat → K} (hb : ExBars d N o h l c v) :
    ExBars d.mirror N (fun t => -o t) (fun t => -l t) (fun t => -h t) (fun t => -c t) v := by
  have key : ∀ {l : List (Option (Ex K))} {x : Nat → K}, HasCol l N (fun t => some (fin (x t))) →
      HasCol (l.map (Option.map Neg.neg)) N (fun t => some (fin (-x t))) := fun {l x} h t ht => by
    rw [List.getElem?_map, h t ht]; rfl
  exact ⟨key hb.open_, key hb.low, key hb.high, key hb.close, hb.volume⟩

/-- **C77.** Stochastic: of the negated value between the negated extremes, `100 -` the original one, for any series with gaps. -/
theorem C77_stochastic (d : DataProvider (Ex K)) {n : Nat} (hn : 1 ≤ n) (x h l : Nat → Option K) (N : Nat) :
    ∃ y : Nat → Option (Ex K), Runs (fun t => Stoch.next ⟨d, t⟩) (Stoch.new n) (fun t => (flo x t, flo h t, flo l t)) N y ∧
      Runs (fun t => Stoch.next ⟨d.mirror, t⟩) (Stoch.new n)
        (fun t => ((flo x t).map Neg.neg, (flo l t).map Neg.neg, (flo h t).map Neg.neg)) N (fun t => (y t).map (lit 100 - ·)) := by
  have e : ∀ z : Nat → Option K, (fun t => (flo z t).map Neg.neg) = flo fun t => (z t).map fun a => -a := fun z => by
    funext t
    simp only [flo, Option.map_map]
    rfl
  refine ⟨_, stoch_runs d hn (flo x) (flo h) (flo l) N, ?_⟩
  have r := stoch_runs d.mirror hn (flo fun t => (x t).map fun a => -a) (flo fun t => (l t).map fun a => -a) (flo fun t => (h t).map fun a => -a) N
  rw [← e, ← e, ← e] at r
  refine r.congr fun t _ => ?_
  rw [e, e, e]
  have key : ∀ w hi lo : K, ¬ hi = lo → 100 * (-w - -hi) / (-lo - -hi) = 100 - 100 * (w - lo) / (hi - lo) := by
    intro w hi lo h
    have : hi - lo ≠ 0 := sub_ne_zero.mpr h
    have e : -lo - -hi = hi - lo := by ring
    rw [e]
    field_simp
    ring
  have hc : ∀ hi lo : K, (-lo = -hi) ↔ hi = lo := fun hi lo => by rw [neg_inj, eq_comm]
  induction t with
  | zero =>
    rw [stoch_exact hn, stoch_exact hn, highest_antitone antitone_neg, lowest_antitone antitone_neg]
    cases x 0 <;> cases Spec.highest h n 0 <;> cases Spec.lowest l n 0 <;> try rfl
    simp only [Option.map_some, hc]
    split
    · rfl
    · next h => simp only [Option.map_some, fin_lit, fin_sub]; rw [key _ _ _ h]; norm_num
  | succ t ih =>
    rw [stoch_exact hn, stoch_exact hn, highest_antitone antitone_neg, lowest_antitone antitone_neg]
    cases x (t + 1) <;> cases Spec.highest h n (t + 1) <;> cases Spec.lowest l n (t + 1) <;> try rfl
    simp only [Option.map_some, hc]
    split
    · exact ih (by omega)
    · next h => simp only [Option.map_some, fin_lit, fin_sub]; rw [key _ _ _ h]; norm_num

/-! ## Oscillators on the bars -/

theorem src_mirror {d : DataProvider (Ex K)} {N : Nat} {o h l c v : Nat → K} (hb : ExBars d N o h l c v) {k : SrcKind} (hk : k ≠ .volume)
    (t : Nat) (ht : t < N) : Src.next ⟨d.mirror, t⟩ k.mirror = .ok (some (fin (-sourceValue k o h l c v t))) := by
  rw [src_exact' (exBars_mirror hb) k.mirror t ht, sourceValue_neg k hk]

private theorem nan_sub (a : Ex K) : a - Fl.of _ .nan = Fl.of _ .nan := by
  show Fl.add _ a (Ext.neg .nan) = _
  cases a <;> rfl

/-- A scale from 0 to 100, read from the other end. -/
private theorem turn_div {u w : K} (h : u + w ≠ 0) : 100 * w / (w + u) = 100 - 100 * u / (u + w) := by
  have h' : w + u ≠ 0 := by rwa [add_comm]
  field_simp
  ring

theorem rsi_turn (d d' : DataProvider (Ex K)) {n : Nat} (hn : 2 ≤ n) (p : Nat → K) (N : Nat) :
    ∃ y : Nat → Option (Ex K), Runs (fun t => Rsi.next ⟨d, t⟩) (Rsi.new n) (fun t => some (fin (p t))) N y ∧
      Runs (fun t => Rsi.next ⟨d', t⟩) (Rsi.new n) (fun t => some (fin (-p t))) N (fun t => (y t).map (lit 100 - ·)) := by
  obtain ⟨y, h1, h2, h3⟩ := C34_rsi_exact d hn p N
  obtain ⟨z, k1, k2, k3⟩ := C34_rsi_exact d' hn (fun t => -p t) N
  refine ⟨y, h1, k1.congr fun t ht => ?_⟩
  by_cases hl : t < n
  · rw [h2 t ht hl, k2 t ht hl]; rfl
  · obtain ⟨m, rfl⟩ : ∃ m, t = n + m := ⟨t - n, by omega⟩
    rw [h3 m ht, k3 m ht, gain_neg, loss_neg]
    by_cases h0 : wilder n (gain p) m = 0 ∧ wilder n (loss p) m = 0
    · rw [if_pos h0, if_pos h0.symm, Option.map_some, nan_sub]
    · rw [if_neg h0, if_neg (fun h => h0 h.symm), Option.map_some, fin_lit, fin_sub]
      have hu := wilder_nonneg (show 1 ≤ n by omega) (gain_nonneg p) m
      have hd := wilder_nonneg (show 1 ≤ n by omega) (loss_nonneg p) m
      rw [turn_div]
      · norm_num
      · intro h
        exact h0 ⟨by linarith, by linarith⟩

theorem rsiSeries_turn {n : Nat} (hn : 2 ≤ n) {p : Nat → K} (hp : Moves p n) (t : Nat) :
    rsiSeries n (fun t => -p t) t = (rsiSeries n p t).map fun a => 100 - a := by
  unfold rsiSeries startAt
  rw [gain_neg, loss_neg]
  by_cases hl : t < n
  · rw [if_pos hl, if_pos hl]; rfl
  · rw [if_neg hl, if_neg hl, Option.map_some]
    have hu := wilder_nonneg (show 1 ≤ n by omega) (gain_nonneg p) (t - n)
    have hd := wilder_nonneg (show 1 ≤ n by omega) (loss_nonneg p) (t - n)
    dsimp only
    rw [turn_div]
    intro h
    have : wilder n (gain p) (t - n) = 0 ∧ wilder n (loss p) (t - n) = 0 := ⟨by linarith, by linarith⟩
    rw [wilder_zero_iff hn (gain_nonneg p), wilder_zero_iff hn (loss_nonneg p), no_change_iff] at this
    obtain ⟨k, hk1, hk2⟩ := hp
    exact hk2 (this k (by omega))

theorem Spec.Moves.neg {p : Nat → K} {n : Nat} (h : Moves p n) : Moves (fun t => -p t) n :=
  h.imp fun _ hk => ⟨hk.1, fun e => hk.2 (neg_inj.mp e)⟩

variable {d : DataProvider (Ex K)} {N : Nat} {o h l c v : Nat → K}

/-- **C77.** Oscillators with a scale from 0 to 100 count from the other end on the mirrored bars: RSI (NaN stays NaN), both lines of the
stochastic RSI (of a price that moves within its warm-up), and the ultimate oscillator. -/
theorem C77_scale_100 (hb : ExBars d N o h l c v) {k : SrcKind} (hk : k ≠ .volume) {n m p q : Nat} (hn : 2 ≤ n) (hm : 1 ≤ m) (hp : 1 ≤ p)
    (hq : 1 ≤ q) :
    let turn : Option (Ex K) → Option (Ex K) := Option.map (lit 100 - ·)
    (∃ y, Runs (noInput fun t => withSrc k RelativeStrengthIndex.next ⟨d, t⟩) (Rsi.new n) unit N y ∧
      Runs (noInput fun t => withSrc k.mirror RelativeStrengthIndex.next ⟨d.mirror, t⟩) (Rsi.new n) unit N (fun t => turn (y t))) ∧
    (Moves (sourceValue k o h l c v) n →
      ∃ y : Nat → Option (Ex K) × Option (Ex K), Runs (noInput fun t => withSrc k StochRsi.next ⟨d, t⟩) (StochRsi.new n m p q) unit N y ∧
      Runs (noInput fun t => withSrc k.mirror StochRsi.next ⟨d.mirror, t⟩) (StochRsi.new n m p q) unit N
        (fun t => (turn (y t).1, turn (y t).2))) ∧
    (∃ y, Runs (noInput fun t => UltimateOscillator.next ⟨d, t⟩) (UltimateOscillator.new m p q) unit N y ∧
      Runs (noInput fun t => UltimateOscillator.next ⟨d.mirror, t⟩) (UltimateOscillator.new m p q) unit N (fun t => turn (y t))) := by
  intro turn
  refine ⟨?_, fun hmv => ?_, ?_⟩
  · obtain ⟨y, h1, h2⟩ := rsi_turn d d.mirror hn (sourceValue k o h l c v) N
    exact ⟨y, withSrc_runs (src_exact' hb k) h1, withSrc_runs (src_mirror hb hk) h2⟩
  · refine ⟨_, withSrc_runs (src_exact' hb k) (C53_stoch_rsi_exact d hn hm hp hq hmv N), ?_⟩
    refine (withSrc_runs (src_mirror hb hk) (C53_stoch_rsi_exact d.mirror hn hm hp hq hmv.neg N)).congr fun t _ => ?_
    have e : (ownStochastic (rsiSeries n fun t => -sourceValue k o h l c v t) m) =
        fun t => (ownStochastic (rsiSeries n (sourceValue k o h l c v)) m t).map fun a => 100 - a := by
      funext t
      rw [← ownStochastic_sub 100]
      congr 1
      funext t
      exact rsiSeries_turn hn hmv t
    have f : ∀ z : Option K, (z.map fun a => 100 - a).map fin = turn (z.map fin) := fun z => by
      cases z with
      | none => rfl
      | some a => simp only [turn, Option.map_some, fin_lit, fin_sub]; norm_num
    have g1 : smaSeries (ownStochastic (rsiSeries n fun t => -sourceValue k o h l c v t) m) p =
        fun t => (smaSeries (ownStochastic (rsiSeries n (sourceValue k o h l c v)) m) p t).map fun a => 100 - a := by
      funext t
      rw [e, smaSeries_sub 100 _ hp]
    simp only [flo, g1, smaSeries_sub (100 : K) _ hq, f]
  · refine ⟨_, C53_ultimate_oscillator_exact hb hm hp hq, (C53_ultimate_oscillator_exact (exBars_mirror hb) hm hp hq).congr fun t ht => ?_⟩
    have eT : trueSpread (fun t => -l t) (fun t => -h t) (fun t => -c t) = trueSpread h l c := by
      funext t
      simp only [trueSpread, max_neg_neg, min_neg_neg]
      ring
    have eB : ∀ n, (win (buyingPressure (fun t => -h t) (fun t => -c t)) n t).sum =
        (win (trueSpread h l c) n t).sum - (win (buyingPressure l c) n t).sum := by
      intro n
      have : buyingPressure (fun t => -h t) (fun t => -c t) = fun t => trueSpread h l c t - buyingPressure l c t := by
        funext t
        simp only [trueSpread, buyingPressure, min_neg_neg]
        ring
      rw [this]
      exact win_sum_sub _ _ n t
    simp only [eT, eB]
    split
    · rfl
    · next hc =>
      simp only [not_or] at hc
      obtain ⟨_, _, _, h1, h2, h3⟩ := hc
      simp only [turn, Option.map_some, fin_lit, fin_sub]
      congr 2
      field_simp
      push_cast
      ring

/-- **C77.** Williams %R has a scale from -100 to 0, Bollinger %B one from 0 to 1: both count from the other end. -/
theorem C77_scale_other (hb : ExBars d N o h l c v) {k : SrcKind} (hk : k ≠ .volume) {n : Nat} (hn : 2 ≤ n) (mult : K) :
    (∃ y, Runs (noInput fun t => withSrc k WilliamsPercentRank.next ⟨d, t⟩) (WilliamsPercentRank.new n) unit N y ∧
      Runs (noInput fun t => withSrc k.mirror WilliamsPercentRank.next ⟨d.mirror, t⟩) (WilliamsPercentRank.new n) unit N
        (fun t => (y t).map (lit (-100) - ·))) ∧
    (∃ y, Runs (noInput fun t => withSrc k BollingerBandsPercentB.next ⟨d, t⟩) (BollingerBands.new n (fin mult)) unit N y ∧
      Runs (noInput fun t => withSrc k.mirror BollingerBandsPercentB.next ⟨d.mirror, t⟩) (BollingerBands.new n (fin mult)) unit N
        (fun t => (y t).map (lit 1 - ·))) := by
  constructor
  · refine ⟨_, withSrc_runs (src_exact' hb k) (C53_williams_exact hb (show 1 ≤ n by omega) fun t => some (sourceValue k o h l c v t)), ?_⟩
    refine (withSrc_runs (src_mirror hb hk) (C53_williams_exact (exBars_mirror hb) (show 1 ≤ n by omega) fun t => some (-sourceValue k o h l c v t))).congr
      fun t _ => ?_
    have e1 := highest_antitone (antitone_neg (K := K)) (fun t => some (l t)) n t
    have e2 := lowest_antitone (antitone_neg (K := K)) (fun t => some (h t)) n t
    simp only [Option.map_some] at e1 e2
    rw [e1, e2]
    cases Spec.highest (fun t => some (h t)) n t <;> cases Spec.lowest (fun t => some (l t)) n t <;> try rfl
    rename_i hi lo
    simp only [Option.map_some, opt3, neg_inj, Option.join_some]
    by_cases hc : hi = lo
    · rw [if_pos hc, if_pos hc.symm]; rfl
    · rw [if_neg hc, if_neg (Ne.symm hc), Option.map_some, fin_lit, fin_sub]
      have h1 : hi - lo ≠ 0 := sub_ne_zero.mpr hc
      have h2 : -lo - -hi = hi - lo := by ring
      rw [h2]
      congr 2
      field_simp
      push_cast
      ring
  · refine ⟨_, withSrc_runs (src_exact' hb k) (C53_bollinger_percent_b_exact hn mult (sourceValue k o h l c v)), ?_⟩
    refine (withSrc_runs (src_mirror hb hk) (C53_bollinger_percent_b_exact hn mult fun t => -sourceValue k o h l c v t)).congr fun t _ => ?_
    split
    · rfl
    · rw [win_neg, mean_map_neg, cutSqDev_neg]
      dsimp only
      generalize mean (win (sourceValue k o h l c v) n t) = m
      generalize RootOps.sqrt (cutSqDev (win (sourceValue k o h l c v) n t) / (n : K)) = s
      split
      · rfl
      · next hc =>
        simp only [Option.map_some, fin_lit, fin_sub]
        congr 2
        generalize s * mult = z at hc
        field_simp
        push_cast
        ring

/-! ## Rates, averages relative to a price -/

/-- **C77.** Relative changes do not depend on the sign of the prices: rate of change, Coppock curve, and the price oscillator wherever
it is a number (where its long average is not 0). -/
theorem C77_relative (hb : ExBars d N o h l c v) {k : SrcKind} (hk : k ≠ .volume) {n a b : Nat} (hn : 1 ≤ n) (ha : 1 ≤ a) (hb' : 1 ≤ b)
    (ka kb : MaKind) (p : Nat → K) :
    (∃ y, Runs (fun _ => Roc.next (α := Ex K)) (Roc.new n) (fun t => some (fin (p t))) N y ∧
      Runs (fun _ => Roc.next) (Roc.new n) (fun t => some (fin (-p t))) N y) ∧
    (∃ y, Runs (noInput fun t => withSrc k CoppockCurve.next ⟨d, t⟩) (CoppockCurve.new n a b) unit N y ∧
      Runs (noInput fun t => withSrc k.mirror CoppockCurve.next ⟨d.mirror, t⟩) (CoppockCurve.new n a b) unit N y) ∧
    (∃ y y' : Nat → Option (Ex K), Runs (noInput fun t => withSrc k PriceOscillator.next ⟨d, t⟩)
        (do let l ← Ma.new kb b; let s ← Ma.new ka a; return ⟨s, l⟩) unit N y ∧
      Runs (noInput fun t => withSrc k.mirror PriceOscillator.next ⟨d.mirror, t⟩)
        (do let l ← Ma.new kb b; let s ← Ma.new ka a; return ⟨s, l⟩) unit N y' ∧
      ∀ t, t < N → (y' t).isSome = (y t).isSome ∧ ∀ w : K, y' t = some (fin w) ↔ y t = some (fin w)) := by
  have e : sourceValue k.mirror (fun t => -o t) (fun t => -l t) (fun t => -h t) (fun t => -c t) v = fun t => -sourceValue k o h l c v t :=
    funext fun t => sourceValue_neg k hk o h l c v t
  refine ⟨⟨_, C28_roc_complete p hn N, (C28_roc_complete (fun t => -p t) hn N).congr fun t _ => ?_⟩,
    ⟨_, C53_coppock_exact hb k hn ha hb', (C53_coppock_exact (exBars_mirror hb) k.mirror hn ha hb').congr fun t _ => ?_⟩, ?_⟩
  · simp only [flo, rateOfChange_neg]
  · rw [e]
    simp only [rateOfChange_neg]
  · obtain ⟨y, h1, h2, h3⟩ := C53_price_oscillator_exact hb k ka kb ha hb'
    obtain ⟨z, k1, k2, k3⟩ := C53_price_oscillator_exact (exBars_mirror hb) k.mirror ka kb ha hb'
    refine ⟨y, z, h1, k1, fun t _ => ?_⟩
    have hsome : (z t).isSome = (y t).isSome := by
      rw [Bool.eq_iff_iff]; exact (k2 t).trans (h2 t).symm
    refine ⟨hsome, fun w => ?_⟩
    by_cases hl : max (maLength ka a) (maLength kb b) - 1 ≤ t
    · have h3' := h3 t hl
      have k3' := k3 t hl
      rw [e, average_neg, average_neg] at k3'
      by_cases h0 : average kb b 0 (sourceValue k o h l c v) t = 0
      · exact ⟨fun hz => absurd hz (k3'.2 (by rw [h0, neg_zero]) w), fun hy => absurd hy (h3'.2 h0 w)⟩
      · rw [h3'.1 h0, k3'.1 (neg_ne_zero.mpr h0)]
        have : ∀ s g : K, 100 * (-s - -g) / -g = 100 * (s - g) / g := fun s g => by
          rw [show (100 : K) * (-s - -g) = -(100 * (s - g)) by ring, neg_div_neg_eq]
        rw [this]
    · have hy : y t = none := by
        have := mt (h2 t).mp hl
        simpa using this
      have hz : z t = none := by
        have := mt (k2 t).mp hl
        simpa using this
      rw [hy, hz]

/-! ## Relative volatility -/

theorem emaSeries_congr {x y : Nat → Option K} {n T : Nat} (h : ∀ t, t ≤ T → x t = y t) : emaSeries x n T = emaSeries y n T := by
  have hw : ∀ t, t ≤ T → fullWindow x n t = fullWindow y n t := fun t ht => by
    unfold fullWindow
    split
    · congr 1
      exact List.map_congr_left fun i hi => h _ (by have := List.mem_range.mp hi; omega)
    · rfl
  induction T with
  | zero => simp only [emaSeries, hw 0 le_rfl]
  | succ T ih =>
    simp only [emaSeries, hw _ le_rfl, h _ le_rfl, ih (fun t ht => h t (by omega)) (fun t ht => hw t (by omega))]

/-- **C77.** Relative volatility of a price that never stands still: `100 -` the original. -/
theorem C77_relative_volatility {n m : Nat} (hn : 2 ≤ n) (hm : 1 ≤ m) (hnm : m = 1 ∨ n ≤ m + 2) (p : Nat → K)
    (hp : ∀ t, t + 1 < N → p (t + 1) ≠ p t) :
    ∃ y : Nat → Option (Ex K), Runs (fun t => RelativeVolatilityIndex.next ⟨d, t⟩) (RelativeVolatilityIndex.new n m) (fun t => some (fin (p t))) N y ∧
      Runs (fun t => RelativeVolatilityIndex.next ⟨d.mirror, t⟩) (RelativeVolatilityIndex.new n m) (fun t => some (fin (-p t))) N
        (fun t => (y t).map (lit 100 - ·)) := by
  refine ⟨_, C53_relative_volatility_exact d hn hm hnm p N, (C53_relative_volatility_exact d.mirror hn hm hnm (fun t => -p t) N).congr fun t ht => ?_⟩
  have hu : ∀ s, s ≤ t → upDeviation (fun t => -p t) n s = downDeviation p n s := fun s hs => by
    unfold upDeviation downDeviation
    rcases s with _ | s
    · rfl
    · have := hp s (by omega)
      simp only [Nat.add_sub_cancel, neg_le_neg_iff, win_neg, cutSqDev_neg]
      by_cases h : p s < p (s + 1)
      · rw [if_pos h, if_pos h.le]
      · rw [if_neg h, if_neg (fun h' => h (lt_of_le_of_ne h' this.symm))]
  have hd : ∀ s, s ≤ t → downDeviation (fun t => -p t) n s = upDeviation p n s := fun s hs => by
    unfold upDeviation downDeviation
    rcases s with _ | s
    · rfl
    · have := hp s (by omega)
      simp only [Nat.add_sub_cancel, neg_lt_neg_iff, win_neg, cutSqDev_neg]
      by_cases h : p (s + 1) < p s
      · rw [if_pos h, if_pos h.le]
      · rw [if_neg h, if_neg (fun h' => h (lt_of_le_of_ne h' this))]
  rw [emaSeries_congr hu, emaSeries_congr hd]
  cases emaSeries (upDeviation p n) m t <;> cases emaSeries (downDeviation p n) m t <;> try rfl
  rename_i u w
  simp only [opt2, Option.join_some]
  by_cases h0 : u + w = 0
  · rw [if_pos h0, if_pos (by rw [add_comm]; exact h0)]; rfl
  · rw [if_neg h0, if_neg (fun h => h0 (by rw [add_comm]; exact h)), Option.map_some, fin_lit, fin_sub, turn_div h0]
    norm_num

end
end Pace
