import Verif.Lemmas.ContentExact

/-!
# content indicators in exact arithmetic: textbook formulas on complete bars (C53)

`win g n t` is the list `g (t+1-n), ..., g t`.
-/

set_option linter.unusedSectionVars false

namespace Pace
open Spec
variable {K : Type} [Field K] [LinearOrder K] [IsStrictOrderedRing K] [RootOps K]
variable {d : DataProvider (Ex K)} {N : Nat} {o h l c v : Nat → K}

/-- **C53.** Donchian channels of complete bars. -/
theorem C53_donchian_exact (hb : ExBars d N o h l c v) {len : Nat} (hlen : 1 ≤ len) :
    Runs (noInput fun t => DonchianChannels.next ⟨d, t⟩) (DonchianChannels.new len) unit N (fun t =>
      { upper := (Spec.highest (fun t => some (h t)) len t).map fin
        basis := opt2 (fun a b => fin ((a + b) / 2)) (Spec.highest (fun t => some (h t)) len t)
          (Spec.lowest (fun t => some (l t)) len t)
        lower := (Spec.lowest (fun t => some (l t)) len t).map fin }) := by
  refine (C53_donchian d hb.high hb.low (C30_highest d hlen (fun t => some (h t)) N)
    (C30_lowest d hlen (fun t => some (l t)) N)).congr fun t _ => ?_
  cases Spec.highest (fun t => some (h t)) len t <;> cases Spec.lowest (fun t => some (l t)) len t <;> try rfl
  simp only [Option.map_some, opt2, fin_add, fin_lit]
  rw [fin_div _ _ (by norm_num)]; push_cast; rfl

/-- **C53.** Williams %R of complete bars: `100 (src - hi) / (hi - lo)`, missing if `hi = lo`. -/
theorem C53_williams_exact (hb : ExBars d N o h l c v) {len : Nat} (hlen : 1 ≤ len) (x : Nat → Option K) :
    Runs (fun t => WilliamsPercentRank.next ⟨d, t⟩) (WilliamsPercentRank.new len) (flo x) N (fun t =>
      (opt3 (fun x hi lo => if hi = lo then none else some (fin ((x - hi) / (hi - lo) * 100))) (x t)
        (Spec.highest (fun t => some (h t)) len t) (Spec.lowest (fun t => some (l t)) len t)).join) := by
  refine (C53_williams d hb.high hb.low (C30_highest d hlen (fun t => some (h t)) N)
    (C30_lowest d hlen (fun t => some (l t)) N)).congr fun t _ => ?_
  show (safeDiv (opt2 _ ((x t).map fin) _) _).map _ = _
  cases x t <;> cases Spec.highest (fun t => some (h t)) len t <;> cases Spec.lowest (fun t => some (l t)) len t <;> try rfl
  rename_i x hi lo
  simp only [Option.map_some, opt2, opt3, fin_sub, fin_lit, safeDiv_fin, sub_eq_zero, Option.join_some]
  split <;> simp

/-- **C53.** Bollinger %B of a complete source, length at least 2: with `m` the mean and `s` the standard deviation of the
last `len` values, `(x - (m - k s)) / (2 k s)`, missing if `k s = 0`. -/
theorem C53_bollinger_percent_b_exact {len : Nat} (hlen : 2 ≤ len) (k : K) (x : Nat → K) :
    Runs (fun t => BollingerBandsPercentB.next ⟨d, t⟩) (BollingerBands.new len (fin k)) (fun t => some (fin (x t))) N (fun t =>
      if t + 1 < len then none else
        let m := mean (win x len t)
        let s := RootOps.sqrt (cutSqDev (win x len t) / (len : K))
        if s * k = 0 then none else some (fin ((x t - (m - s * k)) / (2 * (s * k))))) := by
  have h1 := sma_startAt d (show 1 ≤ len by omega) 0 x N
  have h2 := (C26_stdev d hlen true (startAt 0 x) N)
  rw [startAt_zero] at h1 h2
  refine (C53_bollinger_percent_b d (mult := fin k) h1 h2).congr fun t _ => ?_
  have := fullWindow_startAt 0 x (show 1 ≤ len by omega) t
  rw [startAt_zero] at this
  rw [this]
  by_cases hl : t + 1 < len
  · simp [hl, show ¬ len ≤ t + 1 by omega, opt3]
  · simp only [hl, show len ≤ t + 1 by omega, opt3, Nat.zero_add, if_true, if_false, Option.map_some]
    generalize mean (win x len t) = m
    generalize RootOps.sqrt (cutSqDev (win x len t) / (len : K)) = s
    simp only [fin_mul, fin_add, fin_sub, fin_lit, fin_feq, Option.join_some, Rat.cast_zero, decide_eq_true_eq]
    have e : m + s * k - (m - s * k) = 2 * (s * k) := by ring
    rw [e]
    by_cases h0 : s * k = 0
    · simp [h0]
    · rw [if_neg (by simpa using h0), if_neg h0, fin_div _ _ (by simpa using h0)]

/-- **C53.** Bollinger width of a complete source, length at least 2: `2 k s / m`, missing if the mean `m` is 0. -/
theorem C53_bollinger_width_exact {len : Nat} (hlen : 2 ≤ len) (k : K) (x : Nat → K) :
    Runs (fun t => BollingerBandsWidth.next ⟨d, t⟩) (BollingerBands.new len (fin k)) (fun t => some (fin (x t))) N (fun t =>
      if t + 1 < len then none else
        let m := mean (win x len t)
        let s := RootOps.sqrt (cutSqDev (win x len t) / (len : K))
        if m = 0 then none else some (fin (2 * (s * k) / m))) := by
  have h1 := sma_startAt d (show 1 ≤ len by omega) 0 x N
  have h2 := (C26_stdev d hlen true (startAt 0 x) N)
  rw [startAt_zero] at h1 h2
  refine (C53_bollinger_width d (mult := fin k) h1 h2).congr fun t _ => ?_
  have := fullWindow_startAt 0 x (show 1 ≤ len by omega) t
  rw [startAt_zero] at this
  rw [this]
  by_cases hl : t + 1 < len
  · simp [hl, show ¬ len ≤ t + 1 by omega, opt3]
  · simp only [hl, show len ≤ t + 1 by omega, opt3, Nat.zero_add, if_true, if_false, Option.map_some]
    generalize mean (win x len t) = m
    generalize RootOps.sqrt (cutSqDev (win x len t) / (len : K)) = s
    simp only [fin_mul, fin_add, fin_sub, fin_lit, fin_feq, Option.join_some, Rat.cast_zero, decide_eq_true_eq]
    have e : m + s * k - (m - s * k) = 2 * (s * k) := by ring
    rw [e]
    by_cases h0 : m = 0
    · simp [h0]
    · rw [if_neg h0, if_neg h0, fin_div _ _ h0]

/-- **C53.** Commodity channel index of a complete source, length at least 2: `(x - mean) / (0.015 * mean deviation)`, missing if
the mean deviation is 0. -/
theorem C53_cci_exact {len : Nat} (hlen : 2 ≤ len) (x : Nat → K) :
    Runs (fun t => CommodityChannelIndex.next ⟨d, t⟩) (CommodityChannelIndex.new len) (fun t => some (fin (x t))) N (fun t =>
      if t + 1 < len then none else
        if meanAbsDev (win x len t) = 0 then none
        else some (fin ((x t - mean (win x len t)) / (15 / 1000 * meanAbsDev (win x len t))))) := by
  have h1 := sma_startAt d (show 1 ≤ len by omega) 0 x N
  have h2 := (C26_dev d hlen (startAt 0 x) N)
  rw [startAt_zero] at h1 h2
  refine (C53_cci d h1 h2).congr fun t _ => ?_
  have := fullWindow_startAt 0 x (show 1 ≤ len by omega) t
  rw [startAt_zero] at this
  rw [this]
  by_cases hl : t + 1 < len
  · simp [hl, show ¬ len ≤ t + 1 by omega, safeDiv, opt2]
  · simp only [hl, show len ≤ t + 1 by omega, opt2, Nat.zero_add, if_true, if_false, Option.map_some]
    generalize mean (win x len t) = m
    generalize meanAbsDev (win x len t) = s
    simp only [fin_mul, fin_sub, fin_lit, safeDiv_fin]
    push_cast
    rw [mul_comm s]
    by_cases h0 : s = 0
    · simp [h0]
    · have : (15 : K) / 1000 * s ≠ 0 := mul_ne_zero (by norm_num) h0
      rw [if_neg this, if_neg h0]

/-- **C53.** Chande momentum oscillator of a complete source: with `G` and `L` the sums of the gains and losses of the last `len`
changes, `100 (G - L) / (G + L)`, missing if there was no change. -/
theorem C53_cmo_exact {len : Nat} (hlen : 2 ≤ len) (x : Nat → K) :
    Runs (fun t => ChandeMomentumOscillator.next ⟨d, t⟩) (ChandeMomentumOscillator.new len) (fun t => some (fin (x t))) N (fun t =>
      if t < len then none else
        let G := (win (gain x) len t).sum
        let L := (win (loss x) len t).sum
        if G + L = 0 then none else some (fin (100 * (G - L) / (G + L)))) := by
  have hg := (sum_startAt d (show 1 ≤ len by omega) 1 (gain x) N).input_congr (x' := fun t =>
    opt2 (fun a p => F64.fmax (lit 0) (a - p)) (some (fin (x t))) (prev (fun t => some (fin (x t))) t)) fun t _ => by
      rw [opt2_prev _ (fun a b => max 0 (a - b)) (by intro a b; simp)]
      have : (fun t => max 0 (x t - x (t - 1))) = gain x := funext fun t => max_comm _ _
      rw [this]
  have hl := (sum_startAt d (show 1 ≤ len by omega) 1 (loss x) N).input_congr (x' := fun t =>
    opt2 (fun a p => F64.abs (F64.fmin (lit 0) (a - p))) (some (fin (x t))) (prev (fun t => some (fin (x t))) t)) fun t _ => by
      rw [opt2_prev _ (fun a b => |min 0 (a - b)|) (by intro a b; simp)]
      have : (fun t => |min 0 (x t - x (t - 1))|) = loss x := by
        funext t
        unfold loss
        rcases le_total (x t - x (t - 1)) 0 with h | h
        · rw [min_eq_right h, abs_of_nonpos h, max_eq_left (by linarith)]; ring
        · rw [min_eq_left h, abs_zero, max_eq_right (by linarith)]
      rw [this]
  refine (C53_cmo d hlen hg hl).congr fun t _ => ?_
  by_cases ht : t < len
  · simp [ht, show ¬ 1 + len ≤ t + 1 by omega, opt2]
  · simp only [ht, show 1 + len ≤ t + 1 by omega, if_true, if_false, opt2, Option.join_some]
    generalize (win (gain x) len t).sum = G
    generalize (win (loss x) len t).sum = L
    simp only [fin_neg, fin_feq, fin_lit, fin_mul, fin_sub, fin_add, decide_eq_true_eq, eq_neg_iff_add_eq_zero]
    split
    · rfl
    · rename_i h0; rw [fin_div _ _ h0]; push_cast; rfl

/-- Money flow volume of a bar: `(2c - l - h) / (h - l) * v`, 0 for a bar without range. -/
def Spec.flowVolume (h l c v : Nat → K) (t : Nat) : K := if h t = l t then 0 else (2 * c t - l t - h t) / (h t - l t) * v t

/-- **C53.** Chaikin money flow of complete bars: the sum of the money flow volumes over the sum of the volumes of the last `len`
bars, missing if the latter is 0. -/
theorem C53_cmf_exact (hb : ExBars d N o h l c v) {len : Nat} (hlen : 1 ≤ len) :
    Runs (noInput fun t => ChaikinMoneyFlow.next ⟨d, t⟩) (ChaikinMoneyFlow.new len) unit N (fun t =>
      if t + 1 < len then none else
        if (win v len t).sum = 0 then none else some (fin ((win (flowVolume h l c v) len t).sum / (win v len t).sum))) := by
  have hv := sum_startAt d hlen 0 v N
  have ha := sum_startAt d hlen 0 (flowVolume h l c v) N
  rw [startAt_zero] at hv ha
  replace ha := ha.input_congr (x' := fun t => opt4 (fun h l c v => if F64.feq c h && F64.feq c l || F64.feq h l then lit 0
        else (lit 2 * c - l - h) / (h - l) * v) (some (fin (h t))) (some (fin (l t))) (some (fin (c t))) (some (fin (v t))))
    fun t _ => by
      simp only [Option.map_some, opt4, fin_feq, flowVolume, fin_lit, fin_mul, fin_sub]
      congr 1
      by_cases h0 : h t = l t
      · simp [h0]
      · have h1 : ¬ (c t = h t ∧ c t = l t ∨ h t = l t) := by
          rintro (⟨a, b⟩ | b)
          · exact h0 (a.symm.trans b)
          · exact h0 b
        have h2 : h t - l t ≠ 0 := sub_ne_zero.mpr h0
        rw [if_neg h0, if_neg (by simpa using h1), fin_div _ _ h2]
        simp
  refine (C53_cmf d hb.high hb.low hb.close hb.volume ha hv).congr fun t _ => ?_
  by_cases ht : t + 1 < len
  · simp [ht, show ¬ len ≤ t + 1 by omega, safeDiv_none_left]
  · simp only [ht, show len ≤ t + 1 by omega, Nat.zero_add, if_true, if_false, safeDiv_fin]

/-- **C53.** Vortex of complete bars: the sums of `|high - previous low|` and `|low - previous high|` of the last `len` bars, over
the sum of their true ranges. -/
theorem C53_vortex_exact (hb : ExBars d N o h l c v) {len : Nat} (hlen : 1 ≤ len) :
    Runs (noInput fun t => Vortex.next ⟨d, t⟩) (Vortex.new len) unit N (fun t =>
      if t < len ∨ (win (barRange h l c) len t).sum = 0 then (none, none) else
        (some (fin ((win (fun t => |h t - l (t - 1)|) len t).sum / (win (barRange h l c) len t).sum)),
         some (fin ((win (fun t => |l t - h (t - 1)|) len t).sum / (win (barRange h l c) len t).sum)))) := by
  have hsa := sum_startAt d hlen 0 (barRange h l c) N
  rw [startAt_zero] at hsa
  have hp := (sum_startAt d hlen 1 (fun t => |h t - l (t - 1)|) N).input_congr (x' := fun t =>
    opt2 (fun h p => F64.abs (h - p)) (some (fin (h t))) (prev (fun t => some (fin (l t))) t)) fun t _ => by
      rw [opt2_prev _ (fun a b => |a - b|) (by intro a b; simp)]
  have hm := (sum_startAt d hlen 1 (fun t => |l t - h (t - 1)|) N).input_congr (x' := fun t =>
    opt2 (fun h p => F64.abs (h - p)) (some (fin (l t))) (prev (fun t => some (fin (h t))) t)) fun t _ => by
      rw [opt2_prev _ (fun a b => |a - b|) (by intro a b; simp)]
  refine (C53_vortex d hb.high hb.low (atr_one hb) hsa hp hm).congr fun t _ => ?_
  by_cases ht : t < len
  · simp [ht, show ¬ 1 + len ≤ t + 1 by omega, safeDiv_none_left]
  · simp only [ht, show 1 + len ≤ t + 1 by omega, show 0 + len ≤ t + 1 by omega, if_true, false_or, safeDiv_fin]
    split <;> rfl

/-- Buying pressure of a bar: `close - min(low, previous close)`. -/
def Spec.buyingPressure (l c : Nat → K) (t : Nat) : K := c t - min (l t) (c (t - 1))
/-- `max(high, previous close) - min(low, previous close)`. -/
def Spec.trueSpread (h l c : Nat → K) (t : Nat) : K := max (h t) (c (t - 1)) - min (l t) (c (t - 1))

/-- **C53.** Ultimate oscillator of complete bars. -/
theorem C53_ultimate_oscillator_exact (hb : ExBars d N o h l c v) {n1 n2 n3 : Nat} (h1 : 1 ≤ n1) (h2 : 1 ≤ n2) (h3 : 1 ≤ n3) :
    Runs (noInput fun t => UltimateOscillator.next ⟨d, t⟩) (UltimateOscillator.new n1 n2 n3) unit N (fun t =>
      let B := fun n => (win (buyingPressure l c) n t).sum
      let T := fun n => (win (trueSpread h l c) n t).sum
      if t < n1 ∨ t < n2 ∨ t < n3 ∨ T n1 = 0 ∨ T n2 = 0 ∨ T n3 = 0 then none
      else some (fin (100 * (4 * (B n1 / T n1) + 2 * (B n2 / T n2) + B n3 / T n3) / 7))) := by
  have hbp : ∀ t, t < N → flo (startAt 1 (buyingPressure l c)) t = opt3 (fun c l p => c - F64.fmin l p)
      (some (fin (c t))) (some (fin (l t))) (prev (fun t => some (fin (c t))) t) := by
    intro t _
    cases t with
    | zero => rfl
    | succ t => simp [prev, opt3, startAt, buyingPressure]
  have htr : ∀ t, t < N → flo (startAt 1 (trueSpread h l c)) t = opt3 (fun h l p => F64.fmax h p - F64.fmin l p)
      (some (fin (h t))) (some (fin (l t))) (prev (fun t => some (fin (c t))) t) := by
    intro t _
    cases t with
    | zero => rfl
    | succ t => simp [prev, opt3, startAt, trueSpread]
  refine (C53_ultimate_oscillator d hb.high hb.low hb.close hbp htr
    (sum_startAt d h1 1 _ N) (sum_startAt d h1 1 _ N) (sum_startAt d h2 1 _ N) (sum_startAt d h2 1 _ N)
    (sum_startAt d h3 1 _ N) (sum_startAt d h3 1 _ N)).congr fun t _ => ?_
  have key : ∀ n, safeDiv (if 1 + n ≤ t + 1 then some (fin (win (buyingPressure l c) n t).sum : Ex K) else none)
      (if 1 + n ≤ t + 1 then some (fin (win (trueSpread h l c) n t).sum) else none)
      = if t < n ∨ (win (trueSpread h l c) n t).sum = 0 then none
        else some (fin ((win (buyingPressure l c) n t).sum / (win (trueSpread h l c) n t).sum)) := by
    intro n
    by_cases ht : t < n
    · simp [ht, show ¬ 1 + n ≤ t + 1 by omega, safeDiv_none_left]
    · simp only [ht, show 1 + n ≤ t + 1 by omega, if_true, false_or, safeDiv_fin]
  simp only [key]
  by_cases hc1 : t < n1 ∨ (win (trueSpread h l c) n1 t).sum = 0
  · rw [if_pos hc1]; exact (if_pos (by tauto)).symm
  · by_cases hc2 : t < n2 ∨ (win (trueSpread h l c) n2 t).sum = 0
    · rw [if_pos hc2, if_neg hc1]; exact (if_pos (by tauto)).symm
    · by_cases hc3 : t < n3 ∨ (win (trueSpread h l c) n3 t).sum = 0
      · rw [if_pos hc3, if_neg hc1, if_neg hc2]; exact (if_pos (by tauto)).symm
      · rw [if_neg hc1, if_neg hc2, if_neg hc3, if_neg (by tauto)]
        simp only [opt3, fin_lit, fin_mul, fin_add]
        rw [fin_div _ _ (by norm_num)]; push_cast; rfl

/-- Four-bar symmetric weighting `(x(t-3) + 2 x(t-2) + 2 x(t-1) + x(t)) / 6`. -/
def Spec.sym4 (x : Nat → K) (t : Nat) : K := (x (t - 3) + 2 * x (t - 2) + 2 * x (t - 1) + x t) / 6

/-- The vigor line of bars: from tick `len + 2` on, the quotient of the window sums of the symmetric averages of `close - open` and
`high - low`, missing if the latter is 0. -/
def Spec.vigor (o h l c : Nat → K) (len t : Nat) : Option K :=
  if t < len + 2 ∨ (win (sym4 fun t => h t - l t) len t).sum = 0 then none
  else some ((win (sym4 fun t => c t - o t) len t).sum / (win (sym4 fun t => h t - l t) len t).sum)

/-- **C53.** Relative vigor index of complete bars: the vigor line, and as signal its symmetric average over the last four ticks,
missing if one of the four is. -/
theorem C53_relative_vigor_exact (hb : ExBars d N o h l c v) {len : Nat} (hlen : 1 ≤ len) :
    Runs (noInput fun t => RelativeVigorIndex.next ⟨d, t⟩) (RelativeVigorIndex.new len) unit N (fun t =>
      (flo (vigor o h l c len) t, (fullWindow (vigor o h l c len) 4 t).map fun w =>
        fin ((w.getD 0 0 + 2 * w.getD 1 0 + 2 * w.getD 2 0 + w.getD 3 0) / 6))) := by
  have ha := swma_startAt d 0 (fun t => c t - o t) N
  have hbb := swma_startAt d 0 (fun t => h t - l t) N
  rw [startAt_zero] at ha hbb
  have e : ∀ x : Nat → K, (fun t => if 0 + 4 ≤ t + 1 then some (fin ((x (t - 3) + 2 * x (t - 2) + 2 * x (t - 1) + x t) / 6) : Ex K)
      else none) = flo (startAt 3 (sym4 x)) := by
    intro x; funext t
    by_cases ht : t < 3
    · simp [startAt, ht, show ¬ 4 ≤ t + 1 by omega]
    · simp [startAt, ht, show 4 ≤ t + 1 by omega, sym4]
  replace ha := ha.congr fun t _ => congrFun (e fun t => c t - o t) t
  replace hbb := hbb.congr fun t _ => congrFun (e fun t => h t - l t) t
  have ev : ∀ t, safeDiv (if 3 + len ≤ t + 1 then some (fin (win (sym4 fun t => c t - o t) len t).sum : Ex K) else none)
        (if 3 + len ≤ t + 1 then some (fin (win (sym4 fun t => h t - l t) len t).sum) else none) = flo (vigor o h l c len) t := by
    intro t
    unfold vigor
    by_cases ht : t < len + 2
    · simp [flo, ht, show ¬ 3 + len ≤ t + 1 by omega, safeDiv_none_left]
    · simp only [flo, ht, show 3 + len ≤ t + 1 by omega, if_true, false_or, safeDiv_fin]
      split <;> rfl
  have ha' := ha.input_congr (x' := fun t => opt2 (· - ·) (some (fin (c t) : Ex K)) (some (fin (o t)))) fun t _ => by simp [opt2]
  have hb' := hbb.input_congr (x' := fun t => opt2 (· - ·) (some (fin (h t) : Ex K)) (some (fin (l t)))) fun t _ => by simp [opt2]
  have hsig := (C25_swma d (vigor o h l c len) N).input_congr fun t _ => (ev t).symm
  exact (C53_relative_vigor d hb.open_ hb.high hb.low hb.close ha' hb' (sum_startAt d hlen 3 _ N) (sum_startAt d hlen 3 _ N)
    hsig).congr fun t _ => by rw [ev t]

/-- **C53.** Choppiness index of complete bars. -/
theorem C53_choppiness_exact (hb : ExBars d N o h l c v) {len : Nat} (hlen : 1 ≤ len) :
    Runs (noInput fun t => ChoppinessIndex.next ⟨d, t⟩) (ChoppinessIndex.new len) unit N (fun t =>
      (opt2 (fun hi lo => if hi = lo then none else some (fin 100 *
          F64.log10 (fin ((win (barRange h l c) len t).sum / (hi - lo)) : Ex K) / F64.log10 (fin (len : K))))
        (Spec.highest (fun t => some (h t)) len t) (Spec.lowest (fun t => some (l t)) len t)).join) := by
  have hsa := sum_startAt d hlen 0 (barRange h l c) N
  rw [startAt_zero] at hsa
  refine (C53_choppiness d hb.high hb.low (atr_one hb) hsa (C30_highest d hlen (fun t => some (h t)) N)
    (C30_lowest d hlen (fun t => some (l t)) N)).congr fun t _ => ?_
  by_cases hl : len ≤ t + 1
  · simp only [Nat.zero_add, hl, if_true]
    cases Spec.highest (fun t => some (h t)) len t <;> cases Spec.lowest (fun t => some (l t)) len t <;> try rfl
    rename_i hi lo
    simp only [Option.map_some, opt2, opt3, fin_sub, fin_lit, fin_feq, Option.join_some, Rat.cast_zero, decide_eq_true_eq,
      sub_eq_zero]
    by_cases h0 : hi = lo
    · simp [h0]
    · have h1 : hi - lo ≠ 0 := sub_ne_zero.mpr h0
      rw [if_neg h0, if_neg h0, fin_div _ _ h1]
      simp
  · simp [hl, Spec.highest, opt2, opt3]

end Pace
