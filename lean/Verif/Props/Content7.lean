import Verif.Props.Content6

/-!
# Chande Kroll stop in exact arithmetic; the default configurations on bars (C53)
-/

set_option linter.unusedSectionVars false

namespace Pace
open Spec
variable {K : Type} [Field K] [LinearOrder K] [IsStrictOrderedRing K] [RootOps K]
variable {d : DataProvider (Ex K)} {N : Nat} {o h l c v : Nat → K}

/-- Average true range of bars: Wilder's running mean of the true ranges. -/
def Spec.averageRange (h l c : Nat → K) (len : Nat) : Nat → Option K :=
  startAt (len - 1) fun t => runningMean len 0 (barRange h l c) (t + 1 - len)

/-- **C33.** `Atr(len)` of complete bars, for every length. -/
theorem C33_atr_bars (hb : ExBars d N o h l c v) {len : Nat} (hlen : 1 ≤ len) :
    Runs (noInput fun t => Atr.next ⟨d, t⟩) (Atr.new len) unit N (flo (averageRange h l c len)) := by
  obtain ⟨r, y, hr, h1, h2⟩ := C33_atr_is_rma d hlen hb
  have e : ∀ t, t < N → some (r t) = flo (startAt 0 (barRange h l c)) t := fun t ht => by
    have := hr t ht
    rw [tr_exact hb ht] at this
    rw [startAt_zero]
    exact (Except.ok.inj this).symm
  have h3 := rma_startAt d hlen 0 (barRange h l c) N
  have h4 := h3.input_congr fun t ht => (e t ht).symm
  have h5 := h1.unique h4
  refine h2.congr fun t ht => ?_
  rw [h5 t ht]
  dsimp only [averageRange]
  by_cases hc : t + 1 < 0 + len
  · rw [if_pos hc]; simp only [flo, startAt, show t < len - 1 by omega, if_true, Option.map_none]
  · rw [if_neg hc]
    simp only [flo, startAt, show ¬ t < len - 1 by omega, if_false, Option.map_some, Nat.zero_add]

/-- The preliminary stops of bars: highest high minus, and lowest low plus, `f` average ranges. -/
def Spec.krollHigh (h l c : Nat → K) (p : Nat) (f : K) (t : Nat) : Option K :=
  opt2 (fun hi a => hi - f * a) (Spec.highest (fun t => some (h t)) p t) (averageRange h l c p t)
def Spec.krollLow (h l c : Nat → K) (p : Nat) (f : K) (t : Nat) : Option K :=
  opt2 (fun lo a => lo + f * a) (Spec.lowest (fun t => some (l t)) p t) (averageRange h l c p t)

/-- **C53.** Chande Kroll stop of complete bars: the preliminary stops; the short stop is the highest of the last `q` preliminary
high stops, the long stop the lowest of the last `q` preliminary low stops (those that are available). -/
theorem C53_chande_kroll_exact (hb : ExBars d N o h l c v) {p q : Nat} (hp : 1 ≤ p) (hq : 1 ≤ q) (f : K) :
    Runs (noInput fun t => ChandeKrollStop.next ⟨d, t⟩) (ChandeKrollStop.new p q (fin f)) unit N (fun t =>
      { firstHighStop := flo (krollHigh h l c p f) t
        firstLowStop := flo (krollLow h l c p f) t
        stopLong := flo (Spec.lowest (krollLow h l c p f) q) t
        stopShort := flo (Spec.highest (krollHigh h l c p f) q) t }) := by
  have hiS : ∀ t, (Spec.highest (fun t => some (h t)) p t).isSome ↔ p ≤ t + 1 := fun t => by
    by_cases hc : p ≤ t + 1
    · obtain ⟨m, e, _⟩ := highest_complete hp hc (x := h)
      simp [e, hc]
    · simp [Spec.highest, hc]
  have loS : ∀ t, (Spec.lowest (fun t => some (l t)) p t).isSome ↔ p ≤ t + 1 := fun t => by
    by_cases hc : p ≤ t + 1
    · obtain ⟨m, e, _⟩ := lowest_complete hp hc (x := l)
      simp [e, hc]
    · simp [Spec.lowest, hc]
  have e1 : ∀ t, flo (krollHigh h l c p f) t = opt3 (fun h _ a => h - fin f * a)
      ((Spec.highest (fun t => some (h t)) p t).map fin) ((Spec.lowest (fun t => some (l t)) p t).map fin)
      (flo (averageRange h l c p) t) := fun t => by
    have h1 := hiS t
    have h2 := loS t
    unfold krollHigh
    dsimp only [flo]
    generalize Spec.highest (fun t => some (h t)) p t = a at *
    generalize Spec.lowest (fun t => some (l t)) p t = b at *
    generalize averageRange h l c p t = e
    cases a <;> cases b <;> cases e <;> simp [opt2, opt3] <;> simp_all
  have e2 : ∀ t, flo (krollLow h l c p f) t = opt3 (fun _ l a => l + fin f * a)
      ((Spec.highest (fun t => some (h t)) p t).map fin) ((Spec.lowest (fun t => some (l t)) p t).map fin)
      (flo (averageRange h l c p) t) := fun t => by
    have h1 := hiS t
    have h2 := loS t
    unfold krollLow
    dsimp only [flo]
    generalize Spec.highest (fun t => some (h t)) p t = a at *
    generalize Spec.lowest (fun t => some (l t)) p t = b at *
    generalize averageRange h l c p t = e
    cases a <;> cases b <;> cases e <;> simp [opt2, opt3] <;> simp_all
    omega
  refine (C53_chande_kroll d hb.high hb.low (C33_atr_bars hb hp) (C30_highest d hp (fun t => some (h t)) N)
    (C30_lowest d hp (fun t => some (l t)) N) ((C30_highest d hq (krollHigh h l c p f) N).input_congr fun t _ => e1 t)
    ((C30_lowest d hq (krollLow h l c p f) N).input_congr fun t _ => e2 t)).congr fun t _ => ?_
  rw [e1 t, e2 t]

/-- The source of a bar as the plain series of its values. -/
theorem src_exact' (hb : ExBars d N o h l c v) (k : SrcKind) (t : Nat) (ht : t < N) :
    Src.next ⟨d, t⟩ k = .ok (some (fin (sourceValue k o h l c v t))) := by
  rw [src_exact hb k t ht, startAt_zero]; rfl

/-- **C53.** Every indicator that is built from a source, in its default configuration, on complete bars. -/
theorem C53_defaults_source (hb : ExBars d N o h l c v) :
    -- awesome oscillator: the change of sma 5 - sma 34 of hl2
    Runs (noInput fun t => AwesomeOscillator.defaultNext ⟨d, t⟩) AwesomeOscillator.default unit N
      (let x := fun t => (h t + l t) / 2
       let diff := fun t => mean (win x 5 t) - mean (win x 34 t)
       flo (startAt 34 fun t => diff t - diff (t - 1))) ∧
    -- Bollinger bands, 20 bars of the close, 2 deviations
    Runs (noInput fun t => BollingerBandsPercentB.defaultNext ⟨d, t⟩) BollingerBandsPercentB.default unit N (fun t =>
      if t < 19 then none else
        let m := mean (win c 20 t)
        let s := RootOps.sqrt (cutSqDev (win c 20 t) / 20)
        if s * 2 = 0 then none else some (fin ((c t - (m - s * 2)) / (2 * (s * 2))))) ∧
    Runs (noInput fun t => BollingerBandsWidth.defaultNext ⟨d, t⟩) BollingerBandsWidth.default unit N (fun t =>
      if t < 19 then none else
        let m := mean (win c 20 t)
        let s := RootOps.sqrt (cutSqDev (win c 20 t) / 20)
        if m = 0 then none else some (fin (2 * (s * 2) / m))) ∧
    -- Chande momentum oscillator, 9 changes of the close
    Runs (noInput fun t => ChandeMomentumOscillator.defaultNext ⟨d, t⟩) ChandeMomentumOscillator.default unit N (fun t =>
      if t < 9 then none else
        let G := (win (gain c) 9 t).sum
        let L := (win (loss c) 9 t).sum
        if G + L = 0 then none else some (fin (100 * (G - L) / (G + L)))) ∧
    -- commodity channel index, 20 bars of hlc3
    Runs (noInput fun t => CommodityChannelIndex.defaultNext ⟨d, t⟩) CommodityChannelIndex.default unit N (fun t =>
      let x := fun t => (h t + l t + c t) / 3
      if t < 19 then none else if meanAbsDev (win x 20 t) = 0 then none
      else some (fin ((x t - mean (win x 20 t)) / (15 / 1000 * meanAbsDev (win x 20 t))))) ∧
    -- Coppock curve: 10 bars of the sum of the rates of change over 14 and 11 bars of the close
    Runs (noInput fun t => CoppockCurve.defaultNext ⟨d, t⟩) CoppockCurve.default unit N (fun t =>
      (fullWindow (fun t => opt2 (· + ·) (rateOfChange c 14 t) (rateOfChange c 11 t)) 10 t).map fun w => fin (weightedMean w)) ∧
    -- MACD: ema 12 - ema 26 of the close, and its ema 9
    Runs (noInput fun t => Macd.defaultNext ⟨d, t⟩) Macd.default unit N
      (let line := fun t => average .ema 12 0 c t - average .ema 26 0 c t
       fun t => (flo (startAt 25 line) t, flo (startAt 33 (average .ema 9 25 line)) t)) ∧
    -- Williams %R, 14 bars, of the close
    Runs (noInput fun t => WilliamsPercentRank.defaultNext ⟨d, t⟩) WilliamsPercentRank.default unit N (fun t =>
      (opt2 (fun hi lo => if hi = lo then none else some (fin ((c t - hi) / (hi - lo) * 100)))
        (Spec.highest (fun t => some (h t)) 14 t) (Spec.lowest (fun t => some (l t)) 14 t)).join) := by
  have two : (lit 2 : Ex K) = fin 2 := by rw [fin_lit]; norm_num
  refine ⟨C53_awesome_oscillator_exact hb .hl2 .hl2 .sma .sma (a := 5) (b := 34) (by omega) (by omega), ?_, ?_, ?_, ?_,
    C53_coppock_exact hb .close (by omega) (by omega) (by omega),
    C53_macd_exact hb .close .close .ema .ema .ema (a := 12) (b := 26) (g := 9) (by omega) (by omega) (by omega), ?_⟩
  · rw [BollingerBandsPercentB.default, two]
    refine withSrc_runs (src_exact' hb .close) ((C53_bollinger_percent_b_exact (by omega) 2 _).congr fun t _ => ?_)
    simp only [show t + 1 < 20 ↔ t < 19 by omega]
    rfl
  · rw [BollingerBandsWidth.default, two]
    refine withSrc_runs (src_exact' hb .close) ((C53_bollinger_width_exact (by omega) 2 _).congr fun t _ => ?_)
    simp only [show t + 1 < 20 ↔ t < 19 by omega]
    rfl
  · exact withSrc_runs (src_exact' hb .close) (C53_cmo_exact (by omega) _)
  · refine withSrc_runs (src_exact' hb .hlc3) ((C53_cci_exact (by omega) _).congr fun t _ => ?_)
    simp only [show t + 1 < 20 ↔ t < 19 by omega]
    rfl
  · exact withSrc_runs (src_exact' hb .close) ((C53_williams_exact hb (by omega) fun t => some (c t)).congr fun t _ => by
      cases Spec.highest (fun t => some (h t)) 14 t <;> cases Spec.lowest (fun t => some (l t)) 14 t <;> rfl)

/-- **C53.** Price oscillator in its default configuration: `100 (sma 21 - sma 10) / sma 10` of the close (the default "short" average
is the longer one). -/
theorem C53_price_oscillator_default (hb : ExBars d N o h l c v) (hpos : ∀ t, 0 < c t) :
    Runs (noInput fun t => PriceOscillator.defaultNext ⟨d, t⟩) PriceOscillator.default unit N
      (flo (startAt 20 fun t => 100 * (mean (win c 21 t) - mean (win c 10 t)) / mean (win c 10 t))) := by
  obtain ⟨y, h1, h2, h3⟩ := C53_price_oscillator_exact hb .close .sma .sma (a := 21) (b := 10) (by omega) (by omega)
  refine Runs.congr (h1 :) fun t _ => ?_
  by_cases ht : t < 20
  · have := (h2 t).not.mpr (show ¬ 20 ≤ t by omega)
    simp only [flo, startAt, ht, if_true, Option.map_none]
    simpa using this
  · have hp : 0 < average .sma 10 0 c t := average_pos .sma (by omega) (show 0 + 10 ≤ t + 1 by omega) fun k _ _ => hpos k
    rw [(h3 t (show 20 ≤ t by omega)).1 hp.ne']
    simp only [flo, startAt, ht, if_false, Option.map_some]
    rfl

/-- **C53.** The indicators that read the bars directly, in their default configuration. -/
theorem C53_defaults_bars (hb : ExBars d N o h l c v) :
    -- Chaikin money flow, 20 bars
    Runs (noInput fun t => ChaikinMoneyFlow.next ⟨d, t⟩) ChaikinMoneyFlow.default unit N (fun t =>
      if t < 19 then none else if (win v 20 t).sum = 0 then none
      else some (fin ((win (flowVolume h l c v) 20 t).sum / (win v 20 t).sum))) ∧
    -- Chande Kroll stop: 10 bars, 1 average range, then 9 bars
    Runs (noInput fun t => ChandeKrollStop.next ⟨d, t⟩) ChandeKrollStop.default unit N (fun t =>
      { firstHighStop := flo (krollHigh h l c 10 1) t
        firstLowStop := flo (krollLow h l c 10 1) t
        stopLong := flo (Spec.lowest (krollLow h l c 10 1) 9) t
        stopShort := flo (Spec.highest (krollHigh h l c 10 1) 9) t }) ∧
    -- Donchian channels, 20 bars
    Runs (noInput fun t => DonchianChannels.next ⟨d, t⟩) DonchianChannels.default unit N (fun t =>
      { upper := (Spec.highest (fun t => some (h t)) 20 t).map fin
        basis := opt2 (fun a b => fin ((a + b) / 2)) (Spec.highest (fun t => some (h t)) 20 t)
          (Spec.lowest (fun t => some (l t)) 20 t)
        lower := (Spec.lowest (fun t => some (l t)) 20 t).map fin }) ∧
    -- relative vigor index, 10 bars
    Runs (noInput fun t => RelativeVigorIndex.next ⟨d, t⟩) RelativeVigorIndex.default unit N (fun t =>
      (flo (vigor o h l c 10) t, (fullWindow (vigor o h l c 10) 4 t).map fun w =>
        fin ((w.getD 0 0 + 2 * w.getD 1 0 + 2 * w.getD 2 0 + w.getD 3 0) / 6))) ∧
    -- ultimate oscillator, 7, 14 and 28 bars
    Runs (noInput fun t => UltimateOscillator.next ⟨d, t⟩) UltimateOscillator.default unit N (fun t =>
      let B := fun n => (win (buyingPressure l c) n t).sum
      let T := fun n => (win (trueSpread h l c) n t).sum
      if t < 28 ∨ T 7 = 0 ∨ T 14 = 0 ∨ T 28 = 0 then none
      else some (fin (100 * (4 * (B 7 / T 7) + 2 * (B 14 / T 14) + B 28 / T 28) / 7))) ∧
    -- volume oscillator: ema 5 and ema 10 of the volume
    Runs (noInput fun t => VolumeOscillator.next ⟨d, t⟩) VolumeOscillator.default unit N (fun t =>
      if t < 9 ∨ average .ema 10 0 v t = 0 then none
      else some (fin (100 * (average .ema 5 0 v t - average .ema 10 0 v t) / average .ema 10 0 v t))) ∧
    -- vortex, 14 bars
    Runs (noInput fun t => Vortex.next ⟨d, t⟩) Vortex.default unit N (fun t =>
      if t < 14 ∨ (win (barRange h l c) 14 t).sum = 0 then (none, none) else
        (some (fin ((win (fun t => |h t - l (t - 1)|) 14 t).sum / (win (barRange h l c) 14 t).sum)),
         some (fin ((win (fun t => |l t - h (t - 1)|) 14 t).sum / (win (barRange h l c) 14 t).sum)))) := by
  have one : (lit 1 : Ex K) = fin 1 := by rw [fin_lit]; norm_num
  refine ⟨?_, ?_, C53_donchian_exact hb (by omega), C53_relative_vigor_exact hb (by omega), ?_,
    C53_volume_oscillator_exact hb .ema .ema (a := 5) (b := 10) (by omega) (by omega), C53_vortex_exact hb (by omega)⟩
  · exact (C53_cmf_exact hb (by omega)).congr fun t _ => by simp only [show t + 1 < 20 ↔ t < 19 by omega]
  · rw [ChandeKrollStop.default, one]
    exact C53_chande_kroll_exact hb (by omega) (by omega) 1
  · refine (C53_ultimate_oscillator_exact hb (n1 := 7) (n2 := 14) (n3 := 28) (by omega) (by omega) (by omega)).congr fun t _ => ?_
    dsimp only
    by_cases h0 : t < 28
    · rw [if_pos (by tauto), if_pos (by tauto)]
    · simp only [h0, show ¬ t < 7 by omega, show ¬ t < 14 by omega, false_or]

end Pace
