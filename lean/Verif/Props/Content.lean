import Verif.Lemmas.Trace
import Verif.Model.Content

/-!
# content indicators as combinations of ta components (C53)

Each theorem has the form: whatever the components return when they are run on their own, one call per tick, the indicator
returns the stated combination of those values on every tick.  They hold for all floats (any `F64`), all data, all lengths and
all inputs, including missing ones.  The combinations are written with `opt2`/`opt3` (missing if an operand is missing) and
`safeDiv` (in addition missing if the divisor is 0) of `Verif.Spec`.
-/

set_option linter.unusedSectionVars false

namespace Pace
open Spec
variable {α : Type} [F64 α] (d : DataProvider α)

/-! ## Moving-average oscillators -/

section anyMa
variable {A B G : Type} {short : AnyMa α A} {long : AnyMa α B} {signal : AnyMa α G} {sm : Res A} {lm : Res B} {gm : Res G}

/-- **C53, any averages.** MACD: the difference of the two averages, and the signal average run on that difference.  The three averages
are any components: boxed `Incremental`s of the user's own, too. -/
theorem C53_macd_any {xs xl ys yl yg : Nat → Option α} {N : Nat}
    (hs : Runs (fun t => short ⟨d, t⟩) sm xs N ys) (hl : Runs (fun t => long ⟨d, t⟩) lm xl N yl)
    (hg : Runs (fun t => signal ⟨d, t⟩) gm (fun t => opt2 (· - ·) (ys t) (yl t)) N yg) :
    Runs (fun t => MacdOf.next short long signal ⟨d, t⟩) (do return ⟨← sm, ← lm, ← gm⟩) (fun t => (xs t, xl t)) N
      (fun t => (opt2 (· - ·) (ys t) (yl t), yg t)) := by
  obtain ⟨s, hs0, h1⟩ := hs.trace
  obtain ⟨l, hl0, h2⟩ := hl.trace
  obtain ⟨g, hg0, h3⟩ := hg.trace
  subst hs0 hl0 hg0
  refine Runs.of_trace (fun t => ⟨s t, l t, g t⟩) rfl fun t ht => ?_
  have := h3 t ht
  simp only [MacdOf.next, h1 t ht, h2 t ht, Res.ok_bind, Res.pure_eq]
  cases e1 : ys t <;> cases e2 : yl t <;> simp_all [opt2]

/-- **C53, any averages.** Price oscillator: `(short - long) / long * 100` of the two averages of the same source. -/
theorem C53_price_oscillator_any {x ys yl : Nat → Option α} {N : Nat}
    (hs : Runs (fun t => short ⟨d, t⟩) sm x N ys) (hl : Runs (fun t => long ⟨d, t⟩) lm x N yl) :
    Runs (fun t => PriceOscillator.nextOf short long ⟨d, t⟩) (do return ⟨← sm, ← lm⟩) x N
      (fun t => opt2 (fun a b => (a - b) / b * lit 100) (ys t) (yl t)) := by
  obtain ⟨s, hs0, h1⟩ := hs.trace
  obtain ⟨l, hl0, h2⟩ := hl.trace
  subst hs0 hl0
  refine Runs.of_trace (fun t => ⟨s t, l t⟩) rfl fun t ht => ?_
  simp only [PriceOscillator.nextOf, h1 t ht, h2 t ht, Res.ok_bind, Res.pure_eq]
  cases ys t <;> cases yl t <;> rfl

/-- **C53, any averages.** Volume oscillator: the same of the volume column, missing if the long average is 0. -/
theorem C53_volume_oscillator_any {v ys yl : Nat → Option α} {N : Nat} (hv : HasCol d.volume N v)
    (hs : Runs (fun t => short ⟨d, t⟩) sm v N ys) (hl : Runs (fun t => long ⟨d, t⟩) lm v N yl) :
    Runs (noInput fun t => VolumeOscillator.nextOf short long ⟨d, t⟩) (do return ⟨← sm, ← lm⟩) unit N
      (fun t => (safeDiv (opt2 (· - ·) (ys t) (yl t)) (yl t)).map (· * lit 100)) := by
  obtain ⟨s, hs0, h1⟩ := hs.trace
  obtain ⟨l, hl0, h2⟩ := hl.trace
  subst hs0 hl0
  refine Runs.of_trace (fun t => ⟨s t, l t⟩) rfl fun t ht => ?_
  simp only [noInput, VolumeOscillator.nextOf, ctx_barVolume hv ht, h1 t ht, h2 t ht, Res.ok_bind, Res.pure_eq, psDiff_eq,
    psDiv_eq]

/-- **C53, any averages.** Awesome oscillator: the change of `short - long` from one tick to the next. -/
theorem C53_awesome_oscillator_any {xs xl ys yl : Nat → Option α} {N : Nat}
    (hs : Runs (fun t => short ⟨d, t⟩) sm xs N ys) (hl : Runs (fun t => long ⟨d, t⟩) lm xl N yl) :
    Runs (fun t => AwesomeOscillatorOf.next short long ⟨d, t⟩) (do return ⟨← sm, ← lm, none⟩) (fun t => (xs t, xl t)) N
      (fun t => opt2 (· - ·) (opt2 (· - ·) (ys t) (yl t)) (prev (fun t => opt2 (· - ·) (ys t) (yl t)) t)) := by
  obtain ⟨s, hs0, h1⟩ := hs.trace
  obtain ⟨l, hl0, h2⟩ := hl.trace
  subst hs0 hl0
  refine Runs.of_trace (fun t => ⟨s t, l t, prev (fun t => opt2 (· - ·) (ys t) (yl t)) t⟩) rfl fun t ht => ?_
  simp only [AwesomeOscillatorOf.next, h1 t ht, h2 t ht, Res.ok_bind, Res.pure_eq]
  generalize prev (fun t => opt2 (· - ·) (ys t) (yl t)) t = p
  show _ = Except.ok (_, (⟨s (t + 1), l (t + 1), opt2 (· - ·) (ys t) (yl t)⟩ : AwesomeOscillatorOf α A B))
  cases ys t <;> cases yl t <;> cases p <;> rfl

end anyMa

/-- For example a MACD of two linearly weighted averages, with a percent rank as its signal line. -/
example (x : Nat → Option α) (N : Nat) :
    Runs (fun t => MacdOf.next Wma.next Wma.next Prank.next ⟨d, t⟩)
      (do return ⟨← Wma.new 3, ← Wma.new 7, ← Prank.new 5⟩) (fun t => (x t, x t)) N
      (fun t => (opt2 (· - ·) (wma0 3 x t) (wma0 7 x t), prank0 5 (fun t => opt2 (· - ·) (wma0 3 x t) (wma0 7 x t)) t)) :=
  C53_macd_any d (wma_runs d (by norm_num) x N) (wma_runs d (by norm_num) x N) (prank_runs d (by norm_num) _ N)

/-- **C53.** MACD: the difference of the two averages, and the signal average run on that difference. -/
theorem C53_macd {sm lm gm : Ma α} {xs xl ys yl yg : Nat → Option α} {N : Nat}
    (hs : Runs (fun t => Ma.next ⟨d, t⟩) (.ok sm) xs N ys) (hl : Runs (fun t => Ma.next ⟨d, t⟩) (.ok lm) xl N yl)
    (hg : Runs (fun t => Ma.next ⟨d, t⟩) (.ok gm) (fun t => opt2 (· - ·) (ys t) (yl t)) N yg) :
    Runs (fun t => Macd.next ⟨d, t⟩) (.ok ⟨sm, lm, gm⟩) (fun t => (xs t, xl t)) N
      (fun t => (opt2 (· - ·) (ys t) (yl t), yg t)) := C53_macd_any d hs hl hg

/-- **C53.** Price oscillator: `(short - long) / long * 100` of the two averages of the same source. -/
theorem C53_price_oscillator {sm lm : Ma α} {x ys yl : Nat → Option α} {N : Nat}
    (hs : Runs (fun t => Ma.next ⟨d, t⟩) (.ok sm) x N ys) (hl : Runs (fun t => Ma.next ⟨d, t⟩) (.ok lm) x N yl) :
    Runs (fun t => PriceOscillator.next ⟨d, t⟩) (.ok ⟨sm, lm⟩) x N
      (fun t => opt2 (fun a b => (a - b) / b * lit 100) (ys t) (yl t)) := C53_price_oscillator_any d hs hl

/-- **C53.** Volume oscillator: the same of the volume column, missing if the long average is 0. -/
theorem C53_volume_oscillator {sm lm : Ma α} {v ys yl : Nat → Option α} {N : Nat} (hv : HasCol d.volume N v)
    (hs : Runs (fun t => Ma.next ⟨d, t⟩) (.ok sm) v N ys) (hl : Runs (fun t => Ma.next ⟨d, t⟩) (.ok lm) v N yl) :
    Runs (noInput fun t => VolumeOscillator.next ⟨d, t⟩) (.ok ⟨sm, lm⟩) unit N
      (fun t => (safeDiv (opt2 (· - ·) (ys t) (yl t)) (yl t)).map (· * lit 100)) := C53_volume_oscillator_any d hv hs hl

/-- **C53.** Awesome oscillator: the change of `short - long` from one tick to the next. -/
theorem C53_awesome_oscillator {sm lm : Ma α} {xs xl ys yl : Nat → Option α} {N : Nat}
    (hs : Runs (fun t => Ma.next ⟨d, t⟩) (.ok sm) xs N ys) (hl : Runs (fun t => Ma.next ⟨d, t⟩) (.ok lm) xl N yl) :
    Runs (fun t => AwesomeOscillator.next ⟨d, t⟩) (.ok (.new sm lm)) (fun t => (xs t, xl t)) N
      (fun t => opt2 (· - ·) (opt2 (· - ·) (ys t) (yl t)) (prev (fun t => opt2 (· - ·) (ys t) (yl t)) t)) :=
  C53_awesome_oscillator_any d hs hl

/-! ## Channels and ranges -/

/-- **C53.** Balance of power: `(close - open) / (high - low)`, missing if a price is missing or high equals low. -/
theorem C53_balance_of_power {o h l c : Nat → Option α} {N t : Nat} (ho : HasCol d.open_ N o) (hh : HasCol d.high N h)
    (hl : HasCol d.low N l) (hc : HasCol d.close N c) (ht : t < N) :
    BalanceOfPower.next ⟨d, t⟩ = .ok (opt4 (fun o h l c => if F64.feq h l then none else some ((c - o) / (h - l)))
      (o t) (h t) (l t) (c t)).join := by
  simp only [BalanceOfPower.next, ctx_barClose hc ht, ctx_barOpen ho ht, ctx_barHigh hh ht, ctx_barLow hl ht, Res.ok_bind,
    Res.pure_eq]
  cases o t <;> cases h t <;> cases l t <;> cases c t <;> try rfl
  rename_i o h l c
  show (if F64.feq h l then _ else _) = _
  cases hf : F64.feq h l <;> simp [opt4, hf]

/-- **C53.** Donchian channels: the highest high, the lowest low, and their mean. -/
theorem C53_donchian {len : Nat} {h l hi lo : Nat → Option α} {N : Nat} (hh : HasCol d.high N h) (hl : HasCol d.low N l)
    (hhi : Runs (fun t => Highest.next ⟨d, t⟩) (Highest.new len) h N hi)
    (hlo : Runs (fun t => Lowest.next ⟨d, t⟩) (Lowest.new len) l N lo) :
    Runs (noInput fun t => DonchianChannels.next ⟨d, t⟩) (DonchianChannels.new len) unit N
      (fun t => ⟨hi t, opt2 (fun a b => (a + b) / lit 2) (hi t) (lo t), lo t⟩) := by
  obtain ⟨s, hs0, hs⟩ := hhi.trace
  obtain ⟨q, hq0, hq⟩ := hlo.trace
  refine Runs.of_trace (fun t => ⟨s t, q t⟩) (by simp [DonchianChannels.new, hs0, hq0]) fun t ht => ?_
  simp only [noInput, DonchianChannels.next, ctx_barHigh hh ht, ctx_barLow hl ht, hs t ht, hq t ht, Res.ok_bind, Res.pure_eq]
  cases hi t <;> cases lo t <;> rfl

/-- **C53.** Williams %R: `(src - highest high) / (highest high - lowest low) * 100`, missing if that range is 0. -/
theorem C53_williams {len : Nat} {x h l hi lo : Nat → Option α} {N : Nat} (hh : HasCol d.high N h) (hl : HasCol d.low N l)
    (hhi : Runs (fun t => Highest.next ⟨d, t⟩) (Highest.new len) h N hi)
    (hlo : Runs (fun t => Lowest.next ⟨d, t⟩) (Lowest.new len) l N lo) :
    Runs (fun t => WilliamsPercentRank.next ⟨d, t⟩) (WilliamsPercentRank.new len) x N
      (fun t => (safeDiv (opt2 (· - ·) (x t) (hi t)) (opt2 (· - ·) (hi t) (lo t))).map (· * lit 100)) := by
  obtain ⟨s, hs0, hs⟩ := hhi.trace
  obtain ⟨q, hq0, hq⟩ := hlo.trace
  refine Runs.of_trace (fun t => ⟨s t, q t⟩) (by simp [WilliamsPercentRank.new, hs0, hq0]) fun t ht => ?_
  simp only [WilliamsPercentRank.next, ctx_barHigh hh ht, ctx_barLow hl ht, hs t ht, hq t ht, Res.ok_bind, Res.pure_eq,
    psDiff_eq, psDiv_eq]

/-- **C53.** Bollinger bands %B: with `u = sma + mult * stdev` and `w = sma - mult * stdev`, `(src - w) / (u - w)`; missing if
the source, the average or the deviation is missing or the bands coincide. -/
theorem C53_bollinger_percent_b {len : Nat} {mult : α} {x m sd : Nat → Option α} {N : Nat}
    (hm : Runs (fun t => Sma.next ⟨d, t⟩) (Sma.new len) x N m)
    (hsd : Runs (fun t => Stdev.next ⟨d, t⟩) (Stdev.new len true) x N sd) :
    Runs (fun t => BollingerBandsPercentB.next ⟨d, t⟩) (BollingerBands.new len mult) x N
      (fun t => (opt3 (fun x m sd => if F64.feq ((m + sd * mult) - (m - sd * mult)) (lit 0) then none
        else some ((x - (m - sd * mult)) / ((m + sd * mult) - (m - sd * mult)))) (x t) (m t) (sd t)).join) := by
  obtain ⟨s, hs0, hs⟩ := hm.trace
  obtain ⟨q, hq0, hq⟩ := hsd.trace
  refine Runs.of_trace (fun t => ⟨mult, s t, q t⟩) (by simp [BollingerBands.new, hs0, hq0]) fun t ht => ?_
  simp only [BollingerBandsPercentB.next, hs t ht, hq t ht, Res.ok_bind, Res.pure_eq]
  cases x t <;> cases m t <;> cases sd t <;> try rfl
  simp only [opt3, Option.join_some]
  split <;> simp_all

/-- **C53.** Bollinger bands width: `(u - w) / sma` of the same bands; missing if the average is 0. -/
theorem C53_bollinger_width {len : Nat} {mult : α} {x m sd : Nat → Option α} {N : Nat}
    (hm : Runs (fun t => Sma.next ⟨d, t⟩) (Sma.new len) x N m)
    (hsd : Runs (fun t => Stdev.next ⟨d, t⟩) (Stdev.new len true) x N sd) :
    Runs (fun t => BollingerBandsWidth.next ⟨d, t⟩) (BollingerBands.new len mult) x N
      (fun t => (opt3 (fun _ m sd => if F64.feq m (lit 0) then none
        else some (((m + sd * mult) - (m - sd * mult)) / m)) (x t) (m t) (sd t)).join) := by
  obtain ⟨s, hs0, hs⟩ := hm.trace
  obtain ⟨q, hq0, hq⟩ := hsd.trace
  refine Runs.of_trace (fun t => ⟨mult, s t, q t⟩) (by simp [BollingerBands.new, hs0, hq0]) fun t ht => ?_
  simp only [BollingerBandsWidth.next, hs t ht, hq t ht, Res.ok_bind, Res.pure_eq]
  cases x t <;> cases m t <;> cases sd t <;> try rfl
  simp only [opt3, Option.join_some]
  split <;> simp_all

/-- **C53.** Commodity channel index: `(src - sma) / (0.015 * mean deviation)`. -/
theorem C53_cci {len : Nat} {x m dv : Nat → Option α} {N : Nat}
    (hm : Runs (fun t => Sma.next ⟨d, t⟩) (Sma.new len) x N m)
    (hdv : Runs (fun t => Dev.next ⟨d, t⟩) (Dev.new len) x N dv) :
    Runs (fun t => CommodityChannelIndex.next ⟨d, t⟩) (CommodityChannelIndex.new len) x N
      (fun t => safeDiv (opt2 (· - ·) (x t) (m t)) ((dv t).map (· * lit (15 / 1000)))) := by
  obtain ⟨s, hs0, hs⟩ := hm.trace
  obtain ⟨q, hq0, hq⟩ := hdv.trace
  refine Runs.of_trace (fun t => ⟨s t, q t⟩) (by simp [CommodityChannelIndex.new, hs0, hq0]) fun t ht => ?_
  simp only [CommodityChannelIndex.next, hs t ht, hq t ht, Res.ok_bind, Res.pure_eq, psDiff_eq, psDiv_eq]

/-- **C53.** Coppock curve: the weighted average of the sum of two rates of change of the source. -/
theorem C53_coppock {len a b : Nat} {x ra rb y : Nat → Option α} {N : Nat}
    (ha : Runs (fun _ => Roc.next) (Roc.new a) x N ra) (hb : Runs (fun _ => Roc.next) (Roc.new b) x N rb)
    (hy : Runs (fun t => Wma.next ⟨d, t⟩) (Wma.new len) (fun t => opt2 (· + ·) (ra t) (rb t)) N y) :
    Runs (fun t => CoppockCurve.next ⟨d, t⟩) (CoppockCurve.new len a b) x N y := by
  obtain ⟨s, hs0, hs⟩ := ha.trace
  obtain ⟨q, hq0, hq⟩ := hb.trace
  obtain ⟨w, hw0, hw⟩ := hy.trace
  refine Runs.of_trace (fun t => ⟨w t, s t, q t⟩) (by simp [CoppockCurve.new, hs0, hq0, hw0]) fun t ht => ?_
  have := hw t ht
  simp only [CoppockCurve.next, hs t ht, hq t ht, Res.ok_bind, Res.pure_eq]
  cases h1 : ra t <;> cases h2 : rb t <;> simp_all [opt2]

/-- **C53.** Chande momentum oscillator: with the changes of the source split into gains `max(0, change)` and losses
`|min(0, change)|` and summed over the window, `100 (G - L) / (G + L)`, missing if `G = -L`. -/
theorem C53_cmo {len : Nat} (hlen : 2 ≤ len) {x g l : Nat → Option α} {N : Nat}
    (hg : Runs (fun t => Sum.next ⟨d, t⟩) (Sum.new len)
      (fun t => opt2 (fun a p => F64.fmax (lit 0) (a - p)) (x t) (prev x t)) N g)
    (hl : Runs (fun t => Sum.next ⟨d, t⟩) (Sum.new len)
      (fun t => opt2 (fun a p => F64.abs (F64.fmin (lit 0) (a - p))) (x t) (prev x t)) N l) :
    Runs (fun t => ChandeMomentumOscillator.next ⟨d, t⟩) (ChandeMomentumOscillator.new len) x N
      (fun t => (opt2 (fun g l => if F64.feq g (-l) then none else some (lit 100 * (g - l) / (g + l))) (g t) (l t)).join) := by
  obtain ⟨s, hs0, hs⟩ := hg.trace
  obtain ⟨q, hq0, hq⟩ := hl.trace
  refine Runs.of_trace (fun t => ⟨prev x t, s t, q t⟩)
    (by simp [ChandeMomentumOscillator.new, hs0, Except.ok.inj (hs0.symm.trans hq0), show 1 < len by omega, prev]) fun t ht => ?_
  have h1 := hs t ht
  have h2 := hq t ht
  have e1 : psMax (some (lit 0)) (psDiff (x t) (prev x t)) = opt2 (fun a p => F64.fmax (lit 0) (a - p)) (x t) (prev x t) := by
    cases x t <;> cases prev x t <;> rfl
  have e2 : psAbs (psMin (some (lit 0)) (psDiff (x t) (prev x t)))
      = opt2 (fun a p => F64.abs (F64.fmin (lit 0) (a - p))) (x t) (prev x t) := by
    cases x t <;> cases prev x t <;> rfl
  simp only [ChandeMomentumOscillator.next, e1, e2, h1, h2, Res.ok_bind, Res.pure_eq]
  cases g t <;> cases l t <;> rfl

/-- **C53.** Chaikin money flow: the sum of `((2c - l - h) / (h - l)) * v` (0 if the bar has no range) over the sum of the
volume. -/
theorem C53_cmf {len : Nat} {h l c v a b : Nat → Option α} {N : Nat} (hh : HasCol d.high N h)
    (hl : HasCol d.low N l) (hc : HasCol d.close N c) (hv : HasCol d.volume N v)
    (ha : Runs (fun t => Sum.next ⟨d, t⟩) (Sum.new len)
      (fun t => opt4 (fun h l c v => if F64.feq c h && F64.feq c l || F64.feq h l then lit 0
        else (lit 2 * c - l - h) / (h - l) * v) (h t) (l t) (c t) (v t)) N a)
    (hb : Runs (fun t => Sum.next ⟨d, t⟩) (Sum.new len) v N b) :
    Runs (noInput fun t => ChaikinMoneyFlow.next ⟨d, t⟩) (ChaikinMoneyFlow.new len) unit N (fun t => safeDiv (a t) (b t)) := by
  obtain ⟨s, hs0, hs⟩ := ha.trace
  obtain ⟨q, hq0, hq⟩ := hb.trace
  refine Runs.of_trace (fun t => ⟨q t, s t⟩) (by simp [ChaikinMoneyFlow.new, hs0, Except.ok.inj (hs0.symm.trans hq0)]) fun t ht => ?_
  have h1 := hs t ht
  have e : ChaikinMoneyFlow.ad (c t) (h t) (l t) (v t) = opt4 (fun h l c v => if F64.feq c h && F64.feq c l || F64.feq h l
      then lit 0 else (lit 2 * c - l - h) / (h - l) * v) (h t) (l t) (c t) (v t) := by
    cases c t <;> cases h t <;> cases l t <;> cases v t <;> try rfl
    rename_i c h l v
    show (if F64.feq c h && F64.feq c l || F64.feq h l then _ else _) = _
    simp only [opt4]
    split <;> rfl
  simp only [noInput, ChaikinMoneyFlow.next, ctx_barHigh hh ht, ctx_barLow hl ht, ctx_barClose hc ht, ctx_barVolume hv ht,
    e, h1, hq t ht, Res.ok_bind, Res.pure_eq, psDiv_eq]

/-- **C53.** Chande Kroll stop: `high stop = highest high - x * atr`, `low stop = lowest low + x * atr`, the short stop the
highest of the high stops, the long stop the lowest of the low stops. -/
theorem C53_chande_kroll {p q : Nat} {f : α} {h l hi lo a ss sl : Nat → Option α} {N : Nat} (hh : HasCol d.high N h)
    (hl : HasCol d.low N l) (ha : Runs (noInput fun t => Atr.next ⟨d, t⟩) (Atr.new p) unit N a)
    (hhi : Runs (fun t => Highest.next ⟨d, t⟩) (Highest.new p) h N hi)
    (hlo : Runs (fun t => Lowest.next ⟨d, t⟩) (Lowest.new p) l N lo)
    (hss : Runs (fun t => Highest.next ⟨d, t⟩) (Highest.new q) (fun t => opt3 (fun h _ a => h - f * a) (hi t) (lo t) (a t)) N ss)
    (hsl : Runs (fun t => Lowest.next ⟨d, t⟩) (Lowest.new q) (fun t => opt3 (fun _ l a => l + f * a) (hi t) (lo t) (a t)) N sl) :
    Runs (noInput fun t => ChandeKrollStop.next ⟨d, t⟩) (ChandeKrollStop.new p q f) unit N
      (fun t => { firstHighStop := opt3 (fun h _ a => h - f * a) (hi t) (lo t) (a t)
                  firstLowStop := opt3 (fun _ l a => l + f * a) (hi t) (lo t) (a t)
                  stopLong := sl t, stopShort := ss t }) := by
  obtain ⟨s1, h10, h1⟩ := ha.trace
  obtain ⟨s2, h20, h2⟩ := hhi.trace
  obtain ⟨s3, h30, h3⟩ := hlo.trace
  obtain ⟨s4, h40, h4⟩ := hss.trace
  obtain ⟨s5, h50, h5⟩ := hsl.trace
  refine Runs.of_trace (fun t => ⟨f, s1 t, s2 t, s3 t, s4 t, s5 t⟩)
    (by simp [ChandeKrollStop.new, h10, h20, h30, h40, h50]) fun t ht => ?_
  have g1 := h1 t ht
  have g4 := h4 t ht
  have g5 := h5 t ht
  simp only [noInput] at g1
  simp only [noInput, ChandeKrollStop.next, ctx_barHigh hh ht, ctx_barLow hl ht, g1, h2 t ht, h3 t ht, Res.ok_bind, Res.pure_eq]
  cases e1 : hi t <;> cases e2 : lo t <;> cases e3 : a t <;> simp_all [opt3]

/-- **C53.** Choppiness index: `100 log10(sum of true ranges / (highest high - lowest low)) / log10(length)`, missing if that
range is 0. -/
theorem C53_choppiness {len : Nat} {h l hi lo a sa : Nat → Option α} {N : Nat} (hh : HasCol d.high N h)
    (hl : HasCol d.low N l) (ha : Runs (noInput fun t => Atr.next ⟨d, t⟩) (Atr.new 1) unit N a)
    (hsa : Runs (fun t => Sum.next ⟨d, t⟩) (Sum.new len) a N sa)
    (hhi : Runs (fun t => Highest.next ⟨d, t⟩) (Highest.new len) h N hi)
    (hlo : Runs (fun t => Lowest.next ⟨d, t⟩) (Lowest.new len) l N lo) :
    Runs (noInput fun t => ChoppinessIndex.next ⟨d, t⟩) (ChoppinessIndex.new len) unit N
      (fun t => (opt3 (fun s h l => if F64.feq (h - l) (lit 0) then none
        else some (lit 100 * F64.log10 (s / (h - l)) / F64.log10 (lit (len : ℚ)))) (sa t) (hi t) (lo t)).join) := by
  obtain ⟨s1, h10, h1⟩ := ha.trace
  obtain ⟨s2, h20, h2⟩ := hsa.trace
  obtain ⟨s3, h30, h3⟩ := hhi.trace
  obtain ⟨s4, h40, h4⟩ := hlo.trace
  refine Runs.of_trace (fun t => ⟨s1 t, s2 t, F64.log10 (lit (len : ℚ)), s3 t, s4 t⟩)
    (by simp [ChoppinessIndex.new, h10, h20, h30, h40]) fun t ht => ?_
  have g1 := h1 t ht
  simp only [noInput] at g1
  simp only [noInput, ChoppinessIndex.next, ctx_barHigh hh ht, ctx_barLow hl ht, g1, h2 t ht, h3 t ht, h4 t ht, Res.ok_bind,
    Res.pure_eq]
  cases sa t <;> cases hi t <;> cases lo t <;> rfl

/-- **C53.** Vortex: the sums of `|high - previous low|` and `|low - previous high|`, each over the sum of the true ranges. -/
theorem C53_vortex {len : Nat} {h l p m a sa : Nat → Option α} {N : Nat} (hh : HasCol d.high N h)
    (hl : HasCol d.low N l) (ha : Runs (noInput fun t => Atr.next ⟨d, t⟩) (Atr.new 1) unit N a)
    (hsa : Runs (fun t => Sum.next ⟨d, t⟩) (Sum.new len) a N sa)
    (hp : Runs (fun t => Sum.next ⟨d, t⟩) (Sum.new len) (fun t => opt2 (fun h p => F64.abs (h - p)) (h t) (prev l t)) N p)
    (hm : Runs (fun t => Sum.next ⟨d, t⟩) (Sum.new len) (fun t => opt2 (fun l p => F64.abs (l - p)) (l t) (prev h t)) N m) :
    Runs (noInput fun t => Vortex.next ⟨d, t⟩) (Vortex.new len) unit N
      (fun t => (safeDiv (p t) (sa t), safeDiv (m t) (sa t))) := by
  obtain ⟨s1, h10, h1⟩ := ha.trace
  obtain ⟨s2, h20, h2⟩ := hsa.trace
  obtain ⟨s3, h30, h3⟩ := hp.trace
  obtain ⟨s4, h40, h4⟩ := hm.trace
  refine Runs.of_trace (fun t => ⟨s3 t, s4 t, s2 t, s1 t⟩) (by
    simp [Vortex.new, h10, h20, Except.ok.inj (h30.symm.trans h20), Except.ok.inj (h40.symm.trans h20)]) fun t ht => ?_
  have g1 := h1 t ht
  simp only [noInput] at g1
  have g3 := h3 t ht
  have g4 := h4 t ht
  have e1 : psAbs (psDiff (h t) (prev l t)) = opt2 (fun h p => F64.abs (h - p)) (h t) (prev l t) := by
    cases h t <;> cases prev l t <;> rfl
  have e2 : psAbs (psDiff (l t) (prev h t)) = opt2 (fun h p => F64.abs (h - p)) (l t) (prev h t) := by
    cases l t <;> cases prev h t <;> rfl
  simp only [noInput, Vortex.next, ctx_barHigh hh ht, ctx_barLow hl ht, ctx_high hh 1 ht, ctx_low hl 1 ht, ago_one, e1, e2, g1,
    g3, g4, h2 t ht, Res.ok_bind, Res.pure_eq, psDiv_eq]

/-- **C53.** Ultimate oscillator: with buying pressure `bp = close - min(low, previous close)` and true range
`tr = max(high, previous close) - min(low, previous close)`, `100 (4 A + 2 B + C) / 7` where `A`, `B`, `C` are the quotients of
the window sums of `bp` and `tr` for the short, middle and long length. -/
theorem C53_ultimate_oscillator {n1 n2 n3 : Nat} {h l c bp tr b1 t1 b2 t2 b3 t3 : Nat → Option α} {N : Nat}
    (hh : HasCol d.high N h) (hl : HasCol d.low N l) (hc : HasCol d.close N c)
    (hbp : ∀ t, t < N → bp t = opt3 (fun c l p => c - F64.fmin l p) (c t) (l t) (prev c t))
    (htr : ∀ t, t < N → tr t = opt3 (fun h l p => F64.fmax h p - F64.fmin l p) (h t) (l t) (prev c t))
    (hb1 : Runs (fun t => Sum.next ⟨d, t⟩) (Sum.new n1) bp N b1) (ht1 : Runs (fun t => Sum.next ⟨d, t⟩) (Sum.new n1) tr N t1)
    (hb2 : Runs (fun t => Sum.next ⟨d, t⟩) (Sum.new n2) bp N b2) (ht2 : Runs (fun t => Sum.next ⟨d, t⟩) (Sum.new n2) tr N t2)
    (hb3 : Runs (fun t => Sum.next ⟨d, t⟩) (Sum.new n3) bp N b3) (ht3 : Runs (fun t => Sum.next ⟨d, t⟩) (Sum.new n3) tr N t3) :
    Runs (noInput fun t => UltimateOscillator.next ⟨d, t⟩) (UltimateOscillator.new n1 n2 n3) unit N
      (fun t => opt3 (fun a b c => lit 100 * (lit 4 * a + lit 2 * b + c) / lit 7)
        (safeDiv (b1 t) (t1 t)) (safeDiv (b2 t) (t2 t)) (safeDiv (b3 t) (t3 t))) := by
  obtain ⟨s1, h10, h1⟩ := hb1.trace
  obtain ⟨s2, h20, h2⟩ := ht1.trace
  obtain ⟨s3, h30, h3⟩ := hb2.trace
  obtain ⟨s4, h40, h4⟩ := ht2.trace
  obtain ⟨s5, h50, h5⟩ := hb3.trace
  obtain ⟨s6, h60, h6⟩ := ht3.trace
  refine Runs.of_trace (fun t => ⟨s1 t, s2 t, s3 t, s4 t, s5 t, s6 t⟩)
    (by simp [UltimateOscillator.new, h10, h30, h50, Except.ok.inj (h20.symm.trans h10), Except.ok.inj (h40.symm.trans h30),
      Except.ok.inj (h60.symm.trans h50)]) fun t ht => ?_
  have hp : ∀ k : Option α → Res (Option α × UltimateOscillator α),
      (if 0 < t then (do let p ← Ctx.close ⟨d, t⟩ 1; k p) else k none) = k (prev c t) := by
    intro k
    rw [ctx_close hc 1 ht, ago_one]
    cases t <;> simp [prev]
  have e1 : psDiff (c t) (psMin (l t) (prev c t)) = bp t := by
    rw [hbp t ht]; cases c t <;> cases l t <;> cases prev c t <;> rfl
  have e2 : psDiff (psMax (h t) (prev c t)) (psMin (l t) (prev c t)) = tr t := by
    rw [htr t ht]; cases h t <;> cases l t <;> cases prev c t <;> rfl
  simp only [noInput, UltimateOscillator.next, ctx_barHigh hh ht, ctx_barLow hl ht, ctx_barClose hc ht, Res.ok_bind,
    Res.pure_eq]
  rw [hp]
  simp only [e1, e2, h1 t ht, h2 t ht, h3 t ht, h4 t ht, h5 t ht, h6 t ht, Res.ok_bind, psDiv_eq]
  cases safeDiv (b1 t) (t1 t) <;> cases safeDiv (b2 t) (t2 t) <;> cases safeDiv (b3 t) (t3 t) <;> rfl

/-! ## RSI-like and directional indicators -/

/-- **C53.** Stochastic RSI: the RSI put through the stochastic against its own extremes, smoothed twice. -/
theorem C53_stoch_rsi {n m k q : Nat} {x r s y z : Nat → Option α} {N : Nat}
    (hr : Runs (fun t => Rsi.next ⟨d, t⟩) (Rsi.new n) x N r)
    (hs : Runs (fun t => Stoch.next ⟨d, t⟩) (Stoch.new m) (fun t => (r t, r t, r t)) N s)
    (hk : Runs (fun t => Sma.next ⟨d, t⟩) (Sma.new k) s N y) (hd : Runs (fun t => Sma.next ⟨d, t⟩) (Sma.new q) y N z) :
    Runs (fun t => StochRsi.next ⟨d, t⟩) (StochRsi.new n m k q) x N (fun t => (y t, z t)) := by
  obtain ⟨s1, h10, h1⟩ := hr.trace
  obtain ⟨s2, h20, h2⟩ := hs.trace
  obtain ⟨s3, h30, h3⟩ := hk.trace
  obtain ⟨s4, h40, h4⟩ := hd.trace
  refine Runs.of_trace (fun t => ⟨s1 t, s2 t, s3 t, s4 t⟩) (by simp [StochRsi.new, h10, h20, h30, h40]) fun t ht => ?_
  simp only [StochRsi.next, h1 t ht, h2 t ht, h3 t ht, h4 t ht, Res.ok_bind, Res.pure_eq]

/-- **C53.** Relative vigor index: the windowed sums of the symmetric weighted averages of `close - open` and `high - low`,
divided; and the symmetric weighted average of that as signal. -/
theorem C53_relative_vigor {len : Nat} {o h l c a b sa sb sig : Nat → Option α} {N : Nat} (ho : HasCol d.open_ N o)
    (hh : HasCol d.high N h) (hl : HasCol d.low N l) (hc : HasCol d.close N c)
    (ha : Runs (fun t => Swma.next ⟨d, t⟩) Swma.new (fun t => opt2 (· - ·) (c t) (o t)) N a)
    (hb : Runs (fun t => Swma.next ⟨d, t⟩) Swma.new (fun t => opt2 (· - ·) (h t) (l t)) N b)
    (hsa : Runs (fun t => Sum.next ⟨d, t⟩) (Sum.new len) a N sa) (hsb : Runs (fun t => Sum.next ⟨d, t⟩) (Sum.new len) b N sb)
    (hsig : Runs (fun t => Swma.next ⟨d, t⟩) Swma.new (fun t => safeDiv (sa t) (sb t)) N sig) :
    Runs (noInput fun t => RelativeVigorIndex.next ⟨d, t⟩) (RelativeVigorIndex.new len) unit N
      (fun t => (safeDiv (sa t) (sb t), sig t)) := by
  obtain ⟨s1, h10, h1⟩ := ha.trace
  obtain ⟨s2, h20, h2⟩ := hb.trace
  obtain ⟨s3, h30, h3⟩ := hsa.trace
  obtain ⟨s4, h40, h4⟩ := hsb.trace
  obtain ⟨s5, h50, h5⟩ := hsig.trace
  have e0 : s1 0 = s2 0 := by rw [h10] at h20; exact Except.ok.inj h20
  have e0' : s1 0 = s5 0 := by rw [h10] at h50; exact Except.ok.inj h50
  refine Runs.of_trace (fun t => ⟨s1 t, s2 t, s3 t, s4 t, s5 t⟩)
    (by simp [RelativeVigorIndex.new, h10, h30, Except.ok.inj (h40.symm.trans h30), ← e0, ← e0']) fun t ht => ?_
  have e1 : (match c t, o t with | some a, some b => some (a - b) | _, _ => none) = opt2 (· - ·) (c t) (o t) := by
    cases c t <;> cases o t <;> rfl
  have e2 : (match h t, l t with | some a, some b => some (a - b) | _, _ => none) = opt2 (· - ·) (h t) (l t) := by
    cases h t <;> cases l t <;> rfl
  have g1 := h1 t ht
  have g2 := h2 t ht
  have g5 := h5 t ht
  rw [← e1] at g1
  rw [← e2] at g2
  rw [← psDiv_eq] at g5 ⊢
  simp only [noInput, RelativeVigorIndex.next, ctx_barOpen ho ht, ctx_barHigh hh ht, ctx_barLow hl ht, ctx_barClose hc ht,
    Res.ok_bind, Res.pure_eq]
  erw [g1]
  simp only [Res.ok_bind]
  erw [g2]
  simp only [Res.ok_bind, h3 t ht, h4 t ht, g5]

/-- **C53.** Relative volatility index: with the standard deviation counted as upward when the source rose and downward when it
did not, `U / (U + D) * 100` of the exponential averages; missing if `U = -D`. -/
theorem C53_relative_volatility {n m : Nat} {x sd u w : Nat → Option α} {N : Nat}
    (hsd : Runs (fun t => Stdev.next ⟨d, t⟩) (Stdev.new n true) x N sd)
    (hu : Runs (fun t => Ema.next ⟨d, t⟩) (Ema.new m)
      (fun t => (opt2 (fun a p => if F64.le (a - p) (lit 0) then some (lit 0) else sd t) (x t) (prev x t)).join) N u)
    (hw : Runs (fun t => Ema.next ⟨d, t⟩) (Ema.new m)
      (fun t => (opt2 (fun a p => if fgt (a - p) (lit 0) then some (lit 0) else sd t) (x t) (prev x t)).join) N w) :
    Runs (fun t => RelativeVolatilityIndex.next ⟨d, t⟩) (RelativeVolatilityIndex.new n m) x N
      (fun t => (opt2 (fun u w => if F64.feq u (-w) then none else some (u / (u + w) * lit 100)) (u t) (w t)).join) := by
  obtain ⟨s1, h10, h1⟩ := hsd.trace
  obtain ⟨s2, h20, h2⟩ := hu.trace
  obtain ⟨s3, h30, h3⟩ := hw.trace
  have e0 : s2 0 = s3 0 := by rw [h20] at h30; exact Except.ok.inj h30
  refine Runs.of_trace (fun t => ⟨s1 t, s2 t, s3 t, prev x t⟩)
    (by simp [RelativeVolatilityIndex.new, h10, h20, ← e0, prev]) fun t ht => ?_
  have g2 := h2 t ht
  have g3 := h3 t ht
  simp only [RelativeVolatilityIndex.next, h1 t ht, Res.ok_bind, Res.pure_eq]
  cases hx : x t <;> cases hp : prev x t <;> simp only [hx, hp, opt2, Option.join_none, Option.join_some] at g2 g3 ⊢ <;>
    simp only [g2, g3, Res.ok_bind, prev, hx] <;> cases u t <;> cases w t <;> rfl

/-- **C53.** Directional movement: `+DI = 100 * RMA(+DM) / RMA(TR)` and `-DI` likewise, each repeating its last value while
the quotient is missing; `ADX = 100 * RMA(|+DI - -DI| / (+DI + -DI))` with a divisor 0 if `+DI = -(-DI)`.  `+DM` is the rise of
the high if that exceeds the fall of the low and 0, otherwise 0; `-DM` the other way round. -/
theorem C53_dmi {len sig : Nat} {h l tr up down rt rp rm p m a : Nat → Option α} {N : Nat} (hh : HasCol d.high N h)
    (hl : HasCol d.low N l) (htr : ∀ t, t < N → Tr.next ⟨d, t⟩ false = .ok (tr t))
    (hup : ∀ t, t < N → up t = opt2 (· - ·) (h t) (prev h t)) (hdown : ∀ t, t < N → down t = opt2 (· - ·) (prev l t) (l t))
    (hrt : Runs (fun t => Rma.next ⟨d, t⟩) (Rma.new len) tr N rt)
    (hrp : Runs (fun t => Rma.next ⟨d, t⟩) (Rma.new len)
      (fun t => opt2 (fun u w => if fgt u w && fgt u (lit 0) then u else lit 0) (up t) (down t)) N rp)
    (hrm : Runs (fun t => Rma.next ⟨d, t⟩) (Rma.new len)
      (fun t => opt2 (fun u w => if fgt w u && fgt w (lit 0) then w else lit 0) (up t) (down t)) N rm)
    (hp : Runs (total FixNan.next) (.ok FixNan.new) (fun t => (safeDiv (rp t) (rt t)).map (· * lit 100)) N p)
    (hm : Runs (total FixNan.next) (.ok FixNan.new) (fun t => (safeDiv (rm t) (rt t)).map (· * lit 100)) N m)
    (ha : Runs (fun t => Rma.next ⟨d, t⟩) (Rma.new sig)
      (fun t => opt2 (fun p m => F64.abs (p - m) / (if F64.feq p (-m) then lit 0 else p + m)) (p t) (m t)) N a) :
    Runs (noInput fun t => Dmi.next ⟨d, t⟩) (Dmi.new len sig) unit N
      (fun t => { plus := p t, minus := m t, adx := (a t).map (· * lit 100) }) := by
  obtain ⟨s1, h10, h1⟩ := hrt.trace
  obtain ⟨s2, h20, h2⟩ := hrp.trace
  obtain ⟨s3, h30, h3⟩ := hrm.trace
  obtain ⟨s4, h40, h4⟩ := hp.trace
  obtain ⟨s5, h50, h5⟩ := hm.trace
  obtain ⟨s6, h60, h6⟩ := ha.trace
  refine Runs.of_trace (fun t => ⟨s1 t, s2 t, s3 t, s4 t, s5 t, s6 t⟩)
    (by simp [Dmi.new, h10, h60, Except.ok.inj (h20.symm.trans h10), Except.ok.inj (h30.symm.trans h10),
      ← Except.ok.inj h40, ← Except.ok.inj h50]) fun t ht => ?_
  have e1 : Dmi.dm (up t) (down t)
      = opt2 (fun u w => if fgt u w && fgt u (lit 0) then u else lit 0) (up t) (down t) := by
    cases up t <;> cases down t <;> try rfl
    simp only [Dmi.dm, opt2]; split <;> rfl
  have e2 : Dmi.dm (down t) (up t)
      = opt2 (fun u w => if fgt w u && fgt w (lit 0) then w else lit 0) (up t) (down t) := by
    cases up t <;> cases down t <;> try rfl
    simp only [Dmi.dm, opt2]; split <;> rfl
  have e3 : Dmi.dx (p t) (m t)
      = opt2 (fun p m => F64.abs (p - m) / (if F64.feq p (-m) then lit 0 else p + m)) (p t) (m t) := by
    cases p t <;> cases m t <;> rfl
  have g4 : FixNan.next (s4 t) ((safeDiv (rp t) (rt t)).map (· * lit 100)) = (p t, s4 (t + 1)) := Except.ok.inj (h4 t ht)
  have g5 : FixNan.next (s5 t) ((safeDiv (rm t) (rt t)).map (· * lit 100)) = (m t, s5 (t + 1)) := Except.ok.inj (h5 t ht)
  simp only [noInput, Dmi.next, ctx_barHigh hh ht, ctx_barLow hl ht, ctx_high hh 1 ht, ctx_low hl 1 ht, ago_one, htr t ht,
    psDiff_eq, ← hup t ht, ← hdown t ht, e1, e2, h1 t ht, h2 t ht, h3 t ht, psDiv_eq, g4, g5, e3, h6 t ht, Res.ok_bind,
    Res.pure_eq]

/-- Connors RSI, with the up/down streak `ud` as the code updates it (`C53_connors` below says what it is). -/
theorem connors_runs {n m k : Nat} {x ud r ur rc pr : Nat → Option α} {N : Nat}
    (hud : ∀ t, t < N → ud t = ConnorsRsi.computeUpDown (x t) (prev x t) (prev ud t))
    (hr : Runs (fun t => Rsi.next ⟨d, t⟩) (Rsi.new n) x N r) (hur : Runs (fun t => Rsi.next ⟨d, t⟩) (Rsi.new m) ud N ur)
    (hrc : Runs (fun _ => Roc.next) (Roc.new 1) x N rc) (hpr : Runs (fun t => Prank.next ⟨d, t⟩) (Prank.new k) rc N pr) :
    Runs (fun t => ConnorsRsi.next ⟨d, t⟩) (ConnorsRsi.new n m k) x N
      (fun t => opt3 (fun r u p => (r + u + p) / lit 3) (r t) (ur t) (pr t)) := by
  obtain ⟨s1, h10, h1⟩ := hr.trace
  obtain ⟨s2, h20, h2⟩ := hur.trace
  obtain ⟨s3, h30, h3⟩ := hrc.trace
  obtain ⟨s4, h40, h4⟩ := hpr.trace
  refine Runs.of_trace (fun t => ⟨prev x t, prev ud t, s1 t, s2 t, s4 t, s3 t⟩)
    (by simp [ConnorsRsi.new, h10, h20, h30, h40, prev]) fun t ht => ?_
  simp only [ConnorsRsi.next, h1 t ht, ← hud t ht, h2 t ht, h3 t ht, h4 t ht, Res.ok_bind, Res.pure_eq]
  show _ = Except.ok (_, (⟨x t, ud t, s1 (t + 1), s2 (t + 1), s4 (t + 1), s3 (t + 1)⟩ : ConnorsRsi α))
  cases r t <;> cases ur t <;> cases pr t <;> rfl

/-- **C53.** Aroon: `(bars + length) / length * 100` of the (non-positive) offsets of the highest high and the lowest low. -/
theorem C53_aroon {len : Nat} (hlen : 1 ≤ len) {h l : Nat → Option α} {hb lb : Nat → Option Int} {N : Nat}
    (hh : HasCol d.high N h) (hl : HasCol d.low N l)
    (hhb : Runs (noInput fun t => HighestBars.next ⟨d, t⟩) (HighestBars.new len) unit N hb)
    (hlb : Runs (noInput fun t => LowestBars.next ⟨d, t⟩) (LowestBars.new len) unit N lb) :
    Runs (noInput fun t => Aroon.next ⟨d, t⟩) (Aroon.new len) unit N
      (fun t => ((hb t).map fun b : Int => (lit (b : ℚ) + lit (len : ℚ)) / lit (len : ℚ) * lit 100,
        (lb t).map fun b : Int => (lit (b : ℚ) + lit (len : ℚ)) / lit (len : ℚ) * lit 100)) := by
  have eh := (highestBars_runs hlen hh).unique hhb
  have el := (lowestBars_runs hlen hl).unique hlb
  refine Runs.of_trace (fun _ => ⟨len, ⟨len⟩, ⟨len⟩⟩) (by simp [Aroon.new, highestBars_new hlen, lowestBars_new hlen])
    fun t ht => ?_
  rw [← eh t ht, ← el t ht]
  simp only [noInput, Aroon.next, Ctx.atLength, usub_of_le hlen, Res.ok_bind, Res.pure_eq]
  by_cases hc : len ≤ t + 1
  · have h1 := highestBars_step hlen hh ht
    have h2 := lowestBars_step hlen hl ht
    simp [show len - 1 ≤ t by omega, h1, h2]
  · simp [show ¬ len - 1 ≤ t by omega, bars0, hc]

end Pace
