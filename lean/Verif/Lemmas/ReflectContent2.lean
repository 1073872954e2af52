import Verif.Lemmas.ReflectContent

/-!
# Indicators of `content` on the mirrored market
-/

set_option linter.unusedSectionVars false
set_option linter.unusedSimpArgs false

namespace Pace
variable {α : Type} [F64 α]

def Aroon.flip (s : Aroon) : Aroon := ⟨s.length, s.lowestBars.flip, s.highestBars.flip⟩
def BollingerBands.reflect (s : BollingerBands α) : BollingerBands α := ⟨s.mult, s.basis.rescale Neg.neg, s.stdev.reflect⟩
def ChandeKrollStop.reflect (s : ChandeKrollStop α) : ChandeKrollStop α :=
  ⟨s.x, s.atr, s.firstLowStopLowest.flip Neg.neg, s.firstHighStopHighest.flip Neg.neg, s.stopLongLowest.flip Neg.neg,
    s.stopShortHighest.flip Neg.neg⟩
def ChandeMomentumOscillator.reflect (s : ChandeMomentumOscillator α) : ChandeMomentumOscillator α := ⟨ng s.prevSrc, s.sm2, s.sm1⟩
def ChoppinessIndex.reflect (s : ChoppinessIndex α) : ChoppinessIndex α :=
  ⟨s.atr, s.atrSum, s.log10Length, s.lowest.flip Neg.neg, s.highest.flip Neg.neg⟩
def Dmi.swap (s : Dmi α) : Dmi α := ⟨s.trueRangeRma, s.minusDmRma, s.plusDmRma, s.minusFixNan, s.plusFixNan, s.adx⟩
def DonchianChannels.reflect (s : DonchianChannels α) : DonchianChannels α := ⟨s.lowest.flip Neg.neg, s.highest.flip Neg.neg⟩
def RelativeVigorIndex.reflect (s : RelativeVigorIndex α) : RelativeVigorIndex α :=
  ⟨s.swmaCloseOpen.rescale Neg.neg, s.swmaHighLow, s.sumCloseOpen.rescale Neg.neg, s.sumHighLow, s.swmaSig.rescale Neg.neg⟩
def Vortex.swap (s : Vortex α) : Vortex α := ⟨s.vmmSum, s.vmpSum, s.atrSum, s.atr⟩
def ChaikinMoneyFlow.reflect (s : ChaikinMoneyFlow α) : ChaikinMoneyFlow α := ⟨s.volumeSum, s.adSum.rescale Neg.neg⟩

/-- The channel and stops of the mirrored market: negated, and the upper ones become the lower ones. -/
def DonchianData.mirror (d : DonchianData α) : DonchianData α := ⟨ng d.lower, ng d.basis, ng d.upper⟩
def ChandeKrollStopData.mirror (d : ChandeKrollStopData α) : ChandeKrollStopData α :=
  ⟨ng d.firstLowStop, ng d.firstHighStop, ng d.stopShort, ng d.stopLong⟩

namespace SignSymmetric
variable (Y : SignSymmetric α) {c : Ctx α} {x o : Option α}
include Y

theorem psDiff_rev (a b : Option α) : psDiff (ng a) (ng b) = psDiff b a := by cases a <;> cases b <;> simp [psDiff, Y.sub_rev]
theorem psDiff_neg (a b : Option α) : psDiff (ng a) (ng b) = ng (psDiff a b) := by cases a <;> cases b <;> simp [psDiff, Y.neg_sub]
theorem psAdd_neg (a b : Option α) : psAdd (ng b) (ng a) = ng (psAdd a b) := by
  cases a <;> cases b <;> simp [psAdd, Y.neg_add, Y.add_comm]
theorem psDiv_neg (a b : Option α) : psDiv (ng a) b = ng (psDiv a b) := by
  cases a <;> cases b <;> simp [psDiv, Y.neg_div]
  split <;> rfl
theorem psAbs_rev (a b : Option α) : psAbs (psDiff a b) = psAbs (psDiff b a) := by
  cases a <;> cases b <;> simp [psAbs, psDiff]
  exact Y.abs_sub _ _
theorem scale_neg (k : α) (a : Option α) : (ng a).map (fun x => x * k) = ng (a.map fun x => x * k) := by cases a <;> simp [Y.neg_mul]
theorem half_neg (k : α) (a : Option α) : (ng a).map (fun x => x / k) = ng (a.map fun x => x / k) := by cases a <;> simp [Y.neg_div]
theorem swap_sub (a b : α) : b - a = -(a - b) := by rw [Y.neg_sub, Y.sub_rev]

theorem aroon {s s1 : Aroon} {q : Option α × Option α} (h : s.next c = .ok (q, s1)) :
    s.flip.next c.mirror = .ok ((q.2, q.1), s1.flip) := by
  unfold Aroon.next at h ⊢
  obtain ⟨b, hb, h⟩ := Res.bind_ok h
  have hb' : c.mirror.atLength s.flip.length = .ok b := hb
  rw [hb']
  cases b with
  | false => cases h; rfl
  | true =>
    obtain ⟨⟨hi, hs⟩, h1, h⟩ := Res.bind_ok (show (s.highestBars.next c >>= _) = _ from h)
    obtain ⟨⟨lo, ls⟩, h2, h⟩ := Res.bind_ok h
    cases h
    show (s.lowestBars.flip.next c.mirror >>= _) = _
    rw [Y.lowestBars h2]
    show (s.highestBars.flip.next c.mirror >>= _) = _
    rw [Y.highestBars h1]
    rfl

theorem awesome {s s1 : AwesomeOscillator α} {i : Option α × Option α} (h : s.next c i = .ok (o, s1)) :
    (s.rescale Neg.neg).next c.mirror (ng i.1, ng i.2) = .ok (ng o, s1.rescale Neg.neg) := by
  unfold AwesomeOscillator.next AwesomeOscillatorOf.next at h ⊢
  obtain ⟨⟨a, sa⟩, h1, h⟩ := Res.bind_ok h
  obtain ⟨⟨b, sb⟩, h2, h⟩ := Res.bind_ok h
  cases h
  simp only [AwesomeOscillator.rescale, Y.ma h1, Y.ma h2, Res.ok_bind]
  cases a <;> cases b <;> cases s.prevAo <;> simp [Y.neg_sub] <;> rfl

theorem macd {s s1 : Macd α} {i q : Option α × Option α} (h : s.next c i = .ok (q, s1)) :
    (s.rescale Neg.neg).next c.mirror (ng i.1, ng i.2) = .ok ((ng q.1, ng q.2), s1.rescale Neg.neg) := by
  unfold Macd.next MacdOf.next at h ⊢
  obtain ⟨⟨a, sa⟩, h1, h⟩ := Res.bind_ok h
  obtain ⟨⟨b, sb⟩, h2, h⟩ := Res.bind_ok h
  obtain ⟨⟨g, sg⟩, h3, h⟩ := Res.bind_ok h
  cases h
  have := Y.ma h3
  simp only [Macd.rescale, Y.ma h1, Y.ma h2, Res.ok_bind]
  cases a <;> cases b <;> simp only [Option.map_none, Option.map_some, ← Y.neg_sub] at this ⊢ <;> rw [this] <;> rfl

theorem balance (h : BalanceOfPower.next c = .ok o) : BalanceOfPower.next c.mirror = .ok (ng o) := by
  unfold BalanceOfPower.next at h ⊢
  obtain ⟨cl, h1, h⟩ := Res.bind_ok h
  obtain ⟨op, h2, h⟩ := Res.bind_ok h
  obtain ⟨hi, h3, h⟩ := Res.bind_ok h
  obtain ⟨lo, h4, h⟩ := Res.bind_ok h
  rw [Ctx.mirror_barClose h1, Res.ok_bind, Ctx.mirror_barOpen h2, Res.ok_bind, Ctx.mirror_barHigh h4, Res.ok_bind, Ctx.mirror_barLow h3,
    Res.ok_bind]
  rcases cl with _ | cl <;> rcases op with _ | op <;> rcases hi with _ | hi <;> rcases lo with _ | lo <;> first | (cases h; rfl) | skip
  simp only [Option.map_some, Y.feq_neg, Y.feq_comm lo hi, Y.sub_rev lo hi, ← Y.neg_sub, Y.neg_div] at h ⊢
  by_cases e : F64.feq hi lo = true
  · rw [if_pos e] at h ⊢
    cases h; rfl
  · rw [if_neg e] at h ⊢
    cases h; rfl

theorem width {s s1 : BollingerBands α} (h : BollingerBandsWidth.next c s x = .ok (o, s1)) :
    BollingerBandsWidth.next c.mirror s.reflect (ng x) = .ok (ng o, s1.reflect) := by
  unfold BollingerBandsWidth.next at h ⊢
  obtain ⟨⟨a, sa⟩, h1, h⟩ := Res.bind_ok h
  obtain ⟨⟨b, sb⟩, h2, h⟩ := Res.bind_ok h
  simp only [BollingerBands.reflect, Y.sma h1, Y.stdev h2, Res.ok_bind]
  rcases x with _ | x <;> rcases a with _ | a <;> rcases b with _ | b <;> first | (cases h; rfl) | skip
  simp only [Option.map_some] at h ⊢
  have e0 : F64.feq (-a) (lit 0) = F64.feq a (lit 0) := by
    have := Y.feq_neg a (lit 0)
    rwa [Y.neg_zero] at this
  by_cases e : F64.feq a (lit 0) = true
  · rw [if_pos e] at h
    rw [e0, if_pos e]
    cases h; rfl
  · rw [if_neg e] at h
    rw [e0, if_neg e]
    cases h
    have u (b : α) : -a + b = -(a - b) := by rw [Y.neg_sub, Y.sub_rev, ← Y.add_neg, Y.add_comm]
    have l (b : α) : -a - b = -(a + b) := by rw [Y.neg_add, Y.add_neg]
    simp only [u, l, Y.sub_rev, Option.map_some]
    rw [Y.div_neg _ _ (by simpa using e)]
    rfl

theorem chandeKroll {s s1 : ChandeKrollStop α} {q : ChandeKrollStopData α} (h : s.next c = .ok (q, s1)) :
    s.reflect.next c.mirror = .ok (q.mirror, s1.reflect) := by
  unfold ChandeKrollStop.next at h ⊢
  obtain ⟨⟨a, sa⟩, h1, h⟩ := Res.bind_ok h
  obtain ⟨hi, h2, h⟩ := Res.bind_ok h
  obtain ⟨⟨hh, sh⟩, h3, h⟩ := Res.bind_ok h
  obtain ⟨lo, h4, h⟩ := Res.bind_ok h
  obtain ⟨⟨ll, sl⟩, h5, h⟩ := Res.bind_ok h
  obtain ⟨⟨ss, sss⟩, h6, h⟩ := Res.bind_ok h
  obtain ⟨⟨sl', ssl⟩, h7, h⟩ := Res.bind_ok h
  cases h
  have h6' := Y.highest h6
  have h7' := Y.lowest h7
  simp only [ChandeKrollStop.reflect, Y.atr h1, Ctx.mirror_barHigh h4, Ctx.mirror_barLow h2, Y.highest h3, Y.lowest h5, Res.ok_bind]
  have u (b d : α) : -b + d = -(b - d) := by rw [Y.neg_sub, Y.sub_rev, ← Y.add_neg, Y.add_comm]
  have l (b d : α) : -b - d = -(b + d) := by rw [Y.neg_add, Y.add_neg]
  cases hh <;> cases ll <;> cases a <;> simp only [Option.map_none, Option.map_some, u, l] at h6' h7' ⊢ <;> rw [h7'] <;>
    simp only [Res.ok_bind] <;> rw [h6'] <;> rfl

theorem cmo {s s1 : ChandeMomentumOscillator α} (h : s.next c x = .ok (o, s1)) :
    s.reflect.next c.mirror (ng x) = .ok (ng o, s1.reflect) := by
  unfold ChandeMomentumOscillator.next at h ⊢
  obtain ⟨⟨a, sa⟩, h1, h⟩ := Res.bind_ok h
  obtain ⟨⟨b, sb⟩, h2, h⟩ := Res.bind_ok h
  cases h
  have e1 (m : Option α) : psMax (some (lit 0)) (ng m) = psAbs (psMin (some (lit 0)) m) := by
    cases m with
    | none => rfl
    | some m =>
      have := Y.fmax_neg (lit 0) m
      rw [Y.neg_zero] at this
      simp only [psMax, psMin, psAbs, Option.map_some]
      rw [← Y.abs_neg (F64.fmin _ _), ← this, Y.abs_fmax]
  have e2 (m : Option α) : psAbs (psMin (some (lit 0)) (ng m)) = psMax (some (lit 0)) m := by
    cases m with
    | none => rfl
    | some m =>
      have := Y.fmin_neg (lit 0) m
      rw [Y.neg_zero] at this
      simp only [psMax, psMin, psAbs, Option.map_some]
      rw [this, Y.abs_neg, Y.abs_fmax]
  simp only [ChandeMomentumOscillator.reflect, Y.psDiff_neg, e1, e2, sum_same h1, sum_same h2, Res.ok_bind]
  rcases a with _ | a <;> rcases b with _ | b <;> first | rfl | skip
  have e : F64.feq b (-a) = F64.feq a (-b) := by rw [Y.feq_comm, ← Y.feq_neg, Y.neg_neg]
  simp only [e]
  by_cases h : F64.feq a (-b) = true
  · simp only [h, if_true]; rfl
  · simp only [h, if_false, Y.swap_sub a b, Y.add_comm b a, Y.mul_neg, Y.neg_div]; rfl

theorem chop {s s1 : ChoppinessIndex α} (h : s.next c = .ok (o, s1)) : s.reflect.next c.mirror = .ok (o, s1.reflect) := by
  unfold ChoppinessIndex.next at h ⊢
  obtain ⟨⟨a, sa⟩, h1, h⟩ := Res.bind_ok h
  obtain ⟨⟨b, sb⟩, h2, h⟩ := Res.bind_ok h
  obtain ⟨hi, h3, h⟩ := Res.bind_ok h
  obtain ⟨⟨hh, sh⟩, h4, h⟩ := Res.bind_ok h
  obtain ⟨lo, h5, h⟩ := Res.bind_ok h
  obtain ⟨⟨ll, sl⟩, h6, h⟩ := Res.bind_ok h
  cases h
  simp only [ChoppinessIndex.reflect, Y.atr h1, sum_same h2, Ctx.mirror_barHigh h5, Ctx.mirror_barLow h3, Y.highest h4, Y.lowest h6, Res.ok_bind]
  cases b <;> cases hh <;> cases ll <;> first | rfl | skip
  simp only [Option.map_some, Y.sub_rev]
  rfl

theorem cci {s s1 : CommodityChannelIndex α} (h : s.next c x = .ok (o, s1)) :
    (s.rescale Neg.neg).next c.mirror (ng x) = .ok (ng o, s1.rescale Neg.neg) := by
  unfold CommodityChannelIndex.next at h ⊢
  obtain ⟨⟨a, sa⟩, h1, h⟩ := Res.bind_ok h
  obtain ⟨⟨b, sb⟩, h2, h⟩ := Res.bind_ok h
  cases h
  simp only [CommodityChannelIndex.rescale, Y.sma h1, Y.dev h2, Res.ok_bind, Y.psDiff_neg, Y.psDiv_neg]
  rfl

theorem dx_swap (p m : Option α) : Dmi.dx m p = Dmi.dx p m := by
  cases p <;> cases m <;> first | rfl | skip
  rename_i p m
  have e : F64.feq m (-p) = F64.feq p (-m) := by
    rw [Y.feq_comm, ← Y.feq_neg, Y.neg_neg]
  simp only [Dmi.dx, e, Y.abs_sub m p, Y.add_comm m p]

theorem dmi {s s1 : Dmi α} {q : DmiData α} (h : s.next c = .ok (q, s1)) : s.swap.next c.mirror = .ok (q.swap, s1.swap) := by
  unfold Dmi.next at h ⊢
  obtain ⟨hi, h1, h⟩ := Res.bind_ok h
  obtain ⟨lo, h2, h⟩ := Res.bind_ok h
  obtain ⟨ph, h3, h⟩ := Res.bind_ok h
  obtain ⟨pl, h4, h⟩ := Res.bind_ok h
  obtain ⟨tr, h5, h⟩ := Res.bind_ok h
  obtain ⟨⟨t, st⟩, h6, h⟩ := Res.bind_ok h
  obtain ⟨⟨p, sp⟩, h7, h⟩ := Res.bind_ok h
  obtain ⟨⟨m, sm⟩, h8, h⟩ := Res.bind_ok h
  obtain ⟨⟨a, sa⟩, h9, h⟩ := Res.bind_ok h
  cases h
  have h9' : s.adx.next c.mirror (Dmi.dx (s.minusFixNan.next ((psDiv m t).map fun x => x * lit 100)).1
      (s.plusFixNan.next ((psDiv p t).map fun x => x * lit 100)).1) = .ok (a, sa) := by
    rw [Y.dx_swap]; exact h9
  simp only [Dmi.swap, Ctx.mirror_barHigh h2, Ctx.mirror_barLow h1, Ctx.mirror_high h4, Ctx.mirror_low h3, Y.tr h5, rma_same h6, Res.ok_bind,
    Y.psDiff_rev, rma_same h7, rma_same h8, h9']
  rfl

theorem donchian {s s1 : DonchianChannels α} {q : DonchianData α} (h : s.next c = .ok (q, s1)) :
    s.reflect.next c.mirror = .ok (q.mirror, s1.reflect) := by
  unfold DonchianChannels.next at h ⊢
  obtain ⟨hi, h1, h⟩ := Res.bind_ok h
  obtain ⟨⟨a, sa⟩, h2, h⟩ := Res.bind_ok h
  obtain ⟨lo, h3, h⟩ := Res.bind_ok h
  obtain ⟨⟨b, sb⟩, h4, h⟩ := Res.bind_ok h
  cases h
  simp only [DonchianChannels.reflect, Ctx.mirror_barHigh h3, Ctx.mirror_barLow h1, Y.lowest h4, Y.highest h2, Res.ok_bind, Y.psAdd_neg, Y.half_neg]
  rfl

theorem vigor {s s1 : RelativeVigorIndex α} {q : Option α × Option α} (h : s.next c = .ok (q, s1)) :
    s.reflect.next c.mirror = .ok ((ng q.1, ng q.2), s1.reflect) := by
  unfold RelativeVigorIndex.next at h ⊢
  obtain ⟨cl, h1, h⟩ := Res.bind_ok h
  obtain ⟨op, h2, h⟩ := Res.bind_ok h
  obtain ⟨hi, h3, h⟩ := Res.bind_ok h
  obtain ⟨lo, h4, h⟩ := Res.bind_ok h
  obtain ⟨⟨a, sa⟩, h5, h⟩ := Res.bind_ok h
  obtain ⟨⟨b, sb⟩, h6, h⟩ := Res.bind_ok h
  obtain ⟨⟨d, sd⟩, h7, h⟩ := Res.bind_ok h
  obtain ⟨⟨e, se⟩, h8, h⟩ := Res.bind_ok h
  obtain ⟨⟨g, sg⟩, h9, h⟩ := Res.bind_ok h
  cases h
  have h5' : (s.swmaCloseOpen.rescale Neg.neg).next c.mirror (match ng cl, ng op with
      | some a, some b => some (a - b)
      | _, _ => none) = .ok (ng a, sa.rescale Neg.neg) := by
    refine Eq.trans (congrArg _ ?_) (Y.swma h5)
    cases cl <;> cases op <;> simp [Y.neg_sub]
  have h6' : s.swmaHighLow.next c.mirror (match ng lo, ng hi with
      | some a, some b => some (a - b)
      | _, _ => none) = .ok (b, sb) := by
    refine Eq.trans (congrArg _ ?_) (swma_same h6)
    cases hi <;> cases lo <;> simp [Y.sub_rev]
  have h9' := Y.swma h9
  rw [Ctx.mirror_barClose h1, Res.ok_bind, Ctx.mirror_barOpen h2, Res.ok_bind, Ctx.mirror_barHigh h4, Res.ok_bind, Ctx.mirror_barLow h3,
    Res.ok_bind]
  refine Eq.trans (congrArg (· >>= _) h5') ?_
  rw [Res.ok_bind]
  refine Eq.trans (congrArg (· >>= _) h6') ?_
  rw [Res.ok_bind]
  simp only [RelativeVigorIndex.reflect, Y.sum h7, sum_same h8, h9', Res.ok_bind, Y.psDiv_neg]
  rfl

theorem volumeOscillator {s s1 : MaPair α} (h : VolumeOscillator.next c s = .ok (o, s1)) : VolumeOscillator.next c.mirror s = .ok (o, s1) := by
  unfold VolumeOscillator.next VolumeOscillator.nextOf at h ⊢
  obtain ⟨v, h1, h⟩ := Res.bind_ok h
  obtain ⟨⟨a, sa⟩, h2, h⟩ := Res.bind_ok h
  obtain ⟨⟨b, sb⟩, h3, h⟩ := Res.bind_ok h
  cases h
  simp only [Ctx.mirror_barVolume h1, Res.ok_bind, ma_same h2, ma_same h3]
  rfl

theorem vortex {s s1 : Vortex α} {q : Option α × Option α} (h : s.next c = .ok (q, s1)) :
    s.swap.next c.mirror = .ok ((q.2, q.1), s1.swap) := by
  unfold Vortex.next at h ⊢
  obtain ⟨hi, h1, h⟩ := Res.bind_ok h
  obtain ⟨lo, h2, h⟩ := Res.bind_ok h
  obtain ⟨ph, h3, h⟩ := Res.bind_ok h
  obtain ⟨pl, h4, h⟩ := Res.bind_ok h
  obtain ⟨⟨p, sp⟩, h5, h⟩ := Res.bind_ok h
  obtain ⟨⟨m, sm⟩, h6, h⟩ := Res.bind_ok h
  obtain ⟨⟨a, sa⟩, h7, h⟩ := Res.bind_ok h
  obtain ⟨⟨t, st⟩, h8, h⟩ := Res.bind_ok h
  cases h
  rw [Y.psAbs_rev] at h5 h6
  simp only [Vortex.swap, Ctx.mirror_barHigh h2, Ctx.mirror_barLow h1, Ctx.mirror_high h4, Ctx.mirror_low h3, Res.ok_bind, Y.psDiff_rev,
    sum_same h5, sum_same h6, Y.atr h7, sum_same h8]
  rfl

/-- Where the order of subtraction does not matter (no rounding), the money flow of the mirrored market is negated. -/
theorem cmf (E : ∀ a b d : α, a - b - d = a - d - b) {s s1 : ChaikinMoneyFlow α} (h : s.next c = .ok (o, s1)) :
    s.reflect.next c.mirror = .ok (ng o, s1.reflect) := by
  unfold ChaikinMoneyFlow.next at h ⊢
  obtain ⟨cl, h1, h⟩ := Res.bind_ok h
  obtain ⟨hi, h2, h⟩ := Res.bind_ok h
  obtain ⟨lo, h3, h⟩ := Res.bind_ok h
  obtain ⟨vo, h4, h⟩ := Res.bind_ok h
  obtain ⟨⟨v, sv⟩, h5, h⟩ := Res.bind_ok h
  obtain ⟨⟨a, sa⟩, h6, h⟩ := Res.bind_ok h
  cases h
  have e : ChaikinMoneyFlow.ad (ng cl) (ng lo) (ng hi) vo = ng (ChaikinMoneyFlow.ad cl hi lo vo) := by
    rcases cl with _ | cl <;> rcases hi with _ | hi <;> rcases lo with _ | lo <;> rcases vo with _ | vo <;> first | rfl | skip
    simp only [ChaikinMoneyFlow.ad, Option.map_some, Y.feq_neg, Y.feq_comm lo hi, Y.sub_rev lo hi, Y.mul_neg, ← Y.neg_sub, Y.neg_div, Y.neg_mul]
    rw [Bool.and_comm, E _ hi lo]
    split
    · show some (lit 0) = some (-(lit 0)); rw [Y.neg_zero]
    · rfl
  simp only [ChaikinMoneyFlow.reflect, Ctx.mirror_barClose h1, Ctx.mirror_barHigh h3, Ctx.mirror_barLow h2, Ctx.mirror_barVolume h4,
    sum_same h5, e, Y.sum h6, Res.ok_bind, Y.psDiv_neg]
  rfl

end SignSymmetric
end Pace
