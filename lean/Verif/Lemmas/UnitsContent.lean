import Verif.Lemmas.UnitsTa

/-!
# The indicators of `content` commute with a change of the units of price and volume
-/

set_option linter.unusedSectionVars false
set_option linter.unusedSimpArgs false

namespace Pace
variable {α : Type} [F64 α]

/-! ## Components that only read the tick -/

private theorem id_map {S : Type} {x : Res (Option α × S)} {f : S → S} (h : ∀ s, f s = s) :
    (x.map fun q => (q.1.map (Dilation.id (α := α)).f, f q.2)) = x :=
  Res.map_id' x fun q => by
    obtain ⟨o, s⟩ := q
    simp [Dilation.id, h]
private theorem id_map' {S : Type} {x : Res (Option α × S)} {f : S → S} (h : ∀ s, f s = s) :
    (x.map fun q => (q.1, f q.2)) = x := Res.map_id' x fun q => by simp [h]
private theorem id_opt (x : Option α) : x.map (Dilation.id (α := α)).f = x := by cases x <;> rfl

section
variable (c : Ctx α) (p v : α → α)
theorem sma_rescale (s : Sma α) (x : Option α) : Sma.next (c.rescale p v) s x = Sma.next c s x := by
  have h := Dilation.id.sma c p v s x
  rw [id_opt, show s.rescale (Dilation.id (α := α)).f = s from Sma.rescale_id s] at h
  exact h.trans (id_map (f := Sma.rescale (Dilation.id (α := α)).f) fun s => Sma.rescale_id s)
theorem rma_rescale (s : Rma α) (x : Option α) : Rma.next (c.rescale p v) s x = Rma.next c s x := by
  have h := Dilation.id.rma c p v s x
  rw [id_opt, show s.rescale (Dilation.id (α := α)).f = s from Rma.rescale_id s] at h
  exact h.trans (id_map (f := Rma.rescale (Dilation.id (α := α)).f) fun s => Rma.rescale_id s)
theorem wma_rescale (s : Wma α) (x : Option α) : Wma.next (c.rescale p v) s x = Wma.next c s x := by
  have h := Dilation.id.wma c p v s x
  rw [id_opt, show s.rescale (Dilation.id (α := α)).f = s from Wma.rescale_id s] at h
  exact h.trans (id_map (f := Wma.rescale (Dilation.id (α := α)).f) fun s => Wma.rescale_id s)
theorem swma_rescale (s : Swma α) (x : Option α) : Swma.next (c.rescale p v) s x = Swma.next c s x := by
  have h := Dilation.id.swma c p v s x
  rw [id_opt, show s.rescale (Dilation.id (α := α)).f = s from Swma.rescale_id s] at h
  exact h.trans (id_map (f := Swma.rescale (Dilation.id (α := α)).f) fun s => Swma.rescale_id s)
theorem prank_rescale (s : Prank α) (x : Option α) : Prank.next (c.rescale p v) s x = Prank.next c s x := by
  have h := Dilation.id.prank c p v s x
  rw [id_opt, show s.rescale (Dilation.id (α := α)).f = s from Prank.rescale_id s] at h
  exact h.trans (id_map' (f := Prank.rescale (Dilation.id (α := α)).f) fun s => Prank.rescale_id s)
theorem rsi_rescale (s : Rsi α) (x : Option α) : Rsi.next (c.rescale p v) s x = Rsi.next c s x := by
  have h := Dilation.id.rsi c p v s x
  rw [id_opt, show s.rescale (Dilation.id (α := α)).f = s from Rsi.rescale_id s] at h
  exact h.trans (id_map' (f := Rsi.rescale (Dilation.id (α := α)).f) fun s => Rsi.rescale_id s)
theorem stoch_rescale (s : Stoch α) (x : Option α × Option α × Option α) : Stoch.next (c.rescale p v) s x = Stoch.next c s x := by
  have h := Dilation.id.stoch c p v s x
  rw [id_opt, id_opt, id_opt, show s.rescale (Dilation.id (α := α)).f = s from Stoch.rescale_id s] at h
  exact h.trans (id_map' (f := Stoch.rescale (Dilation.id (α := α)).f) fun s => Stoch.rescale_id s)
end

/-! ## PineScript arithmetic -/
namespace Linear
variable (D : Linear α)
theorem psAdd (a b : Option α) : Pace.psAdd (a.map D.f) (b.map D.f) = (Pace.psAdd a b).map D.f := by
  cases a <;> cases b <;> simp [Pace.psAdd, D.add]
theorem psDiff (a b : Option α) : Pace.psDiff (a.map D.f) (b.map D.f) = (Pace.psDiff a b).map D.f := by
  cases a <;> cases b <;> simp [Pace.psDiff, D.sub]
theorem mulOpt (k : α) (a : Option α) : (a.map D.f).map (fun x => x * k) = (a.map fun x => x * k).map D.f := by
  cases a <;> simp [D.mul_num]
theorem divOpt (k : α) (a : Option α) : (a.map D.f).map (fun x => x / k) = (a.map fun x => x / k).map D.f := by
  cases a <;> simp [D.div_num]
end Linear
namespace Dilation
variable (D : Dilation α)
theorem psDiv (a b : Option α) : Pace.psDiv (a.map D.f) (b.map D.f) = Pace.psDiv a b := by
  cases a <;> cases b <;> simp [Pace.psDiv, D.ratio, D.feq0]
theorem psMax (a b : Option α) : Pace.psMax (a.map D.f) (b.map D.f) = (Pace.psMax a b).map D.f := by
  cases a <;> cases b <;> simp [Pace.psMax, D.fmax]
theorem psMin (a b : Option α) : Pace.psMin (a.map D.f) (b.map D.f) = (Pace.psMin a b).map D.f := by
  cases a <;> cases b <;> simp [Pace.psMin, D.fmin]
theorem psAbs (a : Option α) : Pace.psAbs (a.map D.f) = (Pace.psAbs a).map D.f := by
  cases a <;> simp [Pace.psAbs, D.abs]
theorem psMax0 (b : Option α) : Pace.psMax (some (lit 0)) (b.map D.f) = (Pace.psMax (some (lit 0)) b).map D.f := by
  rw [← D.psMax, Option.map_some, D.zero]
theorem psMin0 (b : Option α) : Pace.psMin (some (lit 0)) (b.map D.f) = (Pace.psMin (some (lit 0)) b).map D.f := by
  rw [← D.psMin, Option.map_some, D.zero]

variable (c : Ctx α) (v : α → α)

theorem src (k : SrcKind) (hk : k ≠ .volume) : Src.next (c.rescale D.f v) k = (Src.next c k).map (Option.map D.f) := by
  cases k with
  | open_ => exact Ctx.rescale_barOpen ..
  | high => exact Ctx.rescale_barHigh ..
  | low => exact Ctx.rescale_barLow ..
  | close => exact Ctx.rescale_barClose ..
  | volume => exact absurd rfl hk
  | ohlc4 =>
    simp only [Src.next, Ctx.rescale_barHigh, Ctx.rescale_barLow, Ctx.rescale_barClose, Ctx.rescale_barOpen, Res.map_bind, Res.bind_map, unwrap_map,
      Pace.ohlc4, ← D.add, D.div_num]
    rfl
  | hlc3 =>
    simp only [Src.next, Ctx.rescale_barHigh, Ctx.rescale_barLow, Ctx.rescale_barClose, Ctx.rescale_barOpen, Res.map_bind, Res.bind_map, unwrap_map,
      Pace.hlc3, ← D.add, D.div_num]
    rfl
  | hl2 =>
    simp only [Src.next, Ctx.rescale_barHigh, Ctx.rescale_barLow, Ctx.rescale_barClose, Ctx.rescale_barOpen, Res.map_bind, Res.bind_map, unwrap_map,
      Pace.hl2, ← D.add, D.div_num]
    rfl

theorem srcVolume : Src.next (c.rescale v D.f) .volume = (Src.next c .volume).map (Option.map D.f) := Ctx.rescale_barVolume ..

end Dilation

/-! ## Indicators -/

def AwesomeOscillator.rescale (f : α → α) (s : AwesomeOscillator α) : AwesomeOscillator α :=
  ⟨s.shortMa.rescale f, s.longMa.rescale f, s.prevAo.map f⟩
def ChaikinMoneyFlow.rescale (f : α → α) (s : ChaikinMoneyFlow α) : ChaikinMoneyFlow α := ⟨s.volumeSum.rescale f, s.adSum.rescale f⟩
def ChandeKrollStop.rescale (f : α → α) (s : ChandeKrollStop α) : ChandeKrollStop α :=
  ⟨s.x, s.atr.rescale f, s.firstHighStopHighest.rescale f, s.firstLowStopLowest.rescale f, s.stopShortHighest.rescale f,
    s.stopLongLowest.rescale f⟩
def ChandeMomentumOscillator.rescale (f : α → α) (s : ChandeMomentumOscillator α) : ChandeMomentumOscillator α :=
  ⟨s.prevSrc.map f, s.sm1.rescale f, s.sm2.rescale f⟩
def ChoppinessIndex.rescale (f : α → α) (s : ChoppinessIndex α) : ChoppinessIndex α :=
  ⟨s.atr.rescale f, s.atrSum.rescale f, s.log10Length, s.highest.rescale f, s.lowest.rescale f⟩
def CommodityChannelIndex.rescale (f : α → α) (s : CommodityChannelIndex α) : CommodityChannelIndex α :=
  ⟨s.sma.rescale f, s.dev.rescale f⟩
def ConnorsRsi.rescale (f : α → α) (s : ConnorsRsi α) : ConnorsRsi α :=
  ⟨s.prevSrc.map f, s.prevUd, s.rsi.rescale f, s.upDownRsi, s.percentRank, s.roc.rescale f⟩
def CoppockCurve.rescale (f : α → α) (s : CoppockCurve α) : CoppockCurve α := ⟨s.ma, s.longRoc.rescale f, s.shortRoc.rescale f⟩
def Dmi.rescale (f : α → α) (s : Dmi α) : Dmi α :=
  ⟨s.trueRangeRma.rescale f, s.plusDmRma.rescale f, s.minusDmRma.rescale f, s.plusFixNan, s.minusFixNan, s.adx⟩
def DonchianChannels.rescale (f : α → α) (s : DonchianChannels α) : DonchianChannels α := ⟨s.highest.rescale f, s.lowest.rescale f⟩
def Macd.rescale (f : α → α) (s : Macd α) : Macd α := ⟨s.shortMa.rescale f, s.longMa.rescale f, s.signalMa.rescale f⟩
def MaPair.rescale (f : α → α) (s : MaPair α) : MaPair α := ⟨s.shortMa.rescale f, s.longMa.rescale f⟩
def RelativeVigorIndex.rescale (f : α → α) (s : RelativeVigorIndex α) : RelativeVigorIndex α :=
  ⟨s.swmaCloseOpen.rescale f, s.swmaHighLow.rescale f, s.sumCloseOpen.rescale f, s.sumHighLow.rescale f, s.swmaSig⟩
def StochRsi.rescale (f : α → α) (s : StochRsi α) : StochRsi α := ⟨s.rsi.rescale f, s.kStoch, s.kSma, s.dSma⟩
def UltimateOscillator.rescale (f : α → α) (s : UltimateOscillator α) : UltimateOscillator α :=
  ⟨s.shortSumBp.rescale f, s.shortSumTr.rescale f, s.midSumBp.rescale f, s.midSumTr.rescale f, s.longSumBp.rescale f, s.longSumTr.rescale f⟩
def Vortex.rescale (f : α → α) (s : Vortex α) : Vortex α :=
  ⟨s.vmpSum.rescale f, s.vmmSum.rescale f, s.atrSum.rescale f, s.atr.rescale f⟩
def WilliamsPercentRank.rescale (f : α → α) (s : WilliamsPercentRank α) : WilliamsPercentRank α := ⟨s.highest.rescale f, s.lowest.rescale f⟩

/-- All the channel values are prices. -/
def ChandeKrollStopData.rescale (f : α → α) (x : ChandeKrollStopData α) : ChandeKrollStopData α :=
  ⟨x.firstHighStop.map f, x.firstLowStop.map f, x.stopLong.map f, x.stopShort.map f⟩
def DonchianData.rescale (f : α → α) (x : DonchianData α) : DonchianData α := ⟨x.upper.map f, x.basis.map f, x.lower.map f⟩

namespace Linear
variable (D : Linear α) (c : Ctx α) (p v : α → α)

theorem awesome (s : AwesomeOscillator α) (x : Option α × Option α) :
    AwesomeOscillator.next (c.rescale p v) (s.rescale D.f) (x.1.map D.f, x.2.map D.f) =
      (AwesomeOscillator.next c s x).map fun q => (q.1.map D.f, q.2.rescale D.f) := by
  unfold AwesomeOscillator.next AwesomeOscillatorOf.next
  simp only [AwesomeOscillator.rescale, D.ma, Res.map_bind, Res.bind_map]
  refine Res.bind_congr ?_
  rintro ⟨a, sa⟩
  simp only [Res.bind_map]
  refine Res.bind_congr ?_
  rintro ⟨b, sb⟩
  cases a <;> cases b <;> cases s.prevAo <;> simp [D.sub]

theorem macd (s : Macd α) (x : Option α × Option α) :
    Macd.next (c.rescale p v) (s.rescale D.f) (x.1.map D.f, x.2.map D.f) =
      (Macd.next c s x).map fun q => ((q.1.1.map D.f, q.1.2.map D.f), q.2.rescale D.f) := by
  unfold Macd.next MacdOf.next
  simp only [Macd.rescale, D.ma, Res.map_bind, Res.bind_map]
  refine Res.bind_congr ?_
  rintro ⟨a, sa⟩
  simp only [Res.bind_map, Res.map_bind]
  refine Res.bind_congr ?_
  rintro ⟨b, sb⟩
  have m0 (s : Ma α) := D.ma c p v s none
  have m1 (s : Ma α) (y : α) := D.ma c p v s (some y)
  simp only [Option.map_none, Option.map_some] at m0 m1
  cases a <;> cases b <;> simp only [Option.map_none, Option.map_some, ← D.sub, m0, m1, Res.bind_map, Res.map_bind] <;>
    exact Res.bind_congr fun q => rfl

end Linear

namespace Dilation
variable (D : Dilation α) (c : Ctx α) (p v : α → α)

theorem aroon (s : Aroon) : Aroon.next (c.rescale D.f v) s = Aroon.next c s := by
  unfold Aroon.next
  simp only [Ctx.rescale_atLength, D.highestBars, D.lowestBars]

theorem subOpt2 (a b : Option α) :
    (match a.map D.f, b.map D.f with
      | some a, some b => some (a - b)
      | _, _ => none) = (match a, b with
      | some a, some b => some (a - b)
      | _, _ => none : Option α).map D.f := by
  cases a <;> cases b <;> simp [D.sub]

theorem balance : BalanceOfPower.next (c.rescale D.f v) = BalanceOfPower.next c := by
  unfold BalanceOfPower.next
  simp only [Ctx.rescale_barHigh, Ctx.rescale_barLow, Ctx.rescale_barClose, Ctx.rescale_barOpen, Res.map_bind]
  refine Res.bind_congr fun a => Res.bind_congr fun b => Res.bind_congr fun h => Res.bind_congr fun l => ?_
  cases a <;> cases b <;> cases h <;> cases l <;> simp only [Option.map_none, Option.map_some, D.feq, ← D.sub, D.ratio]

theorem cmfAd (V : Dilation α) (cl h l vo : Option α) :
    ChaikinMoneyFlow.ad (cl.map D.f) (h.map D.f) (l.map D.f) (vo.map V.f) = (ChaikinMoneyFlow.ad cl h l vo).map V.f := by
  unfold ChaikinMoneyFlow.ad
  cases cl <;> cases h <;> cases l <;> cases vo <;>
    simp only [Option.map_none, Option.map_some, D.feq, ← D.sub, D.num_mul, D.ratio, V.num_mul]
  split
  · simp [V.zero]
  · rfl

theorem cmf (V : Dilation α) (s : ChaikinMoneyFlow α) :
    ChaikinMoneyFlow.next (c.rescale D.f V.f) (s.rescale V.f) = (ChaikinMoneyFlow.next c s).map fun q => (q.1, q.2.rescale V.f) := by
  unfold ChaikinMoneyFlow.next
  simp only [Ctx.rescale_barHigh, Ctx.rescale_barLow, Ctx.rescale_barClose, Ctx.rescale_barVolume, Res.map_bind, Res.bind_map,
    ChaikinMoneyFlow.rescale, V.sum, D.cmfAd V]
  refine Res.bind_congr fun a => Res.bind_congr fun b => Res.bind_congr fun h => Res.bind_congr fun l => ?_
  refine Res.bind_congr ?_
  rintro ⟨vs, s1⟩
  simp only [Res.bind_map]
  refine Res.bind_congr ?_
  rintro ⟨as, s2⟩
  simp only [V.psDiv]; rfl

theorem chandeKroll (s : ChandeKrollStop α) :
    ChandeKrollStop.next (c.rescale D.f v) (s.rescale D.f) =
      (ChandeKrollStop.next c s).map fun q => (q.1.rescale D.f, q.2.rescale D.f) := by
  unfold ChandeKrollStop.next
  simp only [ChandeKrollStop.rescale, D.atr, Ctx.rescale_barHigh, Ctx.rescale_barLow, Res.map_bind, Res.bind_map]
  refine Res.bind_congr ?_
  rintro ⟨a, sa⟩
  simp only [Res.bind_map, D.highest, D.lowest, Res.map_bind]
  refine Res.bind_congr fun bh => Res.bind_congr ?_
  rintro ⟨h, sh⟩
  simp only [Res.bind_map, D.highest, D.lowest, Res.map_bind]
  refine Res.bind_congr fun bl => Res.bind_congr ?_
  rintro ⟨l, sl⟩
  have h0 (s : Highest α) := D.highest c D.f v s none
  have l0 (s : Lowest α) := D.lowest c D.f v s none
  have h1 (s : Highest α) (y : α) := D.highest c D.f v s (some y)
  have l1 (s : Lowest α) (y : α) := D.lowest c D.f v s (some y)
  simp only [Option.map_none, Option.map_some] at h0 l0 h1 l1
  cases h <;> cases l <;> cases a <;>
    simp only [Option.map_none, Option.map_some, D.num_mul, ← D.sub, ← D.add, h0, l0, h1, l1, Res.bind_map, Res.map_bind] <;>
    exact Res.bind_congr fun q => Res.bind_congr fun r => rfl

theorem cmo (s : ChandeMomentumOscillator α) (x : Option α) :
    ChandeMomentumOscillator.next (c.rescale p v) (s.rescale D.f) (x.map D.f) =
      (ChandeMomentumOscillator.next c s x).map fun q => (q.1, q.2.rescale D.f) := by
  unfold ChandeMomentumOscillator.next
  simp only [ChandeMomentumOscillator.rescale, D.psDiff, D.psMax0, D.psMin0, D.psAbs, D.sum, Res.map_bind, Res.bind_map]
  refine Res.bind_congr ?_
  rintro ⟨a, sa⟩
  simp only [Res.bind_map, Res.map_bind]
  refine Res.bind_congr ?_
  rintro ⟨b, sb⟩
  cases a <;> cases b <;>
    simp only [Option.map_none, Option.map_some, D.feq, ← D.sub, ← D.add, ← D.neg, D.num_mul, D.ratio, Res.pure_eq, Res.map_ok']

theorem chop (s : ChoppinessIndex α) :
    ChoppinessIndex.next (c.rescale D.f v) (s.rescale D.f) = (ChoppinessIndex.next c s).map fun q => (q.1, q.2.rescale D.f) := by
  unfold ChoppinessIndex.next
  simp only [ChoppinessIndex.rescale, D.atr, D.sum, Res.map_bind, Res.bind_map]
  refine Res.bind_congr ?_
  rintro ⟨a, sa⟩
  simp only [Res.bind_map, Res.map_bind, Ctx.rescale_barHigh, D.highest]
  refine Res.bind_congr ?_
  rintro ⟨b, sb⟩
  simp only [Res.bind_map, Res.map_bind]
  refine Res.bind_congr fun _ => Res.bind_congr ?_
  rintro ⟨h, sh⟩
  simp only [Res.bind_map, Res.map_bind, Ctx.rescale_barLow, D.lowest]
  refine Res.bind_congr fun _ => Res.bind_congr ?_
  rintro ⟨l, sl⟩
  cases b <;> cases h <;> cases l <;>
    simp only [Option.map_none, Option.map_some, ← D.sub, D.feq0, D.ratio, Res.pure_eq, Res.map_ok']

theorem cci (s : CommodityChannelIndex α) (x : Option α) :
    CommodityChannelIndex.next (c.rescale p v) (s.rescale D.f) (x.map D.f) =
      (CommodityChannelIndex.next c s x).map fun q => (q.1, q.2.rescale D.f) := by
  unfold CommodityChannelIndex.next
  simp only [CommodityChannelIndex.rescale, D.sma, D.dev, Res.map_bind, Res.bind_map]
  refine Res.bind_congr ?_
  rintro ⟨a, sa⟩
  simp only [Res.bind_map, Res.map_bind]
  refine Res.bind_congr ?_
  rintro ⟨b, sb⟩
  simp only [D.psDiff, D.mulOpt, D.psDiv, Res.pure_eq, Res.map_ok']

theorem upDown (x pv ud : Option α) :
    ConnorsRsi.computeUpDown (x.map D.f) (pv.map D.f) ud = ConnorsRsi.computeUpDown x pv ud := by
  unfold ConnorsRsi.computeUpDown optFeq fgt
  cases x <;> cases pv <;> simp only [Option.map_none, Option.map_some, D.feq, D.lt]

theorem connors (s : ConnorsRsi α) (x : Option α) :
    ConnorsRsi.next (c.rescale p v) (s.rescale D.f) (x.map D.f) = (ConnorsRsi.next c s x).map fun q => (q.1, q.2.rescale D.f) := by
  unfold ConnorsRsi.next
  simp only [ConnorsRsi.rescale, D.rsi, D.upDown, rsi_rescale, D.roc, prank_rescale, Res.map_bind, Res.bind_map]
  refine Res.bind_congr ?_
  rintro ⟨a, sa⟩
  simp only [Res.bind_map, Res.map_bind]
  refine Res.bind_congr ?_
  rintro ⟨b, sb⟩
  simp only [Res.bind_map, Res.map_bind]
  refine Res.bind_congr ?_
  rintro ⟨b, sb⟩
  simp only [Res.bind_map, Res.map_bind]
  refine Res.bind_congr ?_
  rintro ⟨b, sb⟩
  rfl

theorem coppock (s : CoppockCurve α) (x : Option α) :
    CoppockCurve.next (c.rescale p v) (s.rescale D.f) (x.map D.f) = (CoppockCurve.next c s x).map fun q => (q.1, q.2.rescale D.f) := by
  unfold CoppockCurve.next
  simp only [CoppockCurve.rescale, D.roc, wma_rescale, Res.map_bind, Res.bind_map]
  refine Res.bind_congr ?_
  rintro ⟨a, sa⟩
  simp only [Res.bind_map, Res.map_bind]
  refine Res.bind_congr ?_
  rintro ⟨b, sb⟩
  simp only [Res.bind_map, Res.map_bind]
  rfl

theorem dmiDm (a b : Option α) : Dmi.dm (a.map D.f) (b.map D.f) = (Dmi.dm a b).map D.f := by
  unfold Dmi.dm fgt
  cases a <;> cases b <;> simp only [Option.map_none, Option.map_some, D.lt, D.gt0]
  split
  · rfl
  · simp [D.zero]

theorem dmi (s : Dmi α) : Dmi.next (c.rescale D.f v) (s.rescale D.f) = (Dmi.next c s).map fun q => (q.1, q.2.rescale D.f) := by
  unfold Dmi.next
  simp only [Dmi.rescale, D.tr, D.rma, Ctx.rescale_barHigh, Ctx.rescale_barLow, Ctx.rescale_high, Ctx.rescale_low, D.psDiff, D.dmiDm,
    Res.map_bind, Res.bind_map]
  refine Res.bind_congr fun _ => Res.bind_congr fun _ => Res.bind_congr fun _ => Res.bind_congr fun _ => Res.bind_congr fun _ => Res.bind_congr ?_
  rintro ⟨a, sa⟩
  simp only [Res.bind_map, Res.map_bind]
  refine Res.bind_congr ?_
  rintro ⟨b, sb⟩
  simp only [Res.bind_map, Res.map_bind]
  refine Res.bind_congr ?_
  rintro ⟨m, sm⟩
  simp only [Res.bind_map, Res.map_bind, D.psDiv, rma_rescale]
  rfl

theorem donchian (s : DonchianChannels α) :
    DonchianChannels.next (c.rescale D.f v) (s.rescale D.f) =
      (DonchianChannels.next c s).map fun q => (q.1.rescale D.f, q.2.rescale D.f) := by
  unfold DonchianChannels.next
  simp only [DonchianChannels.rescale, Ctx.rescale_barHigh, Ctx.rescale_barLow, D.highest, D.lowest, Res.map_bind, Res.bind_map]
  refine Res.bind_congr fun _ => Res.bind_congr ?_
  rintro ⟨a, sa⟩
  simp only [Res.bind_map, Res.map_bind]
  refine Res.bind_congr fun _ => Res.bind_congr ?_
  rintro ⟨b, sb⟩
  simp only [D.psAdd, D.divOpt]; rfl

theorem priceOsc (s : MaPair α) (x : Option α) :
    PriceOscillator.next (c.rescale p v) (s.rescale D.f) (x.map D.f) = (PriceOscillator.next c s x).map fun q => (q.1, q.2.rescale D.f) := by
  unfold PriceOscillator.next PriceOscillator.nextOf
  simp only [MaPair.rescale, D.ma, Res.map_bind, Res.bind_map]
  refine Res.bind_congr ?_
  rintro ⟨a, sa⟩
  simp only [Res.bind_map, Res.map_bind]
  refine Res.bind_congr ?_
  rintro ⟨b, sb⟩
  cases a <;> cases b <;> simp only [Option.map_none, Option.map_some, ← D.sub, D.ratio, Res.pure_eq, Res.map_ok']

theorem volumeOsc (V : Dilation α) (s : MaPair α) :
    VolumeOscillator.next (c.rescale p V.f) (s.rescale V.f) = (VolumeOscillator.next c s).map fun q => (q.1, q.2.rescale V.f) := by
  unfold VolumeOscillator.next VolumeOscillator.nextOf
  simp only [MaPair.rescale, V.ma, Ctx.rescale_barVolume, Res.map_bind, Res.bind_map]
  refine Res.bind_congr fun _ => Res.bind_congr ?_
  rintro ⟨a, sa⟩
  simp only [Res.bind_map, Res.map_bind]
  refine Res.bind_congr ?_
  rintro ⟨b, sb⟩
  simp only [V.psDiff, V.psDiv]; rfl

theorem vigor (s : RelativeVigorIndex α) :
    RelativeVigorIndex.next (c.rescale D.f v) (s.rescale D.f) = (RelativeVigorIndex.next c s).map fun q => (q.1, q.2.rescale D.f) := by
  unfold RelativeVigorIndex.next
  simp only [RelativeVigorIndex.rescale, Ctx.rescale_barHigh, Ctx.rescale_barLow, Ctx.rescale_barClose,
    Ctx.rescale_barOpen, Res.map_bind, Res.bind_map]
  refine Res.bind_congr fun cl => Res.bind_congr fun op => Res.bind_congr fun hi => Res.bind_congr fun lo => ?_
  refine Eq.trans (b := Swma.next (c.rescale D.f v) (s.swmaCloseOpen.rescale D.f) ((Pace.psDiff cl op).map D.f) >>= fun q =>
      Swma.next (c.rescale D.f v) (s.swmaHighLow.rescale D.f) ((Pace.psDiff hi lo).map D.f) >>= fun r =>
      Sum.next (c.rescale D.f v) (s.sumCloseOpen.rescale D.f) q.1 >>= fun u =>
      Sum.next (c.rescale D.f v) (s.sumHighLow.rescale D.f) r.1 >>= fun w =>
      Swma.next (c.rescale D.f v) s.swmaSig (Pace.psDiv u.1 w.1) >>= fun z =>
      pure ((Pace.psDiv u.1 w.1, z.1), ⟨q.2, r.2, u.2, w.2, z.2⟩)) ?_ (Eq.trans (b := Swma.next c s.swmaCloseOpen (Pace.psDiff cl op) >>= fun q =>
      Swma.next c s.swmaHighLow (Pace.psDiff hi lo) >>= fun r =>
      Sum.next c s.sumCloseOpen q.1 >>= fun u =>
      Sum.next c s.sumHighLow r.1 >>= fun w =>
      Swma.next c s.swmaSig (Pace.psDiv u.1 w.1) >>= fun z =>
      pure ((Pace.psDiv u.1 w.1, z.1), ⟨q.2.rescale D.f, r.2.rescale D.f, u.2.rescale D.f, w.2.rescale D.f, z.2⟩)) ?_ ?_)
  · rw [← D.psDiff, ← D.psDiff]; cases cl <;> cases op <;> cases hi <;> cases lo <;> rfl
  · simp only [D.swma, Res.map_bind]
    refine Res.bind_congr fun q => Res.bind_congr fun r => ?_
    simp only [D.sum, Res.map_bind]
    refine Res.bind_congr fun u => Res.bind_congr fun w => ?_
    simp only [D.psDiv, swma_rescale]
  · cases cl <;> cases op <;> cases hi <;> cases lo <;> rfl

theorem stochRsi (s : StochRsi α) (x : Option α) :
    StochRsi.next (c.rescale p v) (s.rescale D.f) (x.map D.f) = (StochRsi.next c s x).map fun q => (q.1, q.2.rescale D.f) := by
  unfold StochRsi.next
  simp only [StochRsi.rescale, D.rsi, stoch_rescale, sma_rescale, Res.map_bind, Res.bind_map]
  rfl

theorem ultimate (s : UltimateOscillator α) :
    UltimateOscillator.next (c.rescale D.f v) (s.rescale D.f) = (UltimateOscillator.next c s).map fun q => (q.1, q.2.rescale D.f) := by
  unfold UltimateOscillator.next
  simp only [UltimateOscillator.rescale, Ctx.rescale_barHigh, Ctx.rescale_barLow, Ctx.rescale_barClose, Ctx.rescale_index, Res.map_bind,
    Res.bind_map]
  refine Res.bind_congr fun h => Res.bind_congr fun l => Res.bind_congr fun cl => ?_
  have n0 : (none : Option α) = none.map D.f := rfl
  by_cases hi : 0 < c.index
  · simp only [if_pos hi, Ctx.rescale_close, Res.map_bind, Res.bind_map, D.psMax, D.psMin, D.psDiff]
    refine Res.bind_congr fun pc => ?_
    simp only [D.sum, Res.map_bind, D.psDiv]
    rfl
  · simp only [if_neg hi, pure_bind]
    rw [n0]
    simp only [Res.map_bind, Res.bind_map, D.psMax, D.psMin, D.psDiff, D.sum, D.psDiv]
    rfl

theorem vortex (s : Vortex α) :
    Vortex.next (c.rescale D.f v) (s.rescale D.f) = (Vortex.next c s).map fun q => (q.1, q.2.rescale D.f) := by
  unfold Vortex.next
  simp only [Vortex.rescale, D.atr, D.sum, Ctx.rescale_barHigh, Ctx.rescale_barLow, Ctx.rescale_high, Ctx.rescale_low, D.psDiff, D.psAbs,
    Res.map_bind, Res.bind_map]
  refine Res.bind_congr fun _ => Res.bind_congr fun _ => Res.bind_congr fun _ => Res.bind_congr fun _ => Res.bind_congr ?_
  rintro ⟨a, sa⟩
  simp only [Res.bind_map, Res.map_bind]
  refine Res.bind_congr ?_
  rintro ⟨b, sb⟩
  simp only [Res.bind_map, Res.map_bind]
  refine Res.bind_congr ?_
  rintro ⟨m, sm⟩
  simp only [Res.bind_map, Res.map_bind, D.sum]
  refine Res.bind_congr ?_
  rintro ⟨n, sn⟩
  simp only [D.psDiv]; rfl

theorem williams (s : WilliamsPercentRank α) (x : Option α) :
    WilliamsPercentRank.next (c.rescale D.f v) (s.rescale D.f) (x.map D.f) =
      (WilliamsPercentRank.next c s x).map fun q => (q.1, q.2.rescale D.f) := by
  unfold WilliamsPercentRank.next
  simp only [WilliamsPercentRank.rescale, Ctx.rescale_barHigh, Ctx.rescale_barLow, D.highest, D.lowest, Res.map_bind, Res.bind_map]
  refine Res.bind_congr fun _ => Res.bind_congr ?_
  rintro ⟨a, sa⟩
  simp only [Res.bind_map, Res.map_bind]
  refine Res.bind_congr fun _ => Res.bind_congr ?_
  rintro ⟨b, sb⟩
  simp only [D.psDiff, D.psDiv]; rfl

end Dilation
end Pace
