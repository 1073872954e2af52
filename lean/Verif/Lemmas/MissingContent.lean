import Verif.Lemmas.Missing
import Verif.Model.Content

/-!
# Panics of single steps: the indicators
-/

set_option linter.unusedSectionVars false
set_option linter.unusedSimpArgs false

namespace Pace
open Spec
variable {α : Type} [F64 α]

/-! ## Oscillators over any averages -/

section
variable {A B G : Type} {short : AnyMa α A} {long : AnyMa α B} {signal : AnyMa α G} {newA : Res A} {newB : Res B} {newG : Res G}

def awesomeS (CA : Sound short newA) (CB : Sound long newB) :
    Sound (α := α) (AwesomeOscillatorOf.next short long) (do return ⟨← newA, ← newB, none⟩) where
  Inv b s := (CA).Inv b s.shortMa ∧ (CB).Inv b s.longMa
  mono h hb := ⟨(CA).mono h.1 hb, (CB).mono h.2 hb⟩
  step c s v h := by
    unfold AwesomeOscillatorOf.next
    refine ((CA).step c s.shortMa _ h.1).bind ?_
    rintro ⟨o0, m0⟩ h0
    refine ((CB).step c s.longMa _ h.2).bind ?_
    rintro ⟨o1, m1⟩ h1
    exact ⟨h0, h1⟩
  init s h := by
    obtain ⟨a0, e0, h⟩ := Res.bind_ok h
    obtain ⟨a1, e1, h⟩ := Res.bind_ok h
    have := Except.ok.inj h; subst this
    exact ⟨(CA).init a0 e0, (CB).init a1 e1⟩
  fails := Asserts.bind (CA).fails fun _ => Asserts.bind (CB).fails fun _ => .pure _

def macdS (CA : Sound short newA) (CB : Sound long newB) (CG : Sound signal newG) :
    Sound (α := α) (MacdOf.next short long signal) (do return ⟨← newA, ← newB, ← newG⟩) where
  Inv b s := (CA).Inv b s.shortMa ∧ (CB).Inv b s.longMa ∧ (CG).Inv b s.signalMa
  mono h hb := ⟨(CA).mono h.1 hb, (CB).mono h.2.1 hb, (CG).mono h.2.2 hb⟩
  step c s v h := by
    unfold MacdOf.next
    refine ((CA).step c s.shortMa _ h.1).bind ?_
    rintro ⟨o0, m0⟩ h0
    refine ((CB).step c s.longMa _ h.2.1).bind ?_
    rintro ⟨o1, m1⟩ h1
    refine ((CG).step c s.signalMa _ h.2.2).bind ?_
    rintro ⟨o2, m2⟩ h2
    exact ⟨h0, h1, h2⟩
  init s h := by
    obtain ⟨a0, e0, h⟩ := Res.bind_ok h
    obtain ⟨a1, e1, h⟩ := Res.bind_ok h
    obtain ⟨a2, e2, h⟩ := Res.bind_ok h
    have := Except.ok.inj h; subst this
    exact ⟨(CA).init a0 e0, (CB).init a1 e1, (CG).init a2 e2⟩
  fails := Asserts.bind (CA).fails fun _ => Asserts.bind (CB).fails fun _ => Asserts.bind (CG).fails fun _ => .pure _

def priceOscS (CA : Sound short newA) (CB : Sound long newB) :
    Sound (α := α) (PriceOscillator.nextOf short long) (do return ⟨← newA, ← newB⟩) where
  Inv b s := (CA).Inv b s.shortMa ∧ (CB).Inv b s.longMa
  mono h hb := ⟨(CA).mono h.1 hb, (CB).mono h.2 hb⟩
  step c s v h := by
    unfold PriceOscillator.nextOf
    refine ((CA).step c s.shortMa _ h.1).bind ?_
    rintro ⟨o0, m0⟩ h0
    refine ((CB).step c s.longMa _ h.2).bind ?_
    rintro ⟨o1, m1⟩ h1
    exact ⟨h0, h1⟩
  init s h := by
    obtain ⟨a0, e0, h⟩ := Res.bind_ok h
    obtain ⟨a1, e1, h⟩ := Res.bind_ok h
    have := Except.ok.inj h; subst this
    exact ⟨(CA).init a0 e0, (CB).init a1 e1⟩
  fails := Asserts.bind (CA).fails fun _ => Asserts.bind (CB).fails fun _ => .pure _

def volumeOscS (CA : Sound short newA) (CB : Sound long newB) :
    Sound (α := α) (barsOnly (VolumeOscillator.nextOf short long)) (do return ⟨← newA, ← newB⟩) where
  Inv b s := (CA).Inv b s.shortMa ∧ (CB).Inv b s.longMa
  mono h hb := ⟨(CA).mono h.1 hb, (CB).mono h.2 hb⟩
  step c s v h := by
    unfold barsOnly VolumeOscillator.nextOf
    refine Good.barVolume.step fun x_ => ?_
    refine ((CA).step c s.shortMa _ h.1).bind ?_
    rintro ⟨o0, m0⟩ h0
    refine ((CB).step c s.longMa _ h.2).bind ?_
    rintro ⟨o1, m1⟩ h1
    exact ⟨h0, h1⟩
  init s h := by
    obtain ⟨a0, e0, h⟩ := Res.bind_ok h
    obtain ⟨a1, e1, h⟩ := Res.bind_ok h
    have := Except.ok.inj h; subst this
    exact ⟨(CA).init a0 e0, (CB).init a1 e1⟩
  fails := Asserts.bind (CA).fails fun _ => Asserts.bind (CB).fails fun _ => .pure _

end

/-! ## The other indicators -/

theorem balanceOfPower_good (c : Ctx α) : Good c (fun _ => True) (BalanceOfPower.next c) := by
  unfold BalanceOfPower.next
  refine Good.barClose.step fun cl => Good.barOpen.step fun op => Good.barHigh.step fun hi => Good.barLow.step fun lo => ?_
  rcases cl with _ | cl
  · exact trivial
  rcases op with _ | op
  · exact trivial
  rcases hi with _ | hi
  · exact trivial
  rcases lo with _ | lo
  · exact trivial
  dsimp only
  split <;> exact trivial

def percentBS (len : Nat) (mult : α) :
    Sound (α := α) BollingerBandsPercentB.next (BollingerBands.new len mult) where
  Inv b s := (smaS (α := α) 1).Inv b s.basis ∧ (stdevS (α := α) 1 true).Inv b s.stdev
  mono h hb := ⟨(smaS (α := α) 1).mono h.1 hb, (stdevS (α := α) 1 true).mono h.2 hb⟩
  step c s v h := by
    unfold BollingerBandsPercentB.next
    refine ((smaS (α := α) 1).step c s.basis _ h.1).bind ?_
    rintro ⟨o0, m0⟩ h0
    refine ((stdevS (α := α) 1 true).step c s.stdev _ h.2).bind ?_
    rintro ⟨o1, m1⟩ h1
    rcases v with _ | v
    · exact ⟨h0, h1⟩
    rcases o0 with _ | o0
    · exact ⟨h0, h1⟩
    rcases o1 with _ | o1
    · exact ⟨h0, h1⟩
    dsimp only
    split <;> exact ⟨h0, h1⟩
  init s h := by
    obtain ⟨a0, e0, h⟩ := Res.bind_ok h
    obtain ⟨a1, e1, h⟩ := Res.bind_ok h
    have := Except.ok.inj h; subst this
    exact ⟨(smaS len).init a0 e0, (stdevS len true).init a1 e1⟩
  fails := Asserts.bind (smaS len).fails fun _ => Asserts.bind (stdevS len true).fails fun _ => .pure _

def widthS (len : Nat) (mult : α) :
    Sound (α := α) BollingerBandsWidth.next (BollingerBands.new len mult) where
  Inv b s := (smaS (α := α) 1).Inv b s.basis ∧ (stdevS (α := α) 1 true).Inv b s.stdev
  mono h hb := ⟨(smaS (α := α) 1).mono h.1 hb, (stdevS (α := α) 1 true).mono h.2 hb⟩
  step c s v h := by
    unfold BollingerBandsWidth.next
    refine ((smaS (α := α) 1).step c s.basis _ h.1).bind ?_
    rintro ⟨o0, m0⟩ h0
    refine ((stdevS (α := α) 1 true).step c s.stdev _ h.2).bind ?_
    rintro ⟨o1, m1⟩ h1
    rcases v with _ | v
    · exact ⟨h0, h1⟩
    rcases o0 with _ | o0
    · exact ⟨h0, h1⟩
    rcases o1 with _ | o1
    · exact ⟨h0, h1⟩
    dsimp only
    split <;> exact ⟨h0, h1⟩
  init s h := by
    obtain ⟨a0, e0, h⟩ := Res.bind_ok h
    obtain ⟨a1, e1, h⟩ := Res.bind_ok h
    have := Except.ok.inj h; subst this
    exact ⟨(smaS len).init a0 e0, (stdevS len true).init a1 e1⟩
  fails := Asserts.bind (smaS len).fails fun _ => Asserts.bind (stdevS len true).fails fun _ => .pure _

def moneyFlowS (len : Nat) :
    Sound (α := α) (barsOnly ChaikinMoneyFlow.next) (ChaikinMoneyFlow.new len) where
  Inv b s := (sumS (α := α) 1).Inv b s.volumeSum ∧ (sumS (α := α) 1).Inv b s.adSum
  mono h hb := ⟨(sumS (α := α) 1).mono h.1 hb, (sumS (α := α) 1).mono h.2 hb⟩
  step c s v h := by
    unfold barsOnly ChaikinMoneyFlow.next
    refine Good.barClose.step fun x_ => ?_
    refine Good.barHigh.step fun x_ => ?_
    refine Good.barLow.step fun x_ => ?_
    refine Good.barVolume.step fun x_ => ?_
    refine ((sumS (α := α) 1).step c s.volumeSum _ h.1).bind ?_
    rintro ⟨o0, m0⟩ h0
    refine ((sumS (α := α) 1).step c s.adSum _ h.2).bind ?_
    rintro ⟨o1, m1⟩ h1
    exact ⟨h0, h1⟩
  init s h := by
    obtain ⟨a0, e0, h⟩ := Res.bind_ok h
    obtain ⟨a1, e1, h⟩ := Res.bind_ok h
    have := Except.ok.inj h; subst this
    exact ⟨(sumS len).init a0 e0, (sumS len).init a1 e1⟩
  fails := Asserts.bind (sumS len).fails fun _ => Asserts.bind (sumS len).fails fun _ => .pure _

def chandeMomentumS (len : Nat) :
    Sound (α := α) ChandeMomentumOscillator.next (ChandeMomentumOscillator.new len) where
  Inv b s := (sumS (α := α) 1).Inv b s.sm1 ∧ (sumS (α := α) 1).Inv b s.sm2
  mono h hb := ⟨(sumS (α := α) 1).mono h.1 hb, (sumS (α := α) 1).mono h.2 hb⟩
  step c s v h := by
    unfold ChandeMomentumOscillator.next
    refine ((sumS (α := α) 1).step c s.sm1 _ h.1).bind ?_
    rintro ⟨o0, m0⟩ h0
    refine ((sumS (α := α) 1).step c s.sm2 _ h.2).bind ?_
    rintro ⟨o1, m1⟩ h1
    exact ⟨h0, h1⟩
  init s h := by
    obtain ⟨_, _, h⟩ := Res.bind_ok h
    obtain ⟨a0, e0, h⟩ := Res.bind_ok h
    obtain ⟨a1, e1, h⟩ := Res.bind_ok h
    have := Except.ok.inj h; subst this
    exact ⟨(sumS len).init a0 e0, (sumS len).init a1 e1⟩
  fails := Asserts.bind (.assert _) fun _ => Asserts.bind (sumS len).fails fun _ => Asserts.bind (sumS len).fails fun _ => .pure _

def channelS (len : Nat) :
    Sound (α := α) CommodityChannelIndex.next (CommodityChannelIndex.new len) where
  Inv b s := (smaS (α := α) 1).Inv b s.sma ∧ (devS (α := α) 1).Inv b s.dev
  mono h hb := ⟨(smaS (α := α) 1).mono h.1 hb, (devS (α := α) 1).mono h.2 hb⟩
  step c s v h := by
    unfold CommodityChannelIndex.next
    refine ((smaS (α := α) 1).step c s.sma _ h.1).bind ?_
    rintro ⟨o0, m0⟩ h0
    refine ((devS (α := α) 1).step c s.dev _ h.2).bind ?_
    rintro ⟨o1, m1⟩ h1
    exact ⟨h0, h1⟩
  init s h := by
    obtain ⟨a0, e0, h⟩ := Res.bind_ok h
    obtain ⟨a1, e1, h⟩ := Res.bind_ok h
    have := Except.ok.inj h; subst this
    exact ⟨(smaS len).init a0 e0, (devS len).init a1 e1⟩
  fails := Asserts.bind (smaS len).fails fun _ => Asserts.bind (devS len).fails fun _ => .pure _

def volatilityS (len maLen : Nat) :
    Sound (α := α) RelativeVolatilityIndex.next (RelativeVolatilityIndex.new len maLen) where
  Inv b s := (stdevS (α := α) 1 true).Inv b s.stdev ∧ (emaS (α := α) 1).Inv b s.upperEma ∧ (emaS (α := α) 1).Inv b s.lowerEma
  mono h hb := ⟨(stdevS (α := α) 1 true).mono h.1 hb, (emaS (α := α) 1).mono h.2.1 hb, (emaS (α := α) 1).mono h.2.2 hb⟩
  step c s v h := by
    unfold RelativeVolatilityIndex.next
    refine ((stdevS (α := α) 1 true).step c s.stdev _ h.1).bind ?_
    rintro ⟨o0, m0⟩ h0
    refine ((emaS (α := α) 1).step c s.upperEma _ h.2.1).bind ?_
    rintro ⟨o1, m1⟩ h1
    refine ((emaS (α := α) 1).step c s.lowerEma _ h.2.2).bind ?_
    rintro ⟨o2, m2⟩ h2
    exact ⟨h0, h1, h2⟩
  init s h := by
    obtain ⟨a0, e0, h⟩ := Res.bind_ok h
    obtain ⟨a1, e1, h⟩ := Res.bind_ok h
    obtain ⟨a2, e2, h⟩ := Res.bind_ok h
    have := Except.ok.inj h; subst this
    exact ⟨(stdevS len true).init a0 e0, (emaS maLen).init a1 e1, (emaS maLen).init a2 e2⟩
  fails := Asserts.bind (stdevS len true).fails fun _ => Asserts.bind (emaS maLen).fails fun _ => Asserts.bind (emaS maLen).fails fun _ => .pure _

def donchianS (len : Nat) :
    Sound (α := α) (barsOnly DonchianChannels.next) (DonchianChannels.new len) where
  Inv b s := (highestS (α := α) 1).Inv b s.highest ∧ (lowestS (α := α) 1).Inv b s.lowest
  mono h hb := ⟨(highestS (α := α) 1).mono h.1 hb, (lowestS (α := α) 1).mono h.2 hb⟩
  step c s v h := by
    unfold barsOnly DonchianChannels.next
    refine Good.barHigh.step fun x_ => ?_
    refine ((highestS (α := α) 1).step c s.highest _ h.1).bind ?_
    rintro ⟨o0, m0⟩ h0
    refine Good.barLow.step fun x_ => ?_
    refine ((lowestS (α := α) 1).step c s.lowest _ h.2).bind ?_
    rintro ⟨o1, m1⟩ h1
    exact ⟨h0, h1⟩
  init s h := by
    obtain ⟨a0, e0, h⟩ := Res.bind_ok h
    obtain ⟨a1, e1, h⟩ := Res.bind_ok h
    have := Except.ok.inj h; subst this
    exact ⟨(highestS len).init a0 e0, (lowestS len).init a1 e1⟩
  fails := Asserts.bind (highestS len).fails fun _ => Asserts.bind (lowestS len).fails fun _ => .pure _

def williamsS (len : Nat) :
    Sound (α := α) WilliamsPercentRank.next (WilliamsPercentRank.new len) where
  Inv b s := (highestS (α := α) 1).Inv b s.highest ∧ (lowestS (α := α) 1).Inv b s.lowest
  mono h hb := ⟨(highestS (α := α) 1).mono h.1 hb, (lowestS (α := α) 1).mono h.2 hb⟩
  step c s v h := by
    unfold WilliamsPercentRank.next
    refine Good.barHigh.step fun x_ => ?_
    refine ((highestS (α := α) 1).step c s.highest _ h.1).bind ?_
    rintro ⟨o0, m0⟩ h0
    refine Good.barLow.step fun x_ => ?_
    refine ((lowestS (α := α) 1).step c s.lowest _ h.2).bind ?_
    rintro ⟨o1, m1⟩ h1
    exact ⟨h0, h1⟩
  init s h := by
    obtain ⟨a0, e0, h⟩ := Res.bind_ok h
    obtain ⟨a1, e1, h⟩ := Res.bind_ok h
    have := Except.ok.inj h; subst this
    exact ⟨(highestS len).init a0 e0, (lowestS len).init a1 e1⟩
  fails := Asserts.bind (highestS len).fails fun _ => Asserts.bind (lowestS len).fails fun _ => .pure _

def chandeKrollS (p q : Nat) (x : α) :
    Sound (α := α) (barsOnly ChandeKrollStop.next) (ChandeKrollStop.new p q x) where
  Inv b s := (atrS (α := α) 1).Inv b s.atr ∧ (highestS (α := α) 1).Inv b s.firstHighStopHighest ∧ (lowestS (α := α) 1).Inv b s.firstLowStopLowest ∧ (highestS (α := α) 1).Inv b s.stopShortHighest ∧ (lowestS (α := α) 1).Inv b s.stopLongLowest
  mono h hb := ⟨(atrS (α := α) 1).mono h.1 hb, (highestS (α := α) 1).mono h.2.1 hb, (lowestS (α := α) 1).mono h.2.2.1 hb, (highestS (α := α) 1).mono h.2.2.2.1 hb, (lowestS (α := α) 1).mono h.2.2.2.2 hb⟩
  step c s v h := by
    unfold barsOnly ChandeKrollStop.next
    refine ((atrS (α := α) 1).step c s.atr () h.1).bind ?_
    rintro ⟨o0, m0⟩ h0
    refine Good.barHigh.step fun x_ => ?_
    refine ((highestS (α := α) 1).step c s.firstHighStopHighest _ h.2.1).bind ?_
    rintro ⟨o1, m1⟩ h1
    refine Good.barLow.step fun x_ => ?_
    refine ((lowestS (α := α) 1).step c s.firstLowStopLowest _ h.2.2.1).bind ?_
    rintro ⟨o2, m2⟩ h2
    dsimp only
    refine ((highestS (α := α) 1).step c s.stopShortHighest _ h.2.2.2.1).bind ?_
    rintro ⟨o3, m3⟩ h3
    refine ((lowestS (α := α) 1).step c s.stopLongLowest _ h.2.2.2.2).bind ?_
    rintro ⟨o4, m4⟩ h4
    exact ⟨h0, h1, h2, h3, h4⟩
  init s h := by
    obtain ⟨a0, e0, h⟩ := Res.bind_ok h
    obtain ⟨a1, e1, h⟩ := Res.bind_ok h
    obtain ⟨a2, e2, h⟩ := Res.bind_ok h
    obtain ⟨a3, e3, h⟩ := Res.bind_ok h
    obtain ⟨a4, e4, h⟩ := Res.bind_ok h
    have := Except.ok.inj h; subst this
    exact ⟨(atrS p).init a0 e0, (highestS p).init a1 e1, (lowestS p).init a2 e2, (highestS q).init a3 e3, (lowestS q).init a4 e4⟩
  fails := Asserts.bind (atrS p).fails fun _ => Asserts.bind (highestS p).fails fun _ => Asserts.bind (lowestS p).fails fun _ => Asserts.bind (highestS q).fails fun _ => Asserts.bind (lowestS q).fails fun _ => .pure _

def choppinessS (len : Nat) :
    Sound (α := α) (barsOnly ChoppinessIndex.next) (ChoppinessIndex.new len) where
  Inv b s := (atrS (α := α) 1).Inv b s.atr ∧ (sumS (α := α) 1).Inv b s.atrSum ∧ (highestS (α := α) 1).Inv b s.highest ∧ (lowestS (α := α) 1).Inv b s.lowest
  mono h hb := ⟨(atrS (α := α) 1).mono h.1 hb, (sumS (α := α) 1).mono h.2.1 hb, (highestS (α := α) 1).mono h.2.2.1 hb, (lowestS (α := α) 1).mono h.2.2.2 hb⟩
  step c s v h := by
    unfold barsOnly ChoppinessIndex.next
    refine ((atrS (α := α) 1).step c s.atr () h.1).bind ?_
    rintro ⟨o0, m0⟩ h0
    refine ((sumS (α := α) 1).step c s.atrSum _ h.2.1).bind ?_
    rintro ⟨o1, m1⟩ h1
    refine Good.barHigh.step fun x_ => ?_
    refine ((highestS (α := α) 1).step c s.highest _ h.2.2.1).bind ?_
    rintro ⟨o2, m2⟩ h2
    refine Good.barLow.step fun x_ => ?_
    refine ((lowestS (α := α) 1).step c s.lowest _ h.2.2.2).bind ?_
    rintro ⟨o3, m3⟩ h3
    exact ⟨h0, h1, h2, h3⟩
  init s h := by
    obtain ⟨a0, e0, h⟩ := Res.bind_ok h
    obtain ⟨a1, e1, h⟩ := Res.bind_ok h
    obtain ⟨a2, e2, h⟩ := Res.bind_ok h
    obtain ⟨a3, e3, h⟩ := Res.bind_ok h
    have := Except.ok.inj h; subst this
    exact ⟨(atrS 1).init a0 e0, (sumS len).init a1 e1, (highestS len).init a2 e2, (lowestS len).init a3 e3⟩
  fails := Asserts.bind (atrS 1).fails fun _ => Asserts.bind (sumS len).fails fun _ => Asserts.bind (highestS len).fails fun _ => Asserts.bind (lowestS len).fails fun _ => .pure _

def connorsS (lr lu lc : Nat) :
    Sound (α := α) ConnorsRsi.next (ConnorsRsi.new lr lu lc) where
  Inv b s := (rsiS (α := α) 1).Inv b s.rsi ∧ (rsiS (α := α) 1).Inv b s.upDownRsi ∧ (prankS (α := α) 1).Inv b s.percentRank ∧ (rocS (α := α) 1).Inv b s.roc
  mono h hb := ⟨(rsiS (α := α) 1).mono h.1 hb, (rsiS (α := α) 1).mono h.2.1 hb, (prankS (α := α) 1).mono h.2.2.1 hb, (rocS (α := α) 1).mono h.2.2.2 hb⟩
  step c s v h := by
    unfold ConnorsRsi.next
    refine ((rsiS (α := α) 1).step c s.rsi _ h.1).bind ?_
    rintro ⟨o0, m0⟩ h0
    refine ((rsiS (α := α) 1).step c s.upDownRsi _ h.2.1).bind ?_
    rintro ⟨o1, m1⟩ h1
    refine ((rocS (α := α) 1).step c s.roc _ h.2.2.2).bind ?_
    rintro ⟨o3, m3⟩ h3
    refine ((prankS (α := α) 1).step c s.percentRank _ h.2.2.1).bind ?_
    rintro ⟨o2, m2⟩ h2
    exact ⟨h0, h1, h2, h3⟩
  init s h := by
    obtain ⟨a0, e0, h⟩ := Res.bind_ok h
    obtain ⟨a1, e1, h⟩ := Res.bind_ok h
    obtain ⟨a2, e2, h⟩ := Res.bind_ok h
    obtain ⟨a3, e3, h⟩ := Res.bind_ok h
    have := Except.ok.inj h; subst this
    exact ⟨(rsiS lr).init a0 e0, (rsiS lu).init a1 e1, (prankS lc).init a2 e2, (rocS 1).init a3 e3⟩
  fails := Asserts.bind (rsiS lr).fails fun _ => Asserts.bind (rsiS lu).fails fun _ => Asserts.bind (prankS lc).fails fun _ => Asserts.bind (rocS 1).fails fun _ => .pure _

def coppockS (len lo sh : Nat) :
    Sound (α := α) CoppockCurve.next (CoppockCurve.new len lo sh) where
  Inv b s := (wmaS (α := α) 1).Inv b s.ma ∧ (rocS (α := α) 1).Inv b s.longRoc ∧ (rocS (α := α) 1).Inv b s.shortRoc
  mono h hb := ⟨(wmaS (α := α) 1).mono h.1 hb, (rocS (α := α) 1).mono h.2.1 hb, (rocS (α := α) 1).mono h.2.2 hb⟩
  step c s v h := by
    unfold CoppockCurve.next
    refine ((rocS (α := α) 1).step c s.longRoc _ h.2.1).bind ?_
    rintro ⟨o1, m1⟩ h1
    refine ((rocS (α := α) 1).step c s.shortRoc _ h.2.2).bind ?_
    rintro ⟨o2, m2⟩ h2
    refine ((wmaS (α := α) 1).step c s.ma _ h.1).bind ?_
    rintro ⟨o0, m0⟩ h0
    exact ⟨h0, h1, h2⟩
  init s h := by
    obtain ⟨a0, e0, h⟩ := Res.bind_ok h
    obtain ⟨a1, e1, h⟩ := Res.bind_ok h
    obtain ⟨a2, e2, h⟩ := Res.bind_ok h
    have := Except.ok.inj h; subst this
    exact ⟨(wmaS len).init a0 e0, (rocS lo).init a1 e1, (rocS sh).init a2 e2⟩
  fails := Asserts.bind (wmaS len).fails fun _ => Asserts.bind (rocS lo).fails fun _ => Asserts.bind (rocS sh).fails fun _ => .pure _

def dmiS (len sig : Nat) :
    Sound (α := α) (barsOnly Dmi.next) (Dmi.new len sig) where
  Inv b s := (rmaS (α := α) 1).Inv b s.trueRangeRma ∧ (rmaS (α := α) 1).Inv b s.plusDmRma ∧ (rmaS (α := α) 1).Inv b s.minusDmRma ∧ (rmaS (α := α) 1).Inv b s.adx
  mono h hb := ⟨(rmaS (α := α) 1).mono h.1 hb, (rmaS (α := α) 1).mono h.2.1 hb, (rmaS (α := α) 1).mono h.2.2.1 hb, (rmaS (α := α) 1).mono h.2.2.2 hb⟩
  step c s v h := by
    unfold barsOnly Dmi.next
    refine Good.barHigh.step fun x_ => ?_
    refine Good.barLow.step fun x_ => ?_
    refine (Good.high 1).step fun x_ => ?_
    refine (Good.low 1).step fun x_ => ?_
    refine (tr_good c false).step fun x_ => ?_
    refine ((rmaS (α := α) 1).step c s.trueRangeRma _ h.1).bind ?_
    rintro ⟨o0, m0⟩ h0
    refine ((rmaS (α := α) 1).step c s.plusDmRma _ h.2.1).bind ?_
    rintro ⟨o1, m1⟩ h1
    refine ((rmaS (α := α) 1).step c s.minusDmRma _ h.2.2.1).bind ?_
    rintro ⟨o2, m2⟩ h2
    refine ((rmaS (α := α) 1).step c s.adx _ h.2.2.2).bind ?_
    rintro ⟨o3, m3⟩ h3
    exact ⟨h0, h1, h2, h3⟩
  init s h := by
    obtain ⟨a0, e0, h⟩ := Res.bind_ok h
    obtain ⟨a1, e1, h⟩ := Res.bind_ok h
    obtain ⟨a2, e2, h⟩ := Res.bind_ok h
    obtain ⟨a3, e3, h⟩ := Res.bind_ok h
    have := Except.ok.inj h; subst this
    exact ⟨(rmaS len).init a0 e0, (rmaS len).init a1 e1, (rmaS len).init a2 e2, (rmaS sig).init a3 e3⟩
  fails := Asserts.bind (rmaS len).fails fun _ => Asserts.bind (rmaS len).fails fun _ => Asserts.bind (rmaS len).fails fun _ => Asserts.bind (rmaS sig).fails fun _ => .pure _

def vigorS (len : Nat) :
    Sound (α := α) (barsOnly RelativeVigorIndex.next) (RelativeVigorIndex.new len) where
  Inv b s := (swmaS (α := α)).Inv b s.swmaCloseOpen ∧ (swmaS (α := α)).Inv b s.swmaHighLow ∧ (sumS (α := α) 1).Inv b s.sumCloseOpen ∧ (sumS (α := α) 1).Inv b s.sumHighLow ∧ (swmaS (α := α)).Inv b s.swmaSig
  mono h hb := ⟨(swmaS (α := α)).mono h.1 hb, (swmaS (α := α)).mono h.2.1 hb, (sumS (α := α) 1).mono h.2.2.1 hb, (sumS (α := α) 1).mono h.2.2.2.1 hb, (swmaS (α := α)).mono h.2.2.2.2 hb⟩
  step c s v h := by
    unfold barsOnly RelativeVigorIndex.next
    refine Good.barClose.step fun x_ => ?_
    refine Good.barOpen.step fun x_ => ?_
    refine Good.barHigh.step fun x_ => ?_
    refine Good.barLow.step fun x_ => ?_
    refine ((swmaS (α := α)).step c s.swmaCloseOpen _ h.1).bind ?_
    rintro ⟨o0, m0⟩ h0
    refine ((swmaS (α := α)).step c s.swmaHighLow _ h.2.1).bind ?_
    rintro ⟨o1, m1⟩ h1
    refine ((sumS (α := α) 1).step c s.sumCloseOpen _ h.2.2.1).bind ?_
    rintro ⟨o2, m2⟩ h2
    refine ((sumS (α := α) 1).step c s.sumHighLow _ h.2.2.2.1).bind ?_
    rintro ⟨o3, m3⟩ h3
    refine ((swmaS (α := α)).step c s.swmaSig _ h.2.2.2.2).bind ?_
    rintro ⟨o4, m4⟩ h4
    exact ⟨h0, h1, h2, h3, h4⟩
  init s h := by
    obtain ⟨a0, e0, h⟩ := Res.bind_ok h
    obtain ⟨a1, e1, h⟩ := Res.bind_ok h
    obtain ⟨a2, e2, h⟩ := Res.bind_ok h
    obtain ⟨a3, e3, h⟩ := Res.bind_ok h
    obtain ⟨a4, e4, h⟩ := Res.bind_ok h
    have := Except.ok.inj h; subst this
    exact ⟨(swmaS (α := α)).init a0 e0, (swmaS (α := α)).init a1 e1, (sumS len).init a2 e2, (sumS len).init a3 e3, (swmaS (α := α)).init a4 e4⟩
  fails := Asserts.bind (swmaS (α := α)).fails fun _ => Asserts.bind (swmaS (α := α)).fails fun _ => Asserts.bind (sumS len).fails fun _ => Asserts.bind (sumS len).fails fun _ => Asserts.bind (swmaS (α := α)).fails fun _ => .pure _

def stochRsiS (lr ls sk sd : Nat) :
    Sound (α := α) StochRsi.next (StochRsi.new lr ls sk sd) where
  Inv b s := (rsiS (α := α) 1).Inv b s.rsi ∧ (stochS (α := α) 1).Inv b s.kStoch ∧ (smaS (α := α) 1).Inv b s.kSma ∧ (smaS (α := α) 1).Inv b s.dSma
  mono h hb := ⟨(rsiS (α := α) 1).mono h.1 hb, (stochS (α := α) 1).mono h.2.1 hb, (smaS (α := α) 1).mono h.2.2.1 hb, (smaS (α := α) 1).mono h.2.2.2 hb⟩
  step c s v h := by
    unfold StochRsi.next
    refine ((rsiS (α := α) 1).step c s.rsi _ h.1).bind ?_
    rintro ⟨o0, m0⟩ h0
    refine ((stochS (α := α) 1).step c s.kStoch _ h.2.1).bind ?_
    rintro ⟨o1, m1⟩ h1
    refine ((smaS (α := α) 1).step c s.kSma _ h.2.2.1).bind ?_
    rintro ⟨o2, m2⟩ h2
    refine ((smaS (α := α) 1).step c s.dSma _ h.2.2.2).bind ?_
    rintro ⟨o3, m3⟩ h3
    exact ⟨h0, h1, h2, h3⟩
  init s h := by
    obtain ⟨a0, e0, h⟩ := Res.bind_ok h
    obtain ⟨a1, e1, h⟩ := Res.bind_ok h
    obtain ⟨a2, e2, h⟩ := Res.bind_ok h
    obtain ⟨a3, e3, h⟩ := Res.bind_ok h
    have := Except.ok.inj h; subst this
    exact ⟨(rsiS lr).init a0 e0, (stochS ls).init a1 e1, (smaS sk).init a2 e2, (smaS sd).init a3 e3⟩
  fails := Asserts.bind (rsiS lr).fails fun _ => Asserts.bind (stochS ls).fails fun _ => Asserts.bind (smaS sk).fails fun _ => Asserts.bind (smaS sd).fails fun _ => .pure _

theorem ultimate_sums (c : Ctx α) (s : UltimateOscillator α) (bp tr : Option α) (h : (sumS (α := α) 1).Inv c.index s.shortSumBp ∧
    (sumS (α := α) 1).Inv c.index s.shortSumTr ∧ (sumS (α := α) 1).Inv c.index s.midSumBp ∧ (sumS (α := α) 1).Inv c.index s.midSumTr ∧
    (sumS (α := α) 1).Inv c.index s.longSumBp ∧ (sumS (α := α) 1).Inv c.index s.longSumTr) :
    Good c (fun r : Option α × UltimateOscillator α => (sumS (α := α) 1).Inv c.index r.2.shortSumBp ∧
      (sumS (α := α) 1).Inv c.index r.2.shortSumTr ∧ (sumS (α := α) 1).Inv c.index r.2.midSumBp ∧
      (sumS (α := α) 1).Inv c.index r.2.midSumTr ∧ (sumS (α := α) 1).Inv c.index r.2.longSumBp ∧
      (sumS (α := α) 1).Inv c.index r.2.longSumTr) (do
        let (fb, a) ← s.shortSumBp.next c bp
        let (ft, b) ← s.shortSumTr.next c tr
        let (mb, d) ← s.midSumBp.next c bp
        let (mt, e) ← s.midSumTr.next c tr
        let (lb, f) ← s.longSumBp.next c bp
        let (lt, g) ← s.longSumTr.next c tr
        let uo := match psDiv fb ft, psDiv mb mt, psDiv lb lt with
          | some fast, some mid, some slow => some (lit 100 * (lit 4 * fast + lit 2 * mid + slow) / lit 7)
          | _, _, _ => none
        return (uo, ⟨a, b, d, e, f, g⟩)) := by
  refine ((sumS 1).step c s.shortSumBp _ h.1).bind ?_
  rintro ⟨o0, m0⟩ h0
  refine ((sumS 1).step c s.shortSumTr _ h.2.1).bind ?_
  rintro ⟨o1, m1⟩ h1
  refine ((sumS 1).step c s.midSumBp _ h.2.2.1).bind ?_
  rintro ⟨o2, m2⟩ h2
  refine ((sumS 1).step c s.midSumTr _ h.2.2.2.1).bind ?_
  rintro ⟨o3, m3⟩ h3
  refine ((sumS 1).step c s.longSumBp _ h.2.2.2.2.1).bind ?_
  rintro ⟨o4, m4⟩ h4
  refine ((sumS 1).step c s.longSumTr _ h.2.2.2.2.2).bind ?_
  rintro ⟨o5, m5⟩ h5
  exact ⟨h0, h1, h2, h3, h4, h5⟩


def ultimateS (sh mi lo : Nat) :
    Sound (α := α) (barsOnly UltimateOscillator.next) (UltimateOscillator.new sh mi lo) where
  Inv b s := (sumS (α := α) 1).Inv b s.shortSumBp ∧ (sumS (α := α) 1).Inv b s.shortSumTr ∧ (sumS (α := α) 1).Inv b s.midSumBp ∧ (sumS (α := α) 1).Inv b s.midSumTr ∧ (sumS (α := α) 1).Inv b s.longSumBp ∧ (sumS (α := α) 1).Inv b s.longSumTr
  mono h hb := ⟨(sumS (α := α) 1).mono h.1 hb, (sumS (α := α) 1).mono h.2.1 hb, (sumS (α := α) 1).mono h.2.2.1 hb, (sumS (α := α) 1).mono h.2.2.2.1 hb, (sumS (α := α) 1).mono h.2.2.2.2.1 hb, (sumS (α := α) 1).mono h.2.2.2.2.2 hb⟩
  step c s v h := by
    unfold barsOnly UltimateOscillator.next
    refine Good.barHigh.step fun x_ => ?_
    refine Good.barLow.step fun x_ => ?_
    refine Good.barClose.step fun x_ => ?_
    dsimp only
    split
    · refine (Good.close 1).step fun pc => ?_
      exact ultimate_sums c s _ _ h
    · exact ultimate_sums c s _ _ h
    
  init s h := by
    obtain ⟨a0, e0, h⟩ := Res.bind_ok h
    obtain ⟨a1, e1, h⟩ := Res.bind_ok h
    obtain ⟨a2, e2, h⟩ := Res.bind_ok h
    obtain ⟨a3, e3, h⟩ := Res.bind_ok h
    obtain ⟨a4, e4, h⟩ := Res.bind_ok h
    obtain ⟨a5, e5, h⟩ := Res.bind_ok h
    have := Except.ok.inj h; subst this
    exact ⟨(sumS sh).init a0 e0, (sumS sh).init a1 e1, (sumS mi).init a2 e2, (sumS mi).init a3 e3, (sumS lo).init a4 e4, (sumS lo).init a5 e5⟩
  fails := Asserts.bind (sumS sh).fails fun _ => Asserts.bind (sumS sh).fails fun _ => Asserts.bind (sumS mi).fails fun _ => Asserts.bind (sumS mi).fails fun _ => Asserts.bind (sumS lo).fails fun _ => Asserts.bind (sumS lo).fails fun _ => .pure _

def vortexS (len : Nat) :
    Sound (α := α) (barsOnly Vortex.next) (Vortex.new len) where
  Inv b s := (sumS (α := α) 1).Inv b s.vmpSum ∧ (sumS (α := α) 1).Inv b s.vmmSum ∧ (sumS (α := α) 1).Inv b s.atrSum ∧ (atrS (α := α) 1).Inv b s.atr
  mono h hb := ⟨(sumS (α := α) 1).mono h.1 hb, (sumS (α := α) 1).mono h.2.1 hb, (sumS (α := α) 1).mono h.2.2.1 hb, (atrS (α := α) 1).mono h.2.2.2 hb⟩
  step c s v h := by
    unfold barsOnly Vortex.next
    refine Good.barHigh.step fun x_ => ?_
    refine Good.barLow.step fun x_ => ?_
    refine (Good.high 1).step fun x_ => ?_
    refine (Good.low 1).step fun x_ => ?_
    refine ((sumS (α := α) 1).step c s.vmpSum _ h.1).bind ?_
    rintro ⟨o0, m0⟩ h0
    refine ((sumS (α := α) 1).step c s.vmmSum _ h.2.1).bind ?_
    rintro ⟨o1, m1⟩ h1
    refine ((atrS (α := α) 1).step c s.atr () h.2.2.2).bind ?_
    rintro ⟨o3, m3⟩ h3
    refine ((sumS (α := α) 1).step c s.atrSum _ h.2.2.1).bind ?_
    rintro ⟨o2, m2⟩ h2
    exact ⟨h0, h1, h2, h3⟩
  init s h := by
    obtain ⟨a0, e0, h⟩ := Res.bind_ok h
    obtain ⟨a1, e1, h⟩ := Res.bind_ok h
    obtain ⟨a2, e2, h⟩ := Res.bind_ok h
    obtain ⟨a3, e3, h⟩ := Res.bind_ok h
    have := Except.ok.inj h; subst this
    exact ⟨(sumS len).init a0 e0, (sumS len).init a1 e1, (sumS len).init a2 e2, (atrS 1).init a3 e3⟩
  fails := Asserts.bind (sumS len).fails fun _ => Asserts.bind (sumS len).fails fun _ => Asserts.bind (sumS len).fails fun _ => Asserts.bind (atrS 1).fails fun _ => .pure _

def aroonS (len : Nat) : Sound (α := α) (barsOnly Aroon.next) (Aroon.new len) where
  Inv b s := 1 ≤ s.length ∧ (highestBarsS (α := α) 1).Inv b s.highestBars ∧ (lowestBarsS (α := α) 1).Inv b s.lowestBars
  mono h hb := ⟨h.1, (highestBarsS (α := α) 1).mono h.2.1 hb, (lowestBarsS (α := α) 1).mono h.2.2 hb⟩
  step c s v h := by
    unfold barsOnly Aroon.next
    refine (Good.atLength h.1).step' fun b => ?_
    cases b with
    | false => exact h
    | true =>
      simp only [Bool.not_true, Bool.false_eq_true, if_false]
      refine ((highestBarsS (α := α) 1).step c s.highestBars () h.2.1).bind ?_
      rintro ⟨o0, m0⟩ h0
      refine ((lowestBarsS (α := α) 1).step c s.lowestBars () h.2.2).bind ?_
      rintro ⟨o1, m1⟩ h1
      exact ⟨h.1, h0, h1⟩
  init s h := by
    obtain ⟨a, ha, h⟩ := Res.bind_ok h
    obtain ⟨b, hb, h⟩ := Res.bind_ok h
    have := Except.ok.inj h; subst this
    have h1 := (highestBarsS (α := α) len).init a ha
    have h2 := (lowestBarsS (α := α) len).init b hb
    obtain ⟨_, h0, _⟩ := Res.bind_ok ha
    exact ⟨by simpa using assert_ok h0, h1, h2⟩
  fails := Asserts.bind (highestBarsS (α := α) len).fails fun _ => Asserts.bind (lowestBarsS (α := α) len).fails fun _ => .pure _

end Pace
