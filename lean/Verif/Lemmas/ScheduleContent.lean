import Verif.Lemmas.ScheduleTa
import Verif.Model.Defaults

/-!
# The same calls made later: the indicators
-/

namespace Pace
open Spec
variable {α : Type} [F64 α]

/-! ## Averages chosen by kind -/

/-- How many bars before its first one an average looks at: only the symmetrically weighted one warms up by the bar number. -/
def maLookback : MaKind → Nat
  | .swma => 3
  | _ => 0

/-- The states of the same average, `s` bars later. -/
inductive MaLater (s i : Nat) : Ma α → Ma α → Prop
  | sma {a a' : Sma α} : SmaLater s a a' → MaLater s i (.sma a) (.sma a')
  | ema {a a' : Ema α} : EmaLater s i a a' → MaLater s i (.ema a) (.ema a')
  | rma {a a' : Rma α} : RmaLater s i a a' → MaLater s i (.rma a) (.rma a')
  | swma {a a' : Swma α} : SwmaLater s a a' → MaLater s i (.swma a) (.swma a')

/-- Only the symmetrically weighted average needs three bars before. -/
def Ma.isSwma : Ma α → Bool
  | .swma _ => true
  | _ => false

def maC (kind : MaKind) (len : Nat) : Component (maLookback kind) (Ma.next (α := α)) (Ma.new kind len) where
  Rel s i a a' := MaLater s i a a' ∧ (kind ≠ .swma → a.isSwma = false)
  follows s := by
    rintro c c' a a' o hl ⟨h, hk⟩
    cases h with
    | sma h =>
      refine ((smaC 1).follows s c c' _ _ o (hl.weaken (Nat.zero_le _)) h).bind ?_
      rintro ⟨r, b⟩ ⟨r', b'⟩ ⟨h1, h2⟩
      exact ⟨h1, .sma h2, fun _ => rfl⟩
    | ema h =>
      refine ((emaC 1).follows s c c' _ _ o (hl.weaken (Nat.zero_le _)) h).bind ?_
      rintro ⟨r, b⟩ ⟨r', b'⟩ ⟨h1, h2⟩
      exact ⟨h1, .ema h2, fun _ => rfl⟩
    | rma h =>
      refine ((rmaC 1).follows s c c' _ _ o (hl.weaken (Nat.zero_le _)) h).bind ?_
      rintro ⟨r, b⟩ ⟨r', b'⟩ ⟨h1, h2⟩
      exact ⟨h1, .rma h2, fun _ => rfl⟩
    | swma h =>
      have hk' : kind = .swma := by
        by_contra hne
        have := hk hne
        simp [Ma.isSwma] at this
      have h3 : 3 ≤ maLookback kind := by rw [hk']; exact le_rfl
      refine (swmaC.follows s c c' _ _ o (hl.weaken h3) h).bind ?_
      rintro ⟨r, b⟩ ⟨r', b'⟩ ⟨h1, h2⟩
      exact ⟨h1, .swma h2, fun h => absurd hk' h⟩
  init s i st h := by
    cases kind with
    | sma =>
      obtain ⟨a, ha, h⟩ := Res.bind_ok h
      have := Except.ok.inj h; subst this
      exact ⟨.sma ((smaC len).init s i a ha), fun _ => rfl⟩
    | ema =>
      obtain ⟨a, ha, h⟩ := Res.bind_ok h
      have := Except.ok.inj h; subst this
      exact ⟨.ema ((emaC len).init s i a ha), fun _ => rfl⟩
    | rma =>
      obtain ⟨a, ha, h⟩ := Res.bind_ok h
      have := Except.ok.inj h; subst this
      exact ⟨.rma ((rmaC len).init s i a ha), fun _ => rfl⟩
    | swma =>
      obtain ⟨a, ha, h⟩ := Res.bind_ok h
      have := Except.ok.inj h; subst this
      exact ⟨.swma (swmaC.init s i a ha), fun h => absurd rfl h⟩

/-! ## Oscillators over any two averages -/

section
variable {A B G : Type} {k : Nat} {short : AnyMa α A} {long : AnyMa α B} {signal : AnyMa α G} {newA : Res A} {newB : Res B} {newG : Res G}

def awesomeC (CA : Component k short newA) (CB : Component k long newB) :
    Component k (AwesomeOscillatorOf.next short long) (do return ⟨← newA, ← newB, none⟩) where
  Rel s i a a' := CA.Rel s i a.shortMa a'.shortMa ∧ CB.Rel s i a.longMa a'.longMa ∧ a'.prevAo = a.prevAo
  follows s := by
    rintro c c' a a' o hl ⟨h1, h2, h3⟩
    unfold AwesomeOscillatorOf.next
    rw [h3]
    refine (CA.follows s c c' _ _ _ hl h1).bind ?_
    rintro ⟨m, b⟩ ⟨m', b'⟩ ⟨hm, hb⟩
    obtain rfl : m = m' := hm
    refine (CB.follows s c c' _ _ _ hl h2).bind ?_
    rintro ⟨n, e⟩ ⟨n', e'⟩ ⟨hn, he⟩
    obtain rfl : n = n' := hn
    exact ⟨rfl, hb, he, rfl⟩
  init s i st h := by
    obtain ⟨a, ha, h⟩ := Res.bind_ok h
    obtain ⟨b, hb, h⟩ := Res.bind_ok h
    have := Except.ok.inj h; subst this
    exact ⟨CA.init s i a ha, CB.init s i b hb, rfl⟩

def macdC (CA : Component k short newA) (CB : Component k long newB) (CG : Component k signal newG) :
    Component k (MacdOf.next short long signal) (do return ⟨← newA, ← newB, ← newG⟩) where
  Rel s i a a' := CA.Rel s i a.shortMa a'.shortMa ∧ CB.Rel s i a.longMa a'.longMa ∧ CG.Rel s i a.signalMa a'.signalMa
  follows s := by
    rintro c c' a a' o hl ⟨h1, h2, h3⟩
    unfold MacdOf.next
    refine (CA.follows s c c' _ _ _ hl h1).bind ?_
    rintro ⟨m, b⟩ ⟨m', b'⟩ ⟨hm, hb⟩
    obtain rfl : m = m' := hm
    refine (CB.follows s c c' _ _ _ hl h2).bind ?_
    rintro ⟨n, e⟩ ⟨n', e'⟩ ⟨hn, he⟩
    obtain rfl : n = n' := hn
    refine (CG.follows s c c' _ _ _ hl h3).bind ?_
    rintro ⟨q, g⟩ ⟨q', g'⟩ ⟨hq, hg⟩
    obtain rfl : q = q' := hq
    exact ⟨rfl, hb, he, hg⟩
  init s i st h := by
    obtain ⟨a, ha, h⟩ := Res.bind_ok h
    obtain ⟨b, hb, h⟩ := Res.bind_ok h
    obtain ⟨g, hg, h⟩ := Res.bind_ok h
    have := Except.ok.inj h; subst this
    exact ⟨CA.init s i a ha, CB.init s i b hb, CG.init s i g hg⟩

def priceOscC (CA : Component k short newA) (CB : Component k long newB) :
    Component k (PriceOscillator.nextOf short long) (do return ⟨← newA, ← newB⟩) where
  Rel s i a a' := CA.Rel s i a.shortMa a'.shortMa ∧ CB.Rel s i a.longMa a'.longMa
  follows s := by
    rintro c c' a a' o hl ⟨h1, h2⟩
    unfold PriceOscillator.nextOf
    refine (CA.follows s c c' _ _ _ hl h1).bind ?_
    rintro ⟨m, b⟩ ⟨m', b'⟩ ⟨hm, hb⟩
    obtain rfl : m = m' := hm
    refine (CB.follows s c c' _ _ _ hl h2).bind ?_
    rintro ⟨n, e⟩ ⟨n', e'⟩ ⟨hn, he⟩
    obtain rfl : n = n' := hn
    exact ⟨rfl, hb, he⟩
  init s i st h := by
    obtain ⟨a, ha, h⟩ := Res.bind_ok h
    obtain ⟨b, hb, h⟩ := Res.bind_ok h
    have := Except.ok.inj h; subst this
    exact ⟨CA.init s i a ha, CB.init s i b hb⟩

def volumeOscC (CA : Component k short newA) (CB : Component k long newB) :
    Component k (barsOnly (VolumeOscillator.nextOf short long)) (do return ⟨← newA, ← newB⟩) where
  Rel s i a a' := CA.Rel s i a.shortMa a'.shortMa ∧ CB.Rel s i a.longMa a'.longMa
  follows s := by
    rintro c c' a a' o hl ⟨h1, h2⟩
    unfold barsOnly VolumeOscillator.nextOf
    rw [hl.barVolume]
    refine Alike.step fun vol => ?_
    refine (CA.follows s c c' _ _ _ hl h1).bind ?_
    rintro ⟨m, b⟩ ⟨m', b'⟩ ⟨hm, hb⟩
    obtain rfl : m = m' := hm
    refine (CB.follows s c c' _ _ _ hl h2).bind ?_
    rintro ⟨n, e⟩ ⟨n', e'⟩ ⟨hn, he⟩
    obtain rfl : n = n' := hn
    exact ⟨rfl, hb, he⟩
  init s i st h := by
    obtain ⟨a, ha, h⟩ := Res.bind_ok h
    obtain ⟨b, hb, h⟩ := Res.bind_ok h
    have := Except.ok.inj h; subst this
    exact ⟨CA.init s i a ha, CB.init s i b hb⟩

/-- The component fed by two of the project's own sources. -/
def Component.withSrc2 {S O : Type} {next : Ctx α → S → Option α × Option α → Res (O × S)} {new : Res S} (C : Component k next new)
    (k1 k2 : SrcKind) : Component k (barsOnly (Pace.withSrc2 k1 k2 next)) new where
  Rel := C.Rel
  follows s c c' st st' v hl h := by
    unfold barsOnly Pace.withSrc2
    rw [hl.src k1, hl.src k2]
    exact Alike.step fun a => Alike.step fun b => C.follows s c c' st st' (a, b) hl h
  init := C.init
end

/-! ## Bands, flows and momentum -/

theorem balanceOfPower_later {s k : Nat} {c c' : Ctx α} (hl : Later s k c c') : BalanceOfPower.next c = BalanceOfPower.next c' := by
  unfold BalanceOfPower.next
  rw [hl.barClose, hl.barOpen, hl.barHigh, hl.barLow]

def percentBC (len : Nat) (mult : α) : Component 0 BollingerBandsPercentB.next (BollingerBands.new len mult) where
  Rel s i a a' := a'.mult = a.mult ∧ SmaLater s a.basis a'.basis ∧ StdevLater s a.stdev a'.stdev
  follows s := by
    rintro c c' a a' o hl ⟨h1, h2, h3⟩
    unfold BollingerBandsPercentB.next
    rw [h1]
    refine ((smaC 1).follows s c c' _ _ _ hl h2).bind ?_
    rintro ⟨m, b⟩ ⟨m', b'⟩ ⟨hm, hb⟩
    obtain rfl : m = m' := hm
    refine ((stdevC 1 true).follows s c c' _ _ _ hl h3).bind ?_
    rintro ⟨n, e⟩ ⟨n', e'⟩ ⟨hn, he⟩
    obtain rfl : n = n' := hn
    rcases o with _ | o
    · exact ⟨rfl, rfl, hb, he⟩
    · rcases m with _ | m
      · exact ⟨rfl, rfl, hb, he⟩
      · rcases n with _ | n
        · exact ⟨rfl, rfl, hb, he⟩
        · dsimp only
          by_cases hz : F64.feq (m + n * a.mult - (m - n * a.mult)) (lit 0) = true
          · rw [if_pos hz, if_pos hz]; exact ⟨rfl, rfl, hb, he⟩
          · rw [if_neg hz, if_neg hz]; exact ⟨rfl, rfl, hb, he⟩
  init s i st h := by
    obtain ⟨a, ha, h⟩ := Res.bind_ok h
    obtain ⟨b, hb, h⟩ := Res.bind_ok h
    have := Except.ok.inj h; subst this
    exact ⟨rfl, (smaC len).init s i a ha, (stdevC len true).init s i b hb⟩

def widthC (len : Nat) (mult : α) : Component 0 BollingerBandsWidth.next (BollingerBands.new len mult) where
  Rel s i a a' := a'.mult = a.mult ∧ SmaLater s a.basis a'.basis ∧ StdevLater s a.stdev a'.stdev
  follows s := by
    rintro c c' a a' o hl ⟨h1, h2, h3⟩
    unfold BollingerBandsWidth.next
    rw [h1]
    refine ((smaC 1).follows s c c' _ _ _ hl h2).bind ?_
    rintro ⟨m, b⟩ ⟨m', b'⟩ ⟨hm, hb⟩
    obtain rfl : m = m' := hm
    refine ((stdevC 1 true).follows s c c' _ _ _ hl h3).bind ?_
    rintro ⟨n, e⟩ ⟨n', e'⟩ ⟨hn, he⟩
    obtain rfl : n = n' := hn
    rcases o with _ | o
    · exact ⟨rfl, rfl, hb, he⟩
    · rcases m with _ | m
      · exact ⟨rfl, rfl, hb, he⟩
      · rcases n with _ | n
        · exact ⟨rfl, rfl, hb, he⟩
        · dsimp only
          by_cases hz : F64.feq m (lit 0) = true
          · rw [if_pos hz, if_pos hz]; exact ⟨rfl, rfl, hb, he⟩
          · rw [if_neg hz, if_neg hz]; exact ⟨rfl, rfl, hb, he⟩
  init s i st h := by
    obtain ⟨a, ha, h⟩ := Res.bind_ok h
    obtain ⟨b, hb, h⟩ := Res.bind_ok h
    have := Except.ok.inj h; subst this
    exact ⟨rfl, (smaC len).init s i a ha, (stdevC len true).init s i b hb⟩

def moneyFlowC (len : Nat) : Component (α := α) 0 (barsOnly ChaikinMoneyFlow.next) (ChaikinMoneyFlow.new len) where
  Rel s i a a' := SumLater s a.volumeSum a'.volumeSum ∧ SumLater s a.adSum a'.adSum
  follows s := by
    rintro c c' a a' o hl ⟨h1, h2⟩
    unfold barsOnly ChaikinMoneyFlow.next
    rw [hl.barClose, hl.barHigh, hl.barLow, hl.barVolume]
    refine Alike.step fun cl => Alike.step fun hi => Alike.step fun lo => Alike.step fun vo => ?_
    refine ((sumC 1).follows s c c' _ _ _ hl h1).bind ?_
    rintro ⟨m, b⟩ ⟨m', b'⟩ ⟨hm, hb⟩
    obtain rfl : m = m' := hm
    refine ((sumC 1).follows s c c' _ _ _ hl h2).bind ?_
    rintro ⟨n, e⟩ ⟨n', e'⟩ ⟨hn, he⟩
    obtain rfl : n = n' := hn
    exact ⟨rfl, hb, he⟩
  init s i st h := by
    obtain ⟨a, ha, h⟩ := Res.bind_ok h
    obtain ⟨b, hb, h⟩ := Res.bind_ok h
    have := Except.ok.inj h; subst this
    exact ⟨(sumC len).init s i a ha, (sumC len).init s i b hb⟩

def chandeMomentumC (len : Nat) : Component (α := α) 0 ChandeMomentumOscillator.next (ChandeMomentumOscillator.new len) where
  Rel s i a a' := a'.prevSrc = a.prevSrc ∧ SumLater s a.sm1 a'.sm1 ∧ SumLater s a.sm2 a'.sm2
  follows s := by
    rintro c c' a a' o hl ⟨h0, h1, h2⟩
    unfold ChandeMomentumOscillator.next
    rw [h0]
    refine ((sumC 1).follows s c c' _ _ _ hl h1).bind ?_
    rintro ⟨m, b⟩ ⟨m', b'⟩ ⟨hm, hb⟩
    obtain rfl : m = m' := hm
    refine ((sumC 1).follows s c c' _ _ _ hl h2).bind ?_
    rintro ⟨n, e⟩ ⟨n', e'⟩ ⟨hn, he⟩
    obtain rfl : n = n' := hn
    exact ⟨rfl, rfl, hb, he⟩
  init s i st h := by
    obtain ⟨_, _, h⟩ := Res.bind_ok h
    obtain ⟨a, ha, h⟩ := Res.bind_ok h
    obtain ⟨b, hb, h⟩ := Res.bind_ok h
    have := Except.ok.inj h; subst this
    exact ⟨rfl, (sumC len).init s i a ha, (sumC len).init s i b hb⟩

def channelC (len : Nat) : Component (α := α) 0 CommodityChannelIndex.next (CommodityChannelIndex.new len) where
  Rel s i a a' := SmaLater s a.sma a'.sma ∧ DevLater s a.dev a'.dev
  follows s := by
    rintro c c' a a' o hl ⟨h1, h2⟩
    unfold CommodityChannelIndex.next
    refine ((smaC 1).follows s c c' _ _ _ hl h1).bind ?_
    rintro ⟨m, b⟩ ⟨m', b'⟩ ⟨hm, hb⟩
    obtain rfl : m = m' := hm
    refine ((devC 1).follows s c c' _ _ _ hl h2).bind ?_
    rintro ⟨n, e⟩ ⟨n', e'⟩ ⟨hn, he⟩
    obtain rfl : n = n' := hn
    exact ⟨rfl, hb, he⟩
  init s i st h := by
    obtain ⟨a, ha, h⟩ := Res.bind_ok h
    obtain ⟨b, hb, h⟩ := Res.bind_ok h
    have := Except.ok.inj h; subst this
    exact ⟨(smaC len).init s i a ha, (devC len).init s i b hb⟩

def volatilityC (len maLen : Nat) : Component (α := α) 0 RelativeVolatilityIndex.next (RelativeVolatilityIndex.new len maLen) where
  Rel s i a a' := StdevLater s a.stdev a'.stdev ∧ EmaLater s i a.upperEma a'.upperEma ∧ EmaLater s i a.lowerEma a'.lowerEma ∧
    a'.prevSrc = a.prevSrc
  follows s := by
    rintro c c' a a' o hl ⟨h1, h2, h3, h4⟩
    unfold RelativeVolatilityIndex.next
    rw [h4]
    refine ((stdevC 1 true).follows s c c' _ _ _ hl h1).bind ?_
    rintro ⟨m, b⟩ ⟨m', b'⟩ ⟨hm, hb⟩
    obtain rfl : m = m' := hm
    refine ((emaC 1).follows s c c' _ _ _ hl h2).bind ?_
    rintro ⟨n, e⟩ ⟨n', e'⟩ ⟨hn, he⟩
    obtain rfl : n = n' := hn
    refine ((emaC 1).follows s c c' _ _ _ hl h3).bind ?_
    rintro ⟨q, g⟩ ⟨q', g'⟩ ⟨hq, hg⟩
    obtain rfl : q = q' := hq
    exact ⟨rfl, hb, he, hg, rfl⟩
  init s i st h := by
    obtain ⟨a, ha, h⟩ := Res.bind_ok h
    obtain ⟨b, hb, h⟩ := Res.bind_ok h
    obtain ⟨g, hg, h⟩ := Res.bind_ok h
    have := Except.ok.inj h; subst this
    exact ⟨(stdevC len true).init s i a ha, (emaC maLen).init s i b hb, (emaC maLen).init s i g hg, rfl⟩

/-! ## Channels and ranges -/

def donchianC (len : Nat) : Component (α := α) (len - 1) (barsOnly DonchianChannels.next) (DonchianChannels.new len) where
  Rel s i a a' := (highestC len).Rel s i a.highest a'.highest ∧ (lowestC len).Rel s i a.lowest a'.lowest
  follows s := by
    rintro c c' a a' o hl ⟨h1, h2⟩
    unfold barsOnly DonchianChannels.next
    rw [hl.barHigh, hl.barLow]
    refine Alike.step fun hi => ?_
    refine ((highestC len).follows s c c' _ _ _ hl h1).bind ?_
    rintro ⟨m, b⟩ ⟨m', b'⟩ ⟨hm, hb⟩
    obtain rfl : m = m' := hm
    refine Alike.step fun lo => ?_
    refine ((lowestC len).follows s c c' _ _ _ hl h2).bind ?_
    rintro ⟨n, e⟩ ⟨n', e'⟩ ⟨hn, he⟩
    obtain rfl : n = n' := hn
    exact ⟨rfl, hb, he⟩
  init s i st h := by
    obtain ⟨a, ha, h⟩ := Res.bind_ok h
    obtain ⟨b, hb, h⟩ := Res.bind_ok h
    have := Except.ok.inj h; subst this
    exact ⟨(highestC len).init s i a ha, (lowestC len).init s i b hb⟩

def williamsC (len : Nat) : Component (α := α) (len - 1) WilliamsPercentRank.next (WilliamsPercentRank.new len) where
  Rel s i a a' := (highestC len).Rel s i a.highest a'.highest ∧ (lowestC len).Rel s i a.lowest a'.lowest
  follows s := by
    rintro c c' a a' o hl ⟨h1, h2⟩
    unfold WilliamsPercentRank.next
    rw [hl.barHigh, hl.barLow]
    refine Alike.step fun hi => ?_
    refine ((highestC len).follows s c c' _ _ _ hl h1).bind ?_
    rintro ⟨m, b⟩ ⟨m', b'⟩ ⟨hm, hb⟩
    obtain rfl : m = m' := hm
    refine Alike.step fun lo => ?_
    refine ((lowestC len).follows s c c' _ _ _ hl h2).bind ?_
    rintro ⟨n, e⟩ ⟨n', e'⟩ ⟨hn, he⟩
    obtain rfl : n = n' := hn
    exact ⟨rfl, hb, he⟩
  init s i st h := by
    obtain ⟨a, ha, h⟩ := Res.bind_ok h
    obtain ⟨b, hb, h⟩ := Res.bind_ok h
    have := Except.ok.inj h; subst this
    exact ⟨(highestC len).init s i a ha, (lowestC len).init s i b hb⟩

def chandeKrollC (p q : Nat) (x : α) : Component (max 1 (max p q - 1)) (barsOnly ChandeKrollStop.next) (ChandeKrollStop.new p q x) where
  Rel s i a a' := a'.x = a.x ∧ AtrLater s i a.atr a'.atr ∧ (highestC p).Rel s i a.firstHighStopHighest a'.firstHighStopHighest ∧
    (lowestC p).Rel s i a.firstLowStopLowest a'.firstLowStopLowest ∧ (highestC q).Rel s i a.stopShortHighest a'.stopShortHighest ∧
    (lowestC q).Rel s i a.stopLongLowest a'.stopLongLowest
  follows s := by
    rintro c c' a a' o hl ⟨h0, h1, h2, h3, h4, h5⟩
    have hp := hl.weaken (k' := p - 1) (by omega)
    have hq := hl.weaken (k' := q - 1) (by omega)
    unfold barsOnly ChandeKrollStop.next
    rw [hl.barHigh, hl.barLow, h0]
    refine ((atrC 1).follows s c c' _ _ () (hl.weaken (by omega)) h1).bind ?_
    rintro ⟨m, b⟩ ⟨m', b'⟩ ⟨hm, hb⟩
    obtain rfl : m = m' := hm
    refine Alike.step fun hi => ?_
    refine ((highestC p).follows s c c' _ _ _ hp h2).bind ?_
    rintro ⟨n, e⟩ ⟨n', e'⟩ ⟨hn, he⟩
    obtain rfl : n = n' := hn
    refine Alike.step fun lo => ?_
    refine ((lowestC p).follows s c c' _ _ _ hp h3).bind ?_
    rintro ⟨n2, e2⟩ ⟨n2', e2'⟩ ⟨hn2, he2⟩
    obtain rfl : n2 = n2' := hn2
    dsimp only
    refine ((highestC q).follows s c c' _ _ _ hq h4).bind ?_
    rintro ⟨n3, e3⟩ ⟨n3', e3'⟩ ⟨hn3, he3⟩
    obtain rfl : n3 = n3' := hn3
    refine ((lowestC q).follows s c c' _ _ _ hq h5).bind ?_
    rintro ⟨n4, e4⟩ ⟨n4', e4'⟩ ⟨hn4, he4⟩
    obtain rfl : n4 = n4' := hn4
    exact ⟨rfl, rfl, hb, he, he2, he3, he4⟩
  init s i st h := by
    obtain ⟨a, ha, h⟩ := Res.bind_ok h
    obtain ⟨b, hb, h⟩ := Res.bind_ok h
    obtain ⟨g, hg, h⟩ := Res.bind_ok h
    obtain ⟨u, hu, h⟩ := Res.bind_ok h
    obtain ⟨w, hw, h⟩ := Res.bind_ok h
    have := Except.ok.inj h; subst this
    exact ⟨rfl, (atrC p).init s i a ha, (highestC p).init s i b hb, (lowestC p).init s i g hg, (highestC q).init s i u hu,
      (lowestC q).init s i w hw⟩

def choppinessC (len : Nat) : Component (α := α) (max 1 (len - 1)) (barsOnly ChoppinessIndex.next) (ChoppinessIndex.new len) where
  Rel s i a a' := a'.log10Length = a.log10Length ∧ AtrLater s i a.atr a'.atr ∧ SumLater s a.atrSum a'.atrSum ∧
    (highestC len).Rel s i a.highest a'.highest ∧ (lowestC len).Rel s i a.lowest a'.lowest
  follows s := by
    rintro c c' a a' o hl ⟨h0, h1, h2, h3, h4⟩
    have hp := hl.weaken (k' := len - 1) (by omega)
    unfold barsOnly ChoppinessIndex.next
    rw [hl.barHigh, hl.barLow, h0]
    refine ((atrC 1).follows s c c' _ _ () (hl.weaken (by omega)) h1).bind ?_
    rintro ⟨m, b⟩ ⟨m', b'⟩ ⟨hm, hb⟩
    obtain rfl : m = m' := hm
    refine ((sumC 1).follows s c c' _ _ _ (hl.weaken (Nat.zero_le _)) h2).bind ?_
    rintro ⟨n, e⟩ ⟨n', e'⟩ ⟨hn, he⟩
    obtain rfl : n = n' := hn
    refine Alike.step fun hi => ?_
    refine ((highestC len).follows s c c' _ _ _ hp h3).bind ?_
    rintro ⟨n2, e2⟩ ⟨n2', e2'⟩ ⟨hn2, he2⟩
    obtain rfl : n2 = n2' := hn2
    refine Alike.step fun lo => ?_
    refine ((lowestC len).follows s c c' _ _ _ hp h4).bind ?_
    rintro ⟨n3, e3⟩ ⟨n3', e3'⟩ ⟨hn3, he3⟩
    obtain rfl : n3 = n3' := hn3
    exact ⟨rfl, rfl, hb, he, he2, he3⟩
  init s i st h := by
    obtain ⟨a, ha, h⟩ := Res.bind_ok h
    obtain ⟨b, hb, h⟩ := Res.bind_ok h
    obtain ⟨g, hg, h⟩ := Res.bind_ok h
    obtain ⟨u, hu, h⟩ := Res.bind_ok h
    have := Except.ok.inj h; subst this
    exact ⟨rfl, (atrC 1).init s i a ha, (sumC len).init s i b hb, (highestC len).init s i g hg, (lowestC len).init s i u hu⟩

def connorsC (lr lu lc : Nat) : Component (α := α) lc ConnorsRsi.next (ConnorsRsi.new lr lu lc) where
  Rel s i a a' := a'.prevSrc = a.prevSrc ∧ a'.prevUd = a.prevUd ∧ RsiLater s i a.rsi a'.rsi ∧ RsiLater s i a.upDownRsi a'.upDownRsi ∧
    (prankC lc).Rel s i a.percentRank a'.percentRank ∧ a'.roc = a.roc
  follows s := by
    rintro c c' a a' o hl ⟨h0, h1, h2, h3, h4, h5⟩
    have hz := hl.weaken (Nat.zero_le _)
    unfold ConnorsRsi.next
    rw [h0, h1, h5]
    refine ((rsiC 1).follows s c c' _ _ _ hz h2).bind ?_
    rintro ⟨m, b⟩ ⟨m', b'⟩ ⟨hm, hb⟩
    obtain rfl : m = m' := hm
    refine ((rsiC 1).follows s c c' _ _ _ hz h3).bind ?_
    rintro ⟨n, e⟩ ⟨n', e'⟩ ⟨hn, he⟩
    obtain rfl : n = n' := hn
    refine Alike.step fun r => ?_
    refine ((prankC lc).follows s c c' _ _ _ hl h4).bind ?_
    rintro ⟨n2, e2⟩ ⟨n2', e2'⟩ ⟨hn2, he2⟩
    obtain rfl : n2 = n2' := hn2
    exact ⟨rfl, rfl, rfl, hb, he, he2, rfl⟩
  init s i st h := by
    obtain ⟨a, ha, h⟩ := Res.bind_ok h
    obtain ⟨b, hb, h⟩ := Res.bind_ok h
    obtain ⟨g, hg, h⟩ := Res.bind_ok h
    obtain ⟨u, hu, h⟩ := Res.bind_ok h
    have := Except.ok.inj h; subst this
    exact ⟨rfl, rfl, (rsiC lr).init s i a ha, (rsiC lu).init s i b hb, (prankC lc).init s i g hg, rfl⟩

def coppockC (len lo sh : Nat) : Component (α := α) (len - 1) CoppockCurve.next (CoppockCurve.new len lo sh) where
  Rel s i a a' := WmaLater s len a.ma a'.ma ∧ a'.longRoc = a.longRoc ∧ a'.shortRoc = a.shortRoc
  follows s := by
    rintro c c' a a' o hl ⟨h1, h2, h3⟩
    unfold CoppockCurve.next
    rw [h2, h3]
    refine Alike.step fun l => Alike.step fun r => ?_
    refine ((wmaC len).follows s c c' _ _ _ hl h1).bind ?_
    rintro ⟨m, b⟩ ⟨m', b'⟩ ⟨hm, hb⟩
    obtain rfl : m = m' := hm
    exact ⟨rfl, hb, rfl, rfl⟩
  init s i st h := by
    obtain ⟨a, ha, h⟩ := Res.bind_ok h
    obtain ⟨b, hb, h⟩ := Res.bind_ok h
    obtain ⟨g, hg, h⟩ := Res.bind_ok h
    have := Except.ok.inj h; subst this
    exact ⟨(wmaC len).init s i a ha, rfl, rfl⟩

def dmiC (len sig : Nat) : Component (α := α) 1 (barsOnly Dmi.next) (Dmi.new len sig) where
  Rel s i a a' := RmaLater s i a.trueRangeRma a'.trueRangeRma ∧ RmaLater s i a.plusDmRma a'.plusDmRma ∧
    RmaLater s i a.minusDmRma a'.minusDmRma ∧ a'.plusFixNan = a.plusFixNan ∧ a'.minusFixNan = a.minusFixNan ∧ RmaLater s i a.adx a'.adx
  follows s := by
    rintro c c' a a' o hl ⟨h1, h2, h3, h4, h5, h6⟩
    have hz := hl.weaken (Nat.zero_le _)
    unfold barsOnly Dmi.next
    rw [hl.barHigh, hl.barLow, hl.high le_rfl, hl.low le_rfl, tr_later hl le_rfl, h4, h5]
    refine Alike.step fun hi => Alike.step fun lo => Alike.step fun ph => Alike.step fun pl => Alike.step fun tr => ?_
    refine (rma_follows s c c' _ _ _ hz h1).bind ?_
    rintro ⟨m, b⟩ ⟨m', b'⟩ ⟨hm, hb⟩
    obtain rfl : m = m' := hm
    refine (rma_follows s c c' _ _ _ hz h2).bind ?_
    rintro ⟨n, e⟩ ⟨n', e'⟩ ⟨hn, he⟩
    obtain rfl : n = n' := hn
    refine (rma_follows s c c' _ _ _ hz h3).bind ?_
    rintro ⟨n2, e2⟩ ⟨n2', e2'⟩ ⟨hn2, he2⟩
    obtain rfl : n2 = n2' := hn2
    refine (rma_follows s c c' _ _ _ hz h6).bind ?_
    rintro ⟨n3, e3⟩ ⟨n3', e3'⟩ ⟨hn3, he3⟩
    obtain rfl : n3 = n3' := hn3
    exact ⟨rfl, hb, he, he2, rfl, rfl, he3⟩
  init s i st h := by
    obtain ⟨a, ha, h⟩ := Res.bind_ok h
    obtain ⟨b, hb, h⟩ := Res.bind_ok h
    obtain ⟨g, hg, h⟩ := Res.bind_ok h
    obtain ⟨u, hu, h⟩ := Res.bind_ok h
    have := Except.ok.inj h; subst this
    exact ⟨rma_start ha s i, rma_start hb s i, rma_start hg s i, rfl, rfl, rma_start hu s i⟩

def vigorC (len : Nat) : Component (α := α) 3 (barsOnly RelativeVigorIndex.next) (RelativeVigorIndex.new len) where
  Rel s i a a' := SwmaLater s a.swmaCloseOpen a'.swmaCloseOpen ∧ SwmaLater s a.swmaHighLow a'.swmaHighLow ∧
    SumLater s a.sumCloseOpen a'.sumCloseOpen ∧ SumLater s a.sumHighLow a'.sumHighLow ∧ SwmaLater s a.swmaSig a'.swmaSig
  follows s := by
    rintro c c' a a' o hl ⟨h1, h2, h3, h4, h5⟩
    have hz := hl.weaken (Nat.zero_le _)
    unfold barsOnly RelativeVigorIndex.next
    rw [hl.barClose, hl.barOpen, hl.barHigh, hl.barLow]
    refine Alike.step fun cl => Alike.step fun op => Alike.step fun hi => Alike.step fun lo => ?_
    refine (swmaC.follows s c c' _ _ _ hl h1).bind ?_
    rintro ⟨m, b⟩ ⟨m', b'⟩ ⟨hm, hb⟩
    obtain rfl : m = m' := hm
    refine (swmaC.follows s c c' _ _ _ hl h2).bind ?_
    rintro ⟨n, e⟩ ⟨n', e'⟩ ⟨hn, he⟩
    obtain rfl : n = n' := hn
    refine ((sumC 1).follows s c c' _ _ _ hz h3).bind ?_
    rintro ⟨n2, e2⟩ ⟨n2', e2'⟩ ⟨hn2, he2⟩
    obtain rfl : n2 = n2' := hn2
    refine ((sumC 1).follows s c c' _ _ _ hz h4).bind ?_
    rintro ⟨n3, e3⟩ ⟨n3', e3'⟩ ⟨hn3, he3⟩
    obtain rfl : n3 = n3' := hn3
    refine (swmaC.follows s c c' _ _ _ hl h5).bind ?_
    rintro ⟨n4, e4⟩ ⟨n4', e4'⟩ ⟨hn4, he4⟩
    obtain rfl : n4 = n4' := hn4
    exact ⟨rfl, hb, he, he2, he3, he4⟩
  init s i st h := by
    obtain ⟨a, ha, h⟩ := Res.bind_ok h
    obtain ⟨b, hb, h⟩ := Res.bind_ok h
    obtain ⟨g, hg, h⟩ := Res.bind_ok h
    obtain ⟨u, hu, h⟩ := Res.bind_ok h
    obtain ⟨w, hw, h⟩ := Res.bind_ok h
    have := Except.ok.inj h; subst this
    exact ⟨swmaC.init s i a ha, swmaC.init s i b hb, (sumC len).init s i g hg, (sumC len).init s i u hu, swmaC.init s i w hw⟩

def stochRsiC (lr ls sk sd : Nat) : Component (α := α) (ls - 1) StochRsi.next (StochRsi.new lr ls sk sd) where
  Rel s i a a' := RsiLater s i a.rsi a'.rsi ∧ (stochC ls).Rel s i a.kStoch a'.kStoch ∧ SmaLater s a.kSma a'.kSma ∧ SmaLater s a.dSma a'.dSma
  follows s := by
    rintro c c' a a' o hl ⟨h1, h2, h3, h4⟩
    have hz := hl.weaken (Nat.zero_le _)
    unfold StochRsi.next
    refine ((rsiC 1).follows s c c' _ _ _ hz h1).bind ?_
    rintro ⟨m, b⟩ ⟨m', b'⟩ ⟨hm, hb⟩
    obtain rfl : m = m' := hm
    refine ((stochC ls).follows s c c' _ _ _ hl h2).bind ?_
    rintro ⟨n, e⟩ ⟨n', e'⟩ ⟨hn, he⟩
    obtain rfl : n = n' := hn
    refine ((smaC 1).follows s c c' _ _ _ hz h3).bind ?_
    rintro ⟨n2, e2⟩ ⟨n2', e2'⟩ ⟨hn2, he2⟩
    obtain rfl : n2 = n2' := hn2
    refine ((smaC 1).follows s c c' _ _ _ hz h4).bind ?_
    rintro ⟨n3, e3⟩ ⟨n3', e3'⟩ ⟨hn3, he3⟩
    obtain rfl : n3 = n3' := hn3
    exact ⟨rfl, hb, he, he2, he3⟩
  init s i st h := by
    obtain ⟨a, ha, h⟩ := Res.bind_ok h
    obtain ⟨b, hb, h⟩ := Res.bind_ok h
    obtain ⟨g, hg, h⟩ := Res.bind_ok h
    obtain ⟨u, hu, h⟩ := Res.bind_ok h
    have := Except.ok.inj h; subst this
    exact ⟨(rsiC lr).init s i a ha, (stochC ls).init s i b hb, (smaC sk).init s i g hg, (smaC sd).init s i u hu⟩

def ultimateC (sh mi lo : Nat) : Component (α := α) 1 (barsOnly UltimateOscillator.next) (UltimateOscillator.new sh mi lo) where
  Rel s i a a' := SumLater s a.shortSumBp a'.shortSumBp ∧ SumLater s a.shortSumTr a'.shortSumTr ∧ SumLater s a.midSumBp a'.midSumBp ∧
    SumLater s a.midSumTr a'.midSumTr ∧ SumLater s a.longSumBp a'.longSumBp ∧ SumLater s a.longSumTr a'.longSumTr
  follows s := by
    rintro c c' a a' o hl ⟨h1, h2, h3, h4, h5, h6⟩
    have hz := hl.weaken (Nat.zero_le _)
    have hp := hl.past
    have hi := hl.index
    unfold barsOnly UltimateOscillator.next
    rw [hl.barHigh, hl.barLow, hl.barClose]
    refine Alike.step fun hi => Alike.step fun lo => Alike.step fun cl => ?_
    dsimp only
    rw [if_pos (show 0 < c.index by omega), if_pos (show 0 < c'.index by omega), hl.close le_rfl]
    refine Alike.step fun pc => ?_
    refine ((sumC 1).follows s c c' _ _ _ hz h1).bind ?_
    rintro ⟨m, b⟩ ⟨m', b'⟩ ⟨hm, hb⟩
    obtain rfl : m = m' := hm
    refine ((sumC 1).follows s c c' _ _ _ hz h2).bind ?_
    rintro ⟨n, e⟩ ⟨n', e'⟩ ⟨hn, he⟩
    obtain rfl : n = n' := hn
    refine ((sumC 1).follows s c c' _ _ _ hz h3).bind ?_
    rintro ⟨n2, e2⟩ ⟨n2', e2'⟩ ⟨hn2, he2⟩
    obtain rfl : n2 = n2' := hn2
    refine ((sumC 1).follows s c c' _ _ _ hz h4).bind ?_
    rintro ⟨n3, e3⟩ ⟨n3', e3'⟩ ⟨hn3, he3⟩
    obtain rfl : n3 = n3' := hn3
    refine ((sumC 1).follows s c c' _ _ _ hz h5).bind ?_
    rintro ⟨n4, e4⟩ ⟨n4', e4'⟩ ⟨hn4, he4⟩
    obtain rfl : n4 = n4' := hn4
    refine ((sumC 1).follows s c c' _ _ _ hz h6).bind ?_
    rintro ⟨n5, e5⟩ ⟨n5', e5'⟩ ⟨hn5, he5⟩
    obtain rfl : n5 = n5' := hn5
    exact ⟨rfl, hb, he, he2, he3, he4, he5⟩
  init s i st h := by
    obtain ⟨a, ha, h⟩ := Res.bind_ok h
    obtain ⟨b, hb, h⟩ := Res.bind_ok h
    obtain ⟨g, hg, h⟩ := Res.bind_ok h
    obtain ⟨u, hu, h⟩ := Res.bind_ok h
    obtain ⟨w, hw, h⟩ := Res.bind_ok h
    obtain ⟨z, hz, h⟩ := Res.bind_ok h
    have := Except.ok.inj h; subst this
    exact ⟨(sumC sh).init s i a ha, (sumC sh).init s i b hb, (sumC mi).init s i g hg, (sumC mi).init s i u hu, (sumC lo).init s i w hw,
      (sumC lo).init s i z hz⟩

def vortexC (len : Nat) : Component (α := α) 1 (barsOnly Vortex.next) (Vortex.new len) where
  Rel s i a a' := SumLater s a.vmpSum a'.vmpSum ∧ SumLater s a.vmmSum a'.vmmSum ∧ SumLater s a.atrSum a'.atrSum ∧ AtrLater s i a.atr a'.atr
  follows s := by
    rintro c c' a a' o hl ⟨h1, h2, h3, h4⟩
    have hz := hl.weaken (Nat.zero_le _)
    unfold barsOnly Vortex.next
    rw [hl.barHigh, hl.barLow, hl.high le_rfl, hl.low le_rfl]
    refine Alike.step fun hi => Alike.step fun lo => Alike.step fun ph => Alike.step fun pl => ?_
    refine ((sumC 1).follows s c c' _ _ _ hz h1).bind ?_
    rintro ⟨m, b⟩ ⟨m', b'⟩ ⟨hm, hb⟩
    obtain rfl : m = m' := hm
    refine ((sumC 1).follows s c c' _ _ _ hz h2).bind ?_
    rintro ⟨n, e⟩ ⟨n', e'⟩ ⟨hn, he⟩
    obtain rfl : n = n' := hn
    refine ((atrC 1).follows s c c' _ _ () hl h4).bind ?_
    rintro ⟨n2, e2⟩ ⟨n2', e2'⟩ ⟨hn2, he2⟩
    obtain rfl : n2 = n2' := hn2
    refine ((sumC 1).follows s c c' _ _ _ hz h3).bind ?_
    rintro ⟨n3, e3⟩ ⟨n3', e3'⟩ ⟨hn3, he3⟩
    obtain rfl : n3 = n3' := hn3
    exact ⟨rfl, hb, he, he3, he2⟩
  init s i st h := by
    obtain ⟨a, ha, h⟩ := Res.bind_ok h
    obtain ⟨b, hb, h⟩ := Res.bind_ok h
    obtain ⟨g, hg, h⟩ := Res.bind_ok h
    obtain ⟨u, hu, h⟩ := Res.bind_ok h
    have := Except.ok.inj h; subst this
    exact ⟨(sumC len).init s i a ha, (sumC len).init s i b hb, (sumC len).init s i g hg, (atrC 1).init s i u hu⟩

def aroonC (len : Nat) : Component (α := α) (len - 1) (barsOnly Aroon.next) (Aroon.new len) :=
  .plain (fun st => st.length = len ∧ st.highestBars.length = len ∧ st.lowestBars.length = len)
    (fun st h => by
      obtain ⟨a, ha, h⟩ := Res.bind_ok h
      obtain ⟨b, hb, h⟩ := Res.bind_ok h
      have := Except.ok.inj h; subst this
      obtain ⟨_, _, ha⟩ := Res.bind_ok ha
      obtain ⟨_, _, hb⟩ := Res.bind_ok hb
      have := Except.ok.inj ha; subst this
      have := Except.ok.inj hb; subst this
      exact ⟨rfl, rfl, rfl⟩)
    (fun s c c' st v hl ho => by
      unfold barsOnly Aroon.next
      rw [hl.atLength (n := st.length) (by omega), highestBars_later hl _ (by omega), lowestBars_later hl _ (by omega)])
    (fun c st v p ho h => by
      unfold barsOnly Aroon.next at h
      obtain ⟨b, hb, h⟩ := Res.bind_ok h
      cases b with
      | false => have := Except.ok.inj h; subst this; exact ho
      | true =>
        simp only [Bool.not_true, Bool.false_eq_true, if_false] at h
        obtain ⟨⟨o, hb1⟩, e1, h⟩ := Res.bind_ok h
        obtain ⟨⟨o2, lb1⟩, e2, h⟩ := Res.bind_ok h
        have := Except.ok.inj h
        subst this
        refine ⟨ho.1, ?_, ?_⟩
        · unfold HighestBars.next at e1
          obtain ⟨b, hb, e1⟩ := Res.bind_ok e1
          cases b with
          | false => have := congrArg Prod.snd (Except.ok.inj e1); simp only at this; subst this; exact ho.2.1
          | true =>
            simp only [Bool.not_true, Bool.false_eq_true, if_false] at e1
            obtain ⟨_, _, e1⟩ := Res.bind_ok e1
            obtain ⟨_, _, e1⟩ := Res.bind_ok e1
            have := congrArg Prod.snd (Except.ok.inj e1); simp only at this; subst this; exact ho.2.1
        · unfold LowestBars.next at e2
          obtain ⟨b, hb, e2⟩ := Res.bind_ok e2
          cases b with
          | false => have := congrArg Prod.snd (Except.ok.inj e2); simp only at this; subst this; exact ho.2.2
          | true =>
            simp only [Bool.not_true, Bool.false_eq_true, if_false] at e2
            obtain ⟨_, _, e2⟩ := Res.bind_ok e2
            obtain ⟨_, _, e2⟩ := Res.bind_ok e2
            have := congrArg Prod.snd (Except.ok.inj e2); simp only at this; subst this; exact ho.2.2)

end Pace
