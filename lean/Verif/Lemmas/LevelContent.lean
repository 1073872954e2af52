import Verif.Lemmas.LevelTa
import Verif.Model.Defaults

/-!
# Adding the same amount to all prices: the indicators
-/

set_option linter.unusedSectionVars false
set_option linter.unusedSimpArgs false

namespace Pace
open Spec

section
variable {α : Type} [F64 α] (c : Ctx α) (p v : α → α)
theorem id_map_all {S : Type} {x : Res (Option α × S)} {f : S → S} (h : ∀ s, f s = s) :
    (x.map fun q => (q.1.map (Dilation.id (α := α)).f, f q.2)) = x :=
  Res.map_id' x fun q => by
    obtain ⟨o, s⟩ := q
    simp [Dilation.id, h]
theorem id_opt_all (x : Option α) : x.map (Dilation.id (α := α)).f = x := by cases x <;> rfl
theorem sum_rescale (s : Sum α) (x : Option α) : Sum.next (c.rescale p v) s x = Sum.next c s x := by
  have h := Dilation.id.sum c p v s x
  rw [id_opt_all, show s.rescale (Dilation.id (α := α)).f = s from Sum.rescale_id s] at h
  exact h.trans (id_map_all (f := Sum.rescale (Dilation.id (α := α)).f) fun s => Sum.rescale_id s)
theorem ema_rescale (s : Ema α) (x : Option α) : Ema.next (c.rescale p v) s x = Ema.next c s x := by
  have h := Dilation.id.ema c p v s x
  rw [id_opt_all, show s.rescale (Dilation.id (α := α)).f = s from Ema.rescale_id s] at h
  exact h.trans (id_map_all (f := Ema.rescale (Dilation.id (α := α)).f) fun s => Ema.rescale_id s)
theorem ma_rescale (s : Ma α) (x : Option α) : Ma.next (c.rescale p v) s x = Ma.next c s x := by
  unfold Ma.next
  cases s <;> simp only [sma_rescale, ema_rescale, rma_rescale, swma_rescale]
end

variable {K : Type} [Field K] [LinearOrder K] [IsStrictOrderedRing K] [RootOps K] (k : K)

/-! ## Sources and arithmetic on optional numbers -/

theorem src_raise (c : Ctx (Ex K)) (v : Ex K → Ex K) {s : SrcKind} (hs : s ≠ .volume) :
    Src.next (c.rescale (raise k) v) s = (Src.next c s).map (Option.map (raise k)) := by
  cases s with
  | open_ => exact Ctx.rescale_barOpen ..
  | high => exact Ctx.rescale_barHigh ..
  | low => exact Ctx.rescale_barLow ..
  | close => exact Ctx.rescale_barClose ..
  | volume => exact absurd rfl hs
  | ohlc4 =>
    have h : (4 : K) ≠ 0 := by norm_num
    simp only [Src.next, Ctx.rescale_barHigh, Ctx.rescale_barLow, Ctx.rescale_barClose, Ctx.rescale_barOpen, Res.map_bind, Res.bind_map, unwrap_map,
      Pace.ohlc4, raise_add, fin_lit, Rat.cast_ofNat, raise_div _ h]
    rw [show (k + k + k + k) / 4 = k by field_simp; ring]
    rfl
  | hlc3 =>
    have h : (3 : K) ≠ 0 := by norm_num
    simp only [Src.next, Ctx.rescale_barHigh, Ctx.rescale_barLow, Ctx.rescale_barClose, Ctx.rescale_barOpen, Res.map_bind, Res.bind_map, unwrap_map,
      Pace.hlc3, raise_add, fin_lit, Rat.cast_ofNat, raise_div _ h]
    rw [show (k + k + k) / 3 = k by field_simp; ring]
    rfl
  | hl2 =>
    have h : (2 : K) ≠ 0 := by norm_num
    simp only [Src.next, Ctx.rescale_barHigh, Ctx.rescale_barLow, Ctx.rescale_barClose, Ctx.rescale_barOpen, Res.map_bind, Res.bind_map, unwrap_map,
      Pace.hl2, raise_add, fin_lit, Rat.cast_ofNat, raise_div _ h]
    rw [show (k + k) / 2 = k by field_simp; ring]
    rfl

theorem psDiff_raise (a b : Option (Ex K)) : psDiff (a.map (raise k)) (b.map (raise k)) = psDiff a b := by
  cases a <;> cases b <;> simp only [psDiff, Option.map_none, Option.map_some, raise_diff]
theorem psMax_raise (a b : Option (Ex K)) : psMax (a.map (raise k)) (b.map (raise k)) = (psMax a b).map (raise k) := by
  cases a <;> cases b <;> simp only [psMax, Option.map_none, Option.map_some, raise_fmax]
theorem psMin_raise (a b : Option (Ex K)) : psMin (a.map (raise k)) (b.map (raise k)) = (psMin a b).map (raise k) := by
  cases a <;> cases b <;> simp only [psMin, Option.map_none, Option.map_some, raise_fmin]

section
variable {S O : Type} {v : Ex K → Ex K} {output : O → O} {new : Res S}

def srcL {next : Ctx (Ex K) → S → Option (Ex K) → Res (O × S)} (L : Lift (raise k) v (Option.map (raise k)) output next new) {s : SrcKind}
    (hs : s ≠ .volume) : Lift (raise k) v id output (barsOnly (withSrc s next)) new where
  Rel := L.Rel
  follows c a a' _ h := by
    unfold barsOnly withSrc
    rw [src_raise k c v hs, Res.map_bind]
    exact Alike.step fun x => L.follows c a a' x h
  init := L.init

def src2L {next : Ctx (Ex K) → S → Option (Ex K) × Option (Ex K) → Res (O × S)}
    (L : Lift (raise k) v (fun x => (x.1.map (raise k), x.2.map (raise k))) output next new) {s₁ s₂ : SrcKind}
    (h₁ : s₁ ≠ .volume) (h₂ : s₂ ≠ .volume) : Lift (raise k) v id output (barsOnly (withSrc2 s₁ s₂ next)) new where
  Rel := L.Rel
  follows c a a' _ h := by
    unfold barsOnly withSrc2
    rw [src_raise k c v h₁, src_raise k c v h₂, Res.map_bind]
    refine Alike.step fun x => ?_
    rw [Res.map_bind]
    exact Alike.step fun y => L.follows c a a' (x, y) h
  init := L.init
end

section
variable (v : Ex K → Ex K)

/-! ## Indicators of differences of prices: the same steps -/

theorem aroon_raise (c : Ctx (Ex K)) (s : Aroon) : Aroon.next (c.rescale (raise k) v) s = Aroon.next c s := by
  unfold Aroon.next
  have h1 : ∀ s, HighestBars.next (c.rescale (raise k) v) s = HighestBars.next c s := (raiseI k).highestBars c v
  have h2 : ∀ s, LowestBars.next (c.rescale (raise k) v) s = LowestBars.next c s := (raiseI k).lowestBars c v
  simp only [Ctx.rescale_atLength, h1, h2]

theorem balance_raise (c : Ctx (Ex K)) : BalanceOfPower.next (c.rescale (raise k) v) = BalanceOfPower.next c := by
  unfold BalanceOfPower.next
  simp only [Ctx.rescale_barHigh, Ctx.rescale_barLow, Ctx.rescale_barClose, Ctx.rescale_barOpen, Res.map_bind]
  refine Res.bind_congr fun a => Res.bind_congr fun b => Res.bind_congr fun h => Res.bind_congr fun l => ?_
  cases a <;> cases b <;> cases h <;> cases l <;> simp only [Option.map_none, Option.map_some, raise_feq, raise_diff]

theorem cmfAd_raise (cl h l vo : Option (Ex K)) :
    ChaikinMoneyFlow.ad (cl.map (raise k)) (h.map (raise k)) (l.map (raise k)) vo = ChaikinMoneyFlow.ad cl h l vo := by
  unfold ChaikinMoneyFlow.ad
  have e (a b d : Ex K) : lit 2 * raise k a - raise k b - raise k d = lit 2 * a - b - d := by
    rw [fin_lit, mul_raise, raise_sub, raise_sub, Rat.cast_ofNat, show 2 * k - k - k = 0 by ring, raise_zero]
  cases cl <;> cases h <;> cases l <;> cases vo <;> simp only [Option.map_none, Option.map_some, raise_feq, raise_diff, e]

theorem cmf_raise (c : Ctx (Ex K)) (s : ChaikinMoneyFlow (Ex K)) : ChaikinMoneyFlow.next (c.rescale (raise k) id) s = ChaikinMoneyFlow.next c s := by
  unfold ChaikinMoneyFlow.next
  simp only [Ctx.rescale_barHigh, Ctx.rescale_barLow, Ctx.rescale_barClose, Ctx.rescale_barVolume, Res.map_bind, Option.map_id_fun, id, sum_rescale, cmfAd_raise]

theorem dmi_raise (c : Ctx (Ex K)) (s : Dmi (Ex K)) : Dmi.next (c.rescale (raise k) v) s = Dmi.next c s := by
  unfold Dmi.next
  simp only [tr_raise, rma_rescale, Ctx.rescale_barHigh, Ctx.rescale_barLow, Ctx.rescale_high, Ctx.rescale_low, psDiff_raise, Res.map_bind]

theorem vigor_raise (c : Ctx (Ex K)) (s : RelativeVigorIndex (Ex K)) : RelativeVigorIndex.next (c.rescale (raise k) v) s = RelativeVigorIndex.next c s := by
  unfold RelativeVigorIndex.next
  simp only [Ctx.rescale_barHigh, Ctx.rescale_barLow, Ctx.rescale_barClose, Ctx.rescale_barOpen, Res.map_bind, swma_rescale, sum_rescale]
  refine Res.bind_congr fun a => Res.bind_congr fun b => Res.bind_congr fun h => Res.bind_congr fun l => ?_
  cases a <;> cases b <;> cases h <;> cases l <;> simp only [Option.map_none, Option.map_some, raise_diff]

theorem ultimate_raise (c : Ctx (Ex K)) (s : UltimateOscillator (Ex K)) : UltimateOscillator.next (c.rescale (raise k) v) s = UltimateOscillator.next c s := by
  unfold UltimateOscillator.next
  have hmax (a : Option (Ex K)) : psMax (a.map (raise k)) none = (psMax a none).map (raise k) := psMax_raise k a none
  have hmin (a : Option (Ex K)) : psMin (a.map (raise k)) none = (psMin a none).map (raise k) := psMin_raise k a none
  simp only [Ctx.rescale_barHigh, Ctx.rescale_barLow, Ctx.rescale_barClose, Res.map_bind, sum_rescale, Ctx.rescale_index]
  refine Res.bind_congr fun a => Res.bind_congr fun b => Res.bind_congr fun d => ?_
  by_cases hi : 0 < c.index
  · simp only [hi, if_true, Ctx.rescale_close, Res.map_bind, psMax_raise, psMin_raise, psDiff_raise]
  · simp only [hi, if_false, Res.pure_eq, Res.ok_bind, hmax, hmin, psDiff_raise]

theorem vortex_raise (c : Ctx (Ex K)) (s : Vortex (Ex K)) : Vortex.next (c.rescale (raise k) v) s = Vortex.next c s := by
  unfold Vortex.next
  simp only [Ctx.rescale_barHigh, Ctx.rescale_barLow, Ctx.rescale_high, Ctx.rescale_low, Res.map_bind, psDiff_raise, sum_rescale, atr_raise]

theorem volumeOsc_raise (c : Ctx (Ex K)) (s : MaPair (Ex K)) : VolumeOscillator.next (c.rescale (raise k) id) s = VolumeOscillator.next c s := by
  unfold VolumeOscillator.next VolumeOscillator.nextOf
  simp only [Ctx.rescale_barVolume, Res.map_bind, Option.map_id_fun, id, ma_rescale]

/-! ## Channels -/

def donchianL (n : Nat) : Lift (raise k) v id (fun y => ⟨y.upper.map (raise k), y.basis.map (raise k), y.lower.map (raise k)⟩)
    (barsOnly DonchianChannels.next) (DonchianChannels.new n) where
  Rel t a a' := (highestL k (raise k) v n).Rel t a.highest a'.highest ∧ (lowestL k (raise k) v n).Rel t a.lowest a'.lowest
  follows c a a' _ h := by
    unfold barsOnly DonchianChannels.next
    rw [Ctx.rescale_barHigh, Res.map_bind]
    refine Alike.step fun hi => ?_
    refine ((highestL k (raise k) v n).follows c _ _ hi h.1).bind ?_
    rintro ⟨u, s1⟩ ⟨u', s1'⟩ ⟨e1, r1⟩
    obtain rfl : u' = u.map (raise k) := e1
    simp only [Ctx.rescale_barLow, Res.map_bind]
    refine Alike.step fun lo => ?_
    refine ((lowestL k (raise k) v n).follows c _ _ lo h.2).bind ?_
    rintro ⟨l, s2⟩ ⟨l', s2'⟩ ⟨e2, r2⟩
    obtain rfl : l' = l.map (raise k) := e2
    refine ⟨?_, r1, r2⟩
    have h2 : (2 : K) ≠ 0 := by norm_num
    have e (x y : Ex K) : (raise k x + raise k y) / lit 2 = raise k ((x + y) / lit 2) := by
      rw [raise_add, fin_lit, Rat.cast_ofNat, raise_div _ h2, show (k + k) / 2 = k by field_simp; ring]
    cases u <;> cases l <;> simp only [psAdd, Option.map_none, Option.map_some, e]
  init s h := by
    unfold DonchianChannels.new at h
    obtain ⟨a, ha, h⟩ := Res.bind_ok h
    obtain ⟨b, hb, h⟩ := Res.bind_ok h
    have := Except.ok.inj h; subst this
    exact ⟨(highestL k (raise k) v n).init a ha, (lowestL k (raise k) v n).init b hb⟩

def williamsL (n : Nat) : Lift (raise k) v (Option.map (raise k)) id WilliamsPercentRank.next (WilliamsPercentRank.new n) where
  Rel t a a' := (highestL k (raise k) v n).Rel t a.highest a'.highest ∧ (lowestL k (raise k) v n).Rel t a.lowest a'.lowest
  follows c a a' x h := by
    unfold WilliamsPercentRank.next
    rw [Ctx.rescale_barHigh, Res.map_bind]
    refine Alike.step fun hi => ?_
    refine ((highestL k (raise k) v n).follows c _ _ hi h.1).bind ?_
    rintro ⟨u, s1⟩ ⟨u', s1'⟩ ⟨e1, r1⟩
    obtain rfl : u' = u.map (raise k) := e1
    simp only [Ctx.rescale_barLow, Res.map_bind]
    refine Alike.step fun lo => ?_
    refine ((lowestL k (raise k) v n).follows c _ _ lo h.2).bind ?_
    rintro ⟨l, s2⟩ ⟨l', s2'⟩ ⟨e2, r2⟩
    obtain rfl : l' = l.map (raise k) := e2
    refine ⟨?_, r1, r2⟩
    simp only [psDiff_raise, id]
  init s h := by
    unfold WilliamsPercentRank.new at h
    obtain ⟨a, ha, h⟩ := Res.bind_ok h
    obtain ⟨b, hb, h⟩ := Res.bind_ok h
    have := Except.ok.inj h; subst this
    exact ⟨(highestL k (raise k) v n).init a ha, (lowestL k (raise k) v n).init b hb⟩

def chopL (n : Nat) : Lift (raise k) v id id (barsOnly ChoppinessIndex.next) (ChoppinessIndex.new n) where
  Rel t a a' := a'.atr = a.atr ∧ a'.atrSum = a.atrSum ∧ a'.log10Length = a.log10Length ∧
    (highestL k (raise k) v n).Rel t a.highest a'.highest ∧ (lowestL k (raise k) v n).Rel t a.lowest a'.lowest
  follows c a a' _ h := by
    obtain ⟨h1, h2, h3, h4, h5⟩ := h
    unfold barsOnly ChoppinessIndex.next
    rw [h1, atr_raise]
    refine Alike.step ?_
    rintro ⟨at1, s1⟩
    simp only [h2, h3, sum_rescale]
    refine Alike.step ?_
    rintro ⟨as, s2⟩
    simp only [Ctx.rescale_barHigh, Res.map_bind]
    refine Alike.step fun hi => ?_
    refine ((highestL k (raise k) v n).follows c _ _ hi h4).bind ?_
    rintro ⟨u, s3⟩ ⟨u', s3'⟩ ⟨e1, r1⟩
    obtain rfl : u' = u.map (raise k) := e1
    simp only [Ctx.rescale_barLow, Res.map_bind]
    refine Alike.step fun lo => ?_
    refine ((lowestL k (raise k) v n).follows c _ _ lo h5).bind ?_
    rintro ⟨l, s4⟩ ⟨l', s4'⟩ ⟨e2, r2⟩
    obtain rfl : l' = l.map (raise k) := e2
    refine ⟨?_, rfl, rfl, rfl, r1, r2⟩
    cases as <;> cases u <;> cases l <;> simp only [Option.map_none, Option.map_some, raise_diff, id]
  init s h := by
    unfold ChoppinessIndex.new at h
    obtain ⟨a, ha, h⟩ := Res.bind_ok h
    obtain ⟨b, hb, h⟩ := Res.bind_ok h
    obtain ⟨d, hd, h⟩ := Res.bind_ok h
    obtain ⟨e, he, h⟩ := Res.bind_ok h
    have := Except.ok.inj h; subst this
    exact ⟨rfl, rfl, rfl, (highestL k (raise k) v n).init d hd, (lowestL k (raise k) v n).init e he⟩

def chandeKrollL (n m : Nat) (x : Ex K) : Lift (raise k) v id
    (fun y => ⟨y.firstHighStop.map (raise k), y.firstLowStop.map (raise k), y.stopLong.map (raise k), y.stopShort.map (raise k)⟩)
    (barsOnly ChandeKrollStop.next) (ChandeKrollStop.new n m x) where
  Rel t a a' := a'.x = a.x ∧ a'.atr = a.atr ∧ (highestL k (raise k) v n).Rel t a.firstHighStopHighest a'.firstHighStopHighest ∧
    (lowestL k (raise k) v n).Rel t a.firstLowStopLowest a'.firstLowStopLowest ∧
    (highestL k (raise k) v n).Rel t a.stopShortHighest a'.stopShortHighest ∧ (lowestL k (raise k) v n).Rel t a.stopLongLowest a'.stopLongLowest
  follows c a a' _ h := by
    obtain ⟨h1, h2, h3, h4, h5, h6⟩ := h
    unfold barsOnly ChandeKrollStop.next
    rw [h1, h2, atr_raise]
    refine Alike.step ?_
    rintro ⟨av, s1⟩
    simp only [Ctx.rescale_barHigh, Res.map_bind]
    refine Alike.step fun hi => ?_
    refine ((highestL k (raise k) v n).follows c _ _ hi h3).bind ?_
    rintro ⟨u, s3⟩ ⟨u', s3'⟩ ⟨e1, r1⟩
    obtain rfl : u' = u.map (raise k) := e1
    simp only [Ctx.rescale_barLow, Res.map_bind]
    refine Alike.step fun lo => ?_
    refine ((lowestL k (raise k) v n).follows c _ _ lo h4).bind ?_
    rintro ⟨l, s4⟩ ⟨l', s4'⟩ ⟨e2, r2⟩
    obtain rfl : l' = l.map (raise k) := e2
    have go (f g : Option (Ex K)) : Alike (fun (q q' : ChandeKrollStopData (Ex K) × ChandeKrollStop (Ex K)) =>
        q'.1 = ⟨q.1.firstHighStop.map (raise k), q.1.firstLowStop.map (raise k), q.1.stopLong.map (raise k), q.1.stopShort.map (raise k)⟩ ∧
        q'.2.x = q.2.x ∧ q'.2.atr = q.2.atr ∧ (highestL k (raise k) v n).Rel (c.index + 1) q.2.firstHighStopHighest q'.2.firstHighStopHighest ∧
        (lowestL k (raise k) v n).Rel (c.index + 1) q.2.firstLowStopLowest q'.2.firstLowStopLowest ∧
        (highestL k (raise k) v n).Rel (c.index + 1) q.2.stopShortHighest q'.2.stopShortHighest ∧
        (lowestL k (raise k) v n).Rel (c.index + 1) q.2.stopLongLowest q'.2.stopLongLowest)
        (do
          let (stopShort, sh) ← a.stopShortHighest.next c f
          let (stopLong, ll) ← a.stopLongLowest.next c g
          return (⟨f, g, stopLong, stopShort⟩, ⟨a.x, s1, s3, s4, sh, ll⟩))
        (do
          let (stopShort, sh) ← a'.stopShortHighest.next (c.rescale (raise k) v) (f.map (raise k))
          let (stopLong, ll) ← a'.stopLongLowest.next (c.rescale (raise k) v) (g.map (raise k))
          return (⟨f.map (raise k), g.map (raise k), stopLong, stopShort⟩, ⟨a.x, s1, s3', s4', sh, ll⟩)) := by
      refine ((highestL k (raise k) v n).follows c _ _ f h5).bind ?_
      rintro ⟨u, s5⟩ ⟨u', s5'⟩ ⟨e3, r3⟩
      obtain rfl : u' = u.map (raise k) := e3
      refine ((lowestL k (raise k) v n).follows c _ _ g h6).bind ?_
      rintro ⟨w, s6⟩ ⟨w', s6'⟩ ⟨e4, r4⟩
      obtain rfl : w' = w.map (raise k) := e4
      exact ⟨rfl, rfl, rfl, r1, r2, r3, r4⟩
    cases u <;> cases l <;> cases av <;>
      simp only [Option.map_none, Option.map_some, raise_sub_right, raise_add_right] <;>
      first
        | exact go none none
        | exact go (some _) (some _)
  init s h := by
    unfold ChandeKrollStop.new at h
    obtain ⟨a, ha, h⟩ := Res.bind_ok h
    obtain ⟨b, hb, h⟩ := Res.bind_ok h
    obtain ⟨d, hd, h⟩ := Res.bind_ok h
    obtain ⟨e, he, h⟩ := Res.bind_ok h
    obtain ⟨f, hf, h⟩ := Res.bind_ok h
    have := Except.ok.inj h; subst this
    exact ⟨rfl, rfl, (highestL k (raise k) v n).init b hb, (lowestL k (raise k) v n).init d hd, (highestL k (raise k) v m).init e he,
      (lowestL k (raise k) v m).init f hf⟩

/-! ## Indicators over a source -/

section
variable (p : Ex K → Ex K)

def cmoL (n : Nat) : Lift p v (Option.map (raise k)) id ChandeMomentumOscillator.next (ChandeMomentumOscillator.new n) where
  Rel _ a a' := a' = { a with prevSrc := a.prevSrc.map (raise k) }
  follows c a a' x h := by
    subst h
    unfold ChandeMomentumOscillator.next
    simp only [psDiff_raise, sum_rescale]
    refine Alike.step ?_
    rintro ⟨u, s1⟩
    refine Alike.step ?_
    rintro ⟨w, s2⟩
    exact ⟨rfl, rfl⟩
  init s h := by
    unfold ChandeMomentumOscillator.new at h
    obtain ⟨_, _, h⟩ := Res.bind_ok h
    obtain ⟨a, ha, h⟩ := Res.bind_ok h
    obtain ⟨b, hb, h⟩ := Res.bind_ok h
    have := Except.ok.inj h; subst this
    rfl

def cciL (n : Nat) : Lift p v (Option.map (raise k)) id CommodityChannelIndex.next (CommodityChannelIndex.new n) where
  Rel t a a' := (smaL k p v n).Rel t a.sma a'.sma ∧ (devL k p v n).Rel t a.dev a'.dev
  follows c a a' x h := by
    unfold CommodityChannelIndex.next
    refine ((smaL k p v n).follows c _ _ x h.1).bind ?_
    rintro ⟨u, s1⟩ ⟨u', s1'⟩ ⟨e1, r1⟩
    obtain rfl : u' = u.map (raise k) := e1
    refine ((devL k p v n).follows c _ _ x h.2).bind ?_
    rintro ⟨w, s2⟩ ⟨w', s2'⟩ ⟨e2, r2⟩
    obtain rfl : w' = w := e2
    refine ⟨?_, r1, r2⟩
    simp only [psDiff_raise, id]
  init s h := by
    unfold CommodityChannelIndex.new at h
    obtain ⟨a, ha, h⟩ := Res.bind_ok h
    obtain ⟨b, hb, h⟩ := Res.bind_ok h
    have := Except.ok.inj h; subst this
    exact ⟨(smaL k p v n).init a ha, (devL k p v n).init b hb⟩

def percentBL (n : Nat) (mult : Ex K) : Lift p v (Option.map (raise k)) id BollingerBandsPercentB.next (BollingerBands.new n mult) where
  Rel t a a' := a'.mult = a.mult ∧ (smaL k p v n).Rel t a.basis a'.basis ∧ (stdevL k p v n true).Rel t a.stdev a'.stdev
  follows c a a' x h := by
    unfold BollingerBandsPercentB.next
    refine ((smaL k p v n).follows c _ _ x h.2.1).bind ?_
    rintro ⟨u, s1⟩ ⟨u', s1'⟩ ⟨e1, r1⟩
    obtain rfl : u' = u.map (raise k) := e1
    refine ((stdevL k p v n true).follows c _ _ x h.2.2).bind ?_
    rintro ⟨w, s2⟩ ⟨w', s2'⟩ ⟨e2, r2⟩
    obtain rfl : w' = w := e2
    simp only [h.1]
    have hst (o : Option (Ex K)) : Alike (fun (q q' : Option (Ex K) × BollingerBands (Ex K)) => q'.1 = id q.1 ∧ q'.2.mult = q.2.mult ∧
        (smaL k p v n).Rel (c.index + 1) q.2.basis q'.2.basis ∧ (stdevL k p v n true).Rel (c.index + 1) q.2.stdev q'.2.stdev)
        (.ok (o, ⟨a.mult, s1, s2⟩)) (.ok (o, ⟨a.mult, s1', s2'⟩)) := ⟨rfl, rfl, r1, r2⟩
    cases x with
    | none => exact hst none
    | some x =>
      cases u with
      | none => exact hst none
      | some b =>
        cases w' with
        | none => exact hst none
        | some d =>
          simp only [Option.map_some, raise_add_right, raise_sub_right k b (d * a.mult), raise_diff]
          by_cases hz : F64.feq (b + d * a.mult - (b - d * a.mult)) (lit 0) = true
          · rw [if_pos hz, if_pos hz]; exact hst none
          · rw [if_neg hz, if_neg hz]; exact hst _
  init s h := by
    unfold BollingerBands.new at h
    obtain ⟨a, ha, h⟩ := Res.bind_ok h
    obtain ⟨b, hb, h⟩ := Res.bind_ok h
    have := Except.ok.inj h; subst this
    exact ⟨rfl, (smaL k p v n).init a ha, (stdevL k p v n true).init b hb⟩

def rviL (n m : Nat) : Lift p v (Option.map (raise k)) id RelativeVolatilityIndex.next (RelativeVolatilityIndex.new n m) where
  Rel t a a' := (stdevL k p v n true).Rel t a.stdev a'.stdev ∧ a'.upperEma = a.upperEma ∧ a'.lowerEma = a.lowerEma ∧ a'.prevSrc = a.prevSrc.map (raise k)
  follows c a a' x h := by
    obtain ⟨h1, h2, h3, h4⟩ := h
    unfold RelativeVolatilityIndex.next
    refine ((stdevL k p v n true).follows c _ _ x h1).bind ?_
    rintro ⟨w, s2⟩ ⟨w', s2'⟩ ⟨e2, r2⟩
    obtain rfl : w' = w := e2
    simp only [h2, h3, h4, ema_rescale]
    cases x <;> cases a.prevSrc <;> simp only [Option.map_none, Option.map_some, raise_diff] <;>
    · refine Alike.step ?_
      rintro ⟨u, su⟩
      refine Alike.step ?_
      rintro ⟨l, sl⟩
      exact ⟨rfl, r2, rfl, rfl, rfl⟩
  init s h := by
    unfold RelativeVolatilityIndex.new at h
    obtain ⟨a, ha, h⟩ := Res.bind_ok h
    obtain ⟨b, hb, h⟩ := Res.bind_ok h
    obtain ⟨d, hd, h⟩ := Res.bind_ok h
    have := Except.ok.inj h; subst this
    exact ⟨(stdevL k p v n true).init a ha, rfl, rfl, rfl⟩

def stochRsiL (n m l j : Nat) : Lift p v (Option.map (raise k)) id StochRsi.next (StochRsi.new n m l j) where
  Rel t a a' := (rsiL k p v n).Rel t a.rsi a'.rsi ∧ a'.kStoch = a.kStoch ∧ a'.kSma = a.kSma ∧ a'.dSma = a.dSma
  follows c a a' x h := by
    obtain ⟨h1, h2, h3, h4⟩ := h
    unfold StochRsi.next
    refine ((rsiL k p v n).follows c _ _ x h1).bind ?_
    rintro ⟨w, s2⟩ ⟨w', s2'⟩ ⟨e2, r2⟩
    obtain rfl : w' = w := e2
    simp only [h2, h3, h4, stoch_rescale, sma_rescale]
    refine Alike.step ?_
    rintro ⟨u, su⟩
    refine Alike.step ?_
    rintro ⟨l, sl⟩
    refine Alike.step ?_
    rintro ⟨d, sd⟩
    exact ⟨rfl, r2, rfl, rfl, rfl⟩
  init s h := by
    unfold StochRsi.new at h
    obtain ⟨a, ha, h⟩ := Res.bind_ok h
    obtain ⟨b, hb, h⟩ := Res.bind_ok h
    obtain ⟨d, hd, h⟩ := Res.bind_ok h
    obtain ⟨e, he, h⟩ := Res.bind_ok h
    have := Except.ok.inj h; subst this
    exact ⟨(rsiL k p v n).init a ha, rfl, rfl, rfl⟩

section
variable {A B G : Type} {short : AnyMa (Ex K) A} {long : AnyMa (Ex K) B} {signal : AnyMa (Ex K) G} {newA : Res A} {newB : Res B} {newG : Res G}

/-- Any two averages that follow the level. -/
def awesomeL (LA : Lift p v (Option.map (raise k)) (Option.map (raise k)) short newA) (LB : Lift p v (Option.map (raise k)) (Option.map (raise k)) long newB) :
    Lift p v (fun x => (x.1.map (raise k), x.2.map (raise k))) id (AwesomeOscillatorOf.next short long) (do
      let long ← newB
      let short ← newA
      return ⟨short, long, none⟩) where
  Rel t a a' := LA.Rel t a.shortMa a'.shortMa ∧ LB.Rel t a.longMa a'.longMa ∧ a'.prevAo = a.prevAo
  follows c a a' x h := by
    obtain ⟨h1, h2, h3⟩ := h
    unfold AwesomeOscillatorOf.next
    rw [h3]
    refine (LA.follows c _ _ _ h1).bind ?_
    rintro ⟨u, s1⟩ ⟨u', s1'⟩ ⟨e1, r1⟩
    obtain rfl : u' = u.map (raise k) := e1
    refine (LB.follows c _ _ _ h2).bind ?_
    rintro ⟨w, s2⟩ ⟨w', s2'⟩ ⟨e2, r2⟩
    obtain rfl : w' = w.map (raise k) := e2
    refine ⟨?_, r1, r2, ?_⟩
    · cases u <;> cases w <;> simp only [Option.map_none, Option.map_some, raise_diff, id]
    · cases u <;> cases w <;> simp only [Option.map_none, Option.map_some, raise_diff, id]
  init s h := by
    obtain ⟨a, ha, h⟩ := Res.bind_ok h
    obtain ⟨b, hb, h⟩ := Res.bind_ok h
    have := Except.ok.inj h; subst this
    exact ⟨LA.init b hb, LB.init a ha, rfl⟩

def macdL (LA : Lift p v (Option.map (raise k)) (Option.map (raise k)) short newA) (LB : Lift p v (Option.map (raise k)) (Option.map (raise k)) long newB)
    (hG : ∀ c s x, signal (c.rescale p v) s x = signal c s x) :
    Lift p v (fun x => (x.1.map (raise k), x.2.map (raise k))) id (MacdOf.next short long signal) (do
      let short ← newA
      let long ← newB
      let signal ← newG
      return ⟨short, long, signal⟩) where
  Rel t a a' := LA.Rel t a.shortMa a'.shortMa ∧ LB.Rel t a.longMa a'.longMa ∧ a'.signalMa = a.signalMa
  follows c a a' x h := by
    obtain ⟨h1, h2, h3⟩ := h
    unfold MacdOf.next
    rw [h3]
    refine (LA.follows c _ _ _ h1).bind ?_
    rintro ⟨u, s1⟩ ⟨u', s1'⟩ ⟨e1, r1⟩
    obtain rfl : u' = u.map (raise k) := e1
    refine (LB.follows c _ _ _ h2).bind ?_
    rintro ⟨w, s2⟩ ⟨w', s2'⟩ ⟨e2, r2⟩
    obtain rfl : w' = w.map (raise k) := e2
    simp only [hG]
    cases u <;> cases w <;> simp only [Option.map_none, Option.map_some, raise_diff] <;>
    · refine Alike.step ?_
      rintro ⟨q, sq⟩
      exact ⟨rfl, r1, r2, rfl⟩
  init s h := by
    obtain ⟨a, ha, h⟩ := Res.bind_ok h
    obtain ⟨b, hb, h⟩ := Res.bind_ok h
    obtain ⟨d, hd, h⟩ := Res.bind_ok h
    have := Except.ok.inj h; subst this
    exact ⟨LA.init a ha, LB.init b hb, rfl⟩

end
end
end
end Pace
