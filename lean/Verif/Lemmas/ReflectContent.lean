import Verif.Lemmas.Reflect

/-!
# Signals and indicators of `content` on the mirrored market
-/

set_option linter.unusedSectionVars false
set_option linter.unusedSimpArgs false

namespace Pace
variable {α : Type} [F64 α]

/-! ## Crossings -/

def CrossState.reflect (s : CrossState α) : CrossState α := ⟨ng s.prevA, ng s.prevB⟩
def CrossState.swap (s : CrossState α) : CrossState α := ⟨s.prevB, s.prevA⟩
def CrossThresholdState.reflect (s : CrossThresholdState α) : CrossThresholdState α := ⟨ng s.prevValue, -s.threshold⟩
def ThresholdStrategy.reflect (s : ThresholdStrategy α) : ThresholdStrategy α := ⟨s.crossUnder.reflect, s.crossOver.reflect⟩

theorem crossOver_swap (a b pa pb : α) : crossOver b a pb pa = crossUnder a b pa pb := rfl
theorem crossUnder_swap (a b pa pb : α) : crossUnder b a pb pa = crossOver a b pa pb := rfl

namespace SignSymmetric
variable (Y : SignSymmetric α) {c : Ctx α} {x o : Option α}
include Y

theorem cross_excl (a b pa pb : α) (h : Pace.crossOver a b pa pb = true) : Pace.crossUnder a b pa pb = false := by
  simp only [Pace.crossOver, Pace.crossUnder, fgt, Bool.and_eq_true] at h ⊢
  rw [Y.lt_asymm _ _ h.1]; rfl

private theorem pick (a b pa pb : α) :
    (if Pace.crossUnder a b pa pb then some CrossMode.over else if Pace.crossOver a b pa pb then some .under else none) =
      (if Pace.crossOver a b pa pb then some CrossMode.over else if Pace.crossUnder a b pa pb then some .under else none).map CrossMode.flip := by
  by_cases h : Pace.crossOver a b pa pb = true
  · have := Y.cross_excl _ _ _ _ h
    simp [h, this, CrossMode.flip]
  · by_cases h' : Pace.crossUnder a b pa pb = true <;> simp [h, h', CrossMode.flip]

/-- Negating both inputs turns a crossing around. -/
theorem cross (s : CrossState α) (i : Option α × Option α) :
    Cross.next s.reflect (ng i.1, ng i.2) = ((Cross.next s i).1.map CrossMode.flip, (Cross.next s i).2.reflect) := by
  obtain ⟨pa, pb⟩ := s
  obtain ⟨a, b⟩ := i
  unfold Cross.next
  cases pa <;> cases pb <;> cases a <;> cases b <;>
    simp only [CrossState.reflect, Option.map_none, Option.map_some, Y.crossOver, Y.crossUnder, Y.pick]
/-- Exchanging the inputs turns a crossing around. -/
theorem cross_swap (s : CrossState α) (i : Option α × Option α) :
    Cross.next s.swap (i.2, i.1) = ((Cross.next s i).1.map CrossMode.flip, (Cross.next s i).2.swap) := by
  obtain ⟨pa, pb⟩ := s
  obtain ⟨a, b⟩ := i
  unfold Cross.next
  cases pa <;> cases pb <;> cases a <;> cases b <;> first | rfl | exact Prod.ext (Y.pick _ _ _ _) rfl
theorem over (s : CrossState α) (i : Option α × Option α) :
    CrossOver.next s.reflect (ng i.1, ng i.2) = ((CrossUnder.next s i).1, (CrossUnder.next s i).2.reflect) := by
  obtain ⟨pa, pb⟩ := s
  obtain ⟨a, b⟩ := i
  unfold CrossOver.next CrossUnder.next
  cases pa <;> cases pb <;> cases a <;> cases b <;>
    simp only [CrossState.reflect, Option.map_none, Option.map_some, Y.crossOver, Y.crossUnder]
theorem under (s : CrossState α) (i : Option α × Option α) :
    CrossUnder.next s.reflect (ng i.1, ng i.2) = ((CrossOver.next s i).1, (CrossOver.next s i).2.reflect) := by
  obtain ⟨pa, pb⟩ := s
  obtain ⟨a, b⟩ := i
  unfold CrossOver.next CrossUnder.next
  cases pa <;> cases pb <;> cases a <;> cases b <;>
    simp only [CrossState.reflect, Option.map_none, Option.map_some, Y.crossOver, Y.crossUnder]
theorem threshold (s : CrossThresholdState α) (v : Option α) :
    CrossThreshold.next s.reflect (ng v) = ((CrossThreshold.next s v).1.map CrossMode.flip, (CrossThreshold.next s v).2.reflect) := by
  obtain ⟨pv, th⟩ := s
  unfold CrossThreshold.next
  cases pv <;> cases v <;> simp only [CrossThresholdState.reflect, Option.map_none, Option.map_some, Y.crossOver, Y.crossUnder, Y.pick]
theorem overThreshold (s : CrossThresholdState α) (v : Option α) :
    CrossOverThreshold.next s.reflect (ng v) = ((CrossUnderThreshold.next s v).1, (CrossUnderThreshold.next s v).2.reflect) := by
  obtain ⟨pv, th⟩ := s
  unfold CrossOverThreshold.next CrossUnderThreshold.next
  cases pv <;> cases v <;> simp only [CrossThresholdState.reflect, Option.map_none, Option.map_some, Y.crossOver, Y.crossUnder]
theorem underThreshold (s : CrossThresholdState α) (v : Option α) :
    CrossUnderThreshold.next s.reflect (ng v) = ((CrossOverThreshold.next s v).1, (CrossOverThreshold.next s v).2.reflect) := by
  obtain ⟨pv, th⟩ := s
  unfold CrossOverThreshold.next CrossUnderThreshold.next
  cases pv <;> cases v <;> simp only [CrossThresholdState.reflect, Option.map_none, Option.map_some, Y.crossOver, Y.crossUnder]

/-- The two detectors of a threshold strategy that have seen the same inputs never fire together. -/
theorem threshold_excl (s : ThresholdStrategy α) (hs : s.crossOver.prevValue = s.crossUnder.prevValue) (v : Option α)
    (h : (CrossOverThreshold.next s.crossOver v).1 = true) : (CrossUnderThreshold.next s.crossUnder v).1 = false := by
  obtain ⟨⟨p, o⟩, ⟨p', u⟩⟩ := s
  cases (show p = p' from hs)
  unfold CrossOverThreshold.next at h
  unfold CrossUnderThreshold.next
  cases p with
  | none => rfl
  | some p =>
    cases v with
    | none => rfl
    | some v =>
      simp only [Pace.crossOver, Pace.crossUnder, fgt, fge, Bool.and_eq_true] at h ⊢
      by_contra hc
      simp only [Bool.not_eq_false, Bool.and_eq_true] at hc
      have h1 := Y.lt_trans _ _ _ h.1 hc.1
      have h2 := Y.le_trans _ _ _ hc.2 h.2
      rw [Y.not_le _ _ h1] at h2
      cases h2

/-- Negating the input and the exchanged thresholds turns the signal around. -/
theorem thresholdStrategy (s : ThresholdStrategy α) (hs : s.crossOver.prevValue = s.crossUnder.prevValue) (v : Option α) :
    s.reflect.next (ng v) = ((s.next v).1.map Spec.opposite, (s.next v).2.reflect) := by
  have hx := Y.threshold_excl s hs v
  unfold ThresholdStrategy.next
  simp only [ThresholdStrategy.reflect, Y.overThreshold, Y.underThreshold]
  by_cases h : (CrossOverThreshold.next s.crossOver v).1 = true
  · simp [h, hx h, Spec.opposite]
  · by_cases h' : (CrossUnderThreshold.next s.crossUnder v).1 = true <;> simp [h, h', Spec.opposite]

theorem toDirection_flip (m : CrossMode) : m.flip.toDirection = Spec.opposite m.toDirection := by cases m <;> rfl

theorem crossStrategy (s : CrossState α) (i : Option α × Option α) :
    CrossStrategy.next s.reflect (ng i.1, ng i.2) = ((CrossStrategy.next s i).1.map Spec.opposite, (CrossStrategy.next s i).2.reflect) := by
  unfold CrossStrategy.next
  simp only [Y.cross]
  cases (Cross.next s i).1 with
  | none => rfl
  | some m => cases m <;> rfl
theorem crossStrategy_swap (s : CrossState α) (i : Option α × Option α) :
    CrossStrategy.next s.swap (i.2, i.1) = ((CrossStrategy.next s i).1.map Spec.opposite, (CrossStrategy.next s i).2.swap) := by
  unfold CrossStrategy.next
  simp only [Y.cross_swap]
  cases (Cross.next s i).1 with
  | none => rfl
  | some m => cases m <;> rfl

end SignSymmetric

def DmiStrategy.swap (s : DmiStrategy α) : DmiStrategy α := ⟨s.thresholdStrongTrend, s.cross.swap⟩
def DmiData.swap (d : DmiData α) : DmiData α := ⟨d.minus, d.plus, d.adx⟩
def AroonStrategy.swap (s : AroonStrategy α) : AroonStrategy α := ⟨s.downTrendStrength, s.upTrendStrength, s.crossMode, s.cross.swap⟩

namespace SignSymmetric
variable (Y : SignSymmetric α) {c : Ctx α} {x o : Option α}
include Y

private def dmiTail (th : α) (adx : Option α) (q : Option CrossMode × CrossState α) : Option TradeDirection × DmiStrategy α :=
  (if (adx.map fun x => fgt x th).getD false then q.1.map CrossMode.toDirection else none, ⟨th, q.2⟩)

theorem dmiStrategy (s : DmiStrategy α) (d : DmiData α) :
    s.swap.next d.swap = ((s.next d).1.map Spec.opposite, (s.next d).2.swap) := by
  obtain ⟨th, cr⟩ := s
  obtain ⟨p, m, adx⟩ := d
  refine Eq.trans (congrArg (dmiTail th _) (Y.cross_swap cr (p, m))) ?_
  show dmiTail th adx _ = ((dmiTail th adx (Cross.next cr (p, m))).1.map Spec.opposite, (dmiTail th adx (Cross.next cr (p, m))).2.swap)
  generalize Cross.next cr (p, m) = r
  obtain ⟨r1, r2⟩ := r
  unfold dmiTail
  dsimp only
  generalize (Option.map (fun x => fgt x th) adx).getD false = b
  cases b
  · rfl
  · cases r1 with
    | none => rfl
    | some m => cases m <;> rfl

private def aroonTail (cm : Bool) (us ds : α) (q : Option CrossMode × CrossState α) : Option TradeDirection × AroonStrategy α :=
  let crossMode := if q.1.isSome then true else cm
  let w : Bool × Bool × Bool :=
    if crossMode then
      if fge us (lit 1) then (true, false, false)
      else if fge ds (lit 1) then (false, true, false)
      else (false, false, crossMode)
    else (false, false, crossMode)
  (if w.1 then some TradeDirection.long else if w.2.1 then some TradeDirection.short else none, ⟨us, ds, w.2.2, q.2⟩)

/-- An up trend of full strength excludes a down trend of full strength. -/
theorem aroon_excl (u d : Option α) (h : fge (AroonStrategy.strength u d) (lit 1) = true) :
    fge (AroonStrategy.strength d u) (lit 1) = false := by
  have z : fge (lit 0 : α) (lit 1) = false := Y.one_pos
  cases u with
  | none => unfold AroonStrategy.strength at h; rw [z] at h; cases h
  | some u =>
    cases d with
    | none => unfold AroonStrategy.strength at h; rw [z] at h; cases h
    | some d =>
      unfold AroonStrategy.strength at h ⊢
      by_cases h1 : (fgt u (lit 50) && F64.lt d (lit 50)) = true
      · have : (fgt d (lit 50) && F64.lt u (lit 50)) = false := by
          rw [Bool.and_eq_true] at h1
          have := Y.lt_asymm _ _ h1.2
          unfold fgt
          rw [this]; rfl
        simp only [this, Bool.false_eq_true, if_false]
        exact z
      · simp only [h1, Bool.false_eq_true, if_false] at h
        rw [z] at h; cases h

theorem aroonStrategy (s : AroonStrategy α) (i : Option α × Option α) :
    s.swap.next (i.2, i.1) = ((s.next i).1.map Spec.opposite, (s.next i).2.swap) := by
  obtain ⟨u, d⟩ := i
  have hx := Y.aroon_excl u d
  have hx' := Y.aroon_excl d u
  obtain ⟨us, ds, cm, cr⟩ := s
  have := Y.cross_swap cr (d, u)
  have e : (Cross.next cr.swap (u, d)) = ((Cross.next cr (d, u)).1.map CrossMode.flip, (Cross.next cr (d, u)).2.swap) := this
  refine Eq.trans (congrArg (aroonTail cm _ _) e) ?_
  show aroonTail cm _ _ _ = ((aroonTail cm (AroonStrategy.strength u d) (AroonStrategy.strength d u) (Cross.next cr (d, u))).1.map Spec.opposite,
    (aroonTail cm (AroonStrategy.strength u d) (AroonStrategy.strength d u) (Cross.next cr (d, u))).2.swap)
  generalize Cross.next cr (d, u) = r
  obtain ⟨r1, r2⟩ := r
  dsimp only
  generalize AroonStrategy.strength u d = a at *
  generalize AroonStrategy.strength d u = b at *
  unfold aroonTail
  dsimp only
  rw [show (r1.map CrossMode.flip).isSome = r1.isSome from Option.isSome_map ..]
  cases h1 : fge a (lit 1) <;> cases h2 : fge b (lit 1)
  · cases r1 <;> cases cm <;> rfl
  · cases r1 <;> cases cm <;> rfl
  · cases r1 <;> cases cm <;> rfl
  · rw [hx h1] at h2; cases h2

/-! ## Sources -/

/-- Every kind of source but the volume, and the mean of four prices, whose order of summation matters. -/
theorem src {k : SrcKind} (hk : k ≠ .volume) (hk' : k ≠ .ohlc4) (h : Src.next c k = .ok o) : Src.next c.mirror k.mirror = .ok (ng o) := by
  cases k with
  | open_ => exact Ctx.mirror_barOpen h
  | high => exact Ctx.mirror_barLow h
  | low => exact Ctx.mirror_barHigh h
  | close => exact Ctx.mirror_barClose h
  | volume => exact absurd rfl hk
  | ohlc4 => exact absurd rfl hk'
  | hlc3 =>
    unfold Src.next at h
    obtain ⟨a, ha, h⟩ := Res.bind_ok h
    obtain ⟨a', ha', h⟩ := Res.bind_ok h
    obtain ⟨b, hb, h⟩ := Res.bind_ok h
    obtain ⟨b', hb', h⟩ := Res.bind_ok h
    obtain ⟨d, hd, h⟩ := Res.bind_ok h
    obtain ⟨d', hd', h⟩ := Res.bind_ok h
    cases h
    have h1 : unwrap (ng a) = .ok (-a') := (unwrap_map ..).trans (Res.map_eq ha')
    have h2 : unwrap (ng b) = .ok (-b') := (unwrap_map ..).trans (Res.map_eq hb')
    have h3 : unwrap (ng d) = .ok (-d') := (unwrap_map ..).trans (Res.map_eq hd')
    simp only [SrcKind.mirror, Src.next, Ctx.mirror_barHigh hb, Ctx.mirror_barLow ha, Ctx.mirror_barClose hd, Res.ok_bind, h1, h2, h3,
      Res.pure_eq, Pace.hlc3, Option.map_some, ← Y.neg_add, Y.neg_div, Y.add_comm b' a']
  | hl2 =>
    unfold Src.next at h
    obtain ⟨a, ha, h⟩ := Res.bind_ok h
    obtain ⟨a', ha', h⟩ := Res.bind_ok h
    obtain ⟨b, hb, h⟩ := Res.bind_ok h
    obtain ⟨b', hb', h⟩ := Res.bind_ok h
    cases h
    have h1 : unwrap (ng a) = .ok (-a') := (unwrap_map ..).trans (Res.map_eq ha')
    have h2 : unwrap (ng b) = .ok (-b') := (unwrap_map ..).trans (Res.map_eq hb')
    simp only [SrcKind.mirror, Src.next, Ctx.mirror_barHigh hb, Ctx.mirror_barLow ha, Res.ok_bind, h1, h2,
      Res.pure_eq, Pace.hl2, Option.map_some, ← Y.neg_add, Y.neg_div, Y.add_comm b' a']

end SignSymmetric
end Pace
