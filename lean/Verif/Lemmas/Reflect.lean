import Verif.Spec.Reflect
import Verif.Lemmas.UnitsNew

/-!
# The indicators on the mirrored market

Every lemma says: if the component makes a step, then on the mirrored bars, from the mirrored state, it makes the mirrored step.
-/

set_option linter.unusedSectionVars false
set_option linter.unusedSimpArgs false

namespace Pace

theorem Res.bind_ok {β γ : Type} {x : Res β} {g : β → Res γ} {b : γ} (h : (x >>= g) = .ok b) : ∃ a, x = .ok a ∧ g a = .ok b := by
  cases x with
  | error e => exact absurd h (by simp)
  | ok a => exact ⟨a, rfl, h⟩

theorem Res.map_eq {β γ : Type} {x : Res β} {f : β → γ} {a : β} (h : x = .ok a) : x.map f = .ok (f a) := by rw [h]; rfl

variable {α : Type}

/-- What a component sees of the mirrored bars. -/
def Ctx.mirror [Neg α] (c : Ctx α) : Ctx α := ⟨c.data.mirror, c.index⟩

/-- A missing number stays missing. -/
abbrev ng [Neg α] : Option α → Option α := Option.map Neg.neg

namespace Ctx
variable [Neg α] (c : Ctx α)
@[simp] theorem mirror_index : c.mirror.index = c.index := rfl
@[simp] theorem mirror_atLength (n : Nat) : c.mirror.atLength n = c.atLength n := rfl
variable {c} {o : Option α} {n : Nat} {l : List (Option α)}
theorem mirror_barOpen (h : c.barOpen = .ok o) : c.mirror.barOpen = .ok (ng o) := (index_map ..).trans (Res.map_eq h)
theorem mirror_barHigh (h : c.barLow = .ok o) : c.mirror.barHigh = .ok (ng o) := (index_map ..).trans (Res.map_eq h)
theorem mirror_barLow (h : c.barHigh = .ok o) : c.mirror.barLow = .ok (ng o) := (index_map ..).trans (Res.map_eq h)
theorem mirror_barClose (h : c.barClose = .ok o) : c.mirror.barClose = .ok (ng o) := (index_map ..).trans (Res.map_eq h)
theorem mirror_barVolume (h : c.barVolume = .ok o) : c.mirror.barVolume = .ok o := h
private theorem back {l : List (Option α)} {f : α → α} (i n : Nat) :
    (if i < n then (.ok none : Res (Option α)) else Pace.index (l.map (Option.map f)) (i - n)) =
      (if i < n then (.ok none : Res (Option α)) else Pace.index l (i - n)).map (Option.map f) := by
  split
  · rfl
  · exact index_map ..
theorem mirror_high (h : c.low n = .ok o) : c.mirror.high n = .ok (ng o) := (back ..).trans (Res.map_eq h)
theorem mirror_low (h : c.high n = .ok o) : c.mirror.low n = .ok (ng o) := (back ..).trans (Res.map_eq h)
theorem mirror_close (h : c.close n = .ok o) : c.mirror.close n = .ok (ng o) := (back ..).trans (Res.map_eq h)
theorem mirror_highs (h : c.lows n = .ok l) : c.mirror.highs n = .ok (l.map ng) := by
  unfold lows at h
  obtain ⟨a, ha, h⟩ := Res.bind_ok h
  unfold highs
  have e : (c.mirror.data.getHighForRange a c.index) = (c.data.getLowForRange a c.index).map (List.map ng) := slice_map ..
  have ha' : c.mirror.rangeStart n = .ok a := ha
  rw [ha']
  exact e.trans (Res.map_eq h)
theorem mirror_lows (h : c.highs n = .ok l) : c.mirror.lows n = .ok (l.map ng) := by
  unfold highs at h
  obtain ⟨a, ha, h⟩ := Res.bind_ok h
  unfold lows
  have e : (c.mirror.data.getLowForRange a c.index) = (c.data.getHighForRange a c.index).map (List.map ng) := slice_map ..
  have ha' : c.mirror.rangeStart n = .ok a := ha
  rw [ha']
  exact e.trans (Res.map_eq h)
end Ctx

variable [F64 α]

/-- Negation as a linear map. -/
def SignSymmetric.linear (Y : SignSymmetric α) : Linear α where
  f := Neg.neg
  add := Y.neg_add
  sub := Y.neg_sub
  neg _ := rfl
  feq := Y.feq_neg
  zero := Y.neg_zero
  mul_num := Y.neg_mul
  num_mul := Y.mul_neg
  div_num := Y.neg_div

namespace SignSymmetric
variable (Y : SignSymmetric α) {c : Ctx α} {x o : Option α}

/-! ## Averages: negated -/
section
include Y

theorem sma {s s1 : Sma α} (h : s.next c x = .ok (o, s1)) : (s.rescale Neg.neg).next c.mirror (ng x) = .ok (ng o, s1.rescale Neg.neg) :=
  (Y.linear.sma c id id s x).trans (Res.map_eq h)
theorem sum {s s1 : Sum α} (h : s.next c x = .ok (o, s1)) : (s.rescale Neg.neg).next c.mirror (ng x) = .ok (ng o, s1.rescale Neg.neg) :=
  (Y.linear.sum c id id s x).trans (Res.map_eq h)
theorem ema {s s1 : Ema α} (h : s.next c x = .ok (o, s1)) : (s.rescale Neg.neg).next c.mirror (ng x) = .ok (ng o, s1.rescale Neg.neg) :=
  (Y.linear.ema c id id s x).trans (Res.map_eq h)
theorem rma {s s1 : Rma α} (h : s.next c x = .ok (o, s1)) : (s.rescale Neg.neg).next c.mirror (ng x) = .ok (ng o, s1.rescale Neg.neg) :=
  (Y.linear.rma c id id s x).trans (Res.map_eq h)
theorem wma {s s1 : Wma α} (h : s.next c x = .ok (o, s1)) : (s.rescale Neg.neg).next c.mirror (ng x) = .ok (ng o, s1.rescale Neg.neg) :=
  (Y.linear.wma c id id s x).trans (Res.map_eq h)
theorem swma {s s1 : Swma α} (h : s.next c x = .ok (o, s1)) : (s.rescale Neg.neg).next c.mirror (ng x) = .ok (ng o, s1.rescale Neg.neg) :=
  (Y.linear.swma c id id s x).trans (Res.map_eq h)
theorem ma {s s1 : Ma α} (h : s.next c x = .ok (o, s1)) : (s.rescale Neg.neg).next c.mirror (ng x) = .ok (ng o, s1.rescale Neg.neg) := by
  refine Eq.trans ?_ ((Y.linear.ma c id id s x).trans (Res.map_eq h))
  cases s <;> rfl
theorem change {s s1 : Change α} (h : s.next x = .ok (o, s1)) : (s.rescale Neg.neg).next (ng x) = .ok (ng o, s1.rescale Neg.neg) :=
  (Y.linear.change s x).trans (Res.map_eq h)

end

/-! ## Components that look at their input only: the bars do not matter -/

section
theorem sma_same {s s1 : Sma α} (h : s.next c x = .ok (o, s1)) : s.next c.mirror x = .ok (o, s1) := h
theorem sum_same {s s1 : Sum α} (h : s.next c x = .ok (o, s1)) : s.next c.mirror x = .ok (o, s1) := h
theorem ema_same {s s1 : Ema α} (h : s.next c x = .ok (o, s1)) : s.next c.mirror x = .ok (o, s1) := h
theorem rma_same {s s1 : Rma α} (h : s.next c x = .ok (o, s1)) : s.next c.mirror x = .ok (o, s1) := h
theorem swma_same {s s1 : Swma α} (h : s.next c x = .ok (o, s1)) : s.next c.mirror x = .ok (o, s1) := h
theorem ma_same {s s1 : Ma α} (h : s.next c x = .ok (o, s1)) : s.next c.mirror x = .ok (o, s1) := by
  refine Eq.trans ?_ h
  cases s <;> rfl
end

/-! ## Extremes: highest and lowest change places -/

theorem findMin_rev {f : α → α} (hf : ∀ a b, F64.lt (f a) (f b) = F64.lt b a) (l : List (Option α)) :
    Pace.findMinIndex (l.map (Option.map f)) = Pace.findMaxIndex l := by
  have key : ∀ (l : List (Nat × Option α)) (a : Option α × Option Nat),
      ((l.map fun q => (q.1, q.2.map f)).foldl findMinStep (a.1.map f, a.2)).2 = (l.foldl findMaxStep a).2 := by
    intro l
    induction l with
    | nil => intro a; rfl
    | cons q l ih =>
      intro a
      simp only [List.map_cons, List.foldl_cons]
      rw [← ih]
      congr 1
      obtain ⟨m, i⟩ := a
      obtain ⟨j, o⟩ := q
      unfold findMaxStep findMinStep fgt
      cases m <;> cases o <;> simp only [Option.map_none, Option.map_some, hf]
      split <;> rfl
  unfold Pace.findMaxIndex Pace.findMinIndex
  have e : (l.map (Option.map f)).isEmpty = l.isEmpty := by cases l <;> rfl
  rw [e, Linear.indexed_map, List.length_map]
  have := key (indexed l) (none, none)
  simp only [Option.map_none] at this
  simp only [this]

theorem findMax_rev {f : α → α} (hf : ∀ a b, F64.lt (f a) (f b) = F64.lt b a) (l : List (Option α)) :
    Pace.findMaxIndex (l.map (Option.map f)) = Pace.findMinIndex l := by
  have key : ∀ (l : List (Nat × Option α)) (a : Option α × Option Nat),
      ((l.map fun q => (q.1, q.2.map f)).foldl findMaxStep (a.1.map f, a.2)).2 = (l.foldl findMinStep a).2 := by
    intro l
    induction l with
    | nil => intro a; rfl
    | cons q l ih =>
      intro a
      simp only [List.map_cons, List.foldl_cons]
      rw [← ih]
      congr 1
      obtain ⟨m, i⟩ := a
      obtain ⟨j, o⟩ := q
      unfold findMaxStep findMinStep fgt
      cases m <;> cases o <;> simp only [Option.map_none, Option.map_some, hf]
      split <;> rfl
  unfold Pace.findMaxIndex Pace.findMinIndex
  have e : (l.map (Option.map f)).isEmpty = l.isEmpty := by cases l <;> rfl
  rw [e, Linear.indexed_map, List.length_map]
  have := key (indexed l) (none, none)
  simp only [Option.map_none] at this
  simp only [this]

theorem lowest_rev {f : α → α} (hf : ∀ a b, F64.lt (f a) (f b) = F64.lt b a) (l : List (Option α)) :
    Pace.lowest (l.map (Option.map f)) = (Pace.highest l).map (Option.map f) := by
  unfold Pace.lowest Pace.highest
  rw [findMin_rev hf, Res.bind_map]
  exact Res.bind_congr fun i => index_map ..
theorem highest_rev {f : α → α} (hf : ∀ a b, F64.lt (f a) (f b) = F64.lt b a) (l : List (Option α)) :
    Pace.highest (l.map (Option.map f)) = (Pace.lowest l).map (Option.map f) := by
  unfold Pace.lowest Pace.highest
  rw [findMax_rev hf, Res.bind_map]
  exact Res.bind_congr fun i => index_map ..

/-- A highest that has seen `x` as a lowest that has seen `f x`. -/
def _root_.Pace.Highest.flip (f : α → α) (s : Highest α) : Lowest α := ⟨s.length, s.inputCache.rescale f⟩
def _root_.Pace.Lowest.flip (f : α → α) (s : Lowest α) : Highest α := ⟨s.length, s.inputCache.rescale f⟩
def _root_.Pace.HighestBars.flip (s : HighestBars) : LowestBars := ⟨s.length⟩
def _root_.Pace.LowestBars.flip (s : LowestBars) : HighestBars := ⟨s.length⟩

theorem highest_flip {f : α → α} (hf : ∀ a b, F64.lt (f a) (f b) = F64.lt b a) (s : Highest α) (x : Option α) :
    (s.flip f).next c.mirror (x.map f) = (s.next c x).map fun q => (q.1.map f, q.2.flip f) := by
  unfold Highest.next Lowest.next
  simp only [Highest.flip, WindowCache.rescale, WindowCache.mapC_next, Ctx.mirror_atLength, Res.bind_map, WindowCache.mapC_all, Res.map_bind,
    Res.ite_map, lowest_rev hf]
  refine Res.bind_congr fun b => ?_
  split
  · rfl
  · rfl
theorem lowest_flip {f : α → α} (hf : ∀ a b, F64.lt (f a) (f b) = F64.lt b a) (s : Lowest α) (x : Option α) :
    (s.flip f).next c.mirror (x.map f) = (s.next c x).map fun q => (q.1.map f, q.2.flip f) := by
  unfold Highest.next Lowest.next
  simp only [Lowest.flip, WindowCache.rescale, WindowCache.mapC_next, Ctx.mirror_atLength, Res.bind_map, WindowCache.mapC_all, Res.map_bind,
    Res.ite_map, highest_rev hf]
  refine Res.bind_congr fun b => ?_
  split
  · rfl
  · rfl

section
include Y
theorem highest {s s1 : Highest α} (h : s.next c x = .ok (o, s1)) : (s.flip Neg.neg).next c.mirror (ng x) = .ok (ng o, s1.flip Neg.neg) :=
  (highest_flip Y.lt_neg s x).trans (Res.map_eq h)
theorem lowest {s s1 : Lowest α} (h : s.next c x = .ok (o, s1)) : (s.flip Neg.neg).next c.mirror (ng x) = .ok (ng o, s1.flip Neg.neg) :=
  (lowest_flip Y.lt_neg s x).trans (Res.map_eq h)

theorem highestBars {s s1 : HighestBars} {k : Option Int} (h : s.next c = .ok (k, s1)) : s.flip.next c.mirror = .ok (k, s1.flip) := by
  unfold HighestBars.next at h
  obtain ⟨b, hb, h⟩ := Res.bind_ok h
  unfold LowestBars.next
  have e : c.mirror.atLength s.flip.length = .ok b := hb
  rw [e]
  cases b with
  | false => cases h; rfl
  | true =>
    obtain ⟨l, hl, h⟩ := Res.bind_ok (show (c.highs s.length >>= _) = _ from h)
    obtain ⟨q, hq, h⟩ := Res.bind_ok h
    show (c.mirror.lows s.length >>= _) = _
    rw [Ctx.mirror_lows hl]
    have : Pace.lowestBars (l.map ng) s.length = .ok q := by
      unfold Pace.lowestBars
      rw [findMin_rev Y.lt_neg]
      exact hq
    show (Pace.lowestBars (l.map ng) s.length >>= _) = _
    rw [this]
    cases h
    rfl

theorem lowestBars {s s1 : LowestBars} {k : Option Int} (h : s.next c = .ok (k, s1)) : s.flip.next c.mirror = .ok (k, s1.flip) := by
  unfold LowestBars.next at h
  obtain ⟨b, hb, h⟩ := Res.bind_ok h
  unfold HighestBars.next
  have e : c.mirror.atLength s.flip.length = .ok b := hb
  rw [e]
  cases b with
  | false => cases h; rfl
  | true =>
    obtain ⟨l, hl, h⟩ := Res.bind_ok (show (c.lows s.length >>= _) = _ from h)
    obtain ⟨q, hq, h⟩ := Res.bind_ok h
    show (c.mirror.highs s.length >>= _) = _
    rw [Ctx.mirror_highs hl]
    have : Pace.highestBars (l.map ng) s.length = .ok q := by
      unfold Pace.highestBars
      rw [findMax_rev Y.lt_neg]
      exact hq
    show (Pace.highestBars (l.map ng) s.length >>= _) = _
    rw [this]
    cases h
    rfl

/-! ## Deviations and ranges: unchanged -/

theorem abs_sub (a b : α) : F64.abs (a - b) = F64.abs (b - a) := by rw [← Y.sub_rev, ← Y.neg_sub, Y.abs_neg]

theorem dev {s s1 : Dev α} (h : s.next c x = .ok (o, s1)) : (s.rescale Neg.neg).next c.mirror (ng x) = .ok (o, s1.rescale Neg.neg) := by
  unfold Dev.next at h ⊢
  simp only [Dev.rescale, WindowCache.rescale, WindowCache.mapC_next]
  by_cases h1 : s.length = 1
  · rw [if_pos h1] at h ⊢
    cases h; rfl
  · rw [if_neg h1] at h ⊢
    obtain ⟨⟨m, sm⟩, hm, h⟩ := Res.bind_ok h
    rw [Y.sma hm]
    cases m with
    | none => cases h; rfl
    | some m =>
      simp only [Option.map_some, Res.ok_bind, WindowCache.mapC_isFilled] at h ⊢
      by_cases h2 : (!(s.inputCache.next x).isFilled) = true
      · rw [if_pos h2] at h ⊢
        cases h; rfl
      · rw [if_neg h2] at h ⊢
        obtain ⟨vs, hv, h⟩ := Res.bind_ok h
        rw [WindowCache.mapC_all, hv]
        have e : (vs.map (Option.map Neg.neg)).map (fun v => F64.abs (v.getD (-m) - -m)) = vs.map fun v => F64.abs (v.getD m - m) := by
          rw [List.map_map]
          apply List.map_congr_left
          intro o _
          cases o <;> simp only [Function.comp, Option.map_none, Option.map_some, Option.getD_none, Option.getD_some, Y.sub_rev] <;> rw [Y.abs_sub]
        simp only [Res.map_ok', Res.ok_bind]
        rw [e]
        cases h; rfl
end

def _root_.Pace.Stdev.reflect (s : Stdev α) : Stdev α := { s with sma := s.sma.rescale Neg.neg, inputCache := s.inputCache.rescale Neg.neg }

section
include Y
theorem computeSum (a m : α) : sq (Stdev.computeSum (-a) (- -m)) = sq (Stdev.computeSum a (-m)) := by
  have e : -a + - -m = -(a + -m) := (Y.neg_add _ _).symm
  unfold Stdev.computeSum compareWithPrecision
  simp only [e]
  have z : ∀ y : α, F64.abs (-y - lit 0) = F64.abs (y - lit 0) := fun y => by
    have : -y - lit 0 = -(y - lit 0) := by rw [Y.neg_sub, Y.neg_zero]
    rw [this, Y.abs_neg]
  rw [z]
  split
  · rfl
  · show -(a + -m) * -(a + -m) = (a + -m) * (a + -m)
    rw [Y.neg_mul, Y.mul_neg, Y.neg_neg]

theorem stdev {s s1 : Stdev α} (h : s.next c x = .ok (o, s1)) : s.reflect.next c.mirror (ng x) = .ok (o, s1.reflect) := by
  obtain ⟨len, biased, sm0, cache⟩ := s
  unfold Stdev.next at h ⊢
  simp only [Stdev.reflect, WindowCache.rescale, WindowCache.mapC_next] at h ⊢
  by_cases h1 : len = 1
  · rw [if_pos h1] at h ⊢
    cases biased <;> cases h <;> rfl
  · rw [if_neg h1] at h ⊢
    obtain ⟨⟨m, sm⟩, hm, h⟩ := Res.bind_ok h
    rw [Y.sma hm]
    cases m with
    | none => cases h; rfl
    | some m =>
      simp only [Option.map_some, Res.ok_bind] at h ⊢
      obtain ⟨vs, hv, h⟩ := Res.bind_ok h
      rw [WindowCache.mapC_all, hv]
      simp only [Res.map_ok', Res.ok_bind, List.map_map]
      cases biased with
      | true =>
        cases h
        refine congrArg (fun l : List α => Except.ok (some (F64.sqrt (fsum l / _)), _)) (List.map_congr_left ?_)
        intro o _
        cases o
        · rfl
        · exact Y.computeSum _ _
      | false =>
        obtain ⟨l, hl, h⟩ := Res.bind_ok (show (usub len 1 >>= _) = _ from h)
        rw [hl]
        cases h
        refine congrArg (fun l : List α => Except.ok (some (F64.sqrt (fsum l / _)), _)) (List.map_congr_left ?_)
        intro o _
        cases o
        · rfl
        · exact Y.computeSum _ _

theorem trueRange (h l : α) (ph pl pc : Option α) (na : Bool) :
    Pace.trueRange (-l) (-h) (ng pl) (ng ph) (ng pc) na = Pace.trueRange h l ph pl pc na := by
  unfold Pace.trueRange
  cases ph <;> cases pl <;> cases pc <;> simp only [Option.map_none, Option.map_some, Y.sub_rev]
  rename_i pc
  rw [Y.abs_sub pc l, Y.abs_sub pc h, Y.fmax_right_comm]

theorem tr {na : Bool} (h : Tr.next c na = .ok o) : Tr.next c.mirror na = .ok o := by
  unfold Tr.next at h ⊢
  obtain ⟨a, ha, h⟩ := Res.bind_ok h
  obtain ⟨a', ha', h⟩ := Res.bind_ok h
  obtain ⟨b, hb, h⟩ := Res.bind_ok h
  obtain ⟨b', hb', h⟩ := Res.bind_ok h
  obtain ⟨d, hd, h⟩ := Res.bind_ok h
  obtain ⟨e, he, h⟩ := Res.bind_ok h
  obtain ⟨f, hf, h⟩ := Res.bind_ok h
  have h1 : unwrap (ng b) = .ok (-b') := (unwrap_map ..).trans (Res.map_eq hb')
  have h2 : unwrap (ng a) = .ok (-a') := (unwrap_map ..).trans (Res.map_eq ha')
  rw [Ctx.mirror_barHigh hb, Res.ok_bind, h1, Res.ok_bind, Ctx.mirror_barLow ha, Res.ok_bind, h2, Res.ok_bind, Ctx.mirror_high he, Res.ok_bind,
    Ctx.mirror_low hd, Res.ok_bind, Ctx.mirror_close hf, Res.ok_bind, Y.trueRange]
  exact h

theorem atr {s s1 : Atr α} (h : s.next c = .ok (o, s1)) : s.next c.mirror = .ok (o, s1) := by
  unfold Atr.next at h ⊢
  obtain ⟨a, ha, h⟩ := Res.bind_ok h
  rw [Y.tr ha]
  exact h
end

/-! ## Crossings: over and under change places -/

def _root_.Pace.CrossMode.flip : CrossMode → CrossMode
  | .over => .under
  | .under => .over

section
include Y
theorem crossOver (a b pa pb : α) : Pace.crossOver (-a) (-b) (-pa) (-pb) = Pace.crossUnder a b pa pb := by
  simp only [Pace.crossOver, Pace.crossUnder, fgt, fge, Y.lt_neg, Y.le_neg]
theorem crossUnder (a b pa pb : α) : Pace.crossUnder (-a) (-b) (-pa) (-pb) = Pace.crossOver a b pa pb := by
  simp only [Pace.crossOver, Pace.crossUnder, fgt, fge, Y.lt_neg, Y.le_neg]
end

end SignSymmetric
end Pace
