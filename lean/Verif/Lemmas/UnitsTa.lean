import Verif.Lemmas.Units
import Verif.Model.Content

/-!
# The indicators commute with a change of the unit of prices
-/

set_option linter.unusedSectionVars false
set_option linter.unusedSimpArgs false

namespace Pace

theorem Res.map_bind {β γ δ : Type} (x : Res β) (f : β → γ) (g : γ → Res δ) : (x.map f >>= g) = x >>= fun a => g (f a) := by
  cases x <;> rfl
theorem Res.bind_map {β γ δ : Type} (x : Res β) (g : β → Res γ) (h : γ → δ) : (x >>= g).map h = x >>= fun a => (g a).map h := by
  cases x <;> rfl
theorem Res.map_map {β γ δ : Type} (x : Res β) (f : β → γ) (g : γ → δ) : (x.map f).map g = x.map fun a => g (f a) := by
  cases x <;> rfl
theorem Res.bind_congr {β γ : Type} {x : Res β} {g g' : β → Res γ} (h : ∀ a, g a = g' a) : (x >>= g) = x >>= g' := by
  cases x
  · rfl
  · exact h _
theorem Res.map_id' {β : Type} (x : Res β) {f : β → β} (h : ∀ a, f a = a) : x.map f = x := by
  cases x
  · rfl
  · exact congrArg Except.ok (h _)
theorem Res.ite_map {β γ : Type} (b : Prop) [Decidable b] (x y : Res β) (h : β → γ) :
    (if b then x else y).map h = if b then x.map h else y.map h := by split <;> rfl

variable {α : Type}

/-- What a component sees of the bars in other units. -/
def Ctx.rescale (p v : α → α) (c : Ctx α) : Ctx α := ⟨c.data.rescale p v, c.index⟩

namespace Ctx
variable (c : Ctx α) (p v : α → α)
@[simp] theorem rescale_index : (c.rescale p v).index = c.index := rfl
@[simp] theorem rescale_atLength (n : Nat) : (c.rescale p v).atLength n = c.atLength n := rfl
theorem rescale_barOpen : (c.rescale p v).barOpen = c.barOpen.map (Option.map p) := index_map ..
theorem rescale_barHigh : (c.rescale p v).barHigh = c.barHigh.map (Option.map p) := index_map ..
theorem rescale_barLow : (c.rescale p v).barLow = c.barLow.map (Option.map p) := index_map ..
theorem rescale_barClose : (c.rescale p v).barClose = c.barClose.map (Option.map p) := index_map ..
theorem rescale_barVolume : (c.rescale p v).barVolume = c.barVolume.map (Option.map v) := index_map ..
private theorem back {l : List (Option α)} {f : α → α} (i n : Nat) :
    (if i < n then (.ok none : Res (Option α)) else Pace.index (l.map (Option.map f)) (i - n)) =
      (if i < n then (.ok none : Res (Option α)) else Pace.index l (i - n)).map (Option.map f) := by
  split
  · rfl
  · exact index_map ..
theorem rescale_high (n : Nat) : (c.rescale p v).high n = (c.high n).map (Option.map p) := back ..
theorem rescale_low (n : Nat) : (c.rescale p v).low n = (c.low n).map (Option.map p) := back ..
theorem rescale_close (n : Nat) : (c.rescale p v).close n = (c.close n).map (Option.map p) := back ..
theorem rescale_volume (n : Nat) : (c.rescale p v).volume n = (c.volume n).map (Option.map v) := back ..
theorem slice_map {β γ : Type} (f : β → γ) (l : List β) (a b : Nat) : slice (l.map f) a b = (slice l a b).map (List.map f) := by
  unfold slice
  rw [List.length_map]
  split
  · simp [List.map_drop, List.map_take]
  · rfl
theorem rescale_highs (n : Nat) : (c.rescale p v).highs n = (c.highs n).map (List.map (Option.map p)) := by
  unfold highs DataProvider.getHighForRange
  rw [Res.bind_map]
  refine Res.bind_congr fun a => ?_
  exact slice_map ..
theorem rescale_lows (n : Nat) : (c.rescale p v).lows n = (c.lows n).map (List.map (Option.map p)) := by
  unfold lows DataProvider.getLowForRange
  rw [Res.bind_map]
  refine Res.bind_congr fun a => ?_
  exact slice_map ..
end Ctx

/-! ## Caches -/

def WindowCache.mapC {β γ : Type} (f : β → γ) (w : WindowCache β) : WindowCache γ := ⟨w.length, w.values.map f⟩
/-- A cache of optional numbers in other units. -/
abbrev WindowCache.rescale (f : α → α) (w : WindowCache (Option α)) : WindowCache (Option α) := w.mapC (Option.map f)

namespace WindowCache
variable {β γ : Type} (f : β → γ)
@[simp] theorem mapC_length (w : WindowCache β) : (w.mapC f).length = w.length := rfl
theorem mapC_next (w : WindowCache β) (x : β) : (w.mapC f).next (f x) = (w.next x).mapC f := by
  simp [next, mapC]
theorem mapC_isFilled (w : WindowCache β) : (w.mapC f).isFilled = w.isFilled := by simp [isFilled, mapC]
theorem mapC_get (w : WindowCache β) (i : Nat) : (w.mapC f).get i = (w.get i).map (Option.map f) := by
  unfold get
  simp only [mapC, List.length_map, Res.bind_map]
  refine Res.bind_congr fun a => Res.bind_congr fun b => ?_
  simp
theorem mapC_all (w : WindowCache β) : (w.mapC f).all = w.all.map (List.map f) := by
  unfold all
  simp only [mapC, List.length_map]
  split
  · exact Ctx.slice_map ..
  · rw [Res.bind_map]
    exact Res.bind_congr fun a => Ctx.slice_map ..
theorem mapC_first (w : WindowCache β) : (w.mapC f).first = w.first.map (Option.map f) := by
  unfold first
  have e : (w.mapC f).values.length = w.values.length := by simp [mapC]
  simp only [e, mapC_length]
  split
  · rfl
  · simp only [Res.bind_map]
    exact Res.bind_congr fun a => mapC_get ..
theorem rescale_firstUnwrapped (g : α → α) (w : WindowCache (Option α)) :
    (w.rescale g).firstUnwrapped = w.firstUnwrapped.map (Option.map g) := by
  unfold firstUnwrapped
  rw [mapC_first, Res.map_bind, Res.bind_map]
  refine Res.bind_congr fun a => ?_
  cases a <;> rfl
theorem rescale_lastUnwrapped (g : α → α) (w : WindowCache (Option α)) :
    (w.rescale g).lastUnwrapped = w.lastUnwrapped.map g := by
  unfold lastUnwrapped last
  simp only [mapC, List.getLast?_map]
  cases w.values.getLast? <;> rfl
@[simp] theorem rescale_new (g : α → α) (n : Nat) : (WindowCache.new n : WindowCache (Option α)).rescale g = .new n := rfl
@[simp] theorem rescale_id (w : WindowCache (Option α)) : w.rescale id = w := by simp [mapC]
end WindowCache

theorem validator_rescale (c : Ctx α) (p v f : α → α) (s : WindowValidator) (x : Option α) :
    WindowValidator.next (c.rescale p v) s (x.map f) = WindowValidator.next c s x := by
  unfold WindowValidator.next
  cases x <;> rfl

variable [F64 α]

def Dilation.id : Dilation α where
  f := _root_.id
  add _ _ := rfl
  sub _ _ := rfl
  neg _ := rfl
  abs _ := rfl
  fmax _ _ := rfl
  fmin _ _ := rfl
  lt _ _ := rfl
  le _ _ := rfl
  feq _ _ := rfl
  zero := rfl
  mul_num _ _ := rfl
  num_mul _ _ := rfl
  div_num _ _ := rfl
  ratio _ _ := rfl

theorem Linear.addOpt (D : Linear α) (s : α) (o : Option α) : Pace.addOpt (D.f s) (o.map D.f) = D.f (Pace.addOpt s o) := by
  cases o
  · rfl
  · exact (D.add _ _).symm
theorem Linear.subOpt (D : Linear α) (s : α) (o : Option α) : Pace.subOpt (D.f s) (o.map D.f) = D.f (Pace.subOpt s o) := by
  cases o
  · rfl
  · exact (D.sub _ _).symm
theorem Linear.fsum (D : Linear α) (l : List α) : Pace.fsum (l.map D.f) = D.f (Pace.fsum l) := by
  have key : ∀ (l : List α) (a : α), (l.map D.f).foldl (· + ·) (D.f a) = D.f (l.foldl (· + ·) a) := by
    intro l
    induction l with
    | nil => intro a; rfl
    | cons b l ih => intro a; simp only [List.map_cons, List.foldl_cons, ← D.add]; exact ih _
  have := key l (lit 0)
  rw [D.zero] at this
  exact this

/-! ## Moving averages -/

def Sma.rescale (f : α → α) (s : Sma α) : Sma α := { s with sum := f s.sum, inputCache := s.inputCache.rescale f }
def Sum.rescale (f : α → α) (s : Sum α) : Sum α := { s with sum := f s.sum, inputCache := s.inputCache.rescale f }
def Ema.rescale (f : α → α) (s : Ema α) : Ema α := { s with sma := s.sma.rescale f, prevValue := s.prevValue.map f }
def Rma.rescale (f : α → α) (s : Rma α) : Rma α := { s with ema := s.ema.rescale f }
def Wma.rescale (f : α → α) (s : Wma α) : Wma α := { s with inputCache := s.inputCache.rescale f }
def Swma.rescale (f : α → α) (s : Swma α) : Swma α := { s with inputCache := s.inputCache.rescale f }
def Ma.rescale (f : α → α) : Ma α → Ma α
  | .sma s => .sma (s.rescale f)
  | .ema s => .ema (s.rescale f)
  | .rma s => .rma (s.rescale f)
  | .swma s => .swma (s.rescale f)

@[simp] theorem Sma.rescale_id (s : Sma α) : s.rescale id = s := by simp [Sma.rescale]
@[simp] theorem Sum.rescale_id (s : Sum α) : s.rescale id = s := by simp [Sum.rescale]
@[simp] theorem Ema.rescale_id (s : Ema α) : s.rescale id = s := by simp [Ema.rescale]
@[simp] theorem Rma.rescale_id (s : Rma α) : s.rescale id = s := by simp [Rma.rescale]
@[simp] theorem Wma.rescale_id (s : Wma α) : s.rescale id = s := by simp [Wma.rescale]
@[simp] theorem Swma.rescale_id (s : Swma α) : s.rescale id = s := by simp [Swma.rescale]

namespace Linear
variable (D : Linear α) (c : Ctx α) (p v : α → α)

theorem sma (s : Sma α) (x : Option α) :
    Sma.next (c.rescale p v) (s.rescale D.f) (x.map D.f) = (Sma.next c s x).map fun q => (q.1.map D.f, q.2.rescale D.f) := by
  unfold Sma.next
  have e : (s.rescale D.f).length = s.length := rfl
  simp only [e]
  split
  · rfl
  · simp only [Sma.rescale, WindowCache.rescale, WindowCache.mapC_next, validator_rescale, Res.bind_map]
    refine Res.bind_congr ?_
    rintro ⟨a, b⟩
    simp only [WindowCache.rescale_firstUnwrapped, WindowCache.rescale_lastUnwrapped, WindowCache.mapC_isFilled, D.addOpt, D.subOpt,
      Res.map_bind, Res.bind_map]
    refine Res.bind_congr fun o => ?_
    simp only [D.subOpt, D.div_num, Res.pure_eq, Res.map_ok']
    split <;> rfl

theorem sum (s : Sum α) (x : Option α) :
    Sum.next (c.rescale p v) (s.rescale D.f) (x.map D.f) = (Sum.next c s x).map fun q => (q.1.map D.f, q.2.rescale D.f) := by
  unfold Sum.next
  simp only [Sum.rescale, WindowCache.rescale, WindowCache.mapC_next, validator_rescale]
  simp only [WindowCache.rescale_firstUnwrapped, WindowCache.rescale_lastUnwrapped, WindowCache.mapC_isFilled, D.addOpt, Res.map_bind, Res.bind_map]
  refine Res.bind_congr fun o => ?_
  refine Res.bind_congr ?_
  rintro ⟨a, b⟩
  simp only [D.subOpt, Res.pure_eq, Res.map_ok']
  split <;> rfl

theorem ema (s : Ema α) (x : Option α) :
    Ema.next (c.rescale p v) (s.rescale D.f) (x.map D.f) = (Ema.next c s x).map fun q => (q.1.map D.f, q.2.rescale D.f) := by
  unfold Ema.next
  have e : (s.rescale D.f).length = s.length := rfl
  have e2 : (s.rescale D.f).sma = s.sma.rescale D.f := rfl
  have e3 : (s.rescale D.f).prevValue = s.prevValue.map D.f := rfl
  have e4 : (s.rescale D.f).alpha = s.alpha := rfl
  simp only [e, e2, e3, e4, Ctx.rescale_atLength, D.sma]
  split
  · rfl
  · rw [Res.bind_map]
    refine Res.bind_congr fun l => ?_
    rw [Res.bind_map]
    refine Res.bind_congr fun b => ?_
    cases b with
    | false =>
      simp only [Bool.not_false, if_true, Res.map_bind, Res.bind_map]
      exact Res.bind_congr fun q => rfl
    | true =>
      simp only [Bool.not_true, Bool.false_eq_true, if_false]
      cases s.prevValue with
      | none =>
        simp only [Option.map_none, Res.map_bind, Res.bind_map]
        exact Res.bind_congr fun q => rfl
      | some pv =>
        cases x with
        | none => rfl
        | some x =>
          simp only [Option.map_some, unwrap_some, Res.ok_bind, Res.pure_eq, Res.map_ok', D.num_mul, ← D.add]
          rfl

theorem rma (s : Rma α) (x : Option α) :
    Rma.next (c.rescale p v) (s.rescale D.f) (x.map D.f) = (Rma.next c s x).map fun q => (q.1.map D.f, q.2.rescale D.f) := by
  unfold Rma.next
  have e2 : (s.rescale D.f).ema = s.ema.rescale D.f := rfl
  simp only [e2, D.ema, Res.map_bind, Res.bind_map]
  exact Res.bind_congr fun q => rfl

theorem indexed_map {β γ : Type} (g : β → γ) (l : List β) : indexed (l.map g) = (indexed l).map fun q => (q.1, g q.2) := by
  unfold indexed
  rw [List.length_map, List.zip_map_right]
  rfl

theorem foldlM_map {β γ δ ε : Type} (step : δ → β → Res δ) (step' : ε → γ → Res ε) (g : β → γ) (h : δ → ε)
    (hs : ∀ a b, step' (h a) (g b) = (step a b).map h) : ∀ (l : List β) (a : δ), (l.map g).foldlM step' (h a) = (l.foldlM step a).map h := by
  intro l
  induction l with
  | nil => intro a; rfl
  | cons b l ih =>
    intro a
    simp only [List.map_cons, List.foldlM_cons, hs, Res.map_bind, Res.bind_map]
    exact Res.bind_congr fun q => ih q

theorem wma (s : Wma α) (x : Option α) :
    Wma.next (c.rescale p v) (s.rescale D.f) (x.map D.f) = (Wma.next c s x).map fun q => (q.1.map D.f, q.2.rescale D.f) := by
  unfold Wma.next
  simp only [Wma.rescale, WindowCache.rescale, WindowCache.mapC_next, validator_rescale, Res.bind_map, Ctx.rescale_atLength]
  refine Res.bind_congr ?_
  rintro ⟨a, b⟩
  simp only [Res.bind_map]
  refine Res.bind_congr fun r => ?_
  simp only [Res.ite_map]
  split
  · rfl
  · simp only [WindowCache.mapC_all, Res.map_bind, Res.bind_map]
    refine Res.bind_congr fun vs => ?_
    rw [← List.map_reverse, indexed_map]
    have := foldlM_map (Wma.step s.length) (Wma.step s.length) (fun q : Nat × Option α => (q.1, q.2.map D.f)) (fun a : α × α => (D.f a.1, a.2)) (by
      rintro ⟨a1, a2⟩ ⟨i, o⟩
      unfold Wma.step
      cases o with
      | none => rfl
      | some o =>
        simp only [Option.map_some, unwrap_some, Res.ok_bind, Res.bind_map]
        refine Res.bind_congr fun dd => ?_
        simp only [D.mul_num, ← D.add, Res.pure_eq, Res.map_ok']) (indexed vs.reverse) (lit 0, lit 0)
    simp only [D.zero] at this
    rw [this, Res.map_bind]
    refine Res.bind_congr ?_
    rintro ⟨sm, nm⟩
    simp only [D.div_num, Res.pure_eq, Res.map_ok', Option.map_some]

theorem swma (s : Swma α) (x : Option α) :
    Swma.next (c.rescale p v) (s.rescale D.f) (x.map D.f) = (Swma.next c s x).map fun q => (q.1.map D.f, q.2.rescale D.f) := by
  unfold Swma.next
  simp only [Swma.rescale, WindowCache.rescale, WindowCache.mapC_next, validator_rescale, Res.bind_map, Ctx.rescale_atLength]
  refine Res.bind_congr ?_
  rintro ⟨a, b⟩
  simp only [Res.bind_map]
  refine Res.bind_congr fun r => ?_
  simp only [Res.ite_map]
  split
  · rfl
  · simp only [WindowCache.mapC_all, Res.map_bind, Res.bind_map]
    refine Res.bind_congr fun vs => ?_
    rw [indexed_map]
    have := foldlM_map Swma.step Swma.step (fun q : Nat × Option α => (q.1, q.2.map D.f)) D.f (by
      rintro a1 ⟨i, o⟩
      unfold Swma.step
      cases o with
      | none => rfl
      | some o =>
        simp only [Option.map_some, unwrap_some, Res.ok_bind, Res.bind_map]
        refine Res.bind_congr fun dd => ?_
        simp only [D.mul_num, ← D.add, Res.pure_eq, Res.map_ok']) (indexed vs) (lit 0)
    simp only [D.zero] at this
    rw [this, Res.map_bind]
    rfl

theorem ma (s : Ma α) (x : Option α) :
    Ma.next (c.rescale p v) (s.rescale D.f) (x.map D.f) = (Ma.next c s x).map fun q => (q.1.map D.f, q.2.rescale D.f) := by
  unfold Ma.next
  cases s with
  | sma s => simp only [Ma.rescale, D.sma, Res.map_bind, Res.bind_map]; exact Res.bind_congr fun q => rfl
  | ema s => simp only [Ma.rescale, D.ema, Res.map_bind, Res.bind_map]; exact Res.bind_congr fun q => rfl
  | rma s => simp only [Ma.rescale, D.rma, Res.map_bind, Res.bind_map]; exact Res.bind_congr fun q => rfl
  | swma s => simp only [Ma.rescale, D.swma, Res.map_bind, Res.bind_map]; exact Res.bind_congr fun q => rfl

end Linear

/-! ## Other components of `ta` -/

def Dev.rescale (f : α → α) (s : Dev α) : Dev α := { s with sma := s.sma.rescale f, inputCache := s.inputCache.rescale f }
def Change.rescale (f : α → α) (s : Change α) : Change α := { s with inputCache := s.inputCache.rescale f }
def Roc.rescale (f : α → α) (s : Roc α) : Roc α := { s with inputCache := s.inputCache.rescale f }
def Prank.rescale (f : α → α) (s : Prank α) : Prank α := { s with inputCache := s.inputCache.rescale f }
def Highest.rescale (f : α → α) (s : Highest α) : Highest α := { s with inputCache := s.inputCache.rescale f }
def Lowest.rescale (f : α → α) (s : Lowest α) : Lowest α := { s with inputCache := s.inputCache.rescale f }
def Stoch.rescale (f : α → α) (s : Stoch α) : Stoch α :=
  { s with highInputCache := s.highInputCache.rescale f, lowInputCache := s.lowInputCache.rescale f }
def Atr.rescale (f : α → α) (s : Atr α) : Atr α := { s with rma := s.rma.rescale f }
def Rsi.rescale (f : α → α) (s : Rsi α) : Rsi α :=
  { s with upRma := s.upRma.rescale f, downRma := s.downRma.rescale f, prevInputValue := s.prevInputValue.map f,
           dataUp := s.dataUp.map f, dataDown := s.dataDown.map f }
def CrossState.rescale (f : α → α) (s : CrossState α) : CrossState α := ⟨s.prevA.map f, s.prevB.map f⟩
def CrossThresholdState.rescale (f : α → α) (s : CrossThresholdState α) : CrossThresholdState α := ⟨s.prevValue.map f, f s.threshold⟩

@[simp] theorem Prank.rescale_id (s : Prank α) : s.rescale id = s := by simp [Prank.rescale]
@[simp] theorem Stoch.rescale_id (s : Stoch α) : s.rescale id = s := by simp [Stoch.rescale]
@[simp] theorem Rsi.rescale_id (s : Rsi α) : s.rescale id = s := by simp [Rsi.rescale]

namespace Dilation
variable (D : Dilation α) (c : Ctx α) (p v : α → α)

theorem dev (s : Dev α) (x : Option α) :
    Dev.next (c.rescale p v) (s.rescale D.f) (x.map D.f) = (Dev.next c s x).map fun q => (q.1.map D.f, q.2.rescale D.f) := by
  unfold Dev.next
  simp only [Dev.rescale, D.sma, WindowCache.rescale, WindowCache.mapC_next]
  split
  · simp [D.zero]
  · simp only [Res.map_bind, Res.bind_map]
    refine Res.bind_congr ?_
    rintro ⟨m, sma⟩
    cases m with
    | none => rfl
    | some m =>
      simp only [Option.map_some, WindowCache.mapC_isFilled, WindowCache.mapC_all, Res.ite_map]
      split
      · rfl
      · simp only [Res.map_bind, Res.bind_map]
        refine Res.bind_congr fun vs => ?_
        have e : (vs.map (Option.map D.f)).map (fun v => F64.abs (v.getD (D.f m) - D.f m)) =
            (vs.map fun v => F64.abs (v.getD m - m)).map D.f := by
          rw [List.map_map, List.map_map]
          apply List.map_congr_left
          intro o _
          cases o <;> simp only [Function.comp, Option.map_none, Option.map_some, Option.getD_none, Option.getD_some, ← D.sub, D.abs]
        rw [e, D.fsum]
        simp only [D.div_num, Res.pure_eq, Res.map_ok', Option.map_some]

end Dilation
namespace Linear
variable (D : Linear α)
theorem change (s : Change α) (x : Option α) :
    Change.next (s.rescale D.f) (x.map D.f) = (Change.next s x).map fun q => (q.1.map D.f, q.2.rescale D.f) := by
  unfold Change.next
  simp only [Change.rescale, WindowCache.rescale, WindowCache.mapC_next]
  simp only [WindowCache.rescale_firstUnwrapped, WindowCache.rescale_lastUnwrapped, WindowCache.mapC_isFilled, Res.map_bind, Res.bind_map]
  refine Res.bind_congr fun o => ?_
  generalize (s.inputCache.next x).lastUnwrapped = l
  generalize (s.inputCache.next x).isFilled = b
  cases b with
  | false => rfl
  | true =>
    cases o with
    | none => rfl
    | some o =>
      cases l with
      | none => rfl
      | some l =>
        simp only [Option.map_some, Option.isNone_some, Bool.not_true, Bool.or_false, Bool.false_eq_true, if_false, unwrap_some, Res.ok_bind,
          D.feq0, Res.ite_map]
        split
        · rfl
        · simp only [← D.sub]; rfl

end Linear
/-! ## Components that only compare -/

namespace Increasing
variable (D : Increasing α) (c : Ctx α) (p v : α → α)
open Linear

theorem prank (s : Prank α) (x : Option α) :
    Prank.next (c.rescale p v) (s.rescale D.f) (x.map D.f) = (Prank.next c s x).map fun q => (q.1, q.2.rescale D.f) := by
  unfold Prank.next
  simp only [Prank.rescale, WindowCache.rescale, WindowCache.mapC_next, Ctx.rescale_atLength, Res.bind_map]
  refine Res.bind_congr fun b => ?_
  cases x with
  | none => rfl
  | some x =>
    simp only [Option.map_some, Option.isNone_some, Bool.false_or, Res.ite_map]
    split
    · rfl
    · have h := WindowCache.mapC_all (Option.map D.f) (s.inputCache.next (some x))
      simp only [unwrap_some, Res.ok_bind, h, Res.map_bind, Res.bind_map, List.length_map]
      refine Res.bind_congr fun vs => Res.bind_congr fun n => ?_
      rw [Ctx.slice_map, Res.map_bind]
      refine Res.bind_congr fun ws => ?_
      have e : ((ws.map (Option.map D.f)).filter fun v =>
            match v with
            | some v => F64.le v (D.f x)
            | none => false).length = (ws.filter fun v =>
            match v with
            | some v => F64.le v x
            | none => false).length := by
        rw [List.filter_map, List.length_map]
        congr 2
        funext o
        cases o
        · rfl
        · exact D.le _ _
      exact congrArg (fun n : ℕ => (Except.ok (some (lit (n : ℚ) / lit (s.length : ℚ) * lit 100),
        { length := s.length, inputCache := (s.inputCache.next (some x)).mapC (Option.map D.f) }) : Res (Option α × Prank α))) e

theorem findMaxIndex (l : List (Option α)) : Pace.findMaxIndex (l.map (Option.map D.f)) = Pace.findMaxIndex l := by
  have key : ∀ (l : List (Nat × Option α)) (a : Option α × Option Nat),
      ((l.map fun q => (q.1, q.2.map D.f)).foldl findMaxStep (a.1.map D.f, a.2)).2 = (l.foldl findMaxStep a).2 := by
    intro l
    induction l with
    | nil => intro a; rfl
    | cons q l ih =>
      intro a
      simp only [List.map_cons, List.foldl_cons]
      rw [← ih]
      congr 1
      obtain ⟨m, i⟩ := a
      obtain ⟨j, o⟩ := q
      unfold findMaxStep fgt
      cases m <;> cases o <;> simp only [Option.map_none, Option.map_some, D.lt]
      split <;> rfl
  unfold Pace.findMaxIndex
  have e : (l.map (Option.map D.f)).isEmpty = l.isEmpty := by cases l <;> rfl
  rw [e, indexed_map, List.length_map]
  have := key (indexed l) (none, none)
  simp only [Option.map_none] at this
  simp only [this]

theorem findMinIndex (l : List (Option α)) : Pace.findMinIndex (l.map (Option.map D.f)) = Pace.findMinIndex l := by
  have key : ∀ (l : List (Nat × Option α)) (a : Option α × Option Nat),
      ((l.map fun q => (q.1, q.2.map D.f)).foldl findMinStep (a.1.map D.f, a.2)).2 = (l.foldl findMinStep a).2 := by
    intro l
    induction l with
    | nil => intro a; rfl
    | cons q l ih =>
      intro a
      simp only [List.map_cons, List.foldl_cons]
      rw [← ih]
      congr 1
      obtain ⟨m, i⟩ := a
      obtain ⟨j, o⟩ := q
      unfold findMinStep
      cases m <;> cases o <;> simp only [Option.map_none, Option.map_some, D.lt]
      split <;> rfl
  unfold Pace.findMinIndex
  have e : (l.map (Option.map D.f)).isEmpty = l.isEmpty := by cases l <;> rfl
  rw [e, indexed_map, List.length_map]
  have := key (indexed l) (none, none)
  simp only [Option.map_none] at this
  simp only [this]

theorem highestL (l : List (Option α)) : Pace.highest (l.map (Option.map D.f)) = (Pace.highest l).map (Option.map D.f) := by
  unfold Pace.highest
  rw [D.findMaxIndex, Res.bind_map]
  exact Res.bind_congr fun i => index_map ..

theorem lowestL (l : List (Option α)) : Pace.lowest (l.map (Option.map D.f)) = (Pace.lowest l).map (Option.map D.f) := by
  unfold Pace.lowest
  rw [D.findMinIndex, Res.bind_map]
  exact Res.bind_congr fun i => index_map ..

theorem highest (s : Highest α) (x : Option α) :
    Highest.next (c.rescale p v) (s.rescale D.f) (x.map D.f) = (Highest.next c s x).map fun q => (q.1.map D.f, q.2.rescale D.f) := by
  unfold Highest.next
  simp only [Highest.rescale, WindowCache.rescale, WindowCache.mapC_next, Ctx.rescale_atLength, Res.bind_map, WindowCache.mapC_all, Res.map_bind,
    Res.ite_map, D.highestL]
  refine Res.bind_congr fun b => ?_
  split
  · rfl
  · rfl

theorem lowest (s : Lowest α) (x : Option α) :
    Lowest.next (c.rescale p v) (s.rescale D.f) (x.map D.f) = (Lowest.next c s x).map fun q => (q.1.map D.f, q.2.rescale D.f) := by
  unfold Lowest.next
  simp only [Lowest.rescale, WindowCache.rescale, WindowCache.mapC_next, Ctx.rescale_atLength, Res.bind_map, WindowCache.mapC_all, Res.map_bind,
    Res.ite_map, D.lowestL]
  refine Res.bind_congr fun b => ?_
  split
  · rfl
  · rfl

theorem highestBars (s : HighestBars) : HighestBars.next (c.rescale D.f v) s = HighestBars.next c s := by
  unfold HighestBars.next Pace.highestBars
  simp only [Ctx.rescale_atLength, Ctx.rescale_highs, Res.map_bind, D.findMaxIndex]

theorem lowestBars (s : LowestBars) : LowestBars.next (c.rescale D.f v) s = LowestBars.next c s := by
  unfold LowestBars.next Pace.lowestBars
  simp only [Ctx.rescale_atLength, Ctx.rescale_lows, Res.map_bind, D.findMinIndex]

theorem cross (s : CrossState α) (x : Option α × Option α) :
    Cross.next (s.rescale D.f) (x.1.map D.f, x.2.map D.f) = ((Cross.next s x).1, (Cross.next s x).2.rescale D.f) := by
  unfold Cross.next CrossState.rescale crossOver crossUnder fgt fge
  obtain ⟨a, b⟩ := s
  obtain ⟨x, y⟩ := x
  cases a <;> cases b <;> cases x <;> cases y <;> simp only [Option.map_none, Option.map_some, D.lt, D.le]

theorem crossOver (s : CrossState α) (x : Option α × Option α) :
    CrossOver.next (s.rescale D.f) (x.1.map D.f, x.2.map D.f) = ((CrossOver.next s x).1, (CrossOver.next s x).2.rescale D.f) := by
  unfold CrossOver.next CrossState.rescale Pace.crossOver fgt
  obtain ⟨a, b⟩ := s
  obtain ⟨x, y⟩ := x
  cases a <;> cases b <;> cases x <;> cases y <;> simp only [Option.map_none, Option.map_some, D.lt, D.le]

theorem crossUnder (s : CrossState α) (x : Option α × Option α) :
    CrossUnder.next (s.rescale D.f) (x.1.map D.f, x.2.map D.f) = ((CrossUnder.next s x).1, (CrossUnder.next s x).2.rescale D.f) := by
  unfold CrossUnder.next CrossState.rescale Pace.crossUnder fge
  obtain ⟨a, b⟩ := s
  obtain ⟨x, y⟩ := x
  cases a <;> cases b <;> cases x <;> cases y <;> simp only [Option.map_none, Option.map_some, D.lt, D.le]

theorem crossThreshold (s : CrossThresholdState α) (x : Option α) :
    CrossThreshold.next (s.rescale D.f) (x.map D.f) = ((CrossThreshold.next s x).1, (CrossThreshold.next s x).2.rescale D.f) := by
  unfold CrossThreshold.next CrossThresholdState.rescale Pace.crossOver Pace.crossUnder fge fgt
  obtain ⟨a, b⟩ := s
  cases a <;> cases x <;> simp only [Option.map_none, Option.map_some, D.lt, D.le]

theorem crossOverThreshold (s : CrossThresholdState α) (x : Option α) :
    CrossOverThreshold.next (s.rescale D.f) (x.map D.f) = ((CrossOverThreshold.next s x).1, (CrossOverThreshold.next s x).2.rescale D.f) := by
  unfold CrossOverThreshold.next CrossThresholdState.rescale Pace.crossOver fgt
  obtain ⟨a, b⟩ := s
  cases a <;> cases x <;> simp only [Option.map_none, Option.map_some, D.lt, D.le]

theorem crossUnderThreshold (s : CrossThresholdState α) (x : Option α) :
    CrossUnderThreshold.next (s.rescale D.f) (x.map D.f) = ((CrossUnderThreshold.next s x).1, (CrossUnderThreshold.next s x).2.rescale D.f) := by
  unfold CrossUnderThreshold.next CrossThresholdState.rescale Pace.crossUnder fge
  obtain ⟨a, b⟩ := s
  cases a <;> cases x <;> simp only [Option.map_none, Option.map_some, D.lt, D.le]

end Increasing

/-! ## Components that take ratios -/

def Dilation.toIncreasing (D : Dilation α) : Increasing α := ⟨D.f, D.lt, D.le⟩

namespace Dilation
variable (D : Dilation α) (c : Ctx α) (p v : α → α)
open Linear

theorem roc (s : Roc α) (x : Option α) :
    Roc.next (s.rescale D.f) (x.map D.f) = (Roc.next s x).map fun q => (q.1, q.2.rescale D.f) := by
  unfold Roc.next
  simp only [Roc.rescale, WindowCache.rescale, WindowCache.mapC_next]
  simp only [WindowCache.rescale_firstUnwrapped, WindowCache.rescale_lastUnwrapped, WindowCache.mapC_isFilled, Res.map_bind, Res.bind_map]
  refine Res.bind_congr fun o => ?_
  generalize (s.inputCache.next x).lastUnwrapped = l
  generalize (s.inputCache.next x).isFilled = b
  cases b with
  | false => rfl
  | true =>
    cases o with
    | none => rfl
    | some o =>
      cases l with
      | none => rfl
      | some l =>
        simp only [Option.map_some, Option.isNone_some, Bool.not_true, Bool.or_false, Bool.false_eq_true, if_false, unwrap_some, Res.ok_bind,
          D.feq0, Res.ite_map]
        split
        · rfl
        · simp only [← D.sub, D.num_mul, D.ratio]; rfl

theorem prank (s : Prank α) (x : Option α) :
    Prank.next (c.rescale p v) (s.rescale D.f) (x.map D.f) = (Prank.next c s x).map fun q => (q.1, q.2.rescale D.f) := D.toIncreasing.prank c p v s x

theorem findMaxIndex (l : List (Option α)) : Pace.findMaxIndex (l.map (Option.map D.f)) = Pace.findMaxIndex l := D.toIncreasing.findMaxIndex l

theorem findMinIndex (l : List (Option α)) : Pace.findMinIndex (l.map (Option.map D.f)) = Pace.findMinIndex l := D.toIncreasing.findMinIndex l

theorem highestL (l : List (Option α)) : Pace.highest (l.map (Option.map D.f)) = (Pace.highest l).map (Option.map D.f) := D.toIncreasing.highestL l
theorem lowestL (l : List (Option α)) : Pace.lowest (l.map (Option.map D.f)) = (Pace.lowest l).map (Option.map D.f) := D.toIncreasing.lowestL l

theorem highest (s : Highest α) (x : Option α) :
    Highest.next (c.rescale p v) (s.rescale D.f) (x.map D.f) = (Highest.next c s x).map fun q => (q.1.map D.f, q.2.rescale D.f) := D.toIncreasing.highest c p v s x

theorem lowest (s : Lowest α) (x : Option α) :
    Lowest.next (c.rescale p v) (s.rescale D.f) (x.map D.f) = (Lowest.next c s x).map fun q => (q.1.map D.f, q.2.rescale D.f) := D.toIncreasing.lowest c p v s x

theorem highestBars (s : HighestBars) : HighestBars.next (c.rescale D.f v) s = HighestBars.next c s := D.toIncreasing.highestBars c v s

theorem lowestBars (s : LowestBars) : LowestBars.next (c.rescale D.f v) s = LowestBars.next c s := D.toIncreasing.lowestBars c v s

theorem stochV (x : Option α) (h l : List (Option α)) (o : Option α) :
    Pace.stoch (x.map D.f) (h.map (Option.map D.f)) (l.map (Option.map D.f)) o = Pace.stoch x h l o := by
  unfold Pace.stoch
  cases x with
  | none => rfl
  | some x =>
    simp only [Option.map_some, D.highestL, D.lowestL, Res.map_bind]
    refine Res.bind_congr fun a => Res.bind_congr fun b => ?_
    cases a <;> cases b <;> simp only [Option.map_none, Option.map_some, ← D.sub, D.feq0, D.num_mul, D.ratio]

theorem stoch (s : Stoch α) (x : Option α × Option α × Option α) :
    Stoch.next (c.rescale p v) (s.rescale D.f) (x.1.map D.f, x.2.1.map D.f, x.2.2.map D.f) =
      (Stoch.next c s x).map fun q => (q.1, q.2.rescale D.f) := by
  unfold Stoch.next
  simp only [Stoch.rescale, WindowCache.rescale, WindowCache.mapC_next, Ctx.rescale_atLength, Res.bind_map, WindowCache.mapC_all, Res.map_bind,
    Res.ite_map, D.stochV]
  refine Res.bind_congr fun b => ?_
  split
  · rfl
  · rfl

theorem tr (na : Bool) : Tr.next (c.rescale D.f v) na = (Tr.next c na).map (Option.map D.f) := by
  unfold Tr.next
  simp only [Ctx.rescale_barHigh, Ctx.rescale_barLow, Ctx.rescale_high, Ctx.rescale_low, Ctx.rescale_close, Res.map_bind, Res.bind_map,
    unwrap_map]
  refine Res.bind_congr fun _ => Res.bind_congr fun h => Res.bind_congr fun _ => Res.bind_congr fun l => Res.bind_congr fun ph => Res.bind_congr fun pl => Res.bind_congr fun pc => ?_
  unfold trueRange
  cases ph <;> cases pl <;> cases pc <;>
    simp only [Option.map_none, Option.map_some, ← D.sub, D.abs, D.fmax, Res.pure_eq, Res.map_ok'] <;> (split <;> rfl)

theorem atr (s : Atr α) :
    Atr.next (c.rescale D.f v) (s.rescale D.f) = (Atr.next c s).map fun q => (q.1.map D.f, q.2.rescale D.f) := by
  unfold Atr.next
  have e : (s.rescale D.f).rma = s.rma.rescale D.f := rfl
  simp only [D.tr, e, Res.map_bind, Res.bind_map, D.rma]
  exact Res.bind_congr fun o => Res.bind_congr fun q => rfl

theorem rsi (s : Rsi α) (x : Option α) :
    Rsi.next (c.rescale p v) (s.rescale D.f) (x.map D.f) = (Rsi.next c s x).map fun q => (q.1, q.2.rescale D.f) := by
  unfold Rsi.next
  have key (u d : Option α) : (do
      let (up, upRma) ← (s.rescale D.f).upRma.next (c.rescale p v) (u.map D.f)
      let (down, downRma) ← (s.rescale D.f).downRma.next (c.rescale p v) (d.map D.f)
      let s := { s.rescale D.f with upRma, downRma, prevInputValue := x.map D.f }
      match up, down with
      | some u, some d =>
        let rs := u / d
        let rsi := lit 100 - lit 100 / (lit 1 + rs)
        return (some rsi, { s with dataUp := up, dataDown := down })
      | _, _ => return (none, s) : Res (Option α × Rsi α)) = (do
      let (up, upRma) ← s.upRma.next c u
      let (down, downRma) ← s.downRma.next c d
      let s := { s with upRma, downRma, prevInputValue := x }
      match up, down with
      | some u, some d =>
        let rs := u / d
        let rsi := lit 100 - lit 100 / (lit 1 + rs)
        return (some rsi, { s with dataUp := up, dataDown := down })
      | _, _ => return (none, s) : Res (Option α × Rsi α)).map fun q => (q.1, q.2.rescale D.f) := by
    have e1 : (s.rescale D.f).upRma = s.upRma.rescale D.f := rfl
    have e2 : (s.rescale D.f).downRma = s.downRma.rescale D.f := rfl
    simp only [e1, e2, D.rma, Res.map_bind, Res.bind_map]
    refine Res.bind_congr ?_
    rintro ⟨a, ra⟩
    simp only [Res.bind_map]
    refine Res.bind_congr ?_
    rintro ⟨b, rb⟩
    cases a <;> cases b <;> simp only [Option.map_none, Option.map_some, D.ratio, Res.pure_eq, Res.map_ok'] <;> rfl
  have e : (s.rescale D.f).prevInputValue = s.prevInputValue.map D.f := rfl
  simp only [e]
  cases s.prevInputValue with
  | none => exact key none none
  | some pv =>
    cases x with
    | none => exact key none none
    | some x =>
      have h := key (some (F64.fmax (x - pv) (lit 0))) (some (-(F64.fmin (x - pv) (lit 0))))
      have h1 : ∀ a, F64.fmax (D.f a) (lit 0) = D.f (F64.fmax a (lit 0)) := fun a => by rw [← D.fmax, D.zero]
      have h2 : ∀ a, F64.fmin (D.f a) (lit 0) = D.f (F64.fmin a (lit 0)) := fun a => by rw [← D.fmin, D.zero]
      simp only [Option.map_some, ← D.sub, h1, h2, ← D.neg] at h ⊢
      exact h

theorem cross (s : CrossState α) (x : Option α × Option α) :
    Cross.next (s.rescale D.f) (x.1.map D.f, x.2.map D.f) = ((Cross.next s x).1, (Cross.next s x).2.rescale D.f) := D.toIncreasing.cross s x

theorem crossOver (s : CrossState α) (x : Option α × Option α) :
    CrossOver.next (s.rescale D.f) (x.1.map D.f, x.2.map D.f) = ((CrossOver.next s x).1, (CrossOver.next s x).2.rescale D.f) := D.toIncreasing.crossOver s x

theorem crossUnder (s : CrossState α) (x : Option α × Option α) :
    CrossUnder.next (s.rescale D.f) (x.1.map D.f, x.2.map D.f) = ((CrossUnder.next s x).1, (CrossUnder.next s x).2.rescale D.f) := D.toIncreasing.crossUnder s x

theorem crossThreshold (s : CrossThresholdState α) (x : Option α) :
    CrossThreshold.next (s.rescale D.f) (x.map D.f) = ((CrossThreshold.next s x).1, (CrossThreshold.next s x).2.rescale D.f) := D.toIncreasing.crossThreshold s x
theorem crossOverThreshold (s : CrossThresholdState α) (x : Option α) :
    CrossOverThreshold.next (s.rescale D.f) (x.map D.f) = ((CrossOverThreshold.next s x).1, (CrossOverThreshold.next s x).2.rescale D.f) := D.toIncreasing.crossOverThreshold s x
theorem crossUnderThreshold (s : CrossThresholdState α) (x : Option α) :
    CrossUnderThreshold.next (s.rescale D.f) (x.map D.f) = ((CrossUnderThreshold.next s x).1, (CrossUnderThreshold.next s x).2.rescale D.f) := D.toIncreasing.crossUnderThreshold s x

end Dilation
end Pace
