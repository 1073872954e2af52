import Verif.Model.Statistics

/-!
# ta: technical analysis components
-/

namespace Pace
variable {α : Type} [F64 α]

/-! ## Sma (ta/simple_moving_average.rs) -/

/-- `struct Sma`, ta/simple_moving_average.rs:9-16 -/
structure Sma (α : Type) where
  length : Nat
  lengthF64 : α
  sum : α
  inputCache : WindowCache (Option α)
  batchValidator : WindowValidator

/-- ta/simple_moving_average.rs:19-29 -/
def Sma.new (length : Nat) : Res (Sma α) := do
  assert (decide (1 ≤ length))
  let bv ← WindowValidator.new length
  return { length, lengthF64 := lit (length : ℚ), sum := lit 0,
           inputCache := WindowCache.new length, batchValidator := bv }

/-- `if let Some(v) = o { sum += v }` -/
def addOpt (sum : α) : Option α → α
  | some v => sum + v
  | none => sum
/-- `if let Some(v) = o { sum -= v }` -/
def subOpt (sum : α) : Option α → α
  | some v => sum - v
  | none => sum

/-- ta/simple_moving_average.rs:33-53 -/
def Sma.next (c : Ctx α) (s : Sma α) (value : Option α) : Res (Option α × Sma α) := do
  if s.length = 1 then
    return (value, s)
  let cache := s.inputCache.next value
  let (isValid, bv) ← s.batchValidator.next c value
  let isFilled := cache.isFilled
  let firstValue ← cache.firstUnwrapped
  let lastValue := cache.lastUnwrapped
  let sum := addOpt s.sum lastValue
  let mean := if isFilled && isValid then some (sum / s.lengthF64) else none
  let sum := subOpt sum firstValue
  return (mean, { s with sum, inputCache := cache, batchValidator := bv })

/-! ## Sum (ta/sum.rs) -/

/-- `struct Sum`, ta/sum.rs:9-15 -/
structure Sum (α : Type) where
  length : Nat
  sum : α
  inputCache : WindowCache (Option α)
  batchValidator : WindowValidator

/-- ta/sum.rs:18-27 -/
def Sum.new (length : Nat) : Res (Sum α) := do
  assert (decide (1 ≤ length))
  let bv ← WindowValidator.new length
  return { length, sum := lit 0, inputCache := WindowCache.new length, batchValidator := bv }

/-- ta/sum.rs:31-50 -/
def Sum.next (c : Ctx α) (s : Sum α) (value : Option α) : Res (Option α × Sum α) := do
  let cache := s.inputCache.next value
  let firstValue ← cache.firstUnwrapped
  let lastValue := cache.lastUnwrapped
  let isFilled := cache.isFilled
  let (isValid, bv) ← s.batchValidator.next c value
  let sum := addOpt s.sum lastValue
  let out := if isFilled && isValid then some sum else none
  let sum := subOpt sum firstValue
  return (out, { s with sum, inputCache := cache, batchValidator := bv })

/-! ## Ema, Rma -/

/-- `struct Ema`, ta/exponential_moving_average.rs:8-14 -/
structure Ema (α : Type) where
  alpha : α
  length : Nat
  sma : Sma α
  prevValue : Option α

/-- `Ema::with_alpha`, ta/exponential_moving_average.rs:21-30 -/
def Ema.withAlpha (length : Nat) (alpha : α) : Res (Ema α) := do
  assert (decide (1 ≤ length))
  let sma ← Sma.new length
  return { alpha, length, sma, prevValue := none }

/-- `Ema::new`, ta/exponential_moving_average.rs:17-19 -/
def Ema.new (length : Nat) : Res (Ema α) :=
  Ema.withAlpha length (lit 2 / (lit (length : ℚ) + lit 1))

/-- ta/exponential_moving_average.rs:34-53 -/
def Ema.next (c : Ctx α) (s : Ema α) (value : Option α) : Res (Option α × Ema α) := do
  if s.length = 1 then
    return (value, s)
  let l ← usub s.length 1
  if !(← c.atLength l) then
    let (_, sma) ← s.sma.next c value
    return (none, { s with sma })
  match s.prevValue with
  | some prev =>
    let v ← unwrap value
    let ema := s.alpha * v + (lit 1 - s.alpha) * prev
    return (some ema, { s with prevValue := some ema })
  | none =>
    let (o, sma) ← s.sma.next c value
    return (o, { s with sma, prevValue := o })

/-- `struct Rma`, ta/running_moving_average.rs:8-12 -/
structure Rma (α : Type) where
  length : Nat
  ema : Ema α

/-- ta/running_moving_average.rs:15-22 -/
def Rma.new (length : Nat) : Res (Rma α) := do
  assert (decide (1 ≤ length))
  let ema ← Ema.withAlpha length (lit 1 / lit (length : ℚ))
  return { length, ema }

/-- ta/running_moving_average.rs:26-28 -/
def Rma.next (c : Ctx α) (s : Rma α) (value : Option α) : Res (Option α × Rma α) := do
  let (o, ema) ← s.ema.next c value
  return (o, { s with ema })

/-! ## Wma (ta/weighted_moving_average.rs) -/

/-- `struct Wma`, ta/weighted_moving_average.rs:9-14 -/
structure Wma (α : Type) where
  length : Nat
  inputCache : WindowCache (Option α)
  batchValidator : WindowValidator

/-- ta/weighted_moving_average.rs:17-25 -/
def Wma.new (length : Nat) : Res (Wma α) := do
  assert (decide (1 ≤ length))
  let bv ← WindowValidator.new length
  return { length, inputCache := WindowCache.new length, batchValidator := bv }

/-- The body of the fold, ta/weighted_moving_average.rs:43-48. -/
def Wma.step (length : Nat) (acc : α × α) (iv : Nat × Option α) : Res (α × α) := do
  let value ← unwrap iv.2
  let d ← usub length iv.1
  let weight : α := lit ((d * length : Nat) : ℚ)
  let weighted := value * weight
  return (acc.1 + weighted, acc.2 + weight)

/-- ta/weighted_moving_average.rs:29-53 -/
def Wma.next (c : Ctx α) (s : Wma α) (value : Option α) : Res (Option α × Wma α) := do
  let cache := s.inputCache.next value
  let (isValid, bv) ← s.batchValidator.next c value
  let s := { s with inputCache := cache, batchValidator := bv }
  if !(← c.atLength s.length) || !isValid then
    return (none, s)
  let values ← cache.all
  let (sum, norm) ← (indexed values.reverse).foldlM (Wma.step s.length) (lit 0, lit 0)
  return (some (sum / norm), s)

/-! ## Swma (ta/symmetrically_weighted_moving_average.rs) -/

/-- `struct Swma`, ta/symmetrically_weighted_moving_average.rs:9-14 -/
structure Swma (α : Type) where
  length : Nat
  inputCache : WindowCache (Option α)
  batchValidator : WindowValidator

/-- `WEIGHTS`, ta/symmetrically_weighted_moving_average.rs:16 -/
def Swma.weights : List α := [lit 1 / lit 6, lit 2 / lit 6, lit 2 / lit 6, lit 1 / lit 6]

/-- ta/symmetrically_weighted_moving_average.rs:19-27 -/
def Swma.new : Res (Swma α) := do
  let length := 4
  let bv ← WindowValidator.new length
  return { length, inputCache := WindowCache.new length, batchValidator := bv }

/-- The body of the fold, ta/symmetrically_weighted_moving_average.rs:41-46. -/
def Swma.step (acc : α) (iv : Nat × Option α) : Res α := do
  let value ← unwrap iv.2
  let weight ← index Swma.weights iv.1
  let weighted := value * weight
  return acc + weighted

/-- ta/symmetrically_weighted_moving_average.rs:31-49 -/
def Swma.next (c : Ctx α) (s : Swma α) (value : Option α) : Res (Option α × Swma α) := do
  let cache := s.inputCache.next value
  let (isValid, bv) ← s.batchValidator.next c value
  let s := { s with inputCache := cache, batchValidator := bv }
  if !(← c.atLength s.length) || !isValid then
    return (none, s)
  let values ← cache.all
  let swma ← (indexed values).foldlM Swma.step (lit 0)
  return (some swma, s)

/-! ## Ma (ta/moving_average.rs) -/

/-- `enum MaKind`, ta/moving_average.rs:9-14 -/
inductive MaKind where
  | sma | ema | rma | swma
  deriving DecidableEq, Repr

/-- `struct Ma` with its boxed average, ta/moving_average.rs:20-25. -/
inductive Ma (α : Type) where
  | sma (s : Sma α)
  | ema (s : Ema α)
  | rma (s : Rma α)
  | swma (s : Swma α)

/-- ta/moving_average.rs:28-44 -/
def Ma.new (kind : MaKind) (length : Nat) : Res (Ma α) :=
  match kind with
  | .sma => do return .sma (← Sma.new length)
  | .ema => do return .ema (← Ema.new length)
  | .rma => do return .rma (← Rma.new length)
  | .swma => do return .swma (← Swma.new)

/-- ta/moving_average.rs:48-50 -/
def Ma.next (c : Ctx α) (s : Ma α) (value : Option α) : Res (Option α × Ma α) :=
  match s with
  | .sma s => do let (o, s) ← s.next c value; return (o, .sma s)
  | .ema s => do let (o, s) ← s.next c value; return (o, .ema s)
  | .rma s => do let (o, s) ← s.next c value; return (o, .rma s)
  | .swma s => do let (o, s) ← s.next c value; return (o, .swma s)

/-! ## Dev (ta/dev.rs) -/

/-- `struct Dev`, ta/dev.rs:11-16 -/
structure Dev (α : Type) where
  length : Nat
  sma : Sma α
  inputCache : WindowCache (Option α)

/-- ta/dev.rs:20-28 -/
def Dev.new (length : Nat) : Res (Dev α) := do
  assert (decide (1 ≤ length))
  let sma ← Sma.new length
  return { length, sma, inputCache := WindowCache.new length }

/-- ta/dev.rs:32-55 -/
def Dev.next (c : Ctx α) (s : Dev α) (value : Option α) : Res (Option α × Dev α) := do
  if s.length = 1 then
    return (some (lit 0), s)
  let cache := s.inputCache.next value
  let (mean, sma) ← s.sma.next c value
  let s := { s with sma, inputCache := cache }
  match mean with
  | none => return (none, s)
  | some mean =>
    if !cache.isFilled then
      return (none, s)
    let values ← cache.all
    let sum := fsum (values.map fun v => F64.abs (v.getD mean - mean))
    return (some (sum / lit (s.length : ℚ)), s)

/-! ## Stdev (ta/stdev.rs) -/

/-- `struct Stdev`, ta/stdev.rs:14-21 -/
structure Stdev (α : Type) where
  length : Nat
  isBiased : Bool
  sma : Sma α
  inputCache : WindowCache (Option α)

/-- ta/stdev.rs:25-34 -/
def Stdev.new (length : Nat) (isBiased : Bool) : Res (Stdev α) := do
  assert (decide (1 ≤ length))
  let sma ← Sma.new length
  return { length, isBiased, sma, inputCache := WindowCache.new length }

/-- `FloatComparison::compare_with_precision`, testing/comparison.rs:7-9 -/
def compareWithPrecision (x target precision : α) : Bool := F64.lt (F64.abs (x - target)) precision

/-- `Stdev::compute_sum`, ta/stdev.rs:36-42 -/
def Stdev.computeSum (fst snd : α) : α :=
  let sum := fst + snd
  if compareWithPrecision sum (lit 0) (lit (1 / 10000000000)) then lit 0 else sum

/-- ta/stdev.rs:46-83 -/
def Stdev.next (c : Ctx α) (s : Stdev α) (value : Option α) : Res (Option α × Stdev α) := do
  if s.length = 1 then
    if s.isBiased then
      return (some (lit 0), s)
    else
      return (none, s)
  let cache := s.inputCache.next value
  let (mean, sma) ← s.sma.next c value
  let s := { s with sma, inputCache := cache }
  match mean with
  | none => return (none, s)
  | some mean =>
    let mean := -mean
    let values ← cache.all
    let sum := fsum (values.map fun v =>
      match v with
      | some v => sq (Stdev.computeSum v mean)
      | none => lit 0)
    if s.isBiased then
      return (some (F64.sqrt (sum / lit (s.length : ℚ))), s)
    else
      let l ← usub s.length 1
      return (some (F64.sqrt (sum / lit (l : ℚ))), s)

/-! ## Change, Roc (ta/change.rs, ta/rate_of_change.rs) -/

/-- `struct Change`, ta/change.rs:9-13 -/
structure Change (α : Type) where
  length : Nat
  inputCache : WindowCache (Option α)

/-- ta/change.rs:16-23 -/
def Change.new (length : Nat) : Res (Change α) := do
  assert (decide (1 ≤ length))
  return { length, inputCache := WindowCache.new (length + 1) }

/-- ta/change.rs:27-41 -/
def Change.next (s : Change α) (value : Option α) : Res (Option α × Change α) := do
  let cache := s.inputCache.next value
  let firstValue ← cache.firstUnwrapped
  let lastValue := cache.lastUnwrapped
  let isFilled := cache.isFilled
  let s := { s with inputCache := cache }
  if !isFilled || firstValue.isNone || lastValue.isNone then
    return (none, s)
  let first ← unwrap firstValue
  if F64.feq first (lit 0) then
    return (none, s)
  return (some ((← unwrap lastValue) - first), s)

/-- `struct Roc`, ta/rate_of_change.rs:9-13 -/
structure Roc (α : Type) where
  length : Nat
  inputCache : WindowCache (Option α)

/-- ta/rate_of_change.rs:16-23 -/
def Roc.new (length : Nat) : Res (Roc α) := do
  assert (decide (1 ≤ length))
  return { length, inputCache := WindowCache.new (length + 1) }

/-- ta/rate_of_change.rs:27-44 -/
def Roc.next (s : Roc α) (value : Option α) : Res (Option α × Roc α) := do
  let cache := s.inputCache.next value
  let firstValue ← cache.firstUnwrapped
  let lastValue := cache.lastUnwrapped
  let isFilled := cache.isFilled
  let s := { s with inputCache := cache }
  if !isFilled || firstValue.isNone || lastValue.isNone then
    return (none, s)
  let first ← unwrap firstValue
  if F64.feq first (lit 0) then
    return (none, s)
  let last ← unwrap lastValue
  return (some (lit 100 * (last - first) / first), s)

/-! ## Prank (ta/percent_rank.rs) -/

/-- `struct Prank`, ta/percent_rank.rs:9-13 -/
structure Prank (α : Type) where
  length : Nat
  inputCache : WindowCache (Option α)

/-- ta/percent_rank.rs:16-23 -/
def Prank.new (length : Nat) : Res (Prank α) := do
  assert (decide (1 ≤ length))
  return { length, inputCache := WindowCache.new (length + 1) }

/-- ta/percent_rank.rs:27-52 -/
def Prank.next (c : Ctx α) (s : Prank α) (value : Option α) : Res (Option α × Prank α) := do
  let cache := s.inputCache.next value
  let s := { s with inputCache := cache }
  if value.isNone || !(← c.atLength (s.length + 1)) then
    return (none, s)
  let last ← unwrap value
  let values ← cache.all
  let n ← usub values.length 1
  let values ← slice values 0 n
  let count := (values.filter fun v =>
    match v with
    | some v => F64.le v last
    | none => false).length
  let percent := lit (count : ℚ) / lit (s.length : ℚ) * lit 100
  return (some percent, s)

/-! ## bars.rs, Highest, Lowest, HighestBars, LowestBars -/

/-- `usize::abs_diff` -/
def absDiff (a b : Nat) : Nat := if a < b then b - a else a - b

/-- ta/bars.rs:6-9 (the `as i32` truncation is not modelled) -/
def highestBars (series : List (Option α)) (length : Nat) : Res (Option Int) := do
  let index ← findMaxIndex series
  return some (-((absDiff (absDiff length index) 1 : Nat) : Int))
/-- ta/bars.rs:14-17 -/
def lowestBars (series : List (Option α)) (length : Nat) : Res (Option Int) := do
  let index ← findMinIndex series
  return some (-((absDiff (absDiff length index) 1 : Nat) : Int))
/-- ta/bars.rs:22-25 -/
def highest (series : List (Option α)) : Res (Option α) := do
  let i ← findMaxIndex series
  index series i
/-- ta/bars.rs:30-33 -/
def lowest (series : List (Option α)) : Res (Option α) := do
  let i ← findMinIndex series
  index series i

/-- `struct Highest`, ta/highest.rs:11-15 -/
structure Highest (α : Type) where
  length : Nat
  inputCache : WindowCache (Option α)
/-- ta/highest.rs:18-25 -/
def Highest.new (length : Nat) : Res (Highest α) := do
  assert (decide (1 ≤ length))
  return { length, inputCache := WindowCache.new length }
/-- ta/highest.rs:29-37 -/
def Highest.next (c : Ctx α) (s : Highest α) (value : Option α) : Res (Option α × Highest α) := do
  let cache := s.inputCache.next value
  let s := { s with inputCache := cache }
  if !(← c.atLength s.length) then
    return (none, s)
  let o ← highest (← cache.all)
  return (o, s)

/-- `struct Lowest`, ta/lowest.rs:10-14 -/
structure Lowest (α : Type) where
  length : Nat
  inputCache : WindowCache (Option α)
/-- ta/lowest.rs:17-24 -/
def Lowest.new (length : Nat) : Res (Lowest α) := do
  assert (decide (1 ≤ length))
  return { length, inputCache := WindowCache.new length }
/-- ta/lowest.rs:28-36 -/
def Lowest.next (c : Ctx α) (s : Lowest α) (value : Option α) : Res (Option α × Lowest α) := do
  let cache := s.inputCache.next value
  let s := { s with inputCache := cache }
  if !(← c.atLength s.length) then
    return (none, s)
  let o ← lowest (← cache.all)
  return (o, s)

/-- `struct HighestBars`, ta/highest_bars.rs:8-11 -/
structure HighestBars where
  length : Nat
/-- ta/highest_bars.rs:14-20 -/
def HighestBars.new (length : Nat) : Res HighestBars := do
  assert (decide (1 ≤ length))
  return { length }
/-- ta/highest_bars.rs:24-29 -/
def HighestBars.next (c : Ctx α) (s : HighestBars) : Res (Option Int × HighestBars) := do
  if !(← c.atLength s.length) then
    return (none, s)
  let o ← highestBars (← c.highs s.length) s.length
  return (o, s)

/-- `struct LowestBars`, ta/lowest_bars.rs:7-10 -/
structure LowestBars where
  length : Nat
/-- ta/lowest_bars.rs:13-19 -/
def LowestBars.new (length : Nat) : Res LowestBars := do
  assert (decide (1 ≤ length))
  return { length }
/-- ta/lowest_bars.rs:23-28 -/
def LowestBars.next (c : Ctx α) (s : LowestBars) : Res (Option Int × LowestBars) := do
  if !(← c.atLength s.length) then
    return (none, s)
  let o ← lowestBars (← c.lows s.length) s.length
  return (o, s)

/-! ## Stoch (ta/stoch.rs) -/

/-- ta/stoch.rs:11-32 -/
def stoch (value : Option α) (high low : List (Option α)) (prevStoch : Option α) :
    Res (Option α) := do
  match value with
  | none => return none
  | some v =>
    let h ← highest high
    let l ← lowest low
    match h, l with
    | some h, some l =>
      let diff := h - l
      if F64.feq diff (lit 0) then
        return prevStoch
      return some (lit 100 * (v - l) / diff)
    | _, _ => return none

/-- `struct Stoch`, ta/stoch.rs:37-43 -/
structure Stoch (α : Type) where
  length : Nat
  prevStoch : Option α
  highInputCache : WindowCache (Option α)
  lowInputCache : WindowCache (Option α)
/-- ta/stoch.rs:46-55 -/
def Stoch.new (length : Nat) : Res (Stoch α) := do
  assert (decide (1 ≤ length))
  return { length, prevStoch := none, highInputCache := WindowCache.new length,
           lowInputCache := WindowCache.new length }
/-- ta/stoch.rs:60-77; input `(value, high, low)` -/
def Stoch.next (c : Ctx α) (s : Stoch α) (input : Option α × Option α × Option α) :
    Res (Option α × Stoch α) := do
  let hc := s.highInputCache.next input.2.1
  let lc := s.lowInputCache.next input.2.2
  let s := { s with highInputCache := hc, lowInputCache := lc }
  if !(← c.atLength s.length) then
    return (none, s)
  let o ← stoch input.1 (← hc.all) (← lc.all) s.prevStoch
  return (o, { s with prevStoch := o })

/-! ## Tr, Atr (ta/true_range.rs, ta/average_true_range.rs) -/

/-- ta/true_range.rs:4-29 -/
def trueRange (high low : α) (prevHigh prevLow prevClose : Option α) (handleNa : Bool) :
    Option α :=
  match prevHigh, prevLow, prevClose with
  | some _, some _, some pc =>
    some (F64.fmax (F64.fmax (high - low) (F64.abs (high - pc))) (F64.abs (low - pc)))
  | _, _, _ => if handleNa then some (high - low) else none

/-- `Tr::next`, ta/true_range.rs:50-59 (`Tr` has no mutable state) -/
def Tr.next (c : Ctx α) (handleNa : Bool) : Res (Option α) := do
  let h ← unwrap (← c.barHigh)
  let l ← unwrap (← c.barLow)
  let ph ← c.high 1
  let pl ← c.low 1
  let pc ← c.close 1
  return trueRange h l ph pl pc handleNa

/-- `struct Atr`, ta/average_true_range.rs:8-13 -/
structure Atr (α : Type) where
  length : Nat
  rma : Rma α
/-- ta/average_true_range.rs:16-24 -/
def Atr.new (length : Nat) : Res (Atr α) := do
  assert (decide (1 ≤ length))
  let rma ← Rma.new length
  return { length, rma }
/-- ta/average_true_range.rs:28-32 -/
def Atr.next (c : Ctx α) (s : Atr α) : Res (Option α × Atr α) := do
  let tr ← Tr.next c true
  let (o, rma) ← s.rma.next c tr
  return (o, { s with rma })

/-! ## Rsi (ta/relative_strength_index.rs) -/

/-- `struct Rsi` and `RsiData`, ta/relative_strength_index.rs:5-20 -/
structure Rsi (α : Type) where
  length : Nat
  upRma : Rma α
  downRma : Rma α
  prevInputValue : Option α
  dataUp : Option α
  dataDown : Option α
/-- ta/relative_strength_index.rs:23-36 -/
def Rsi.new (length : Nat) : Res (Rsi α) := do
  assert (decide (2 ≤ length))
  let upRma ← Rma.new length
  let downRma ← Rma.new length
  return { length, upRma, downRma, prevInputValue := none, dataUp := none, dataDown := none }
/-- ta/relative_strength_index.rs:40-66 -/
def Rsi.next (c : Ctx α) (s : Rsi α) (value : Option α) : Res (Option α × Rsi α) := do
  let (upChange, downChange) : Option α × Option α :=
    match s.prevInputValue, value with
    | some prev, some v =>
      let change := v - prev
      (some (F64.fmax change (lit 0)), some (-(F64.fmin change (lit 0))))
    | _, _ => (none, none)
  let (up, upRma) ← s.upRma.next c upChange
  let (down, downRma) ← s.downRma.next c downChange
  let s := { s with upRma, downRma, prevInputValue := value }
  match up, down with
  | some u, some d =>
    let rs := u / d
    let rsi := lit 100 - lit 100 / (lit 1 + rs)
    return (some rsi, { s with dataUp := up, dataDown := down })
  | _, _ => return (none, s)

/-! ## Cross family -/

/-- `enum CrossMode`, ta/cross.rs:3-7 -/
inductive CrossMode where
  | over | under
  deriving DecidableEq, Repr

/-- ta/cross.rs:9-16 -/
def crossOver (a b prevA prevB : α) : Bool := fgt a b && F64.le prevA prevB
/-- ta/cross.rs:18-25 -/
def crossUnder (a b prevA prevB : α) : Bool := F64.lt a b && fge prevA prevB

/-- State of `Cross`, `CrossOver`, `CrossUnder`: ta/cross.rs:28-32, cross_over.rs:6-10, cross_under.rs:6-10 -/
structure CrossState (α : Type) where
  prevA : Option α
  prevB : Option α
/-- ta/cross.rs:35-41, ta/cross_over.rs:13-19, ta/cross_under.rs:13-19 -/
def CrossState.new : CrossState α := ⟨none, none⟩

/-- `Cross::next`, ta/cross.rs:45-63 -/
def Cross.next (s : CrossState α) (i : Option α × Option α) : Option CrossMode × CrossState α :=
  let cross :=
    match s.prevA, s.prevB, i.1, i.2 with
    | some pa, some pb, some a, some b =>
      if crossOver a b pa pb then some .over
      else if crossUnder a b pa pb then some .under
      else none
    | _, _, _, _ => none
  (cross, ⟨i.1, i.2⟩)

/-- `CrossOver::next`, ta/cross_over.rs:23-33 -/
def CrossOver.next (s : CrossState α) (i : Option α × Option α) : Bool × CrossState α :=
  let cross :=
    match s.prevA, s.prevB, i.1, i.2 with
    | some pa, some pb, some a, some b => crossOver a b pa pb
    | _, _, _, _ => false
  (cross, ⟨i.1, i.2⟩)

/-- `CrossUnder::next`, ta/cross_under.rs:23-33 -/
def CrossUnder.next (s : CrossState α) (i : Option α × Option α) : Bool × CrossState α :=
  let cross :=
    match s.prevA, s.prevB, i.1, i.2 with
    | some pa, some pb, some a, some b => crossUnder a b pa pb
    | _, _, _, _ => false
  (cross, ⟨i.1, i.2⟩)

/-- State of the threshold variants: ta/cross_threshold.rs:6-10, ta/cross_over_threshold.rs:5-9,
ta/cross_under_threshold.rs:6-10 -/
structure CrossThresholdState (α : Type) where
  prevValue : Option α
  threshold : α
/-- ta/cross_threshold.rs:13-19, ta/cross_over_threshold.rs:12-18, ta/cross_under_threshold.rs:13-19 -/
def CrossThresholdState.new (threshold : α) : CrossThresholdState α := ⟨none, threshold⟩

/-- `CrossThreshold::next`, ta/cross_threshold.rs:23-40 -/
def CrossThreshold.next (s : CrossThresholdState α) (value : Option α) :
    Option CrossMode × CrossThresholdState α :=
  let cross :=
    match s.prevValue, value with
    | some p, some v =>
      if crossOver v s.threshold p s.threshold then some .over
      else if crossUnder v s.threshold p s.threshold then some .under
      else none
    | _, _ => none
  (cross, { s with prevValue := value })

/-- `CrossOverThreshold::next`, ta/cross_over_threshold.rs:22-33 -/
def CrossOverThreshold.next (s : CrossThresholdState α) (value : Option α) :
    Bool × CrossThresholdState α :=
  let cross :=
    match s.prevValue, value with
    | some p, some v => crossOver v s.threshold p s.threshold
    | _, _ => false
  (cross, { s with prevValue := value })

/-- `CrossUnderThreshold::next`, ta/cross_under_threshold.rs:23-34 -/
def CrossUnderThreshold.next (s : CrossThresholdState α) (value : Option α) :
    Bool × CrossThresholdState α :=
  let cross :=
    match s.prevValue, value with
    | some p, some v => crossUnder v s.threshold p s.threshold
    | _, _ => false
  (cross, { s with prevValue := value })

end Pace
