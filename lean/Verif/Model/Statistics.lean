import Verif.Model.Common

/-!
# statistics
-/

namespace Pace
variable {α : Type} [F64 α]

/-! ## common.rs -/
/-- statistics/common.rs:1-6 -/
def Stats.mean (values : List α) : α := fsum values / lit (values.length : ℚ)
/-- statistics/common.rs:8-10 -/
def Stats.varFromMean (values : List α) (mean : α) : α :=
  fsum (values.map fun x => sq (x - mean)) / lit (values.length : ℚ)
/-- statistics/common.rs:12-14 -/
def Stats.var (values : List α) : α := Stats.varFromMean values (Stats.mean values)
/-- statistics/common.rs:20-22 -/
def Stats.stdevFromVar (var : α) : α := F64.sqrt var
/-- statistics/common.rs:16-18 -/
def Stats.stdev (values : List α) : α := Stats.stdevFromVar (Stats.var values)

/-! ## math.rs -/

/-- One iteration of the loop of `find_max_index` (statistics/math.rs:7-20): accumulator
`(max_value, max_value_index)`. -/
def findMaxStep (acc : Option α × Option Nat) (iv : Nat × Option α) : Option α × Option Nat :=
  match acc.1, iv.2 with
  | none, some v => (some v, some iv.1)
  | some m, some v => if fgt v m then (some v, some iv.1) else acc
  | _, _ => acc

/-- `arr` with indices, as visited by `for i in 0..arr.len()`. -/
def indexed {β : Type} (arr : List β) : List (Nat × β) := (List.range arr.length).zip arr

/-- statistics/math.rs:1-26 -/
def findMaxIndex (arr : List (Option α)) : Res Nat := do
  assert (!arr.isEmpty)
  let acc := (indexed arr).foldl findMaxStep (none, none)
  match acc.2 with
  | some i => return i
  | none => usub arr.length 1

/-- One iteration of the loop of `find_min_index` (statistics/math.rs:34-47). -/
def findMinStep (acc : Option α × Option Nat) (iv : Nat × Option α) : Option α × Option Nat :=
  match acc.1, iv.2 with
  | none, some v => (some v, some iv.1)
  | some m, some v => if F64.lt v m then (some v, some iv.1) else acc
  | _, _ => acc

/-- statistics/math.rs:28-53 -/
def findMinIndex (arr : List (Option α)) : Res Nat := do
  assert (!arr.isEmpty)
  let acc := (indexed arr).foldl findMinStep (none, none)
  match acc.2 with
  | some i => return i
  | none => usub arr.length 1

/-! ## mean.rs -/
/-- `struct Mean`, statistics/mean.rs:4-8 -/
structure Mean (α : Type) where
  sum : α
  n : Nat
/-- statistics/mean.rs:11-17 -/
def Mean.new : Mean α := ⟨lit 0, 0⟩
/-- statistics/mean.rs:21-25 -/
def Mean.next (s : Mean α) (value : α) : α × Mean α :=
  let sum := s.sum + value
  let n := s.n + 1
  (sum / lit (n : ℚ), ⟨sum, n⟩)

/-! ## welfords_var.rs -/
/-- `struct WelfordsVar`, statistics/welfords_var.rs:4-9 -/
structure WelfordsVar (α : Type) where
  n : Nat
  mean : α
  deviation : α
/-- statistics/welfords_var.rs:12-19 -/
def WelfordsVar.new : WelfordsVar α := ⟨0, lit 0, lit 0⟩
/-- statistics/welfords_var.rs:23-36 -/
def WelfordsVar.next (s : WelfordsVar α) (value : α) : α × WelfordsVar α :=
  let n := s.n + 1
  let delta := value - s.mean
  let mean := s.mean + delta / lit (n : ℚ)
  let deviation := s.deviation + delta * (value - mean)
  let s' : WelfordsVar α := ⟨n, mean, deviation⟩
  if n ≤ 1 then (lit 0, s')
  else (deviation / (lit (n : ℚ) - lit 1), s')

/-! ## var.rs, stdev.rs, welfords_stdev.rs -/
/-- `struct Var`, statistics/var.rs:15-21 -/
structure Var (α : Type) where
  fast : Bool
  inputCache : IncrementalCache α
  welfordsVar : WelfordsVar α
  mean : Mean α
/-- `Var::build`, statistics/var.rs:24-32 (`new` = `build false`, `fast` = `build true`, :34-40) -/
def Var.build (fast : Bool) : Var α := ⟨fast, .new, .new, .new⟩
/-- statistics/var.rs:44-55 -/
def Var.next (s : Var α) (value : α) : α × Var α :=
  if s.fast then
    let (o, w) := s.welfordsVar.next value
    (o, { s with welfordsVar := w })
  else
    let cache := s.inputCache.next value
    let (mean, m) := s.mean.next value
    let values := cache.all
    (Stats.varFromMean values mean, { s with inputCache := cache, mean := m })

/-- `struct Stdev` (statistics), statistics/stdev.rs:12-16; `build`, :19-25 -/
structure StatStdev (α : Type) where
  variance : Var α
/-- statistics/stdev.rs:19-33 -/
def StatStdev.build (fast : Bool) : StatStdev α := ⟨.build fast⟩
/-- statistics/stdev.rs:37-39 -/
def StatStdev.next (s : StatStdev α) (value : α) : α × StatStdev α :=
  let (v, var) := s.variance.next value
  (Stats.stdevFromVar v, ⟨var⟩)

/-- `struct WelfordsStdev`, statistics/welfords_stdev.rs:5-8 -/
structure WelfordsStdev (α : Type) where
  variance : WelfordsVar α
/-- statistics/welfords_stdev.rs:11-16 -/
def WelfordsStdev.new : WelfordsStdev α := ⟨.new⟩
/-- statistics/welfords_stdev.rs:20-22 -/
def WelfordsStdev.next (s : WelfordsStdev α) (value : α) : α × WelfordsStdev α :=
  let (v, var) := s.variance.next value
  (Stats.stdevFromVar v, ⟨var⟩)

/-! ## normalization.rs -/
/-- statistics/normalization.rs:1-3 -/
def clipValue (value min max : α) : α := F64.fmin (F64.fmax value min) max
/-- statistics/normalization.rs:5-14 -/
def scaleValueUp (value threshold max : α) : α :=
  if F64.le value threshold then lit 0
  else
    let delta := value - threshold
    let mean := max - threshold
    clipValue (delta / mean) (lit 0) (lit 1)
/-- statistics/normalization.rs:16-24 -/
def scaleValueDown (value threshold min : α) : α :=
  if fge value threshold then lit 0
  else
    let delta := value - threshold
    let mean := min - threshold
    clipValue (delta / mean) (lit 0) (lit 1)
/-- statistics/normalization.rs:26-30 -/
def scaleValueCentered (value mean min max : α) : α :=
  let distance := (max - min) / lit 2
  let absDiff := F64.abs (value - mean)
  clipValue (lit 1 - absDiff / distance) (lit 0) (lit 1)
/-- statistics/normalization.rs:32-34 -/
def scaleValueAroundMean (value mean : α) : α := (lit 2 * value - mean) / mean
/-- statistics/normalization.rs:36-48 -/
def scaleValueMinMax (value min max : α) : α :=
  let (value, min, max) :=
    if F64.lt min (lit 0) then
      let offset := F64.abs min
      (value + offset, (lit 0 : α), max + offset)
    else (value, min, max)
  let mean := max - min
  scaleValueAroundMean value mean

end Pace
