import Verif.Model.Context

/-!
# common: caches, validators, sources, PineScript arithmetic
-/

namespace Pace

/-! ## FixNan (common/fixnan.rs) -/

/-- `struct FixNan`, common/fixnan.rs:4-7 -/
structure FixNan (α : Type) where
  lastNonNan : Option α

/-- common/fixnan.rs:10-15 -/
def FixNan.new {α : Type} : FixNan α := ⟨none⟩

/-- common/fixnan.rs:19-29 -/
def FixNan.next {α : Type} (s : FixNan α) (value : Option α) : Option α × FixNan α :=
  match value with
  | some v => (some v, ⟨some v⟩)
  | none => (s.lastNonNan, s)

/-! ## IncrementalCache (common/incremental_cache.rs) -/

/-- `struct IncrementalCache`, common/incremental_cache.rs:4-7 -/
structure IncrementalCache (β : Type) where
  values : List β

namespace IncrementalCache
variable {β : Type}
/-- common/incremental_cache.rs:10-15 (the capacity hint is not modelled) -/
def new : IncrementalCache β := ⟨[]⟩
/-- common/incremental_cache.rs:17-20 -/
def get (s : IncrementalCache β) (i : Nat) : Res β := do
  let l ← usub s.values.length 1
  let i ← usub l i
  unwrap s.values[i]?
/-- common/incremental_cache.rs:22-24 -/
def all (s : IncrementalCache β) : List β := s.values
/-- common/incremental_cache.rs:26-28 -/
def last (s : IncrementalCache β) : Res β := unwrap s.values.getLast?
/-- common/incremental_cache.rs:30-32 -/
def first (s : IncrementalCache β) : Res β := unwrap s.values.head?
/-- common/incremental_cache.rs:34-36 -/
def size (s : IncrementalCache β) : Nat := s.values.length
/-- common/incremental_cache.rs:40-42 -/
def next (s : IncrementalCache β) (v : β) : IncrementalCache β := ⟨s.values ++ [v]⟩
end IncrementalCache

/-! ## Position (common/position.rs) -/

/-- `struct Position`, common/position.rs:3-6 -/
structure Position where
  index : Nat
/-- common/position.rs:9-11 -/
def Position.new : Position := ⟨0⟩
/-- common/position.rs:15-19 -/
def Position.next (s : Position) : Nat × Position := (s.index, ⟨s.index + 1⟩)

/-! ## WindowCache (common/window_cache.rs) -/

/-- `struct WindowCache`, common/window_cache.rs:6-10 -/
structure WindowCache (β : Type) where
  length : Nat
  values : List β

namespace WindowCache
variable {β : Type}
/-- common/window_cache.rs:13-19 (the capacity hint is not modelled) -/
def new (length : Nat) : WindowCache β := ⟨length, []⟩
/-- common/window_cache.rs:21-23 -/
def isFilled (s : WindowCache β) : Bool := decide (s.length ≤ s.values.length)
/-- common/window_cache.rs:26-29 -/
def get (s : WindowCache β) (i : Nat) : Res (Option β) := do
  let l ← usub s.values.length 1
  let i ← usub l i
  return s.values[i]?
/-- common/window_cache.rs:32-40 -/
def all (s : WindowCache β) : Res (List β) := do
  let size := s.values.length
  let start ← if size < s.length then .ok 0 else usub size s.length
  slice s.values start size
/-- common/window_cache.rs:43-45 -/
def last (s : WindowCache β) : Option β := s.values.getLast?
/-- common/window_cache.rs:48-54 -/
def first (s : WindowCache β) : Res (Option β) := do
  let size := s.values.length
  if size < s.length then
    return none
  let l ← usub s.length 1
  s.get l
/-- common/window_cache.rs:56-58 -/
def size (s : WindowCache β) : Nat := s.values.length
/-- common/window_cache.rs:83-85 -/
def next (s : WindowCache β) (v : β) : WindowCache β := { s with values := s.values ++ [v] }

variable {α : Type}
/-- common/window_cache.rs:62-67 -/
def normalizeValue (v : Option (Option α)) : Option α :=
  match v with
  | none => none
  | some v => v
/-- common/window_cache.rs:69-71 -/
def getUnwrapped (s : WindowCache (Option α)) (i : Nat) : Res (Option α) := do
  return normalizeValue (← s.get i)
/-- common/window_cache.rs:73-75 -/
def lastUnwrapped (s : WindowCache (Option α)) : Option α := normalizeValue s.last
/-- common/window_cache.rs:77-79 -/
def firstUnwrapped (s : WindowCache (Option α)) : Res (Option α) := do
  return normalizeValue (← s.first)
end WindowCache

/-! ## WindowValidator (common/window_validator.rs) -/

/-- `struct WindowValidator`, common/window_validator.rs:4-9 -/
structure WindowValidator where
  length : Nat
  lastNoneIndex : Nat
  wasNone : Bool

/-- common/window_validator.rs:12-23 -/
def WindowValidator.new (length : Nat) : Res WindowValidator := do
  assert (decide (1 ≤ length))
  return ⟨length, 0, false⟩

/-- common/window_validator.rs:27-37 -/
def WindowValidator.next {α : Type} (c : Ctx α) (s : WindowValidator) (value : Option α) :
    Res (Bool × WindowValidator) := do
  let current := c.index
  if value.isNone then
    return (false, { s with lastNoneIndex := current, wasNone := true })
  if !s.wasNone then
    return (true, s)
  let d ← usub current s.lastNoneIndex
  return (decide (s.length ≤ d), s)

/-! ## Src (common/src.rs) -/

/-- `enum SrcKind`, common/src.rs:7-16 -/
inductive SrcKind where
  | open_ | high | low | close | volume | ohlc4 | hlc3 | hl2
  deriving DecidableEq, Repr

section
variable {α : Type} [F64 α]
/-- common/src.rs:18-20 -/
def ohlc4 (o h l c : α) : α := (o + h + l + c) / lit 4
/-- common/src.rs:22-24 -/
def hlc3 (h l c : α) : α := (h + l + c) / lit 3
/-- common/src.rs:26-28 -/
def hl2 (h l : α) : α := (h + l) / lit 2

/-- `Src::next` through its delegate, common/src.rs:45-71, 75-77.  `Src` has no state of its own. -/
def Src.next (c : Ctx α) : SrcKind → Res (Option α)
  | .open_ => c.barOpen
  | .high => c.barHigh
  | .low => c.barLow
  | .close => c.barClose
  | .volume => c.barVolume
  | .ohlc4 => do
    let o ← unwrap (← c.barOpen)
    let h ← unwrap (← c.barHigh)
    let l ← unwrap (← c.barLow)
    let cl ← unwrap (← c.barClose)
    return some (Pace.ohlc4 o h l cl)
  | .hlc3 => do
    let h ← unwrap (← c.barHigh)
    let l ← unwrap (← c.barLow)
    let cl ← unwrap (← c.barClose)
    return some (Pace.hlc3 h l cl)
  | .hl2 => do
    let h ← unwrap (← c.barHigh)
    let l ← unwrap (← c.barLow)
    return some (Pace.hl2 h l)

/-! ## PineScript arithmetic (pinescript/common.rs) -/

/-- pinescript/common.rs:2-7 -/
def psAdd (a b : Option α) : Option α :=
  match a, b with
  | some a, some b => some (a + b)
  | _, _ => none
/-- pinescript/common.rs:10-15 -/
def psDiff (a b : Option α) : Option α :=
  match a, b with
  | some a, some b => some (a - b)
  | _, _ => none
/-- pinescript/common.rs:18-28 -/
def psDiv (a b : Option α) : Option α :=
  match a, b with
  | some a, some b => if F64.feq b (lit 0) then none else some (a / b)
  | _, _ => none
/-- pinescript/common.rs:31-33 -/
def psNz (a : Option α) : α := a.getD (lit 0)
/-- pinescript/common.rs:36-41 -/
def psMax (a b : Option α) : Option α :=
  match a, b with
  | some a, some b => some (F64.fmax a b)
  | _, _ => none
/-- pinescript/common.rs:44-49 -/
def psMin (a b : Option α) : Option α :=
  match a, b with
  | some a, some b => some (F64.fmin a b)
  | _, _ => none
/-- pinescript/common.rs:52-54 -/
def psAbs (a : Option α) : Option α := a.map F64.abs
end

end Pace
