import Verif.Res
import Verif.Num

/-!
# core: data provider, bar and context
-/

namespace Pace

/-- `struct InMemoryDataProvider`, core/in_memory_data_provider.rs:8-17.  `Duration` is a number of
milliseconds. -/
structure DataProvider (α : Type) where
  open_ : List (Option α)
  high : List (Option α)
  low : List (Option α)
  close : List (Option α)
  volume : List (Option α)
  time : List (Option Nat)
  startTick : Nat
  endTick : Nat

namespace DataProvider
variable {α : Type}

/-- `InMemoryDataProvider::new`, core/in_memory_data_provider.rs:74-95. -/
def new (open_ high low close volume : List (Option α)) (time : List (Option Nat)) :
    Res (DataProvider α) := do
  let startTick := 0
  let endTick ← usub close.length 1
  return { open_, high, low, close, volume, time, startTick, endTick }

/-- `InMemoryDataProvider::from_values`, core/in_memory_data_provider.rs:97-108. -/
def fromValues (values : List (Option α)) : Res (DataProvider α) := do
  let endTick ← usub values.length 1
  return { open_ := values, high := values, low := values, close := values, volume := values,
           startTick := 0, endTick, time := List.replicate values.length none }

/-- core/in_memory_data_provider.rs:28-30 -/
def getOpen (d : DataProvider α) (i : Nat) : Res (Option α) := index d.open_ i
/-- core/in_memory_data_provider.rs:32-34 -/
def getHigh (d : DataProvider α) (i : Nat) : Res (Option α) := index d.high i
/-- core/in_memory_data_provider.rs:36-38 -/
def getLow (d : DataProvider α) (i : Nat) : Res (Option α) := index d.low i
/-- core/in_memory_data_provider.rs:40-42 -/
def getClose (d : DataProvider α) (i : Nat) : Res (Option α) := index d.close i
/-- core/in_memory_data_provider.rs:44-46 -/
def getVolume (d : DataProvider α) (i : Nat) : Res (Option α) := index d.volume i
/-- core/in_memory_data_provider.rs:48-50 -/
def getTime (d : DataProvider α) (i : Nat) : Res (Option Nat) := index d.time i
/-- core/in_memory_data_provider.rs:52-54 -/
def getOpenForRange (d : DataProvider α) (a b : Nat) : Res (List (Option α)) := slice d.open_ a (b + 1)
/-- core/in_memory_data_provider.rs:56-58 -/
def getHighForRange (d : DataProvider α) (a b : Nat) : Res (List (Option α)) := slice d.high a (b + 1)
/-- core/in_memory_data_provider.rs:60-62 -/
def getLowForRange (d : DataProvider α) (a b : Nat) : Res (List (Option α)) := slice d.low a (b + 1)
/-- core/in_memory_data_provider.rs:64-66 -/
def getCloseForRange (d : DataProvider α) (a b : Nat) : Res (List (Option α)) := slice d.close a (b + 1)
/-- core/in_memory_data_provider.rs:68-70 -/
def getVolumeForRange (d : DataProvider α) (a b : Nat) : Res (List (Option α)) := slice d.volume a (b + 1)

end DataProvider

/-- What a component sees of its `Context` during one `next` call: the data and the *current* value of the
shared bar index (core/context.rs:13-16, 78-89).  The sharing of the index between clones is modelled by
`World` below. -/
structure Ctx (α : Type) where
  data : DataProvider α
  index : Nat

namespace Ctx
variable {α : Type}

/-- `Bar::at_length`, core/context.rs:48-50. -/
def atLength (c : Ctx α) (length : Nat) : Res Bool := do
  let l ← usub length 1
  return decide (l ≤ c.index)

/-- `Bar::open`, core/context.rs:53-55. -/
def barOpen (c : Ctx α) : Res (Option α) := c.data.getOpen c.index
/-- `Bar::high`, core/context.rs:58-60. -/
def barHigh (c : Ctx α) : Res (Option α) := c.data.getHigh c.index
/-- `Bar::low`, core/context.rs:63-65. -/
def barLow (c : Ctx α) : Res (Option α) := c.data.getLow c.index
/-- `Bar::close`, core/context.rs:68-70. -/
def barClose (c : Ctx α) : Res (Option α) := c.data.getClose c.index
/-- `Bar::volume`, core/context.rs:73-75. -/
def barVolume (c : Ctx α) : Res (Option α) := c.data.getVolume c.index
/-- `Bar::time`, core/context.rs:29-31. -/
def barTime (c : Ctx α) : Res (Option Nat) := c.data.getTime c.index

/-- `Bar::is_up`, core/context.rs:43-45. -/
def isUp [F64 α] (c : Ctx α) : Res Bool := do
  let cl ← unwrap (← c.barClose)
  let op ← unwrap (← c.barOpen)
  return fge cl op

/-- `Context::high`, core/context.rs:129-135. -/
def high (c : Ctx α) (n : Nat) : Res (Option α) :=
  if c.index < n then .ok none else c.data.getHigh (c.index - n)
/-- `Context::low`, core/context.rs:138-144. -/
def low (c : Ctx α) (n : Nat) : Res (Option α) :=
  if c.index < n then .ok none else c.data.getLow (c.index - n)
/-- `Context::close`, core/context.rs:147-153. -/
def close (c : Ctx α) (n : Nat) : Res (Option α) :=
  if c.index < n then .ok none else c.data.getClose (c.index - n)
/-- `Context::volume`, core/context.rs:156-162. -/
def volume (c : Ctx α) (n : Nat) : Res (Option α) :=
  if c.index < n then .ok none else c.data.getVolume (c.index - n)

/-- The start index `tick - (length - 1)` of `opens`, `highs`, ...; core/context.rs:167,173,179,185,191. -/
def rangeStart (c : Ctx α) (length : Nat) : Res Nat := do
  let l ← usub length 1
  usub c.index l

/-- `Context::opens`, core/context.rs:165-168. -/
def opens (c : Ctx α) (length : Nat) : Res (List (Option α)) := do
  c.data.getOpenForRange (← c.rangeStart length) c.index
/-- `Context::highs`, core/context.rs:171-174. -/
def highs (c : Ctx α) (length : Nat) : Res (List (Option α)) := do
  c.data.getHighForRange (← c.rangeStart length) c.index
/-- `Context::lows`, core/context.rs:177-180. -/
def lows (c : Ctx α) (length : Nat) : Res (List (Option α)) := do
  c.data.getLowForRange (← c.rangeStart length) c.index
/-- `Context::closes`, core/context.rs:183-186. -/
def closes (c : Ctx α) (length : Nat) : Res (List (Option α)) := do
  c.data.getCloseForRange (← c.rangeStart length) c.index
/-- `Context::volumes`, core/context.rs:189-192. -/
def volumes (c : Ctx α) (length : Nat) : Res (List (Option α)) := do
  c.data.getVolumeForRange (← c.rangeStart length) c.index

end Ctx

/-! ## Contexts sharing one bar index -/

/-- One `Context` handle: its own copies of the immutable fields (core/context.rs:78-89).  The pointers to the
shared cells are implicit: all handles cloned from one context share the `World`'s cells. -/
structure Handle where
  firstBarIndex : Nat
  lastBarIndex : Nat
  bars : Nat
  deriving DecidableEq, Repr

/-- A context and all its clones: the shared cells `bar.index` and `is_running`, and the live handles. -/
structure World where
  index : Nat
  isRunning : Bool
  handles : List Handle
  deriving DecidableEq, Repr

/-- `Context::new`, core/context.rs:93-111: the world with a single handle. -/
def World.new {α : Type} (d : DataProvider α) : Res World := do
  let firstBarIndex := d.startTick
  let lastBarIndex := d.endTick
  let bars := (← usub lastBarIndex firstBarIndex) + 1
  return { index := firstBarIndex, isRunning := false,
           handles := [{ firstBarIndex, lastBarIndex, bars }] }

/-- `Context::clone` of handle `i`, core/context.rs:114-126: a new handle sharing the same cells. -/
def World.clone (w : World) (i : Nat) : Res World := do
  let h ← Pace.index w.handles i
  return { w with handles := w.handles ++ [{ firstBarIndex := h.firstBarIndex,
                                             lastBarIndex := h.lastBarIndex, bars := h.bars }] }

/-- `Iterator::next` on handle `i`, core/context.rs:198-212. -/
def World.next (w : World) (i : Nat) : Res (Option Nat × World) := do
  let h ← Pace.index w.handles i
  if !w.isRunning then
    return (some h.firstBarIndex, { w with isRunning := true })
  let current := w.index + 1
  let w := { w with index := current }
  if current ≤ h.lastBarIndex then
    return (some current, w)
  return (none, w)

/-- An operation of a user program on the handles of one context. -/
inductive CtxOp where
  | clone (i : Nat)
  | next (i : Nat)
  deriving DecidableEq, Repr

/-- Execute a program, collecting the results of the `next` calls in order. -/
def World.exec : World → List CtxOp → Res (List (Option Nat) × World)
  | w, [] => .ok ([], w)
  | w, .clone i :: ops => do
    let w ← w.clone i
    World.exec w ops
  | w, .next i :: ops => do
    let (o, w) ← w.next i
    let (os, w) ← World.exec w ops
    return (o :: os, w)

end Pace
