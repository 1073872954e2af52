import Verif.Spec.Mirror
import Verif.Spec.Series
import Verif.Model.Content

/-!
# Specification vocabulary: when a component is called

The `i`-th call of `next` is made while the shared bar index is `τ i`.  The documented loop is `τ i = i`; a component created during the
run is called at `τ i = s + i`; one that is called only now and then at the bars `τ 0 < τ 1 < …`.
-/

namespace Pace

/-- The data without its first `s` bars. -/
def DataProvider.cut {α : Type} (s : Nat) (d : DataProvider α) : DataProvider α where
  open_ := d.open_.drop s
  high := d.high.drop s
  low := d.low.drop s
  close := d.close.drop s
  volume := d.volume.drop s
  time := d.time.drop s
  startTick := d.startTick - s
  endTick := d.endTick - s

namespace Spec

/-- What `N` calls return when the `i`-th is made at bar `τ i`. -/
def calls {α S I O : Type} (next : Ctx α → S → I → Res (O × S)) (new : Res S) (d : DataProvider α) (τ : Nat → Nat) (x : Nat → I)
    (N : Nat) : Res (List O) :=
  outputs (fun i => next ⟨d, τ i⟩) x N new

/-- A component that looks back `k` bars may be started at any bar that has `k` bars before it: started `s` bars later it returns what it
returns on the data that lacks those `s` bars (or panics exactly when that panics). -/
def StartsAfter {α S I O : Type} (k : Nat) (next : Ctx α → S → I → Res (O × S)) (new : Res S) : Prop :=
  ∀ (d : DataProvider α) (s N : Nat) (x : Nat → I),
    calls next new d (fun i => s + (k + i)) x N = calls next new (d.cut s) (fun i => k + i) x N

/-- A component that reads nothing but the bars. -/
def barsOnly {α S O : Type} (next : Ctx α → S → Res (O × S)) : Ctx α → S → Unit → Res (O × S) := fun c st _ => next c st

/-- A component that ignores the context. -/
def anyCtx {α S I O : Type} (next : S → I → Res (O × S)) : Ctx α → S → I → Res (O × S) := fun _ st v => next st v

/-- A component that has no state. -/
def noState {α O : Type} (next : Ctx α → Res O) : Ctx α → Unit → Unit → Res (O × Unit) := fun c _ _ => do return (← next c, ())

end Spec
end Pace

namespace Pace
variable {α : Type}

/-- The trade with its ticks renamed. -/
def Trade.rename (τ : Nat → Nat) (x : Trade α) : Trade α := { x with entryTick := x.entryTick.map τ, exitTick := x.exitTick.map τ }

/-- The strategy with the ticks of all its trades and events renamed; nothing else changes. -/
def Strategy.rename (τ : Nat → Nat) (s : Strategy α) : Strategy α :=
  { s with
    trades := s.trades.map (Trade.rename τ)
    events := ⟨s.events.onTradeEntry.map (Trade.rename τ), s.events.onTradeExit.map (Trade.rename τ)⟩ }

namespace Spec

/-- The first `N` bars of `d'` are the bars `τ 0, τ 1, …` of `d`. -/
structure Sampled (τ : Nat → Nat) (N : Nat) (d d' : DataProvider α) : Prop where
  open_ : ∀ i, i < N → d'.open_[i]? = d.open_[τ i]?
  high : ∀ i, i < N → d'.high[i]? = d.high[τ i]?
  low : ∀ i, i < N → d'.low[i]? = d.low[τ i]?
  close : ∀ i, i < N → d'.close[i]? = d.close[τ i]?
  volume : ∀ i, i < N → d'.volume[i]? = d.volume[τ i]?
  time : ∀ i, i < N → d'.time[i]? = d.time[τ i]?

/-- The values of the last `n` calls (fewer at the beginning), oldest first. -/
def recent {β : Type} (x : Nat → β) (n i : Nat) : List β := win x (min n (i + 1)) i

/-- No missing value was passed less than `len` *bars* ago. -/
def Clear {β : Type} (len : Nat) (τ : Nat → Nat) (x : Nat → Option β) (i : Nat) : Prop := ∀ j, j ≤ i → x j = none → len + τ j ≤ τ i

end Spec
end Pace
