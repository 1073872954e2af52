import Verif.Model.Metrics

/-!
# What is shown of a trade, and the points of the plots

strategy/trade.rs:88-132 (`to_colored_string`, `get_triangle_colored_string`) and strategy/metrics/tradingview_metrics.rs:203-225
(`text_plot`, `plot_net_equity`, `plot_max_drawdown`, `plot_equity`).  A `ColoredString` is modelled as its pieces of text with
their colours and whether it is bold; the escape sequences of the terminal are not modelled.  Of a plot the points and the range of
the x axis are modelled, not the drawing.
-/

namespace Pace
variable {α : Type} [F64 α]

/-- The colours used: `.green()`, `.red()`, `.bright_black()`, `.black()`. -/
inductive Paint where
  | green | red | brightBlack | black
  deriving DecidableEq, Repr

/-- A `ColoredString`: pieces of text with their colours, and the bold attribute of the whole. -/
structure Label where
  pieces : List (String × Option Paint)
  bold : Bool
  deriving DecidableEq, Repr

/-- `Trade::to_colored_string`, strategy/trade.rs:88-103 -/
def Trade.toColoredString (T : Trade α) (currentTick : Nat) : Res Label :=
  if !T.isClosed then
    if T.direction = .long then .ok ⟨[("▲ [LONG]", some .green)], true⟩
    else .ok ⟨[("▼ [SHORT]", some .red)], true⟩
  else do
    let exitTick ← unwrap T.exitTick
    if currentTick = exitTick then
      if T.direction = .long then return ⟨[("▼", some .red), (" ", none), ("[LONG_EXIT]", some .green)], true⟩
      else return ⟨[("▲", some .green), (" ", none), ("[SHORT_EXIT]", some .red)], true⟩
    else return ⟨[("No Trade", some .brightBlack)], false⟩

/-- `Trade::get_triangle_colored_string`, strategy/trade.rs:105-132.  The `unwrap`s are guarded by `is_some`. -/
def Trade.getTriangleColoredString (T : Trade α) (currentTick : Nat) : Label :=
  if !T.isClosed ∧ T.entryTick = some currentTick then
    if T.direction = .long then ⟨[("▲", some .green)], true⟩ else ⟨[("▼", some .red)], true⟩
  else if T.exitTick = some currentTick then
    if T.direction = .long then ⟨[("▼", some .red)], true⟩ else ⟨[("▲", some .green)], true⟩
  else if T.exitTick.isNone then
    if T.direction = .long then ⟨[("—", some .green)], true⟩ else ⟨[("—", some .red)], true⟩
  else ⟨[("—", some .black)], true⟩

/-- A plot: its points, and the first and the last x coordinate of the chart. -/
structure Plot (β : Type) where
  points : List (Nat × β)
  xmin : Nat
  xmax : Nat
  deriving DecidableEq, Repr

/-- `text_plot`, strategy/metrics/tradingview_metrics.rs:203-213.  `narrow` is the conversion to `f32`; the x coordinates, small
integers, are left as they are (`i as f32` is exact below 2^24). -/
def textPlot {β : Type} (narrow : α → β) (items : List α) : Plot β :=
  ⟨items.zipIdx.map fun p => (p.2 + 1, narrow p.1), 1, items.length⟩

/-- strategy/metrics/tradingview_metrics.rs:215-217 -/
def TvData.plotNetEquity {β : Type} (narrow : α → β) (d : TvData α) : Plot β := textPlot narrow d.netEquityHistory
/-- strategy/metrics/tradingview_metrics.rs:219-221 -/
def TvData.plotMaxDrawdown {β : Type} (narrow : α → β) (d : TvData α) : Plot β := textPlot narrow d.maxDrawdownHistory
/-- strategy/metrics/tradingview_metrics.rs:223-225 -/
def TvData.plotEquity {β : Type} (narrow : α → β) (d : TvData α) : Plot β := textPlot narrow d.equityHistory

end Pace
