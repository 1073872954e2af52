import Verif.Spec.Schedule
import Verif.Lemmas.Schedule
import Verif.Model.Metrics

/-!
# The strategy runner and the metrics at arbitrary bars
-/

namespace Pace
open Spec
variable {α : Type} [F64 α]

/-- Both positions show the same bar. -/
structure SameBar (c c' : Ctx α) : Prop where
  open_ : c'.barOpen = c.barOpen
  high : c'.barHigh = c.barHigh
  low : c'.barLow = c.barLow
  close : c'.barClose = c.barClose

theorem Spec.Sampled.sameBar {τ : Nat → Nat} {N : Nat} {d d' : DataProvider α} (h : Sampled τ N d d') {i : Nat} (hi : i < N) :
    SameBar ⟨d', i⟩ ⟨d, τ i⟩ := by
  constructor <;>
    simp only [Ctx.barOpen, Ctx.barHigh, Ctx.barLow, Ctx.barClose, DataProvider.getOpen, DataProvider.getHigh, DataProvider.getLow,
      DataProvider.getClose, Pace.index]
  · rw [h.open_ i hi]
  · rw [h.high i hi]
  · rw [h.low i hi]
  · rw [h.close i hi]

private theorem pnl_rename (τ : Nat → Nat) (x : Trade α) (p : α) : (x.rename τ).pnl p = x.pnl p := rfl

private theorem closeLast_rename (τ : Nat → Nat) (s : Strategy α) (x : Trade α) (p : Option α) (n : Nat) :
    (s.rename τ).closeLast (x.rename τ) p (τ n) = (s.closeLast x p n).map (Strategy.rename τ) := by
  unfold Strategy.closeLast
  cases p with
  | none => rfl
  | some p =>
    dsimp only
    rw [unwrap_some, Res.ok_bind, Res.ok_bind]
    have e : Trade.pnl { x.rename τ with exitPrice := some p, exitTick := some (τ n), isClosed := true } p =
        Trade.pnl { x with exitPrice := some p, exitTick := some n, isClosed := true } p := rfl
    rw [e]
    cases Trade.pnl { x with exitPrice := some p, exitTick := some n, isClosed := true } p with
    | error _ => rfl
    | ok q =>
      simp only [Res.ok_bind, Res.pure_eq, Except.map]
      simp [Strategy.rename, Trade.rename]

private theorem openNew_rename (τ : Nat → Nat) (s : Strategy α) (dir : TradeDirection) (p : Option α) (n : Nat) :
    (s.rename τ).openNew dir p (τ n) = (s.openNew dir p n).map (Strategy.rename τ) := by
  unfold Strategy.openNew
  have hc : (s.rename τ).config = s.config := rfl
  have hm : (s.rename τ).metrics = s.metrics := rfl
  rw [hc, hm]
  by_cases hb : s.config.buyWithEquity = true
  · cases p with
    | none => simp [hb, Except.map]
    | some p =>
      simp only [hb, if_true, unwrap_some, Res.ok_bind, Res.pure_eq, Except.map]
      simp [Strategy.rename, Trade.rename, Trade.new]
  · simp only [hb, Bool.false_eq_true, if_false, Res.ok_bind, Res.pure_eq, Except.map]
    simp [Strategy.rename, Trade.rename, Trade.new]

private theorem map_bind' {A B C : Type} (m : Res A) (f : A → B) (g : B → Res C) : (m.map f >>= g) = (m >>= fun a => g (f a)) := by
  cases m <;> rfl

private theorem bind_map' {A B C : Type} (m : Res A) (f : A → Res B) (g : B → C) : (m >>= f).map g = (m >>= fun a => (f a).map g) := by
  cases m <;> rfl

private theorem fill_rename (τ : Nat → Nat) (s : Strategy α) (dir : TradeDirection) (n : Nat) (o cl : Option α) :
    (s.rename τ).fill dir (τ n) o cl = (s.fill dir n o cl).map (Strategy.rename τ) := by
  have tail (s : Strategy α) (b : Bool) (p : Option α) :
      (if b = true then ((s.rename τ).openNew dir p (τ n) >>= fun s => (.ok { s with unfilled := none } : Res (Strategy α)))
        else .ok { s.rename τ with unfilled := none }) =
      Except.map (Strategy.rename τ)
        (if b = true then (s.openNew dir p n >>= fun s => (.ok { s with unfilled := none } : Res (Strategy α)))
          else .ok { s with unfilled := none }) := by
    cases b with
    | false => rfl
    | true =>
      simp only [if_true]
      rw [openNew_rename, map_bind', bind_map']
      rfl
  unfold Strategy.fill
  have hc : (s.rename τ).config = s.config := rfl
  have ht : (s.rename τ).trades.getLast? = s.trades.getLast?.map (Trade.rename τ) := by
    show (s.trades.map (Trade.rename τ)).getLast? = _
    rw [List.getLast?_map]
  rw [hc, ht]
  cases s.trades.getLast? with
  | none => exact tail s true _
  | some x =>
    simp only [Option.map_some]
    have hd : (x.rename τ).direction = x.direction := rfl
    have hcl : (x.rename τ).isClosed = x.isClosed := rfl
    rw [hd, hcl]
    by_cases hb : (!decide (x.direction = dir) && !x.isClosed) = true
    · rw [if_pos hb, if_pos hb, closeLast_rename]
      simp only [map_bind', bind_map']
      cases s.closeLast x (if s.config.onBarClose = true then cl else o) n with
      | error _ => rfl
      | ok s1 =>
        simp only [Res.ok_bind, Res.pure_eq]
        exact tail s1 _ _
    · rw [if_neg hb, if_neg hb]
      simp only [Res.ok_bind, Res.pure_eq]
      exact tail s _ _

private theorem mark_rename (τ : Nat → Nat) (s : Strategy α) (cl : Option α) :
    (s.rename τ).markToMarket cl = (s.markToMarket cl).map (Strategy.rename τ) := by
  unfold Strategy.markToMarket
  have ht : (s.rename τ).trades.getLast? = s.trades.getLast?.map (Trade.rename τ) := by
    show (s.trades.map (Trade.rename τ)).getLast? = _
    rw [List.getLast?_map]
  rw [ht]
  cases s.trades.getLast? with
  | none => rfl
  | some x =>
    simp only [Option.map_some]
    have hcl : (x.rename τ).isClosed = x.isClosed := rfl
    rw [hcl]
    cases x.isClosed with
    | true => rfl
    | false =>
      simp only [Bool.not_false, if_true, pnl_rename]
      cases cl with
      | none => rfl
      | some p =>
        simp only [unwrap_some, Res.ok_bind]
        cases x.pnl p <;> rfl

theorem next_rename {τ : Nat → Nat} {c c' : Ctx α} (hb : SameBar c c') (hi : c'.index = τ c.index) (s : Strategy α)
    (dir : Option TradeDirection) : (s.rename τ).next c' dir = (s.next c dir).map (Strategy.rename τ) := by
  unfold Strategy.next
  dsimp only
  rw [hb.open_, hb.close, hi]
  cases c.barOpen with
  | error _ => rfl
  | ok o =>
    cases c.barClose with
    | error _ => rfl
    | ok cl =>
      simp only [Res.ok_bind]
      have hc : (s.rename τ).config = s.config := rfl
      rw [hc]
      have last (s1 : Strategy α) :
          Strategy.markToMarket (if (!(s1.rename τ).config.onBarClose) = true then { s1.rename τ with unfilled := dir } else s1.rename τ) cl =
          (Strategy.markToMarket (if (!s1.config.onBarClose) = true then { s1 with unfilled := dir } else s1) cl).map (Strategy.rename τ) := by
        rw [← mark_rename]
        have hc : (s1.rename τ).config = s1.config := rfl
        rw [hc]
        cases s1.config.onBarClose <;> rfl
      have mid (s1 : Strategy α) (d : TradeDirection) :
          ((s1.rename τ).fill d (τ c.index) o cl >>= fun s =>
            Strategy.markToMarket (if (!s.config.onBarClose) = true then { s with unfilled := dir } else s) cl) =
          (s1.fill d c.index o cl >>= fun s =>
            Strategy.markToMarket (if (!s.config.onBarClose) = true then { s with unfilled := dir } else s) cl).map (Strategy.rename τ) := by
        rw [fill_rename, map_bind', bind_map']
        cases s1.fill d c.index o cl with
        | error _ => rfl
        | ok s2 => exact last s2
      cases hob : s.config.onBarClose with
      | true =>
        simp only [if_true]
        cases dir with
        | none => exact last { ({ s with unfilled := none } : Strategy α) with events := ⟨none, none⟩ }
        | some d => exact mid { ({ s with unfilled := some d } : Strategy α) with events := ⟨none, none⟩ } d
      | false =>
        simp only [Bool.false_eq_true, if_false]
        have hu : (s.rename τ).unfilled = s.unfilled := rfl
        rw [hu]
        cases hun : s.unfilled with
        | none => exact last { ({ s with unfilled := none } : Strategy α) with events := ⟨none, none⟩ }
        | some d => exact mid { ({ s with unfilled := some d } : Strategy α) with events := ⟨none, none⟩ } d

theorem equity_rename {τ : Nat → Nat} {c c' : Ctx α} (hb : SameBar c c') (m : EquityMetrics α) (s : Strategy α) :
    m.next c' (s.rename τ) = m.next c s := by
  unfold EquityMetrics.next
  have ht : (s.rename τ).trades.getLast? = s.trades.getLast?.map (Trade.rename τ) := by
    show (s.trades.map (Trade.rename τ)).getLast? = _
    rw [List.getLast?_map]
  have he : (s.rename τ).events.onTradeExit = s.events.onTradeExit.map (Trade.rename τ) := rfl
  have hc : (s.rename τ).config = s.config := rfl
  have hm : (s.rename τ).metrics = s.metrics := rfl
  rw [ht, he, hc, hm, hb.low, hb.high]
  cases s.events.onTradeExit <;> cases s.trades.getLast? <;> rfl

theorem tv_rename {τ : Nat → Nat} {c c' : Ctx α} (hb : SameBar c c') (m : TvMetrics α) (s : Strategy α) :
    m.next c' (s.rename τ) = m.next c s := by
  unfold TvMetrics.next
  rw [equity_rename hb]
  have he : (s.rename τ).events.onTradeExit.isSome = s.events.onTradeExit.isSome := by
    show (s.events.onTradeExit.map (Trade.rename τ)).isSome = _
    simp
  rw [he]
  rfl

theorem cobra_rename {τ : Nat → Nat} {c c' : Ctx α} (hb : SameBar c c') (y : Option Int) (m : CobraMetrics α) (s : Strategy α) :
    m.next c' y (s.rename τ) = m.next c y s := by
  unfold CobraMetrics.next
  simp only [equity_rename hb]
  have he : (s.rename τ).events.onTradeExit = s.events.onTradeExit.map (Trade.rename τ) := rfl
  rw [he]
  cases s.events.onTradeExit <;> rfl

/-- Two runs with the same outputs, compared call by call through a renaming of the states. -/
theorem outputs_rename {S S' I I' O O' : Type} {step : Nat → S → I → Res (O × S)} {step' : Nat → S' → I' → Res (O' × S')}
    (f : S → S') (g : O → O') (x : Nat → I) (x' : Nat → I') (N : Nat)
    (hs : ∀ t s, t < N → step' t (f s) (x' t) = (step t s (x t)).map fun p => (g p.1, f p.2)) (s0 : Res S) :
    outputs step' x' N (s0.map f) = (outputs step x N s0).map (List.map g) := by
  have key : ∀ n t s, t + n ≤ N → runFrom step' x' t n (f s) = (runFrom step x t n s).map fun p => (p.1.map g, f p.2) := by
    intro n
    induction n with
    | zero => intro t s _; rfl
    | succ n ih =>
      intro t s ht
      simp only [runFrom]
      rw [hs t s (by omega), map_bind']
      cases step t s (x t) with
      | error _ => rfl
      | ok p =>
        simp only [Res.ok_bind]
        rw [ih (t + 1) p.2 (by omega), map_bind']
        cases runFrom step x (t + 1) n p.2 <;> rfl
  cases s0 with
  | error _ => rfl
  | ok s =>
    have h := key N 0 s (by omega)
    simp only [outputs, run, Except.map, Res.ok_bind]
    rw [h]
    cases runFrom step x 0 N s <;> rfl

end Pace
