import Verif.Spec.Mirror
import Verif.Lemmas.Units
import Verif.Spec.Series

/-!
# Two strategy runs with one unit per trade, compared tick by tick
-/

namespace Pace
open Spec

/-- If the steps of two components keep related states related, so do their runs (panics included). -/
theorem outputs_alike {S S' I I' O O' : Type} {step : Nat → S → I → Res (O × S)} {step' : Nat → S' → I' → Res (O' × S')}
    (Q : S → S' → Prop) (P : O → O' → Prop) (x : Nat → I) (x' : Nat → I')
    (hs : ∀ t s s', Q s s' → Alike (fun p p' => P p.1 p'.1 ∧ Q p.2 p'.2) (step t s (x t)) (step' t s' (x' t)))
    (N : Nat) {s0 : S} {s0' : S'} (h0 : Q s0 s0') :
    Alike (List.Forall₂ P) (outputs step x N (.ok s0)) (outputs step' x' N (.ok s0')) := by
  have key : ∀ n t s s', Q s s' →
      Alike (fun p p' => List.Forall₂ P p.1 p'.1) (runFrom step x t n s) (runFrom step' x' t n s') := by
    intro n
    induction n with
    | zero => intro t s s' _; exact List.Forall₂.nil
    | succ n ih =>
      intro t s s' hq
      simp only [runFrom]
      have h1 := hs t s s' hq
      cases e : step t s (x t) with
      | error e =>
        cases e' : step' t s' (x' t) with
        | error e' => rw [‹step t s (x t) = _›, ‹step' t s' (x' t) = _›] at h1; exact h1
        | ok p' => rw [‹step t s (x t) = _›, ‹step' t s' (x' t) = _›] at h1; exact h1.elim
      | ok p =>
        cases e' : step' t s' (x' t) with
        | error e' => rw [‹step t s (x t) = _›, ‹step' t s' (x' t) = _›] at h1; exact h1.elim
        | ok p' =>
          rw [‹step t s (x t) = _›, ‹step' t s' (x' t) = _›] at h1
          simp only [Res.ok_bind]
          have h2 := ih (t + 1) p.2 p'.2 h1.2
          cases e2 : runFrom step x (t + 1) n p.2 with
          | error _ =>
            cases e3 : runFrom step' x' (t + 1) n p'.2 with
            | error _ => rw [e2, e3] at h2; exact h2
            | ok _ => rw [e2, e3] at h2; exact h2.elim
          | ok q =>
            cases e3 : runFrom step' x' (t + 1) n p'.2 with
            | error _ => rw [e2, e3] at h2; exact h2.elim
            | ok q' => rw [e2, e3] at h2; exact List.Forall₂.cons h1.1 h2
  have h := key N 0 s0 s0' h0
  simp only [outputs, run, Res.ok_bind]
  cases e2 : runFrom step x 0 N s0 with
  | error _ =>
    cases e3 : runFrom step' x' 0 N s0' with
    | error _ => rw [e2, e3] at h; exact h
    | ok _ => rw [e2, e3] at h; exact h.elim
  | ok q =>
    cases e3 : runFrom step' x' 0 N s0' with
    | error _ => rw [e2, e3] at h; exact h.elim
    | ok q' => rw [e2, e3] at h; exact h

variable {α : Type} [F64 α]

/-- How two runs correspond: directions by `g`, prices by `price`, profits by `P`, metrics by `M`. -/
structure Sim (α : Type) [F64 α] where
  g : TradeDirection → TradeDirection
  inj : ∀ a b, g a = g b ↔ a = b
  price : α → α
  P : α → α → Prop
  M : StrategyMetrics α → StrategyMetrics α → Prop
  cap : α
  cap' : α
  zero : P (lit 0) (lit 0)
  pnl : ∀ ep cp dir, P (tradePnl (lit 1) ep cp (decide (dir = .long))) (tradePnl (lit 1) (price ep) (price cp) (decide (g dir = .long)))
  close : ∀ m m' dir q q', M m m' → P q q' → M (Strategy.closeMetrics m dir q) (Strategy.closeMetrics m' (g dir) q')
  openP : ∀ m m', M m m' → P m.openProfit m'.openProfit
  mark : ∀ m m' q q', M m m' → P q q' →
    M { m with openProfit := q, equity := cap + m.netProfit + q } { m' with openProfit := q', equity := cap' + m'.netProfit + q' }

namespace Sim
variable (S : Sim α)

/-- Corresponding trades. -/
structure Tr (x x' : Trade α) : Prop where
  direction : x'.direction = S.g x.direction
  isClosed : x'.isClosed = x.isClosed
  entryTick : x'.entryTick = x.entryTick
  entryPrice : x'.entryPrice = x.entryPrice.map S.price
  exitTick : x'.exitTick = x.exitTick
  exitPrice : x'.exitPrice = x.exitPrice.map S.price
  size : x.fillSize = some (lit 1)
  size' : x'.fillSize = some (lit 1)
  pnl : S.P x.pnlField x'.pnlField

/-- Corresponding states. -/
structure St (s s' : Strategy α) : Prop where
  onBarClose : s'.config.onBarClose = s.config.onBarClose
  continous : s'.config.continous = s.config.continous
  fixed : s.config.buyWithEquity = false
  fixed' : s'.config.buyWithEquity = false
  cap : s.config.initialCapital = S.cap
  cap' : s'.config.initialCapital = S.cap'
  trades : List.Forall₂ S.Tr s.trades s'.trades
  unfilled : s'.unfilled = s.unfilled.map S.g
  entry : Option.Rel S.Tr s.events.onTradeEntry s'.events.onTradeEntry
  exit : Option.Rel S.Tr s.events.onTradeExit s'.events.onTradeExit
  metrics : S.M s.metrics s'.metrics

variable {S}

theorem config {s s' : Strategy α} (h : S.St s s') (hc : S.cap' = S.cap) : s'.config = s.config := by
  have h1 := h.onBarClose
  have h2 := h.continous
  have h3 := h.fixed.trans h.fixed'.symm
  have h4 := h.cap.trans (hc.symm.trans h.cap'.symm)
  revert h1 h2 h3 h4
  cases s.config; cases s'.config
  intro h1 h2 h3 h4
  simp only at h1 h2 h3 h4
  rw [h1, h2, h3, h4]

theorem trade_pnl {x x' : Trade α} (h : S.Tr x x') (p : α) : Alike S.P (x.pnl p) (x'.pnl (S.price p)) := by
  unfold Trade.pnl
  rw [h.size, h.size', h.entryPrice, h.direction]
  cases x.entryPrice with
  | none => rfl
  | some ep => exact S.pnl ep p x.direction

theorem forall₂_dropLast {A B : Type} {P : A → B → Prop} : ∀ {l : List A} {l' : List B}, List.Forall₂ P l l' →
    List.Forall₂ P l.dropLast l'.dropLast
  | _, _, .nil => .nil
  | _, _, .cons h .nil => .nil
  | _, _, .cons h (.cons h2 t) => .cons h (forall₂_dropLast (.cons h2 t))

theorem forall₂_getLast? {A B : Type} {P : A → B → Prop} : ∀ {l : List A} {l' : List B}, List.Forall₂ P l l' →
    Option.Rel P l.getLast? l'.getLast?
  | _, _, .nil => .none
  | _, _, .cons h .nil => .some h
  | _, _, .cons h (.cons h2 t) => by
    rw [List.getLast?_cons_cons, List.getLast?_cons_cons]; exact forall₂_getLast? (.cons h2 t)

theorem forall₂_snoc {A B : Type} {P : A → B → Prop} {l : List A} {l' : List B} (h : List.Forall₂ P l l') {a : A} {b : B} (hab : P a b) :
    List.Forall₂ P (l ++ [a]) (l' ++ [b]) := by
  induction h with
  | nil => exact .cons hab .nil
  | cons h1 _ ih => exact .cons h1 ih

theorem closeLast {s s' : Strategy α} (h : S.St s s') {x x' : Trade α} (hx : S.Tr x x') (p : Option α) (n : Nat) :
    Alike S.St (s.closeLast x p n) (s'.closeLast x' (p.map S.price) n) := by
  unfold Strategy.closeLast
  cases p with
  | none => rfl
  | some p =>
    simp only [Option.map_some, unwrap_some, Res.ok_bind]
    have ht : S.Tr { x with exitPrice := some p, exitTick := some n, isClosed := true }
        { x' with exitPrice := some (S.price p), exitTick := some n, isClosed := true } :=
      ⟨hx.direction, rfl, hx.entryTick, hx.entryPrice, rfl, rfl, hx.size, hx.size', hx.pnl⟩
    have hp := trade_pnl ht p
    cases e : Trade.pnl { x with exitPrice := some p, exitTick := some n, isClosed := true } p with
    | error _ =>
      cases e' : Trade.pnl { x' with exitPrice := some (S.price p), exitTick := some n, isClosed := true } (S.price p) with
      | error _ => rw [e, e'] at hp; exact hp
      | ok _ => rw [e, e'] at hp; exact hp.elim
    | ok q =>
      cases e' : Trade.pnl { x' with exitPrice := some (S.price p), exitTick := some n, isClosed := true } (S.price p) with
      | error _ => rw [e, e'] at hp; exact hp.elim
      | ok q' =>
        rw [e, e'] at hp
        have hp : S.P q q' := hp
        have hT : S.Tr { x with exitPrice := some p, exitTick := some n, isClosed := true, pnlField := q }
            { x' with exitPrice := some (S.price p), exitTick := some n, isClosed := true, pnlField := q' } :=
          ⟨hx.direction, rfl, hx.entryTick, hx.entryPrice, rfl, rfl, hx.size, hx.size', hp⟩
        refine ⟨h.onBarClose, h.continous, h.fixed, h.fixed', h.cap, h.cap', forall₂_snoc (forall₂_dropLast h.trades) hT, h.unfilled, h.entry,
          .some hT, ?_⟩
        show S.M (Strategy.closeMetrics s.metrics x.direction q) (Strategy.closeMetrics s'.metrics x'.direction q')
        rw [hx.direction]
        exact S.close _ _ _ _ _ h.metrics hp

theorem openNew {s s' : Strategy α} (h : S.St s s') (dir : TradeDirection) (p : Option α) (n : Nat) :
    Alike S.St (s.openNew dir p n) (s'.openNew (S.g dir) (p.map S.price) n) := by
  unfold Strategy.openNew
  rw [h.fixed, h.fixed']
  have hT : S.Tr { (Trade.new dir : Trade α) with fillSize := some (lit 1), entryPrice := p, entryTick := some n }
      { (Trade.new (S.g dir) : Trade α) with fillSize := some (lit 1), entryPrice := p.map S.price, entryTick := some n } :=
    ⟨rfl, rfl, rfl, rfl, rfl, rfl, rfl, rfl, S.zero⟩
  exact ⟨h.onBarClose, h.continous, h.fixed, h.fixed', h.cap, h.cap', forall₂_snoc h.trades hT, h.unfilled, .some hT, h.exit, h.metrics⟩

theorem fill {s s' : Strategy α} (h : S.St s s') (dir : TradeDirection) (n : Nat) (op cl : Option α) :
    Alike S.St (s.fill dir n op cl) (s'.fill (S.g dir) n (op.map S.price) (cl.map S.price)) := by
  have hp : (if s'.config.onBarClose = true then cl.map S.price else op.map S.price) =
      (if s.config.onBarClose = true then cl else op).map S.price := by
    rw [h.onBarClose]; split <;> rfl
  have fin {s s' : Strategy α} (h : S.St s s') (b : Prop) [Decidable b] (p : Option α) :
      Alike S.St (if b then (do let s ← s.openNew dir p n; Except.ok { s with unfilled := none })
        else Except.ok { s with unfilled := none } : Res (Strategy α))
      (if b then (do let s ← s'.openNew (S.g dir) (p.map S.price) n; Except.ok { s with unfilled := none })
        else Except.ok { s' with unfilled := none }) := by
    have clear {s s' : Strategy α} (h : S.St s s') : S.St { s with unfilled := none } { s' with unfilled := none } :=
      ⟨h.onBarClose, h.continous, h.fixed, h.fixed', h.cap, h.cap', h.trades, rfl, h.entry, h.exit, h.metrics⟩
    by_cases hb : b
    · rw [if_pos hb, if_pos hb]
      have h1 := openNew h dir p n
      cases e : s.openNew dir p n with
      | error _ =>
        cases e' : s'.openNew (S.g dir) (p.map S.price) n with
        | error _ => rw [e, e'] at h1; exact h1
        | ok _ => rw [e, e'] at h1; exact h1.elim
      | ok s2 =>
        cases e' : s'.openNew (S.g dir) (p.map S.price) n with
        | error _ => rw [e, e'] at h1; exact h1.elim
        | ok s2' => rw [e, e'] at h1; exact clear h1
    · rw [if_neg hb, if_neg hb]; exact clear h
  unfold Strategy.fill
  simp only [hp]
  generalize (if s.config.onBarClose = true then cl else op) = p
  have hl := forall₂_getLast? h.trades
  cases e : s.trades.getLast? with
  | none =>
    cases e' : s'.trades.getLast? with
    | some _ => rw [e, e'] at hl; cases hl
    | none => simp only [Res.pure_eq, Res.ok_bind]; exact fin h _ p
  | some x =>
    cases e' : s'.trades.getLast? with
    | none => rw [e, e'] at hl; cases hl
    | some x' =>
      rw [e, e'] at hl
      have hx : S.Tr x x' := by cases hl; assumption
      have e1 : decide (x'.direction = S.g dir) = decide (x.direction = dir) := by rw [hx.direction]; simp only [S.inj]
      simp only [e1, hx.isClosed, h.continous, Res.pure_eq, Res.ok_bind]
      cases hb : (!decide (x.direction = dir) && !x.isClosed) with
      | false => simp only [Bool.false_eq_true, if_false]; exact fin h _ p
      | true =>
        simp only [if_true]
        have h1 := closeLast h hx p n
        cases ec : s.closeLast x p n with
        | error _ =>
          cases ec' : s'.closeLast x' (p.map S.price) n with
          | error _ => rw [ec, ec'] at h1; exact h1
          | ok _ => rw [ec, ec'] at h1; exact h1.elim
        | ok s2 =>
          cases ec' : s'.closeLast x' (p.map S.price) n with
          | error _ => rw [ec, ec'] at h1; exact h1.elim
          | ok s2' =>
            rw [ec, ec'] at h1
            have h1 : S.St s2 s2' := h1
            simp only [Res.ok_bind]
            exact fin h1 _ p

theorem markToMarket {s s' : Strategy α} (h : S.St s s') (cl : Option α) :
    Alike S.St (s.markToMarket cl) (s'.markToMarket (cl.map S.price)) := by
  have fin (q q' : α) (hq : S.P q q') : Alike S.St
      (Except.ok { s with metrics := { s.metrics with openProfit := q, equity := s.config.initialCapital + s.metrics.netProfit + q } } :
        Res (Strategy α))
      (Except.ok { s' with metrics := { s'.metrics with openProfit := q', equity := s'.config.initialCapital + s'.metrics.netProfit + q' } }) := by
    refine ⟨h.onBarClose, h.continous, h.fixed, h.fixed', h.cap, h.cap', h.trades, h.unfilled, h.entry, h.exit, ?_⟩
    have := S.mark _ _ q q' h.metrics hq
    rw [← h.cap, ← h.cap'] at this
    exact this
  unfold Strategy.markToMarket
  have hl := forall₂_getLast? h.trades
  cases e : s.trades.getLast? with
  | none =>
    cases e' : s'.trades.getLast? with
    | some _ => rw [e, e'] at hl; cases hl
    | none => exact fin _ _ (S.openP _ _ h.metrics)
  | some x =>
    cases e' : s'.trades.getLast? with
    | none => rw [e, e'] at hl; cases hl
    | some x' =>
      rw [e, e'] at hl
      have hx : S.Tr x x' := by cases hl; assumption
      simp only [hx.isClosed, Res.pure_eq, Res.ok_bind]
      cases hb : x.isClosed with
      | true => exact fin _ _ (S.openP _ _ h.metrics)
      | false =>
        cases cl with
        | none => rfl
        | some c =>
          simp only [Bool.not_false, if_true, Option.map_some, unwrap_some, Res.ok_bind]
          have h1 := trade_pnl hx c
          cases ec : x.pnl c with
          | error _ =>
            cases ec' : x'.pnl (S.price c) with
            | error _ => rw [ec, ec'] at h1; exact h1
            | ok _ => rw [ec, ec'] at h1; exact h1.elim
          | ok q =>
            cases ec' : x'.pnl (S.price c) with
            | error _ => rw [ec, ec'] at h1; exact h1.elim
            | ok q' => rw [ec, ec'] at h1; exact fin q q' h1

theorem next {s s' : Strategy α} (h : S.St s s') {d d' : DataProvider α} {t : Nat}
    (ho : Ctx.barOpen ⟨d', t⟩ = (Ctx.barOpen ⟨d, t⟩).map (Option.map S.price))
    (hc : Ctx.barClose ⟨d', t⟩ = (Ctx.barClose ⟨d, t⟩).map (Option.map S.price)) (dir : Option TradeDirection) :
    Alike S.St (s.next ⟨d, t⟩ dir) (s'.next ⟨d', t⟩ (dir.map S.g)) := by
  unfold Strategy.next
  simp only [ho, hc]
  cases Ctx.barOpen ⟨d, t⟩ with
  | error e => rfl
  | ok op =>
    cases Ctx.barClose ⟨d, t⟩ with
    | error e => rfl
    | ok cl =>
      simp only [Res.map_ok', Res.ok_bind]
      have order {s s' : Strategy α} (h : S.St s s') : S.St { s with unfilled := dir } { s' with unfilled := dir.map S.g } :=
        ⟨h.onBarClose, h.continous, h.fixed, h.fixed', h.cap, h.cap', h.trades, rfl, h.entry, h.exit, h.metrics⟩
      have quiet {s s' : Strategy α} (h : S.St s s') : S.St { s with events := ⟨none, none⟩ } { s' with events := ⟨none, none⟩ } :=
        ⟨h.onBarClose, h.continous, h.fixed, h.fixed', h.cap, h.cap', h.trades, h.unfilled, .none, .none, h.metrics⟩
      have last {s s' : Strategy α} (h : S.St s s') : Alike S.St (do
            let s := if (!s.config.onBarClose) = true then { s with unfilled := dir } else s
            s.markToMarket cl) (do
            let s := if (!s'.config.onBarClose) = true then { s' with unfilled := dir.map S.g } else s'
            s.markToMarket (cl.map S.price)) := by
        simp only [h.onBarClose]
        cases s.config.onBarClose with
        | true => exact markToMarket h cl
        | false => exact markToMarket (order h) cl
      have mid {s s' : Strategy α} (h : S.St s s') : Alike S.St (do
          let s ← match s.unfilled with
            | some d => s.fill d t op cl
            | none => pure s
          let s := if !s.config.onBarClose then { s with unfilled := dir } else s
          s.markToMarket cl) (do
          let s ← match s'.unfilled with
            | some d => s'.fill d t (op.map S.price) (cl.map S.price)
            | none => pure s'
          let s := if !s.config.onBarClose then { s with unfilled := dir.map S.g } else s
          s.markToMarket (cl.map S.price)) := by
        rw [h.unfilled]
        cases s.unfilled with
        | none => exact last h
        | some dd =>
          simp only [Option.map_some]
          have h1 := fill h dd t op cl
          cases ec : s.fill dd t op cl with
          | error _ =>
            cases ec' : s'.fill (S.g dd) t (op.map S.price) (cl.map S.price) with
            | error _ => rw [ec, ec'] at h1; exact h1
            | ok _ => rw [ec, ec'] at h1; exact h1.elim
          | ok s2 =>
            cases ec' : s'.fill (S.g dd) t (op.map S.price) (cl.map S.price) with
            | error _ => rw [ec, ec'] at h1; exact h1.elim
            | ok s2' => rw [ec, ec'] at h1; exact last h1
      simp only [h.onBarClose]
      cases hb : s.config.onBarClose with
      | true => exact mid (quiet (order h))
      | false => exact mid (quiet h)

/-- Corresponding runs. -/
theorem runs {cfg cfg' : StrategyConfig α} (h : S.St (Strategy.new cfg) (Strategy.new cfg')) {d d' : DataProvider α}
    (ho : ∀ t, Ctx.barOpen ⟨d', t⟩ = (Ctx.barOpen ⟨d, t⟩).map (Option.map S.price))
    (hc : ∀ t, Ctx.barClose ⟨d', t⟩ = (Ctx.barClose ⟨d, t⟩).map (Option.map S.price)) {Q : Strategy α → Strategy α → Prop}
    (hQ : ∀ t s s' dir s1 s1', S.St s s' → s.next ⟨d, t⟩ dir = .ok s1 → s'.next ⟨d', t⟩ (dir.map S.g) = .ok s1' → S.St s1 s1' → Q s1 s1')
    (sig : Nat → Option TradeDirection) (N : Nat) :
    Alike (List.Forall₂ Q) (outputs (fun t s dir => do let s ← Strategy.next ⟨d, t⟩ s dir; return (s, s)) sig N (.ok (Strategy.new cfg)))
      (outputs (fun t s dir => do let s ← Strategy.next ⟨d', t⟩ s dir; return (s, s)) (fun t => (sig t).map S.g) N
        (.ok (Strategy.new cfg'))) := by
  refine outputs_alike S.St Q sig _ (fun t s s' hs => ?_) N h
  have h1 := next hs (ho t) (hc t) (sig t)
  cases ec : s.next ⟨d, t⟩ (sig t) with
  | error _ =>
    cases ec' : s'.next ⟨d', t⟩ ((sig t).map S.g) with
    | error _ => rw [ec, ec'] at h1; exact h1
    | ok _ => rw [ec, ec'] at h1; exact h1.elim
  | ok s2 =>
    cases ec' : s'.next ⟨d', t⟩ ((sig t).map S.g) with
    | error _ => rw [ec, ec'] at h1; exact h1.elim
    | ok s2' =>
      rw [ec, ec'] at h1
      exact ⟨hQ t s s' _ _ _ hs ec ec' h1, h1⟩

end Sim
end Pace
