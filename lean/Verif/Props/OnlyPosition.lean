import Verif.Props.Position
import Verif.Spec.Metrics
import Verif.Lemmas.Metrics

/-!
# A backtest sees its signals only through the position they produce (C88)

Any arithmetic, any data, any configuration.
-/

set_option linter.unusedSectionVars false

namespace Pace
open Spec

namespace Spec
variable {α : Type}

/-- Two runners that show a user the same thing: the same settings, trades, statistics and events. Only the order that is waiting for
the next bar may differ. -/
structure SameView (s s' : Strategy α) : Prop where
  config : s.config = s'.config
  trades : s.trades = s'.trades
  metrics : s.metrics = s'.metrics
  events : s.events = s'.events

/-- The most recent direction among the signals of the ticks `0, ..., n-1`. -/
def latest (sig : Nat → Option TradeDirection) : Nat → Option TradeDirection
  | 0 => none
  | n + 1 => match sig n with
    | some dir => some dir
    | none => latest sig n

/-- The signals without those that repeat the most recent direction. -/
def changes (sig : Nat → Option TradeDirection) (t : Nat) : Option TradeDirection :=
  if sig t = latest sig t then none else sig t

end Spec

section any
variable {α : Type} [F64 α] {cfg : StrategyConfig α} {d : DataProvider α} {sig sig' : Nat → Option TradeDirection} {N : Nat}
  {st : Nat → Strategy α}

/-- The direction of a ledger. -/
private def facing (L : Ledger α) : Option TradeDirection := L.opened.map Holding.dir

private theorem held_facing {n : Nat} (h : held cfg sig n = held cfg sig' n) :
    facing (ledger cfg d sig n) = facing (ledger cfg d sig' n) := by
  rw [ledger_held cfg d, ledger_held cfg d] at h
  unfold facing
  cases h1 : (ledger cfg d sig n).opened with
  | none =>
    cases h2 : (ledger cfg d sig' n).opened with
    | none => rfl
    | some y => rw [h1, h2] at h; exact absurd h.symm (side_ne_zero _)
  | some x =>
    cases h2 : (ledger cfg d sig' n).opened with
    | none => rw [h1, h2] at h; exact absurd h (side_ne_zero _)
    | some y => rw [h1, h2] at h; simp [side_inj.mp h]

/-- Two orders that lead to the same direction do the same. -/
private theorem tick_congr {L : Ledger α} {t : Nat} {p : α} {o o' : Option TradeDirection}
    (h : facing (L.tick cfg t p o) = facing (L.tick cfg t p o')) :
    L.tick cfg t p o = L.tick cfg t p o' ∧ tickEvents cfg L t p o = tickEvents cfg L t p o' ∧
      ((∃ dir, o = some dir ∧ fills L dir) ↔ ∃ dir, o' = some dir ∧ fills L dir) := by
  obtain ⟨l, x⟩ := L
  rcases x with _ | ⟨dx, k, p0, sz⟩
  · rcases o with _ | a <;> rcases o' with _ | b
    · exact ⟨rfl, rfl, Iff.rfl⟩
    · simp [facing, Ledger.tick, Ledger.enter] at h
    · simp [facing, Ledger.tick, Ledger.enter] at h
    · have : a = b := by simpa [facing, Ledger.tick, Ledger.enter] using h
      subst this
      exact ⟨rfl, rfl, Iff.rfl⟩
  · rcases o with _ | a <;> rcases o' with _ | b
    · exact ⟨rfl, rfl, Iff.rfl⟩
    · by_cases hb : b = dx
      · subst hb; simp [Ledger.tick, tickEvents, fills]
      · cases hc : cfg.continous <;> simp [facing, Ledger.tick, Ledger.enter, hb, hc] at h
        exact absurd h.symm hb
    · by_cases hb : a = dx
      · subst hb; simp [Ledger.tick, tickEvents, fills]
      · cases hc : cfg.continous <;> simp [facing, Ledger.tick, Ledger.enter, hb, hc] at h
    · by_cases hab : a = b
      · subst hab; exact ⟨rfl, rfl, Iff.rfl⟩
      · exfalso
        by_cases hb : b = dx
        · subst hb
          cases hc : cfg.continous <;> simp [facing, Ledger.tick, Ledger.enter, hab, hc] at h
        · have ha : a = dx := by cases a <;> cases b <;> cases dx <;> simp_all
          subst ha
          cases hc : cfg.continous <;> simp [facing, Ledger.tick, Ledger.enter, hb, hc] at h
          exact hab h

private theorem ledger_congr {n : Nat} (hp : ∀ k, k ≤ n → held cfg sig k = held cfg sig' k) :
    ledger cfg d sig n = ledger cfg d sig' n := by
  induction n with
  | zero => rfl
  | succ n ih =>
    have e := ih fun k hk => hp k (by omega)
    have f := held_facing (d := d) (hp (n + 1) le_rfl)
    rw [ledger, ledger, ← e] at f ⊢
    exact (tick_congr f).1

/-- **C88.** The position is all that matters. If other signals lead to the same position after every tick, the run with the other
signals succeeds as well, and after every tick it shows the same trades, the same statistics and the same events. In both modes, with
both fill prices, and however trades are sized. -/
theorem C88_same_position (H : Backtest cfg d sig N st) (hp : ∀ n, n ≤ N → held cfg sig n = held cfg sig' n) :
    ∃ st', Backtest cfg d sig' N st' ∧ ∀ t, t < N → SameView (st t) (st' t) := by
  have hL : ∀ n, n ≤ N → ledger cfg d sig n = ledger cfg d sig' n := fun n hn => ledger_congr fun k hk => hp k (by omega)
  have hT : ∀ t, t < N → _ := fun t (ht : t < N) =>
    tick_congr (cfg := cfg) (L := ledger cfg d sig t) (t := t) (p := fillPrice cfg d t) (o := order cfg sig t) (o' := order cfg sig' t) (by
      have := held_facing (d := d) (hp (t + 1) ht)
      rw [ledger, ledger, ← hL t ht.le] at this
      exact this)
  have hex : ∃ st', Backtest cfg d sig' N st' := by
    refine C57_strategy.mpr fun t ht => ?_
    obtain ⟨op, cl, h1, h2, h3, h4⟩ := C57_strategy.mp ⟨st, H⟩ t ht
    refine ⟨op, cl, h1, h2, fun dir hd hf => ?_, by rw [← hL (t + 1) ht]; exact h4⟩
    rw [← hL t ht.le] at hf
    obtain ⟨dir', e1, e2⟩ := (hT t ht).2.2.mpr ⟨dir, hd, hf⟩
    exact h3 dir' e1 e2
  obtain ⟨st', H'⟩ := hex
  refine ⟨st', H', fun t ht => ?_⟩
  have a := backtest_done H t ht
  have b := backtest_done H' t ht
  obtain ⟨a1, a2, a3, a4, a5, a6⟩ := a
  obtain ⟨b1, b2, b3, b4, b5, b6⟩ := b
  rw [← hL t ht.le] at b1 b3 b4
  rw [← (hT t ht).1] at b1 b4
  rw [← (hT t ht).2.1] at b3
  have hop : (st t).metrics.openProfit = (st' t).metrics.openProfit := by
    cases hx : ((ledger cfg d sig t).tick cfg t (fillPrice cfg d t) (order cfg sig t)).opened with
    | none => rw [a1.flat hx, b1.flat hx]
    | some x =>
      obtain ⟨c, hc, e⟩ := a4 x hx
      obtain ⟨c', hc', e'⟩ := b4 x hx
      rw [hc] at hc'
      cases hc'
      rw [e, e']
  have hnp : (st t).metrics.netProfit = (st' t).metrics.netProfit := by rw [a1.metrics, b1.metrics]
  refine ⟨a1.config.trans b1.config.symm, a1.trades.trans b1.trades.symm, ?_, a3.trans b3.symm⟩
  rw [a1.metrics, b1.metrics, a5, b5, hnp, hop]

/-- In continuous mode the position is the most recent direction ordered. -/
private theorem held_latest (hc : cfg.continous = true) (n : Nat) :
    held cfg sig n = match latest (order cfg sig) n with | none => 0 | some dir => side dir := by
  induction n with
  | zero => rfl
  | succ n ih =>
    rw [held, ih, latest]
    cases order cfg sig n with
    | none => rfl
    | some dir =>
      cases latest (order cfg sig) n with
      | none => simp [moved]
      | some was =>
        simp only [moved, side_ne_zero, if_false, hc, if_true]
        split
        · assumption
        · rfl

private theorem latest_open (hc : cfg.onBarClose = false) (n : Nat) : latest (order cfg sig) (n + 1) = latest sig n := by
  induction n with
  | zero => simp [latest, order, hc]
  | succ n ih =>
    rw [latest, ih, latest]
    simp [order, hc]

private theorem order_close (hc : cfg.onBarClose = true) : order cfg sig = sig := by
  funext t
  simp [order, hc]

/-- **C88.** In continuous mode the position after a tick is the most recent signal that could be filled: long or short since the first
signal, whatever came before it. -/
theorem C88_continuous (hc : cfg.continous = true) (n : Nat) :
    held cfg sig (n + 1) = match latest sig (if cfg.onBarClose then n + 1 else n) with | none => 0 | some dir => side dir := by
  rw [held_latest hc]
  cases hb : cfg.onBarClose with
  | true => rw [order_close hb]; simp
  | false => rw [latest_open hb]; simp

/-- **C88.** So in continuous mode signals that always have the same most recent direction are interchangeable. -/
theorem C88_latest (H : Backtest cfg d sig N st) (hc : cfg.continous = true)
    (hs : ∀ n, n ≤ N → latest sig n = latest sig' n) :
    ∃ st', Backtest cfg d sig' N st' ∧ ∀ t, t < N → SameView (st t) (st' t) := by
  refine C88_same_position H fun n hn => ?_
  rcases n with _ | n
  · rfl
  · rw [C88_continuous hc, C88_continuous hc, hs _ (by split <;> omega)]

private theorem latest_changes (n : Nat) : latest (changes sig) n = latest sig n := by
  induction n with
  | zero => rfl
  | succ n ih =>
    rw [latest, ih, latest, changes]
    by_cases h : sig n = latest sig n
    · rw [if_pos h, h]
      cases latest sig n <;> rfl
    · rw [if_neg h]

/-- **C88.** In continuous mode a signal that repeats the most recent direction does nothing: the run without the repeated signals
shows the same trades, statistics and events after every tick. -/
theorem C88_repeats (H : Backtest cfg d sig N st) (hc : cfg.continous = true) :
    ∃ st', Backtest cfg d (changes sig) N st' ∧ ∀ t, t < N → SameView (st t) (st' t) :=
  C88_latest H hc fun n _ => (latest_changes n).symm

/-- **C88.** Nor do the reports tell them apart: a report on a run is a report on any run with the same trades, statistics and events. -/
theorem C88_reports {st' : Nat → Strategy α} (hs : ∀ t, t < N → SameView (st t) (st' t)) :
    (∀ cap em, EquityRun d cap st N em → EquityRun d cap st' N em) ∧
    (∀ rfr tv, TvRun d cfg rfr st N tv → TvRun d cfg rfr st' N tv) ∧
    (∀ est sy year co, CobraRun d cfg est sy year st N co → CobraRun d cfg est sy year st' N co) := by
  have eq : ∀ (c : Ctx α) (s : EquityMetrics α) (x x' : Strategy α), SameView x x' →
      EquityMetrics.next c s x = EquityMetrics.next c s x' := by
    rintro c s ⟨_, _, _, _, _⟩ ⟨_, _, _, _, _⟩ ⟨h1, h2, h3, h4⟩
    cases h1; cases h2; cases h3; cases h4; rfl
  have et : ∀ (c : Ctx α) (s : TvMetrics α) (x x' : Strategy α), SameView x x' →
      TvMetrics.next c s x = TvMetrics.next c s x' := by
    rintro c s ⟨_, _, _, _, _⟩ ⟨_, _, _, _, _⟩ ⟨h1, h2, h3, h4⟩
    cases h1; cases h2; cases h3; cases h4; rfl
  have ec : ∀ (c : Ctx α) (y : Option Int) (s : CobraMetrics α) (x x' : Strategy α), SameView x x' →
      CobraMetrics.next c y s x = CobraMetrics.next c y s x' := by
    rintro c y s ⟨_, _, _, _, _⟩ ⟨_, _, _, _, _⟩ ⟨h1, h2, h3, h4⟩
    cases h1; cases h2; cases h3; cases h4; rfl
  refine ⟨fun cap em h => ?_, fun rfr tv h => ?_, fun est sy year co h => ?_⟩
  · exact selfRun_of_step (next := fun t s x => EquityMetrics.next ⟨d, t⟩ s x) fun t ht => by
      rw [← eq _ _ _ _ (hs t ht)]; exact selfRun_step (next := fun t s x => EquityMetrics.next ⟨d, t⟩ s x) h t ht
  · exact selfRun_of_step (next := fun t s x => TvMetrics.next ⟨d, t⟩ s x) fun t ht => by
      rw [← et _ _ _ _ (hs t ht)]; exact selfRun_step (next := fun t s x => TvMetrics.next ⟨d, t⟩ s x) h t ht
  · exact selfRun_of_step (next := fun t s x => CobraMetrics.next ⟨d, t⟩ (year t) s x) fun t ht => by
      rw [← ec _ _ _ _ _ (hs t ht)]; exact selfRun_step (next := fun t s x => CobraMetrics.next ⟨d, t⟩ (year t) s x) h t ht

end any

/-- **C88.** Outside continuous mode a repeated signal matters: after `long, short` the position is closed, and the second `short` of
`long, short, short` opens a new one. On any three bars the run with the three signals has two trades and the run without the repetition
has one. -/
theorem C88_close_only {α : Type} [F64 α] {cfg : StrategyConfig α} {d : DataProvider α} {N : Nat} {st st' : Nat → Strategy α}
    (hc : cfg.continous = false) (hb : cfg.onBarClose = true) {sig : Nat → Option TradeDirection} (h0 : sig 0 = some .long)
    (h1 : sig 1 = some .short) (h2 : sig 2 = some .short) (H : Backtest cfg d sig N st) (H' : Backtest cfg d (changes sig) N st')
    (hN : 2 < N) : (st 2).trades.length = 2 ∧ (st' 2).trades.length = 1 := by
  rw [C39_refines H hN, C39_refines H' hN]
  constructor <;> simp [ledger, order, hb, hc, h0, h1, h2, changes, latest, Ledger.tick, Ledger.enter]

end Pace
