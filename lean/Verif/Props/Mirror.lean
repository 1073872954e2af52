import Verif.Lemmas.Sim
import Verif.Lemmas.NonNeg
import Verif.Props.Causal
import Verif.Props.Strategy2
import Verif.Float.Binary64
import Verif.Spec.Metrics
import Verif.Lemmas.Trace

/-!
# Long and short are treated alike (C72); the capital only shifts the equity (C73)
-/

set_option linter.unusedSectionVars false

namespace Pace
open Spec

/-! ## Signs in floating point -/

section
variable {K : Type} [Field K] [LinearOrder K] [IsStrictOrderedRing K] {R : Rounding K}

theorem ext_neg_neg (e : Ext K) : e.neg.neg = e := by cases e <;> simp [Ext.neg]

theorem fl_neg_neg (a : Fl R) : - -a = a := ext_neg_neg a

theorem fl_neg_add (L : R.Lawful) (a b : Fl R) : -a + -b = -(a + b) := by
  show Fl.add R (Ext.neg a) (Ext.neg b) = Ext.neg (Fl.add R a b)
  cases a <;> cases b <;> simp only [Ext.neg, Fl.add]
  rw [← neg_add, L.odd]; rfl

theorem fl_sub_eq (a b : Fl R) : a - b = a + -b := rfl

theorem fl_neg_sub_neg (L : R.Lawful) (a b : Fl R) : -a - -b = -(a - b) := by
  rw [fl_sub_eq, fl_sub_eq, fl_neg_add L]

theorem signInf_neg (k : K) : Fl.signInf (-k) = (Fl.signInf k).neg := by
  unfold Fl.signInf
  rcases lt_trichotomy k 0 with h | h | h
  · rw [if_pos (by linarith), if_neg (by linarith), if_pos h]; rfl
  · subst h; simp [Ext.neg]
  · rw [if_neg (by linarith), if_pos (by linarith), if_pos h]; rfl

theorem fl_mul_neg (L : R.Lawful) (a b : Fl R) : a * -b = -(a * b) := by
  have h1 : ∀ k : K, (Ext.fin k).neg = .fin (-k) := fun _ => rfl
  have h2 : (Ext.pinf : Ext K).neg = .ninf := rfl
  have h3 : (Ext.ninf : Ext K).neg = .pinf := rfl
  have h4 : (Ext.nan : Ext K).neg = .nan := rfl
  show Fl.mul R a (Ext.neg b) = Ext.neg (Fl.mul R a b)
  cases a <;> cases b <;> simp only [h1, h2, h3, h4, Fl.mul, signInf_neg, ext_neg_neg, mul_neg, L.odd]

theorem fl_neg_mul (L : R.Lawful) (a b : Fl R) : -a * b = -(a * b) := by
  have h1 : -a * b = b * -a := fl_mul_comm (R := R) (Ext.neg a) b
  have h2 : a * b = b * a := fl_mul_comm (R := R) a b
  rw [h1, h2, fl_mul_neg L]

theorem fl_lt_neg (a b : Fl R) : F64.lt (-a) (-b) = F64.lt b a := by
  show Ext.lt (Ext.neg a) (Ext.neg b) = Ext.lt b a
  cases a <;> cases b <;> simp [Ext.neg, Ext.lt]

theorem fl_neg_zero (L : R.Lawful) : -(lit 0 : Fl R) = lit 0 := by
  rw [lit_zero L]
  show Ext.fin (-(0 : K)) = Ext.fin 0
  rw [neg_zero]

theorem fl_abs_neg (a : Fl R) : F64.abs (-a) = F64.abs a := by
  show Fl.abs (Ext.neg a) = Fl.abs a
  cases a <;> simp [Ext.neg, Fl.abs]

theorem fl_abs_pos (L : R.Lawful) {a : Fl R} (h : F64.lt (lit 0) a = true) : F64.abs a = a := by
  rw [lit_zero L] at h
  have h : Ext.lt (Ext.fin 0) a = true := h
  show Fl.abs a = a
  cases a <;> simp [Ext.lt, Fl.abs] at h ⊢
  exact h.le

end

/-! ## Runs -/

section
variable {α : Type} [F64 α]

theorem markToMarket_equity {s s1 : Strategy α} {cl : Option α} (h : s.markToMarket cl = .ok s1) :
    s1.metrics.equity = s1.config.initialCapital + s1.metrics.netProfit + s1.metrics.openProfit := by
  unfold Strategy.markToMarket at h
  cases ht : s.trades.getLast? with
  | none => rw [ht] at h; cases h; rfl
  | some x =>
    rw [ht] at h
    cases hx : x.isClosed with
    | true => simp only [hx] at h; cases h; rfl
    | false =>
      simp only [hx, Bool.not_false, if_true] at h
      cases cl with
      | none => cases h
      | some c =>
        simp only [unwrap_some, Res.ok_bind] at h
        cases hq : x.pnl c with
        | error e => rw [hq] at h; cases h
        | ok q => rw [hq] at h; cases h; rfl

theorem next_equity {s s1 : Strategy α} {c : Ctx α} {dir : Option TradeDirection} (h : s.next c dir = .ok s1) :
    s1.metrics.equity = s1.config.initialCapital + s1.metrics.netProfit + s1.metrics.openProfit := by
  unfold Strategy.next at h
  cases ho : c.barOpen with
  | error e => simp [ho] at h
  | ok op =>
    cases hc : c.barClose with
    | error e => simp [ho, hc] at h
    | ok cl =>
      simp only [ho, hc, Res.ok_bind] at h
      have mid {s : Strategy α} (h : (do
          let s ← match s.unfilled with
            | some d => s.fill d c.index op cl
            | none => pure s
          let s := if !s.config.onBarClose then { s with unfilled := dir } else s
          s.markToMarket cl) = .ok s1) :
          s1.metrics.equity = s1.config.initialCapital + s1.metrics.netProfit + s1.metrics.openProfit := by
        cases hu : s.unfilled with
        | none => rw [hu] at h; exact markToMarket_equity h
        | some dd =>
          rw [hu] at h
          simp only [] at h
          cases hf : s.fill dd c.index op cl with
          | error e => rw [hf] at h; cases h
          | ok s2 => rw [hf] at h; exact markToMarket_equity h
      cases hb : s.config.onBarClose with
      | true => simp only [hb, if_true] at h; exact mid (s := { s with unfilled := dir, events := ⟨none, none⟩ }) h
      | false => simp only [hb] at h; exact mid (s := { s with events := ⟨none, none⟩ }) h

/-- From a comparison of runs to the comparison of their states. -/
theorem Spec.Alike.backtest {cfg cfg' : StrategyConfig α} {d d' : DataProvider α} {sig sig' : Nat → Option TradeDirection} {N : Nat}
    {st : Nat → Strategy α} {Q : Strategy α → Strategy α → Prop}
    (h : Alike (List.Forall₂ Q) (outputs (fun t => runner ⟨d, t⟩) sig N (.ok (Strategy.new cfg)))
      (outputs (fun t => runner ⟨d', t⟩) sig' N (.ok (Strategy.new cfg')))) (hr : Backtest cfg d sig N st) :
    ∃ st' : Nat → Strategy α, Backtest cfg' d' sig' N st' ∧ ∀ t, t < N → Q (st t) (st' t) := by
  have hr' : outputs (fun t => runner ⟨d, t⟩) sig N (.ok (Strategy.new cfg)) = .ok ((List.range N).map st) := hr
  rw [hr'] at h
  cases e : outputs (fun t => runner ⟨d', t⟩) sig' N (.ok (Strategy.new cfg')) with
  | error _ => rw [e] at h; exact h.elim
  | ok l =>
    rw [e] at h
    have h : List.Forall₂ Q ((List.range N).map st) l := h
    have hl : N = l.length := by have := h.length_eq; simpa using this
    refine ⟨fun t => l.getD t (st t), ?_, fun t ht => ?_⟩
    · show outputs (fun t => runner ⟨d', t⟩) sig' N (.ok (Strategy.new cfg')) = .ok ((List.range N).map fun t => l.getD t (st t))
      rw [e]
      congr 1
      apply List.ext_getElem (by simp [hl])
      intro i h1 h2
      simp [h1]
    · have := h.get (i := t) (by simpa using ht) (by omega)
      have hlt : t < l.length := by omega
      simpa [hlt] using this

end

/-! ## C72 -/

section
variable {K : Type} [Field K] [LinearOrder K] [IsStrictOrderedRing K] {R : Rounding K} {α : Type} [F64 α]

theorem opposite_inj (a b : TradeDirection) : opposite a = opposite b ↔ a = b := by cases a <;> cases b <;> simp [opposite]

/-- Negated profits, same prices. -/
private def oppositeSim (V : Valued R α) (L : R.Lawful) (cap : α) : Sim α where
  g := opposite
  inj := opposite_inj
  price := id
  P q q' := V.val q' = -V.val q
  M m m' := V.val m'.netProfit = -V.val m.netProfit ∧ V.val m'.openProfit = -V.val m.openProfit ∧ V.val m'.grossProfit = V.val m.grossLoss ∧
    V.val m'.grossLoss = V.val m.grossProfit ∧ m'.closedTrades = m.closedTrades ∧ m'.winningTrades = m.losingTrades ∧
    m'.losingTrades = m.winningTrades ∧ V.val m'.longNetProfit = -V.val m.shortNetProfit ∧ V.val m'.shortNetProfit = -V.val m.longNetProfit
  cap := cap
  cap' := cap
  zero := by rw [V.lit, fl_neg_zero L]
  pnl ep cp dir := by
    unfold tradePnl
    cases dir <;> simp [opposite, V.mul, V.neg, fl_mul_neg L, fl_neg_neg]
  close m m' dir q q' h hq := by
    obtain ⟨h1, h2, h3, h4, h5, h6, h7, h8, h9⟩ := h
    have e1 : F64.lt (lit 0) q' = F64.lt q (lit 0) := by
      rw [V.lt, V.lt, hq, V.lit, ← fl_lt_neg, fl_neg_neg, fl_neg_zero L]
    have e2 : F64.lt q' (lit 0) = F64.lt (lit 0) q := by
      rw [V.lt, V.lt, hq, V.lit, ← fl_lt_neg, fl_neg_neg, fl_neg_zero L]
    unfold Strategy.closeMetrics fgt
    simp only [e1, e2]
    by_cases hp : F64.lt (lit 0) q = true
    · have hn : ¬ F64.lt q (lit 0) = true := by
        intro hn
        rw [V.lt, V.lit, lit_zero L] at hp hn
        have hp : Ext.lt (Ext.fin 0) (V.val q) = true := hp
        have hn : Ext.lt (V.val q) (Ext.fin 0) = true := hn
        revert hp hn
        generalize V.val q = v
        cases v <;> simp [Ext.lt]
        exact fun h => h.le
      have ha : F64.abs (V.val q) = V.val q := fl_abs_pos L (by rw [V.lt, V.lit] at hp; exact hp)
      simp only [hp, hn, if_true, if_false]
      cases dir <;> simp [opposite, V.add, V.abs, h1, h2, h3, h4, h5, h6, h7, h8, h9, hq, fl_neg_add L, V.lit, fl_neg_zero L, fl_abs_neg, ha]
    · by_cases hn : F64.lt q (lit 0) = true
      · have ha : F64.abs (V.val q) = -V.val q := by
          rw [← fl_abs_neg, fl_abs_pos L]
          rw [V.lt, V.lit, ← fl_lt_neg, fl_neg_zero L] at hn
          exact hn
        simp only [hp, hn, if_true, if_false]
        cases dir <;> simp [opposite, V.add, V.abs, h1, h2, h3, h4, h5, h6, h7, h8, h9, hq, fl_neg_add L, V.lit, fl_neg_zero L, ha]
      · simp only [hp, hn, if_false]
        cases dir <;> simp [opposite, V.add, h1, h2, h3, h4, h5, h6, h7, h8, h9, hq, fl_neg_add L, V.lit, fl_neg_zero L]
  openP m m' h := h.2.1
  mark m m' q q' h hq := by
    obtain ⟨h1, h2, h3, h4, h5, h6, h7, h8, h9⟩ := h
    exact ⟨h1, hq, h3, h4, h5, h6, h7, h8, h9⟩

/-- Same profits, mirrored prices. -/
private def mirrorSim (V : Valued R α) (L : R.Lawful) (cap : α) : Sim α where
  g := opposite
  inj := opposite_inj
  price := Neg.neg
  P q q' := V.val q' = V.val q
  M m m' := V.val m'.netProfit = V.val m.netProfit ∧ V.val m'.openProfit = V.val m.openProfit ∧ V.val m'.grossProfit = V.val m.grossProfit ∧
    V.val m'.grossLoss = V.val m.grossLoss ∧ m'.closedTrades = m.closedTrades ∧ m'.winningTrades = m.winningTrades ∧
    m'.losingTrades = m.losingTrades ∧ V.val m'.longNetProfit = V.val m.shortNetProfit ∧ V.val m'.shortNetProfit = V.val m.longNetProfit ∧
    V.val m'.equity = V.val m.equity
  cap := cap
  cap' := cap
  zero := rfl
  pnl ep cp dir := by
    unfold tradePnl
    cases dir <;> simp [opposite, V.mul, V.neg, V.sub, fl_neg_sub_neg L, fl_mul_neg L, fl_neg_mul L, fl_neg_neg]
  close m m' dir q q' h hq := by
    obtain ⟨h1, h2, h3, h4, h5, h6, h7, h8, h9, h10⟩ := h
    have e1 : F64.lt (lit 0) q' = F64.lt (lit 0) q := by rw [V.lt, V.lt, hq]
    have e2 : F64.lt q' (lit 0) = F64.lt q (lit 0) := by rw [V.lt, V.lt, hq]
    unfold Strategy.closeMetrics fgt
    simp only [e1, e2]
    by_cases hp : F64.lt (lit 0) q = true
    · simp only [hp, if_true]
      cases dir <;> simp [opposite, V.add, h1, h3, h4, h5, h6, h7, h8, h9, h10, hq, V.lit]
    · by_cases hn : F64.lt q (lit 0) = true
      · simp only [hp, hn, if_true, if_false]
        cases dir <;> simp [opposite, V.add, V.abs, h1, h3, h4, h5, h6, h7, h8, h9, h10, hq, V.lit]
      · simp only [hp, hn, if_false]
        cases dir <;> simp [opposite, V.add, h1, h3, h4, h5, h6, h7, h8, h9, h10, hq, V.lit]
  openP m m' h := h.2.1
  mark m m' q q' h hq := by
    obtain ⟨h1, h2, h3, h4, h5, h6, h7, h8, h9, h10⟩ := h
    exact ⟨h1, hq, h3, h4, h5, h6, h7, h8, h9, by simp only [V.add, h1, hq]⟩

/-- **C72.** A strategy that trades one unit, given the opposite signals on the same bars, panics on exactly the same tick; otherwise
after every tick it holds the opposite trades, and what it wins is exactly what the original strategy loses: same ticks and prices,
negated net and open profit, gross profit and gross loss exchanged, winners and losers exchanged.  Rounding included: the claim holds
with every lawful rounding, up to the sign of zero. -/
theorem C72_opposite (V : Valued R α) (L : R.Lawful) (cfg : StrategyConfig α) (hf : cfg.buyWithEquity = false) (d : DataProvider α)
    (sig : Nat → Option TradeDirection) (N : Nat) :
    Alike (List.Forall₂ (OppositeBooks V)) (outputs (fun t => runner ⟨d, t⟩) sig N (.ok (Strategy.new cfg)))
      (outputs (fun t => runner ⟨d, t⟩) (fun t => (sig t).map opposite) N (.ok (Strategy.new cfg))) := by
  have h0 : (oppositeSim V L cfg.initialCapital).St (Strategy.new cfg) (Strategy.new cfg) := by
    refine ⟨rfl, rfl, hf, hf, rfl, rfl, .nil, rfl, .none, .none, ?_⟩
    simp [oppositeSim, Strategy.new, StrategyMetrics.default, V.lit, fl_neg_zero L]
  have hid (r : Res (Option α)) : r.map (Option.map id) = r := by cases r <;> simp
  have htr {x x' : Trade α} (h : (oppositeSim V L cfg.initialCapital).Tr x x') : OppositeTrade V x x' :=
    ⟨h.direction, h.isClosed, h.entryTick, by rw [h.entryPrice]; exact Option.map_id_apply, h.exitTick,
      by rw [h.exitPrice]; exact Option.map_id_apply, by rw [h.size, h.size'], h.pnl⟩
  have hopt {a b : Option (Trade α)} (h : Option.Rel (oppositeSim V L cfg.initialCapital).Tr a b) : Option.Rel (OppositeTrade V) a b := by
    cases h with
    | none => exact .none
    | some h => exact .some (htr h)
  refine Sim.runs h0 (fun t => (hid _).symm) (fun t => (hid _).symm) (fun t s s' dir s1 s1' hs e e' h => ?_) sig N
  obtain ⟨m1, m2, m3, m4, m5, m6, m7, m8, m9⟩ := h.metrics
  refine ⟨Sim.config h rfl, h.trades.imp fun _ _ => htr, h.unfilled, hopt h.entry, hopt h.exit, m1, m2, m3, m4, m5, m6, m7, m8, m9, ?_⟩
  rw [next_equity e', V.add, V.add, h.cap', h.cap, m1, m2]
  rfl

/-- **C72.** The same for a run that does not panic. -/
theorem C72_opposite_backtest (V : Valued R α) (L : R.Lawful) {cfg : StrategyConfig α} (hf : cfg.buyWithEquity = false) {d : DataProvider α}
    {sig : Nat → Option TradeDirection} {N : Nat} {st : Nat → Strategy α} (hr : Backtest cfg d sig N st) :
    ∃ st' : Nat → Strategy α, Backtest cfg d (fun t => (sig t).map opposite) N st' ∧ ∀ t, t < N → OppositeBooks V (st t) (st' t) :=
  (C72_opposite V L cfg hf d sig N).backtest hr

/-- **C72.** A strategy that trades one unit, given the opposite signals on the mirrored bars, panics on exactly the same tick; otherwise
after every tick its trades are the mirrored trades and all its money is the same. -/
theorem C72_mirror (V : Valued R α) (L : R.Lawful) (cfg : StrategyConfig α) (hf : cfg.buyWithEquity = false) (d : DataProvider α)
    (sig : Nat → Option TradeDirection) (N : Nat) :
    Alike (List.Forall₂ (MirroredBooks V)) (outputs (fun t => runner ⟨d, t⟩) sig N (.ok (Strategy.new cfg)))
      (outputs (fun t => runner ⟨d.mirror, t⟩) (fun t => (sig t).map opposite) N (.ok (Strategy.new cfg))) := by
  have h0 : (mirrorSim V L cfg.initialCapital).St (Strategy.new cfg) (Strategy.new cfg) := by
    refine ⟨rfl, rfl, hf, hf, rfl, rfl, .nil, rfl, .none, .none, ?_⟩
    simp [mirrorSim]
    simp [Strategy.new, StrategyMetrics.default]
  have htr {x x' : Trade α} (h : (mirrorSim V L cfg.initialCapital).Tr x x') : MirroredTrade V x x' :=
    ⟨h.direction, h.isClosed, h.entryTick, h.entryPrice, h.exitTick, h.exitPrice, by rw [h.size, h.size'], h.pnl⟩
  have hopt {a b : Option (Trade α)} (h : Option.Rel (mirrorSim V L cfg.initialCapital).Tr a b) : Option.Rel (MirroredTrade V) a b := by
    cases h with
    | none => exact .none
    | some h => exact .some (htr h)
  refine Sim.runs (d := d) (d' := d.mirror) h0 (fun t => index_map _ d.open_ t) (fun t => index_map _ d.close t) (fun t s s' dir s1 s1' hs e e' h => ?_) sig N
  obtain ⟨m1, m2, m3, m4, m5, m6, m7, m8, m9, m10⟩ := h.metrics
  exact ⟨Sim.config h rfl, h.trades.imp fun _ _ => htr, h.unfilled, hopt h.entry, hopt h.exit, m10, m1, m2, m3, m4, m5, m6, m7, m8, m9⟩

/-- **C72.** The same for a run that does not panic. -/
theorem C72_mirror_backtest (V : Valued R α) (L : R.Lawful) {cfg : StrategyConfig α} (hf : cfg.buyWithEquity = false) {d : DataProvider α}
    {sig : Nat → Option TradeDirection} {N : Nat} {st : Nat → Strategy α} (hr : Backtest cfg d sig N st) :
    ∃ st' : Nat → Strategy α, Backtest cfg d.mirror (fun t => (sig t).map opposite) N st' ∧ ∀ t, t < N → MirroredBooks V (st t) (st' t) :=
  (C72_mirror V L cfg hf d sig N).backtest hr

/-- The profit of a mirrored trade at the mirrored price. -/
theorem mirrored_pnl (L : R.Lawful) {x x' : Trade (Fl R)} (h : MirroredTrade (Valued.unsigned R) x x') (p : Fl R) :
    x'.pnl (-p) = x.pnl p := by
  unfold Trade.pnl
  rw [h.fillSize, h.entryPrice, h.direction]
  cases x.fillSize with
  | none => rfl
  | some fs =>
    cases x.entryPrice with
    | none => rfl
    | some ep =>
      simp only [Option.map_some, unwrap_some, Res.ok_bind, Res.pure_eq, Except.ok.injEq]
      unfold tradePnl
      cases x.direction <;> simp [opposite, fl_neg_sub_neg L, fl_mul_neg L, fl_neg_mul L, fl_neg_neg]

theorem mirrored_equity (L : R.Lawful) {s s' : Strategy (Fl R)} (h : MirroredBooks (Valued.unsigned R) s s') {d : DataProvider (Fl R)} {t : Nat}
    {e e1 : EquityMetrics (Fl R)} (hn : e.next ⟨d, t⟩ s = .ok e1) : e.next ⟨d.mirror, t⟩ s' = .ok e1 := by
  have hm1 : s'.metrics.netProfit = s.metrics.netProfit := h.netProfit
  have hm2 : s'.metrics.equity = s.metrics.equity := h.equity
  have hlow : Ctx.barLow ⟨d.mirror, t⟩ = (Ctx.barHigh ⟨d, t⟩).map (Option.map Neg.neg) := index_map _ d.high t
  have hhigh : Ctx.barHigh ⟨d.mirror, t⟩ = (Ctx.barLow ⟨d, t⟩).map (Option.map Neg.neg) := index_map _ d.low t
  have hl := Sim.forall₂_getLast? h.trades
  have hE : (∃ x y, s.events.onTradeExit = some x ∧ s'.events.onTradeExit = some y) ∨ (s.events.onTradeExit = none ∧ s'.events.onTradeExit = none) := by
    have hx := h.exit
    revert hx
    cases s.events.onTradeExit <;> cases s'.events.onTradeExit <;> intro hx <;> first | exact Or.inr ⟨rfl, rfl⟩ | exact Or.inl ⟨_, _, rfl, rfl⟩ | cases hx
  unfold EquityMetrics.next at hn ⊢
  simp only [hm1, hm2, h.config]
  rcases hE with ⟨_, _, hE, hE'⟩ | ⟨hE, hE'⟩
  all_goals
    rw [hE] at hn
    rw [hE']
    dsimp only at hn ⊢
    cases ht : s.trades.getLast? with
    | none =>
      cases ht' : s'.trades.getLast? with
      | some _ => rw [ht, ht'] at hl; cases hl
      | none => rw [ht] at hn; exact hn
    | some x =>
      cases ht' : s'.trades.getLast? with
      | none => rw [ht, ht'] at hl; cases hl
      | some x' =>
        rw [ht, ht'] at hl
        have hx : MirroredTrade (Valued.unsigned R) x x' := by cases hl; assumption
        rw [ht] at hn
        simp only [hx.isClosed] at hn ⊢
        cases hc : x.isClosed with
        | true => rw [hc] at hn; exact hn
        | false =>
          rw [hc] at hn
          simp only [Bool.not_false, if_true] at hn ⊢
          rw [hlow, hhigh]
          cases hbl : Ctx.barLow ⟨d, t⟩ with
          | error e => rw [hbl] at hn; cases hn
          | ok lo =>
            rw [hbl] at hn
            cases lo with
            | none => cases hn
            | some lo =>
              cases hbh : Ctx.barHigh ⟨d, t⟩ with
              | error e => rw [hbh] at hn; cases hn
              | ok hi =>
                rw [hbh] at hn
                cases hi with
                | none => cases hn
                | some hi =>
                  simp only [Res.ok_bind, unwrap_some, Res.map_ok', Option.map_some] at hn ⊢
                  rw [hx.direction]
                  cases hd : x.direction with
                  | long =>
                    rw [hd] at hn
                    simp only [opposite, if_true, reduceCtorEq, if_false] at hn ⊢
                    rw [mirrored_pnl L hx, mirrored_pnl L hx]
                    exact hn
                  | short =>
                    rw [hd] at hn
                    simp only [opposite, if_true, reduceCtorEq, if_false] at hn ⊢
                    rw [mirrored_pnl L hx, mirrored_pnl L hx]
                    exact hn

/-- **C72.** The equity and TradingView metrics of the mirrored backtest are the same on every tick, all of them: drawdown, run-up,
Sharpe and Sortino ratios, averages and histories do not depend on which side of the market was traded. -/
theorem C72_mirror_metrics (L : R.Lawful) {cfg : StrategyConfig (Fl R)} (hf : cfg.buyWithEquity = false) {d : DataProvider (Fl R)}
    {sig : Nat → Option TradeDirection} {N : Nat} {st : Nat → Strategy (Fl R)} (hr : Backtest cfg d sig N st) {rfr : Fl R}
    {em : Nat → EquityMetrics (Fl R)} (he : EquityRun d cfg.initialCapital st N em)
    {tv : Nat → TvMetrics (Fl R)} (htv : TvRun d cfg rfr st N tv) :
    ∃ st' : Nat → Strategy (Fl R), Backtest cfg d.mirror (fun t => (sig t).map opposite) N st' ∧
      EquityRun d.mirror cfg.initialCapital st' N em ∧ TvRun d.mirror cfg rfr st' N tv := by
  obtain ⟨st', hst, hm⟩ := C72_mirror_backtest (Valued.unsigned R) L hf hr
  refine ⟨st', hst, ?_, ?_⟩
  · obtain ⟨s, h0, hs⟩ := he.trace
    refine Runs.of_trace s h0 fun t ht => ?_
    have h1 := hs t ht
    cases e : (s t).next ⟨d, t⟩ (st t) with
    | error _ => simp [e] at h1
    | ok e1 =>
      simp only [e] at h1
      simp only [mirrored_equity L (hm t ht) e]
      exact h1
  · obtain ⟨s, h0, hs⟩ := htv.trace
    refine Runs.of_trace s h0 fun t ht => ?_
    have h1 := hs t ht
    have hb := hm t ht
    cases e : (s t).equityMetrics.next ⟨d, t⟩ (st t) with
    | error _ => unfold TvMetrics.next at h1; simp [e] at h1
    | ok e1 =>
      have he' := mirrored_equity L hb e
      have hx : (st' t).events.onTradeExit.isSome = (st t).events.onTradeExit.isSome := by
        have := hb.exit
        revert this
        cases (st t).events.onTradeExit <;> cases (st' t).events.onTradeExit <;> intro hx <;> first | rfl | cases hx
      have m1 : (st' t).metrics.netProfit = (st t).metrics.netProfit := hb.netProfit
      have m2 : (st' t).metrics.openProfit = (st t).metrics.openProfit := hb.openProfit
      have m3 : (st' t).metrics.grossProfit = (st t).metrics.grossProfit := hb.grossProfit
      have m4 : (st' t).metrics.grossLoss = (st t).metrics.grossLoss := hb.grossLoss
      rw [← h1]
      unfold TvMetrics.next
      simp only [e, he', hx, m1, m2, m3, m4, hb.closedTrades, hb.winningTrades, hb.losingTrades, hb.config]

end

section
variable {α : Type} [F64 α]

/-- Everything equal but the capital. -/
private def capitalSim (cap cap' : α) : Sim α where
  g := id
  inj _ _ := Iff.rfl
  price := id
  P := fun q q' => q' = q
  M m m' := m' = { m with equity := m'.equity }
  cap := cap
  cap' := cap'
  zero := rfl
  pnl _ _ _ := rfl
  close m m' dir q q' h hq := by
    rw [h, hq]
    unfold Strategy.closeMetrics
    by_cases hp : fgt q (lit 0) = true
    · simp only [hp, if_true]; cases dir <;> rfl
    · by_cases hn : F64.lt q (lit 0) = true
      · simp only [hp, hn, if_true]; cases dir <;> rfl
      · simp only [hp, hn]; cases dir <;> rfl
  openP m m' h := by rw [h]
  mark m m' q q' h hq := by rw [h, hq]

theorem forall₂_eq {A : Type} {l l' : List A} (h : List.Forall₂ (fun a b => b = a) l l') : l' = l := by
  induction h with
  | nil => rfl
  | cons h _ ih => rw [h, ih]

/-- **C73.** A strategy that trades one unit, given another initial capital, panics on exactly the same tick; otherwise its trades,
orders, events and all its metrics are the same, except the equity, which is counted from the other capital.  (Any arithmetic.) -/
theorem C73_capital (cfg : StrategyConfig α) (hf : cfg.buyWithEquity = false) (cap : α) (d : DataProvider α)
    (sig : Nat → Option TradeDirection) (N : Nat) :
    Alike (List.Forall₂ (SameBooks cfg.initialCapital cap)) (outputs (fun t => runner ⟨d, t⟩) sig N (.ok (Strategy.new cfg)))
      (outputs (fun t => runner ⟨d, t⟩) sig N (.ok (Strategy.new { cfg with initialCapital := cap }))) := by
  have h0 : (capitalSim cfg.initialCapital cap).St (Strategy.new cfg) (Strategy.new { cfg with initialCapital := cap }) :=
    ⟨rfl, rfl, hf, hf, rfl, rfl, .nil, rfl, .none, .none, rfl⟩
  have hid (r : Res (Option α)) : r.map (Option.map id) = r := by cases r <;> simp
  have htr {x x' : Trade α} (h : (capitalSim cfg.initialCapital cap).Tr x x') : x' = x := by
    obtain ⟨h1, h2, h3, h4, h5, h6, h7, h8, h9⟩ := h
    have h4 : x'.entryPrice = x.entryPrice := by rw [h4]; exact Option.map_id_apply
    have h6 : x'.exitPrice = x.exitPrice := by rw [h6]; exact Option.map_id_apply
    have h1 : x'.direction = x.direction := h1
    have h9 : x'.pnlField = x.pnlField := h9
    cases x; cases x'; simp_all
  have hopt {a b : Option (Trade α)} (h : Option.Rel (capitalSim cfg.initialCapital cap).Tr a b) : b = a := by
    cases h with
    | none => rfl
    | some h => rw [htr h]
  have hsig : (fun t => (sig t).map (capitalSim cfg.initialCapital cap).g) = sig := by funext t; exact Option.map_id_apply
  have := Sim.runs (d := d) (d' := d) h0 (fun t => (hid _).symm) (fun t => (hid _).symm) (Q := SameBooks cfg.initialCapital cap)
    (fun t s s' dir s1 s1' hs e e' h => ?_) sig N
  · rw [hsig] at this; exact this
  · have hm : s1'.metrics = { s1.metrics with equity := s1'.metrics.equity } := h.metrics
    refine ⟨forall₂_eq (h.trades.imp fun _ _ => htr), by rw [h.unfilled]; exact Option.map_id_apply, ?_, ?_, ?_⟩
    · have h1 := hopt h.entry
      have h2 := hopt h.exit
      cases he : s1.events; cases he' : s1'.events
      rw [he, he'] at h1 h2
      simp only at h1 h2
      rw [h1, h2]
    · have he := next_equity e'
      rw [hm] at he
      simp only at he
      rw [h.cap'] at he
      rw [hm, he]; rfl
    · rw [next_equity e, h.cap]; rfl

/-- **C73.** The same for a run that does not panic. -/
theorem C73_capital_backtest {cfg : StrategyConfig α} (hf : cfg.buyWithEquity = false) (cap : α) {d : DataProvider α}
    {sig : Nat → Option TradeDirection} {N : Nat} {st : Nat → Strategy α} (hr : Backtest cfg d sig N st) :
    ∃ st' : Nat → Strategy α, Backtest { cfg with initialCapital := cap } d sig N st' ∧
      ∀ t, t < N → SameBooks cfg.initialCapital cap (st t) (st' t) :=
  (C73_capital cfg hf cap d sig N).backtest hr

end
end Pace
