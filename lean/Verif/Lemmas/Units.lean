import Verif.Spec.UnitsStrategy
import Verif.Lemmas.Strategy

/-!
# The strategy runner and the metrics commute with a change of units
-/

set_option linter.unusedSectionVars false

namespace Pace

/-- If one step commutes with the maps, so does a run (panics included).  `Q` is an invariant of the first run. -/
theorem outputs_convert {S S' I I' O O' : Type} {step : Nat → S → I → Res (O × S)} {step' : Nat → S' → I' → Res (O' × S')}
    (f : S → S') (g : I → I') (h : O → O') (Q : S → Prop)
    (hQ : ∀ t s x o s1, Q s → step t s x = .ok (o, s1) → Q s1)
    (hs : ∀ t s x, Q s → step' t (f s) (g x) = (step t s x).map fun p => (h p.1, f p.2))
    (x : Nat → I) (N : Nat) (s0 : Res S) (h0 : ∀ s, s0 = .ok s → Q s) :
    outputs step' (fun t => g (x t)) N (s0.map f) = (outputs step x N s0).map (List.map h) := by
  have key : ∀ n t s, Q s → runFrom step' (fun t => g (x t)) t n (f s) = (runFrom step x t n s).map fun p => (p.1.map h, f p.2) := by
    intro n
    induction n with
    | zero => intro t s _; rfl
    | succ n ih =>
      intro t s hq
      simp only [runFrom]
      rw [hs t s _ hq]
      cases e : step t s (x t) with
      | error e => rfl
      | ok p =>
        have hq1 := hQ t s _ p.1 p.2 hq (by rw [e])
        simp only [Except.map, Res.ok_bind]
        rw [ih (t + 1) p.2 hq1]
        cases runFrom step x (t + 1) n p.2 with
        | error e => rfl
        | ok q => simp [Except.map]
  cases s0 with
  | error e => rfl
  | ok s =>
    simp only [outputs, run, Except.map, Res.ok_bind]
    rw [key N 0 s (h0 s rfl)]
    cases runFrom step x 0 N s with
    | error e => rfl
    | ok p => simp [Except.map]

theorem index_map {β γ : Type} (f : β → γ) (l : List β) (i : Nat) : index (l.map f) i = (index l i).map f := by
  unfold index
  rw [List.getElem?_map]
  cases l[i]? <;> rfl

theorem unwrap_map {β γ : Type} (f : β → γ) (o : Option β) : unwrap (o.map f) = (unwrap o).map f := by cases o <;> rfl

@[simp] theorem Res.map_ok' {β γ : Type} (f : β → γ) (a : β) : (Except.ok a : Res β).map f = .ok (f a) := rfl
@[simp] theorem Res.map_error' {β γ : Type} (f : β → γ) (e : Panic) : (Except.error e : Res β).map f = .error e := rfl

variable {α : Type} [F64 α]

theorem Linear.feq0 (D : Linear α) (a : α) : F64.feq (D.f a) (lit 0) = F64.feq a (lit 0) := by rw [← D.feq a, D.zero]

namespace Dilation
variable (D : Dilation α)
theorem lt0 (a : α) : F64.lt (D.f a) (lit 0) = F64.lt a (lit 0) := by rw [← D.lt a, D.zero]
theorem gt0 (a : α) : F64.lt (lit 0) (D.f a) = F64.lt (lit 0) a := by rw [← D.lt _ a, D.zero]
theorem le0 (a : α) : F64.le (D.f a) (lit 0) = F64.le a (lit 0) := by rw [← D.le a, D.zero]
end Dilation

namespace Units
variable (U : Units α)

theorem tradePnl (fs ep cp : α) (l : Bool) :
    Pace.tradePnl (U.size.f fs) (U.price.f ep) (U.price.f cp) l = U.money.f (Pace.tradePnl fs ep cp l) := by
  unfold Pace.tradePnl
  simp only [← U.price.sub, U.worth, U.money.mul_num]

theorem fillSize (e p : α) : Pace.fillSize (U.money.f e) (U.price.f p) = U.size.f (Pace.fillSize e p) := by
  unfold Pace.fillSize
  rw [U.money.le0, U.price.le0, U.buys]
  split
  · exact U.size.zero.symm
  · rfl

theorem pnl (t : Trade α) (p : α) : (t.rescale U).pnl (U.price.f p) = (t.pnl p).map U.money.f := by
  unfold Trade.pnl Trade.rescale
  cases t.fillSize with
  | none => rfl
  | some fs =>
    cases t.entryPrice with
    | none => rfl
    | some ep => simp [U.tradePnl]

theorem closeMetrics (m : StrategyMetrics α) (dir : TradeDirection) (q : α) :
    Strategy.closeMetrics (m.rescale U) dir (U.money.f q) = (Strategy.closeMetrics m dir q).rescale U := by
  unfold Strategy.closeMetrics fgt StrategyMetrics.rescale
  simp only [U.money.gt0, U.money.lt0, U.money.abs]
  by_cases h1 : F64.lt (lit 0) q = true
  · simp only [h1, if_true]; cases dir <;> simp [U.money.zero, U.money.add]
  · simp only [h1]
    by_cases h2 : F64.lt q (lit 0) = true
    · simp only [h2, if_true]; cases dir <;> simp [U.money.zero, U.money.add]
    · simp only [h2]; cases dir <;> simp [U.money.zero, U.money.add]

theorem closeLast (s : Strategy α) (t : Trade α) (p : Option α) (n : Nat) :
    (s.rescale U).closeLast (t.rescale U) (p.map U.price.f) n = (s.closeLast t p n).map (Strategy.rescale U) := by
  unfold Strategy.closeLast
  cases p with
  | none => rfl
  | some p =>
    simp only [Option.map_some, unwrap_some, Res.ok_bind]
    have h := U.pnl { t with exitPrice := some p, exitTick := some n, isClosed := true } p
    simp only [Trade.rescale, Option.map_some] at h ⊢
    rw [h]
    cases hq : Trade.pnl { t with exitPrice := some p, exitTick := some n, isClosed := true } p with
    | error e => rfl
    | ok q =>
      simp only [Res.map_ok', Res.ok_bind, Res.pure_eq, Except.ok.injEq]
      simp only [Strategy.rescale, List.map_append, List.map_dropLast, List.map_cons, List.map_nil, Option.map_some, Trade.rescale,
        U.closeMetrics]

theorem openNew (s : Strategy α) (h : s.config.buyWithEquity = true ∨ U.size.f (lit 1) = lit 1) (dir : TradeDirection) (p : Option α) (n : Nat) :
    (s.rescale U).openNew dir (p.map U.price.f) n = (s.openNew dir p n).map (Strategy.rescale U) := by
  unfold Strategy.openNew
  by_cases hb : s.config.buyWithEquity = true
  · have hb' : (s.rescale U).config.buyWithEquity = true := hb
    simp only [hb, hb', if_true]
    cases p with
    | none => rfl
    | some p =>
      simp only [Option.map_some, unwrap_some, Res.ok_bind, Res.pure_eq, Res.map_ok', Except.ok.injEq]
      simp only [Strategy.rescale, StrategyConfig.rescale, StrategyMetrics.rescale, ← U.money.add, U.fillSize, List.map_append,
        List.map_cons, List.map_nil, Option.map_some, Trade.rescale, Trade.new, Option.map_none, U.money.zero]
  · have hb' : ¬ (s.rescale U).config.buyWithEquity = true := hb
    have h1 := h.resolve_left hb
    simp only [hb, hb', if_false]
    simp [Strategy.rescale, StrategyConfig.rescale, List.map_append,
        List.map_cons, List.map_nil, Option.map_some, Trade.rescale, Trade.new, Option.map_none, U.money.zero, h1]

theorem fill (s : Strategy α) (h : s.config.buyWithEquity = true ∨ U.size.f (lit 1) = lit 1) (dir : TradeDirection) (n : Nat)
    (op cl : Option α) :
    (s.rescale U).fill dir n (op.map U.price.f) (cl.map U.price.f) = (s.fill dir n op cl).map (Strategy.rescale U) := by
  have fin (s : Strategy α) (h : s.config.buyWithEquity = true ∨ U.size.f (lit 1) = lit 1) (b : Prop) [Decidable b] (p : Option α) :
      (if b then (do let s ← (s.rescale U).openNew dir (p.map U.price.f) n; Except.ok { s with unfilled := none })
        else Except.ok { s.rescale U with unfilled := none }) =
      Except.map (Strategy.rescale U) (if b then (do let s ← s.openNew dir p n; Except.ok { s with unfilled := none })
        else Except.ok { s with unfilled := none } : Res (Strategy α)) := by
    by_cases hb : b
    · rw [if_pos hb, if_pos hb, U.openNew s h]
      cases s.openNew dir p n <;> rfl
    · rw [if_neg hb, if_neg hb]; rfl
  have hp : (if (s.rescale U).config.onBarClose = true then cl.map U.price.f else op.map U.price.f) =
      (if s.config.onBarClose = true then cl else op).map U.price.f := by
    show (if s.config.onBarClose = true then _ else _) = _
    split <;> rfl
  unfold Strategy.fill
  simp only [hp]
  generalize (if s.config.onBarClose = true then cl else op) = p
  have hl : (s.rescale U).trades.getLast? = s.trades.getLast?.map (Trade.rescale U) := List.getLast?_map ..
  rw [hl]
  cases s.trades.getLast? with
  | none => simp only [Option.map_none, Res.pure_eq, Res.ok_bind]; exact fin s h _ p
  | some last =>
    have e1 : (Trade.rescale U last).direction = last.direction := rfl
    have e2 : (Trade.rescale U last).isClosed = last.isClosed := rfl
    have e3 : (s.rescale U).config.continous = s.config.continous := rfl
    simp only [Option.map_some, e1, e2, e3, Res.pure_eq, Res.ok_bind]
    cases hb : (!decide (last.direction = dir) && !last.isClosed) with
    | false => simp only [Bool.false_eq_true, if_false]; exact fin s h _ p
    | true =>
      simp only [if_true]
      rw [U.closeLast]
      cases hc : s.closeLast last p n with
      | error e => rfl
      | ok s2 =>
        simp only [Res.map_ok', Res.ok_bind]
        exact fin s2 (by rw [closeLast_config hc]; exact h) _ p

theorem markToMarket (s : Strategy α) (cl : Option α) :
    (s.rescale U).markToMarket (cl.map U.price.f) = (s.markToMarket cl).map (Strategy.rescale U) := by
  unfold Strategy.markToMarket
  have hl : (s.rescale U).trades.getLast? = s.trades.getLast?.map (Trade.rescale U) := List.getLast?_map ..
  rw [hl]
  have fin (q : α) : (Except.ok { s.rescale U with metrics := { (s.rescale U).metrics with
      openProfit := U.money.f q, equity := (s.rescale U).config.initialCapital + (s.rescale U).metrics.netProfit + U.money.f q } } : Res (Strategy α)) =
      Except.map (Strategy.rescale U) (.ok { s with metrics := { s.metrics with
        openProfit := q, equity := s.config.initialCapital + s.metrics.netProfit + q } }) := by
    simp [Strategy.rescale, StrategyConfig.rescale, StrategyMetrics.rescale, U.money.add]
  cases s.trades.getLast? with
  | none => exact fin _
  | some last =>
    have e2 : (Trade.rescale U last).isClosed = last.isClosed := rfl
    simp only [Option.map_some, e2, Res.pure_eq, Res.ok_bind]
    cases hb : last.isClosed with
    | true => exact fin _
    | false =>
      cases cl with
      | none => rfl
      | some c =>
        simp only [Bool.not_false, if_true, Option.map_some, unwrap_some, Res.ok_bind, U.pnl]
        cases last.pnl c with
        | error e => rfl
        | ok q => exact fin q

theorem next (s : Strategy α) (h : s.config.buyWithEquity = true ∨ U.size.f (lit 1) = lit 1) (d : DataProvider α) (vol : α → α)
    (t : Nat) (dir : Option TradeDirection) :
    (s.rescale U).next ⟨d.rescale U.price.f vol, t⟩ dir = (s.next ⟨d, t⟩ dir).map (Strategy.rescale U) := by
  have e3 : (s.rescale U).config.onBarClose = s.config.onBarClose := rfl
  have ho : Ctx.barOpen ⟨d.rescale U.price.f vol, t⟩ = (Ctx.barOpen ⟨d, t⟩).map (Option.map U.price.f) := index_map ..
  have hc : Ctx.barClose ⟨d.rescale U.price.f vol, t⟩ = (Ctx.barClose ⟨d, t⟩).map (Option.map U.price.f) := index_map ..
  unfold Strategy.next
  simp only [ho, hc]
  cases Ctx.barOpen ⟨d, t⟩ with
  | error e => rfl
  | ok op =>
    cases Ctx.barClose ⟨d, t⟩ with
    | error e => rfl
    | ok cl =>
      simp only [Res.map_ok', Res.ok_bind, e3]
      have last (s : Strategy α) : (do
            let s := if (!s.config.onBarClose) = true then { s with unfilled := dir } else s
            s.markToMarket cl).map (Strategy.rescale U) = (do
            let s := if (!(s.rescale U).config.onBarClose) = true then { s.rescale U with unfilled := dir } else s.rescale U
            s.markToMarket (cl.map U.price.f)) := by
        have e : (s.rescale U).config.onBarClose = s.config.onBarClose := rfl
        simp only [e]
        cases s.config.onBarClose with
        | true => exact (U.markToMarket s cl).symm
        | false => exact (U.markToMarket { s with unfilled := dir } cl).symm
      have mid (s : Strategy α) (h : s.config.buyWithEquity = true ∨ U.size.f (lit 1) = lit 1) : (do
          let s ← match (s.rescale U).unfilled with
            | some d => (s.rescale U).fill d t (op.map U.price.f) (cl.map U.price.f)
            | none => pure (s.rescale U)
          let s := if !s.config.onBarClose then { s with unfilled := dir } else s
          s.markToMarket (cl.map U.price.f)) = (do
          let s ← match s.unfilled with
            | some d => s.fill d t op cl
            | none => pure s
          let s := if !s.config.onBarClose then { s with unfilled := dir } else s
          s.markToMarket cl).map (Strategy.rescale U) := by
        have e : (s.rescale U).unfilled = s.unfilled := rfl
        rw [e]
        cases s.unfilled with
        | none => exact (last s).symm
        | some dd =>
          simp only []
          rw [U.fill s h]
          cases s.fill dd t op cl with
          | error e => rfl
          | ok s2 => exact (last s2).symm
      cases hb : s.config.onBarClose with
      | true => exact mid { s with unfilled := dir, events := ⟨none, none⟩ } h
      | false => exact mid { s with events := ⟨none, none⟩ } h

end Units

theorem next_config {s s1 : Strategy α} {c : Ctx α} {dir : Option TradeDirection} (h : s.next c dir = .ok s1) :
    s1.config = s.config := by
  have mk {s s1 : Strategy α} {cl : Option α} (h : s.markToMarket cl = .ok s1) : s1.config = s.config := by
    unfold Strategy.markToMarket at h
    cases hl : s.trades.getLast? with
    | none => simp only [hl, Res.pure_eq, Res.ok_bind, Except.ok.injEq] at h; rw [← h]
    | some T =>
      simp only [hl, Res.pure_eq, Res.ok_bind] at h
      cases hb : T.isClosed with
      | true => simp only [hb, Bool.not_true, Bool.false_eq_true, if_false, Except.ok.injEq] at h; rw [← h]
      | false =>
        cases cl with
        | none => simp [hb] at h
        | some c =>
          simp only [hb, Bool.not_false, if_true, unwrap_some, Res.ok_bind] at h
          cases hq : T.pnl c with
          | error e => simp [hq] at h
          | ok q => simp only [hq, Res.ok_bind, Except.ok.injEq] at h; rw [← h]
  have last {s s1 : Strategy α} {cl : Option α}
      (h : Strategy.markToMarket (if (!s.config.onBarClose) = true then { s with unfilled := dir } else s) cl = .ok s1) :
      s1.config = s.config := by
    rw [mk h]; split <;> rfl
  unfold Strategy.next at h
  cases h1 : c.barOpen with
  | error e => simp [h1] at h
  | ok op =>
    cases h2 : c.barClose with
    | error e => simp [h1, h2] at h
    | ok cl =>
      simp only [h1, h2, Res.ok_bind] at h
      generalize hs2 : (if s.config.onBarClose = true then { s with unfilled := dir } else s) = s2 at h
      have hc2 : s2.config = s.config := by rw [← hs2]; split <;> rfl
      cases hu : s2.unfilled with
      | none => rw [last (s := { s2 with unfilled := none, events := ⟨none, none⟩ }) (by simpa only [hu, Res.pure_eq, Res.ok_bind] using h)]; exact hc2
      | some dd =>
        simp only [hu] at h
        cases hf : Strategy.fill { s2 with events := ⟨none, none⟩ } dd c.index op cl with
        | error e => simp only [hu] at hf; rw [hf] at h; simp at h
        | ok s3 => simp only [hu] at hf; rw [hf] at h; rw [last h, fill_config hf]; exact hc2

/-! ## Metrics -/

def Mean.rescale (U : Units α) (m : Mean α) : Mean α := ⟨U.money.f m.sum, m.n⟩
def WelfordsVar.rescale (U : Units α) (w : WelfordsVar α) : WelfordsVar α := ⟨w.n, U.money.f w.mean, U.money2 w.deviation⟩
def Var.rescale (U : Units α) (v : Var α) : Var α :=
  ⟨v.fast, ⟨v.inputCache.values.map U.money.f⟩, v.welfordsVar.rescale U, v.mean.rescale U⟩
def StatStdev.rescale (U : Units α) (s : StatStdev α) : StatStdev α := ⟨s.variance.rescale U⟩
def Returns.rescale (U : Units α) (r : Returns α) : Returns α where
  delta := U.money.f r.delta
  stdevV := U.money.f r.stdevV
  meanV := U.money.f r.meanV
  prevValue := U.money.f r.prevValue
  stdev := r.stdev.rescale U
  mean := r.mean.rescale U

namespace Units
variable (U : Units α)

theorem fsum2 (l : List α) : fsum (l.map U.money2) = U.money2 (fsum l) := by
  have key : ∀ (l : List α) (a : α), (l.map U.money2).foldl (· + ·) (U.money2 a) = U.money2 (l.foldl (· + ·) a) := by
    intro l
    induction l with
    | nil => intro a; rfl
    | cons b l ih => intro a; simp only [List.map_cons, List.foldl_cons, U.add2]; exact ih _
  have := key l (lit 0)
  rw [U.zero2] at this
  exact this

theorem meanNext (m : Mean α) (v : α) :
    (m.rescale U).next (U.money.f v) = (U.money.f (m.next v).1, (m.next v).2.rescale U) := by
  simp only [Mean.next, Mean.rescale, ← U.money.add, U.money.div_num]

theorem varFromMean (l : List α) (m : α) :
    Stats.varFromMean (l.map U.money.f) (U.money.f m) = U.money2 (Stats.varFromMean l m) := by
  unfold Stats.varFromMean
  rw [List.length_map, ← U.div2, ← U.fsum2, List.map_map, List.map_map]
  congr 2
  apply List.map_congr_left
  intro x _
  simp only [Function.comp, sq, ← U.money.sub, U.square]

theorem welfordsNext (w : WelfordsVar α) (v : α) :
    (w.rescale U).next (U.money.f v) = (U.money2 (w.next v).1, (w.next v).2.rescale U) := by
  simp only [WelfordsVar.next, WelfordsVar.rescale, ← U.money.sub, U.money.div_num, ← U.money.add, U.square, U.add2, U.div2]
  split <;> simp [U.zero2]

theorem varNext (s : Var α) (v : α) : (s.rescale U).next (U.money.f v) = (U.money2 (s.next v).1, (s.next v).2.rescale U) := by
  unfold Var.next
  have e : (s.rescale U).fast = s.fast := rfl
  rw [e]
  cases hf : s.fast with
  | true =>
    simp only [if_true]
    have := U.welfordsNext s.welfordsVar v
    simp only [Var.rescale, this]
  | false =>
    simp only [Bool.false_eq_true, if_false]
    have h1 := U.meanNext s.mean v
    have h2 := U.varFromMean (s.inputCache.values ++ [v]) (s.mean.next v).1
    simp only [List.map_append, List.map_cons, List.map_nil] at h2
    simp only [Var.rescale, IncrementalCache.next, IncrementalCache.all, h1, h2, List.map_append, List.map_cons, List.map_nil]

theorem stdevNext (s : StatStdev α) (v : α) :
    (s.rescale U).next (U.money.f v) = (U.money.f (s.next v).1, (s.next v).2.rescale U) := by
  unfold StatStdev.next
  have := U.varNext s.variance v
  simp only [StatStdev.rescale, this, Stats.stdevFromVar, U.sqrt2]

theorem returnsNext (s : Returns α) (v : α) : (s.rescale U).next (U.money.f v) = (s.next v).rescale U := by
  unfold Returns.next
  have h1 := U.stdevNext s.stdev (v - s.prevValue)
  have h2 := U.meanNext s.mean (v - s.prevValue)
  simp only [Returns.rescale, ← U.money.sub, h1, h2]

theorem equityNext (s : EquityMetrics α) (st : Strategy α) (d : DataProvider α) (vol : α → α) (t : Nat) :
    (s.rescale U).next ⟨d.rescale U.price.f vol, t⟩ (st.rescale U) = (s.next ⟨d, t⟩ st).map (EquityMetrics.rescale U) := by
  have ho : Ctx.barLow ⟨d.rescale U.price.f vol, t⟩ = (Ctx.barLow ⟨d, t⟩).map (Option.map U.price.f) := index_map ..
  have hc : Ctx.barHigh ⟨d.rescale U.price.f vol, t⟩ = (Ctx.barHigh ⟨d, t⟩).map (Option.map U.price.f) := index_map ..
  have fin (s : EquityMetrics α) : (Except.ok { s.rescale U with
      equity := (st.rescale U).metrics.equity
      equityMin := F64.fmin (s.rescale U).equityMin (st.rescale U).metrics.equity
      equityMax := F64.fmax (s.rescale U).equityMax (st.rescale U).metrics.equity
      barEquityMin := (s.rescale U).netEquity + (s.rescale U).barOpenProfitMin
      barEquityMax := (s.rescale U).netEquity + (s.rescale U).barOpenProfitMax } : Res (EquityMetrics α)) =
      Except.map (EquityMetrics.rescale U) (.ok { s with
      equity := st.metrics.equity
      equityMin := F64.fmin s.equityMin st.metrics.equity
      equityMax := F64.fmax s.equityMax st.metrics.equity
      barEquityMin := s.netEquity + s.barOpenProfitMin
      barEquityMax := s.netEquity + s.barOpenProfitMax }) := by
    simp only [Res.map_ok', EquityMetrics.rescale, Strategy.rescale, StrategyMetrics.rescale, U.money.fmin, U.money.fmax, U.money.add]
  have main (s1 : EquityMetrics α) : (do
      let s ←
        match (st.rescale U).trades.getLast? with
        | some last =>
          if !last.isClosed then do
            let lowestPrice ← unwrap (← Ctx.barLow ⟨d.rescale U.price.f vol, t⟩)
            let highestPrice ← unwrap (← Ctx.barHigh ⟨d.rescale U.price.f vol, t⟩)
            let (lowestPrice, highestPrice) :=
              if last.direction = .short then (highestPrice, lowestPrice)
              else (lowestPrice, highestPrice)
            let mn ← last.pnl lowestPrice
            let mx ← last.pnl highestPrice
            pure { s1.rescale U with barOpenProfitMin := mn, barOpenProfitMax := mx }
          else pure (s1.rescale U)
        | none => pure (s1.rescale U)
      let eq := (st.rescale U).metrics.equity
      return { s with
        equity := eq
        equityMin := F64.fmin s.equityMin eq
        equityMax := F64.fmax s.equityMax eq
        barEquityMin := s.netEquity + s.barOpenProfitMin
        barEquityMax := s.netEquity + s.barOpenProfitMax } : Res (EquityMetrics α)) = (do
      let s ←
        match st.trades.getLast? with
        | some last =>
          if !last.isClosed then do
            let lowestPrice ← unwrap (← Ctx.barLow ⟨d, t⟩)
            let highestPrice ← unwrap (← Ctx.barHigh ⟨d, t⟩)
            let (lowestPrice, highestPrice) :=
              if last.direction = .short then (highestPrice, lowestPrice)
              else (lowestPrice, highestPrice)
            let mn ← last.pnl lowestPrice
            let mx ← last.pnl highestPrice
            pure { s1 with barOpenProfitMin := mn, barOpenProfitMax := mx }
          else pure s1
        | none => pure s1
      let eq := st.metrics.equity
      return { s with
        equity := eq
        equityMin := F64.fmin s.equityMin eq
        equityMax := F64.fmax s.equityMax eq
        barEquityMin := s.netEquity + s.barOpenProfitMin
        barEquityMax := s.netEquity + s.barOpenProfitMax } : Res (EquityMetrics α)).map (EquityMetrics.rescale U) := by
    have hl : (st.rescale U).trades.getLast? = st.trades.getLast?.map (Trade.rescale U) := List.getLast?_map ..
    rw [hl]
    cases st.trades.getLast? with
    | none => exact fin s1
    | some T =>
      have e1 : (Trade.rescale U T).direction = T.direction := rfl
      have e2 : (Trade.rescale U T).isClosed = T.isClosed := rfl
      simp only [Option.map_some, e1, e2, ho, hc]
      cases T.isClosed with
      | true => exact fin s1
      | false =>
        simp only [Bool.not_false, if_true]
        cases Ctx.barLow ⟨d, t⟩ with
        | error e => rfl
        | ok lo =>
          cases lo with
          | none => rfl
          | some lo =>
            cases Ctx.barHigh ⟨d, t⟩ with
            | error e => rfl
            | ok hi =>
              cases hi with
              | none => rfl
              | some hi =>
                have pr (a b : α) : (do
                    let mn ← (T.rescale U).pnl (U.price.f a)
                    let mx ← (T.rescale U).pnl (U.price.f b)
                    (fun s : EquityMetrics α => (Except.ok { s with
                        equity := (st.rescale U).metrics.equity
                        equityMin := F64.fmin s.equityMin (st.rescale U).metrics.equity
                        equityMax := F64.fmax s.equityMax (st.rescale U).metrics.equity
                        barEquityMin := s.netEquity + s.barOpenProfitMin
                        barEquityMax := s.netEquity + s.barOpenProfitMax } : Res (EquityMetrics α)))
                      { s1.rescale U with barOpenProfitMin := mn, barOpenProfitMax := mx }) =
                    Except.map (EquityMetrics.rescale U) (do
                    let mn ← T.pnl a
                    let mx ← T.pnl b
                    (fun s : EquityMetrics α => (Except.ok { s with
                        equity := st.metrics.equity
                        equityMin := F64.fmin s.equityMin st.metrics.equity
                        equityMax := F64.fmax s.equityMax st.metrics.equity
                        barEquityMin := s.netEquity + s.barOpenProfitMin
                        barEquityMax := s.netEquity + s.barOpenProfitMax } : Res (EquityMetrics α)))
                      { s1 with barOpenProfitMin := mn, barOpenProfitMax := mx }) := by
                  rw [U.pnl, U.pnl]
                  cases T.pnl a with
                  | error e => rfl
                  | ok x =>
                    cases T.pnl b with
                    | error e => rfl
                    | ok y => exact fin { s1 with barOpenProfitMin := x, barOpenProfitMax := y }
                cases T.direction with
                | long => exact pr lo hi
                | short => exact pr hi lo
  unfold EquityMetrics.next
  have e : (st.rescale U).events.onTradeExit = st.events.onTradeExit.map (Trade.rescale U) := rfl
  rw [e]
  cases st.events.onTradeExit with
  | none => exact main s
  | some T =>
    have hst : EquityMetrics.rescale U { s with
        netEquity := st.config.initialCapital + st.metrics.netProfit
        netEquityMin := F64.fmin s.netEquityMin (st.config.initialCapital + st.metrics.netProfit)
        netEquityMax := F64.fmax s.netEquityMax (st.config.initialCapital + st.metrics.netProfit) } = { s.rescale U with
        netEquity := (st.rescale U).config.initialCapital + (st.rescale U).metrics.netProfit
        netEquityMin := F64.fmin (s.rescale U).netEquityMin ((st.rescale U).config.initialCapital + (st.rescale U).metrics.netProfit)
        netEquityMax := F64.fmax (s.rescale U).netEquityMax ((st.rescale U).config.initialCapital + (st.rescale U).metrics.netProfit) } := by
      simp only [Strategy.rescale, StrategyConfig.rescale, StrategyMetrics.rescale, EquityMetrics.rescale,
        ← U.money.add, U.money.fmin, U.money.fmax]
    have := main { s with
        netEquity := st.config.initialCapital + st.metrics.netProfit
        netEquityMin := F64.fmin s.netEquityMin (st.config.initialCapital + st.metrics.netProfit)
        netEquityMax := F64.fmax s.netEquityMax (st.config.initialCapital + st.metrics.netProfit) }
    rw [hst] at this
    exact this

end Units

def TvMetrics.rescale (U : Units α) (s : TvMetrics α) : TvMetrics α where
  data := s.data.rescale U
  riskFreeRate := U.money.f s.riskFreeRate
  returns := s.returns.rescale U
  negReturnsStdev := s.negReturnsStdev.rescale U
  equityMetrics := s.equityMetrics.rescale U

def CobraMetrics.rescale (U : Units α) (s : CobraMetrics α) : CobraMetrics α :=
  { s with
    data := s.data.rescale U
    currentTradeMaxDrawdown := U.money.f s.currentTradeMaxDrawdown
    prevEquity := U.money.f s.prevEquity
    equityMetrics := s.equityMetrics.rescale U }

namespace Units
variable (U : Units α)

theorem getD_map (D : Dilation α) (o : Option α) : (o.map D.f).getD (lit 0) = D.f (o.getD (lit 0)) := by
  cases o
  · exact D.zero.symm
  · rfl

theorem tvNext (s : TvMetrics α) (st : Strategy α) (d : DataProvider α) (vol : α → α) (t : Nat) :
    (s.rescale U).next ⟨d.rescale U.price.f vol, t⟩ (st.rescale U) = (s.next ⟨d, t⟩ st).map (TvMetrics.rescale U) := by
  unfold TvMetrics.next
  have he : (s.rescale U).equityMetrics = s.equityMetrics.rescale U := rfl
  rw [he, U.equityNext]
  cases s.equityMetrics.next ⟨d, t⟩ st with
  | error e => rfl
  | ok em =>
    have hr := U.returnsNext s.returns em.netEquity
    have hn := U.stdevNext s.negReturnsStdev (F64.abs (F64.fmin (lit 0) (s.returns.next em.netEquity).delta))
    have hm : ∀ a, F64.abs (F64.fmin (lit 0) (U.money.f a)) = U.money.f (F64.abs (F64.fmin (lit 0) a)) := fun a => by
      rw [← U.money.abs, ← U.money.fmin, U.money.zero]
    have hx : (Option.map (Trade.rescale U) st.events.onTradeExit).isSome = st.events.onTradeExit.isSome := by
      cases st.events.onTradeExit <;> rfl
    simp only [Res.map_ok', Res.ok_bind, Res.pure_eq, Except.ok.injEq]
    have q1 : ∀ a n, (Metrics.avgTrade (U.money.f a) n).getD (lit 0) = U.money.f ((Metrics.avgTrade a n).getD (lit 0)) := fun a n => by
      unfold Metrics.avgTrade; split
      · exact U.money.zero.symm
      · simp [U.money.div_num]
    have q2 : ∀ a n, (Metrics.avgWinningTrade (U.money.f a) n).getD (lit 0) = U.money.f ((Metrics.avgWinningTrade a n).getD (lit 0)) := fun a n => by
      unfold Metrics.avgWinningTrade; split
      · exact U.money.zero.symm
      · simp [U.money.div_num]
    have q3 : ∀ a n, (Metrics.avgLosingTrade (U.money.f a) n).getD (lit 0) = U.money.f ((Metrics.avgLosingTrade a n).getD (lit 0)) := fun a n => by
      unfold Metrics.avgLosingTrade; split
      · exact U.money.zero.symm
      · simp [U.money.div_num]
    have hd : (Returns.rescale U (s.returns.next em.netEquity)).delta = U.money.f (s.returns.next em.netEquity).delta := rfl
    have hd2 : (Returns.rescale U (s.returns.next em.netEquity)).meanV = U.money.f (s.returns.next em.netEquity).meanV := rfl
    have hd3 : (Returns.rescale U (s.returns.next em.netEquity)).stdevV = U.money.f (s.returns.next em.netEquity).stdevV := rfl
    simp only [TvMetrics.rescale, EquityMetrics.rescale, Strategy.rescale, StrategyConfig.rescale, StrategyMetrics.rescale, TvData.rescale,
      hr, hd, hd2, hd3, hm, hn, q1, q2, q3, hx, ← U.money.sub, U.money.fmax, Metrics.maxDrawdownPercent, Metrics.maxRunUpPercent,
      Metrics.netProfitPercent, Metrics.grossProfitPercent, Metrics.grossLossPercent, Metrics.profitFactor, Metrics.avgWinLossRatio,
      Metrics.sharpeRatio, Metrics.sortinoRatio, U.money.feq0, U.money.ratio, TvMetrics.mk.injEq, TvData.mk.injEq, and_true, true_and]
    refine ⟨?_, ?_, by simp⟩ <;> split <;> simp

theorem onReturns (s : CobraMetrics α) (r : α) : (s.rescale U).onReturns r = (s.onReturns r).rescale U := rfl

theorem cobraNext (s : CobraMetrics α) (st : Strategy α) (d : DataProvider α) (vol : α → α) (t : Nat) (year : Option Int) :
    (s.rescale U).next ⟨d.rescale U.price.f vol, t⟩ year (st.rescale U) = (s.next ⟨d, t⟩ year st).map (CobraMetrics.rescale U) := by
  have hexit (e : Trade α) : (s.rescale U).onExit (st.rescale U) (e.rescale U) = (s.onExit st e).map (CobraMetrics.rescale U) := by
    unfold CobraMetrics.onExit
    have h1 : (e.rescale U).entryPrice = e.entryPrice.map U.price.f := rfl
    rw [h1]
    cases e.entryPrice with
    | none => rfl
    | some ep =>
      simp only [Option.map_some, unwrap_some, Res.ok_bind, Res.pure_eq, Res.map_ok', Except.ok.injEq]
      simp only [CobraMetrics.rescale, CobraData.rescale, Strategy.rescale, StrategyMetrics.rescale, Metrics.profitFactor,
        Metrics.longNetProfitRatio, U.money.feq0, U.money.ratio, U.buys, U.size.fmax, U.money.zero]
  have rest (s : CobraMetrics α) : (do
      let em ← (s.rescale U).equityMetrics.next ⟨d.rescale U.price.f vol, t⟩ (st.rescale U)
      let s := { s.rescale U with
        equityMetrics := em
        data := { (s.rescale U).data with
          equityCurveMaxDd := F64.fmin (em.equity / em.equityMax - lit 1) (s.rescale U).data.equityCurveMaxDd }
        currentTradeMaxDrawdown :=
          F64.fmax (em.netEquity - em.barEquityMin) (s.rescale U).currentTradeMaxDrawdown }
      let equityReturns := Metrics.returns em.equity s.prevEquity
      let s := { s with prevEquity := em.equity }
      match s.returnsStartYear with
      | some y => do
        let by_ ← unwrap year
        if by_ < y then return s
        return s.onReturns equityReturns
      | none => return s.onReturns equityReturns : Res (CobraMetrics α)) = (do
      let em ← s.equityMetrics.next ⟨d, t⟩ st
      let s := { s with
        equityMetrics := em
        data := { s.data with
          equityCurveMaxDd := F64.fmin (em.equity / em.equityMax - lit 1) s.data.equityCurveMaxDd }
        currentTradeMaxDrawdown :=
          F64.fmax (em.netEquity - em.barEquityMin) s.currentTradeMaxDrawdown }
      let equityReturns := Metrics.returns em.equity s.prevEquity
      let s := { s with prevEquity := em.equity }
      match s.returnsStartYear with
      | some y => do
        let by_ ← unwrap year
        if by_ < y then return s
        return s.onReturns equityReturns
      | none => return s.onReturns equityReturns : Res (CobraMetrics α)).map (CobraMetrics.rescale U) := by
    have he : (s.rescale U).equityMetrics = s.equityMetrics.rescale U := rfl
    have hy : (s.rescale U).returnsStartYear = s.returnsStartYear := rfl
    have hp : (s.rescale U).prevEquity = U.money.f s.prevEquity := rfl
    simp only [hy, hp]
    rw [he, U.equityNext]
    cases s.equityMetrics.next ⟨d, t⟩ st with
    | error e => rfl
    | ok em =>
      have hr : Metrics.returns (em.rescale U).equity (U.money.f s.prevEquity) = Metrics.returns em.equity s.prevEquity := by
        unfold Metrics.returns
        simp only [EquityMetrics.rescale, U.money.feq0, U.money.ratio]
      simp only [Res.map_ok', Res.ok_bind, hr]
      generalize Metrics.returns em.equity s.prevEquity = r
      have hst : (CobraMetrics.rescale U { s with
          data := { s.data with equityCurveMaxDd := F64.fmin (em.equity / em.equityMax - lit 1) s.data.equityCurveMaxDd }
          currentTradeMaxDrawdown := F64.fmax (em.netEquity - em.barEquityMin) s.currentTradeMaxDrawdown
          prevEquity := em.equity
          equityMetrics := em }) = { s.rescale U with
          data := { (s.rescale U).data with equityCurveMaxDd := F64.fmin ((em.rescale U).equity / (em.rescale U).equityMax - lit 1) (s.rescale U).data.equityCurveMaxDd }
          currentTradeMaxDrawdown := F64.fmax ((em.rescale U).netEquity - (em.rescale U).barEquityMin) (s.rescale U).currentTradeMaxDrawdown
          prevEquity := (em.rescale U).equity
          equityMetrics := em.rescale U } := by
        simp only [CobraMetrics.rescale, CobraData.rescale, EquityMetrics.rescale, U.money.ratio, ← U.money.sub, U.money.fmax]
      obtain ⟨ry, dat, ctm, ann, rm, rs, prs, nrs, ns, pe, rf, eqm⟩ := s
      cases ry with
      | none => exact congrArg (fun s => (Except.ok (CobraMetrics.onReturns s r) : Res (CobraMetrics α))) hst.symm
      | some y =>
        cases year with
        | none => rfl
        | some b =>
          simp only [unwrap_some, Res.ok_bind]
          by_cases hby : b < y
          · rw [if_pos hby, if_pos hby]; exact congrArg (fun s => (Except.ok s : Res (CobraMetrics α))) hst.symm
          · rw [if_neg hby, if_neg hby]; exact congrArg (fun s => (Except.ok (CobraMetrics.onReturns s r) : Res (CobraMetrics α))) hst.symm
  unfold CobraMetrics.next
  have e : (st.rescale U).events.onTradeExit = st.events.onTradeExit.map (Trade.rescale U) := rfl
  rw [e]
  cases st.events.onTradeExit with
  | none => exact rest s
  | some T =>
    simp only [Option.map_some]
    rw [hexit T]
    cases s.onExit st T with
    | error e => rfl
    | ok s1 => exact rest s1

end Units
end Pace
