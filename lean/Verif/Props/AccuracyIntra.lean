import Verif.Props.AccuracyCobra

/-!
# C105: the largest drop within a trade, in floats
-/

set_option linter.unusedSectionVars false

namespace Pace
open Spec
variable {K : Type} [Field K] [LinearOrder K] [IsStrictOrderedRing K] [LawfulRoots K] {R : Rounding K}
variable {α : Type} [F64 α]
variable {cfg : StrategyConfig α} {d : DataProvider α} {sig : Nat → Option TradeDirection} {N : Nat} {st : Nat → Strategy α}

/-- The position closed on tick `t`, if any. -/
def Spec.closedOn (cfg : StrategyConfig α) (sig : Nat → Option TradeDirection) (t : Nat) : Option Deal :=
  (deals cfg sig (t + 1)).1.find? fun x => x.exit == t

/-- How far below nothing the open profit has been since the last exit (that tick included), at the worst prices of the bars. -/
def Spec.dropSinceExit (cfg : StrategyConfig α) (sig : Nat → Option TradeDirection) (f h l : Nat → K) : Nat → K
  | 0 => max 0 (-worstOpen cfg sig f h l 0)
  | t + 1 => max (-worstOpen cfg sig f h l (t + 1)) (match closedOn cfg sig (t + 1) with
    | some _ => 0
    | none => dropSinceExit cfg sig f h l t)

/-- The largest drop within a closed trade, as a part of its entry price: the drop counts up to the tick before the exit. -/
def Spec.dropInTrades (cfg : StrategyConfig α) (sig : Nat → Option TradeDirection) (f h l : Nat → K) : Nat → K
  | 0 => 0
  | t + 1 => match closedOn cfg sig (t + 1) with
    | some x => max (dropSinceExit cfg sig f h l t / f x.entry) (dropInTrades cfg sig f h l t)
    | none => dropInTrades cfg sig f h l t

/-- The trade that is closed on a tick is the position of the timetable. -/
theorem closedOn_trade (H : Backtest cfg d sig N st) {t : Nat} (ht : t < N) :
    (∀ x, closedOn cfg sig t = some x → x ∈ (deals cfg sig (t + 1)).1 ∧ ∃ T ∈ (st t).trades, T.exitTick = some t ∧ T.entryPrice = some (fillPrice cfg d x.entry)) ∧
    (closedOn cfg sig t = none → ∀ T ∈ (st t).trades, T.exitTick ≠ some t) := by
  have tt := C82_timetable H ht
  constructor
  · intro x hx
    have h1 := List.mem_of_find?_eq_some hx
    have h2 : x.exit = t := by have := List.find?_some hx; simpa using this
    refine ⟨h1, ?_⟩
    have h3 : (x.dir, true, some x.entry, some (fillPrice cfg d x.entry), some x.exit, some (fillPrice cfg d x.exit)) ∈
        (st t).trades.map (fun T => (T.direction, T.isClosed, T.entryTick, T.entryPrice, T.exitTick, T.exitPrice)) := by
      rw [tt]
      exact List.mem_append_left _ (List.mem_map.mpr ⟨x, h1, rfl⟩)
    obtain ⟨T, hT, e⟩ := List.mem_map.mp h3
    simp only [Prod.mk.injEq] at e
    exact ⟨T, hT, by rw [e.2.2.2.2.1, h2], e.2.2.2.1⟩
  · intro hn T hT hx
    have h3 := List.mem_map_of_mem (f := fun T : Trade α => (T.direction, T.isClosed, T.entryTick, T.entryPrice, T.exitTick, T.exitPrice)) hT
    rw [tt, List.mem_append] at h3
    rcases h3 with h | h
    · obtain ⟨x, h1, e⟩ := List.mem_map.mp h
      simp only [Prod.mk.injEq] at e
      have := List.find?_eq_none.mp hn x h1
      have h2 := e.2.2.2.2.1
      rw [hx] at h2
      simp only [Option.some.injEq] at h2
      simp [h2] at this
    · obtain ⟨x, h1, e⟩ := List.mem_map.mp h
      simp only [Prod.mk.injEq] at e
      have h2 := e.2.2.2.2.1
      rw [hx] at h2
      exact absurd h2 (by simp)

theorem closedOn_exited (H : Backtest cfg d sig N st) {t : Nat} (ht : t < N) : exited st t = (closedOn cfg sig t).isSome := by
  obtain ⟨h1, h2⟩ := closedOn_trade H ht
  cases hc : closedOn cfg sig t with
  | none =>
    unfold exited
    cases hx : (st t).events.onTradeExit with
    | none => rfl
    | some T =>
      have := (C43_events H ht T).2.mp hx
      exact absurd this.2 (h2 hc T this.1)
  | some x =>
    obtain ⟨-, T, k1, k2, -⟩ := h1 x hc
    unfold exited
    rw [(C43_events H ht T).2.mpr ⟨k1, k2⟩]
    rfl

section
variable {V : Valued R α} {u η top : K} (A : R.Accurate u η top) (L : R.Lawful)
variable {o h l c v : Nat → K} {cap M W : K}

theorem dropSinceExit_abs (hb : PricedBars V d N o h l c v M) (hM : 0 ≤ M) (hc : V.val cfg.initialCapital = Fl.of R (.fin cap)) {t : Nat} (ht : t < N) :
    |dropSinceExit cfg sig (fillSeries cfg o c) h l t| ≤ 2 * M := by
  have hw := fun k (hk : k < N) => (worstOpen_abs (sig := sig) hb hM hc hk).1
  have key : ∀ a b : K, |a| ≤ 2 * M → |b| ≤ 2 * M → |max a b| ≤ 2 * M := fun a b ha hb => by
    rcases le_total a b with w | w
    · rwa [max_eq_right w]
    · rwa [max_eq_left w]
  have z0 : |(0 : K)| ≤ 2 * M := by rw [abs_zero]; linarith
  induction t with
  | zero => exact key _ _ z0 (by rw [abs_neg]; exact hw 0 ht)
  | succ t ih =>
    unfold dropSinceExit
    refine key _ _ (by rw [abs_neg]; exact hw _ ht) ?_
    cases closedOn cfg sig (t + 1) with
    | none => exact ih (by omega)
    | some x => exact z0

include A L in
/-- **C105.** The drop since the last exit in floats is near the exact one; and so is, as long as every entry price is at least some `m`, the largest drop within a trade
as a part of the entry price. -/
theorem C105_intra_trade (H : Backtest cfg d sig N st) (hb : PricedBars V d N o h l c v M) (hM : 0 ≤ M)
    (hc : V.val cfg.initialCapital = Fl.of R (.fin cap)) (hf : cfg.buyWithEquity = false) (hW : |cap| + 2 * M * N + 2 * M ≤ W)
    (hn : ((N : K) + 2) * u ≤ 1) (htop : 100 * W + 100 * (N + 4) * η ≤ top) {G m : K} (hG : G = 13 * (N + 4) * (u * W + η)) (m0 : 0 < m) (mG : 2 * G ≤ m)
    (hm : ∀ x ∈ (deals cfg sig N).1, m ≤ fillSeries cfg o c x.entry) (hT : 2 * (1 + 2 * M / m) ≤ top)
    {sy : Option Int} {year : Nat → Option Int} {est : Bool} {co : Nat → CobraMetrics α} (h' : CobraRun d cfg est sy year st N co) {t : Nat} (ht : t < N) :
    Near V (co t).currentTradeMaxDrawdown (dropSinceExit cfg sig (fillSeries cfg o c) h l t) G ∧
    Near V (co t).data.intraTradeMaxDd (dropInTrades cfg sig (fillSeries cfg o c) h l t) ((1 + 2 * M / m) * (3 * (G / m) + u)) := by
  have hu := A.u_nonneg
  have hus := A.u_small
  have hη := A.η_nonneg
  have hN0 : (0 : K) ≤ N := Nat.cast_nonneg _
  have hW0 : 0 ≤ W := (netEquity_near A L H hb hM hc hf hW hn htop ht).2.2.2
  have D0 : 0 ≤ u * W + η := by positivity
  have ND0 : 0 ≤ (N : K) * (u * W + η) := by positivity
  have hG0 : 0 ≤ G := by rw [hG]; positivity
  have z : Near V (lit 0 : α) 0 G := (near_of_val (by rw [V.lit, lit_zero L])).mono hG0
  have hM2 : 2 * M ≤ W := by have := abs_nonneg cap; have : 0 ≤ 2 * M * N := by positivity
                             linarith
  have drop : ∀ k, k < N → Near V ((co k).equityMetrics.netEquity - (co k).equityMetrics.barEquityMin) (-worstOpen cfg sig (fillSeries cfg o c) h l k) G := by
    intro k hk
    obtain ⟨-, -, -, n1, -, -, n2, -⟩ := C103_equity_metrics A L H hb hM hc hf hW hn htop (cobra_em h') hk
    have hw := (worstOpen_abs (sig := sig) hb hM hc hk).1
    have e : netCurve cfg sig cap (fillSeries cfg o c) k - (netCurve cfg sig cap (fillSeries cfg o c) k + worstOpen cfg sig (fillSeries cfg o c) h l k) =
      -worstOpen cfg sig (fillSeries cfg o c) h l k := by ring
    have h1 : |netCurve cfg sig cap (fillSeries cfg o c) k - (netCurve cfg sig cap (fillSeries cfg o c) k + worstOpen cfg sig (fillSeries cfg o c) h l k)| ≤ W := by
      rw [e, abs_neg]; linarith
    have a1 : ((N : K) + 2) * u * W ≤ 1 * W := mul_le_mul_of_nonneg_right hn hW0
    have a2 : u * W ≤ W / 1024 := by have := mul_le_mul_of_nonneg_right hus hW0; linarith
    have a3 : 0 ≤ (N : K) * η := by positivity
    have a4 : u * (N * (u * W + η)) ≤ N * (u * W + η) / 1024 := by have := mul_le_mul_of_nonneg_right hus ND0; linarith
    have a5 : u * (u * W + η) ≤ (u * W + η) / 1024 := by have := mul_le_mul_of_nonneg_right hus D0; linarith
    have := Near.sub A n1 n2 h1 (by linarith)
    rw [e] at this
    refine this.mono ?_
    rw [hG]
    linarith
  have cur : ∀ k, k < N → Near V (co k).currentTradeMaxDrawdown (dropSinceExit cfg sig (fillSeries cfg o c) h l k) G := by
    intro k
    induction k with
    | zero =>
      intro hk
      rw [(C59_intra_trade H h' hk).1, sinceExit_zero]
      unfold dropSinceExit
      rw [max_comm]
      exact (drop 0 hk).max z
    | succ k ih =>
      intro hk
      rw [(C59_intra_trade H h' hk).1, sinceExit_succ, closedOn_exited H hk]
      unfold dropSinceExit
      cases closedOn cfg sig (k + 1) with
      | none =>
        simp only [Option.isSome_none, Bool.false_eq_true, if_false, List.map_append, List.map_singleton, runMax'_snoc]
        rw [← (C59_intra_trade H h' (show k < N by omega)).1]
        exact (drop _ hk).max (ih (by omega))
      | some x =>
        simp only [Option.isSome_some, if_true, List.nil_append, List.map_singleton]
        exact (drop _ hk).max z
  refine ⟨cur t ht, ?_⟩
  have hF0 : 0 ≤ (1 + 2 * M / m) * (3 * (G / m) + u) := by positivity
  induction t with
  | zero =>
    obtain ⟨-, i1, -⟩ := C59_intra_trade H h' ht
    rw [i1 fun T hT hx => absurd ((C59_intra_trade H h' ht).2.2 T hT hx).1 (lt_irrefl 0), if_pos rfl]
    exact (near_of_val (by rw [V.lit, lit_zero L]; rfl)).mono hF0
  | succ t ih =>
    obtain ⟨-, i1, i2⟩ := C59_intra_trade H h' ht
    obtain ⟨j1, j2⟩ := closedOn_trade H ht
    unfold dropInTrades
    cases hx : closedOn cfg sig (t + 1) with
    | none =>
      rw [i1 (j2 hx), if_neg (by omega)]
      exact ih (by omega)
    | some x =>
      obtain ⟨k0, T, k1, k2, k3⟩ := j1 x hx
      obtain ⟨-, entry, e1, e2⟩ := i2 T k1 k2
      rw [k3] at e1
      obtain rfl : fillPrice cfg d x.entry = entry := by simpa using e1
      rw [e2]
      have hmem : x ∈ (deals cfg sig N).1 := (deals_prefix cfg sig (show t + 1 + 1 ≤ N by omega)).subset k0
      have hent : x.entry < N := deals_entry_lt cfg sig N x hmem
      have hv := (hb.floatBars hc).fill hent
      have hy := hm x hmem
      exact (near_fraction A (cur t (by omega)) ((near_of_val hv.1).mono hG0) m0 (hy.trans (le_abs_self _)) mG (dropSinceExit_abs hb hM hc (by omega)) hT).max (ih (by omega))

end
end Pace
