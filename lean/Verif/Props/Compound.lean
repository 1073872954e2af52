import Verif.Props.Position
import Mathlib.Algebra.BigOperators.Group.List.Basic
import Mathlib.Tactic.FieldSimp

/-!
# What a backtest earns when each trade is for the whole equity (C82)

Level 2 (`Ex K`, exact arithmetic), `buy_with_equity = true`; the timetable of the trades in any arithmetic.
-/

set_option linter.unusedSectionVars false

namespace Pace
open Spec

section any
variable {α : Type} [F64 α]

/-- A ledger on the timetable `x` with the fill prices `p`. -/
structure OnTime (p : Nat → α) (L : Ledger α) (x : List Deal × Option (TradeDirection × Nat)) : Prop where
  closed : L.closed.map (fun c => (c.pos.dir, c.pos.tick, c.pos.price, c.exitTick, c.exitPrice)) =
    x.1.map (fun y => (y.dir, y.entry, p y.entry, y.exit, p y.exit))
  opened : L.opened.map (fun c => (c.dir, c.tick, c.price)) = x.2.map (fun y => (y.1, y.2, p y.2))

theorem deals_succ (cfg : StrategyConfig α) (sig : Nat → Option TradeDirection) (t : Nat) :
    deals cfg sig (t + 1) = match order cfg sig t, (deals cfg sig t).2 with
      | none, _ => deals cfg sig t
      | some dir, none => ((deals cfg sig t).1, some (dir, t))
      | some dir, some (was, e) =>
        if dir = was then deals cfg sig t
        else ((deals cfg sig t).1 ++ [⟨was, e, t⟩], if cfg.continous then some (dir, t) else none) := by
  rw [deals]
  rcases hd : deals cfg sig t with ⟨l, x⟩
  rcases order cfg sig t with _ | dir
  · rfl
  · rcases x with _ | ⟨was, e⟩ <;> rfl

theorem ledger_onTime (cfg : StrategyConfig α) (d : DataProvider α) (sig : Nat → Option TradeDirection) (n : Nat) :
    OnTime (fillPrice cfg d) (ledger cfg d sig n) (deals cfg sig n) := by
  induction n with
  | zero => exact ⟨rfl, rfl⟩
  | succ n ih =>
    rw [deals_succ, ledger]
    generalize ledger cfg d sig n = L at ih
    generalize deals cfg sig n = x at ih
    obtain ⟨l, y⟩ := x
    obtain ⟨h1, h2⟩ := ih
    simp only at h1 h2 ⊢
    rcases order cfg sig n with _ | dir
    · exact ⟨h1, h2⟩
    · rcases y with _ | ⟨was, e⟩
      · have hx : L.opened = none := by simpa using h2
        simp only [Ledger.tick, hx]
        exact ⟨h1, rfl⟩
      · obtain ⟨x, hx, hxe⟩ : ∃ x, L.opened = some x ∧ (x.dir, x.tick, x.price) = (was, e, fillPrice cfg d e) := by
          simpa [Option.map_eq_some_iff] using h2
        obtain ⟨dir', tick, price, size⟩ := x
        simp only [Prod.mk.injEq] at hxe
        obtain ⟨rfl, rfl, rfl⟩ := hxe
        simp only [Ledger.tick, hx]
        by_cases hd : dir = dir'
        · rw [if_pos hd, if_pos hd]
          exact ⟨h1, h2⟩
        · rw [if_neg hd, if_neg hd]
          cases cfg.continous
          · exact ⟨by simp [h1], rfl⟩
          · exact ⟨by simp [h1, Ledger.enter], rfl⟩

/-- **C82.** In any arithmetic, on any data and with any sizes: the signals alone say which trades there are, with their directions
and ticks, and the data at those ticks say their prices. -/
theorem C82_timetable {cfg : StrategyConfig α} {d : DataProvider α} {sig : Nat → Option TradeDirection} {N : Nat}
    {st : Nat → Strategy α} (H : Backtest cfg d sig N st) {t : Nat} (ht : t < N) :
    (st t).trades.map (fun T => (T.direction, T.isClosed, T.entryTick, T.entryPrice, T.exitTick, T.exitPrice)) =
      (deals cfg sig (t + 1)).1.map (fun x => (x.dir, true, some x.entry, some (fillPrice cfg d x.entry), some x.exit,
        some (fillPrice cfg d x.exit))) ++
      (deals cfg sig (t + 1)).2.toList.map (fun x => (x.1, false, some x.2, some (fillPrice cfg d x.2), none, none)) := by
  obtain ⟨h1, h2⟩ := ledger_onTime cfg d sig (t + 1)
  rw [C39_refines H ht, Ledger.trades, List.map_append]
  congr 1
  · have := congrArg (List.map fun y : TradeDirection × Nat × α × Nat × α =>
      (y.1, true, some y.2.1, some y.2.2.1, some y.2.2.2.1, some y.2.2.2.2)) h1
    simpa [List.map_map, Function.comp_def, Closed.toTrade] using this
  · have := congrArg (Option.map fun y : TradeDirection × Nat × α =>
      (y.1, false, some y.2.1, some y.2.2, (none : Option Nat), (none : Option α))) h2
    rw [Option.map_map, Option.map_map] at this
    have := congrArg Option.toList this
    simpa [Option.toList_map, List.map_map, Function.comp_def, Holding.toTrade] using this

end any
section exact
variable {K : Type} [Field K] [LinearOrder K] [IsStrictOrderedRing K] [RootOps K]
variable {cfg : StrategyConfig (Ex K)} {d : DataProvider (Ex K)} {sig : Nat → Option TradeDirection} {N : Nat}
  {st : Nat → Strategy (Ex K)} {cap : K} {o h l c v : Nat → K}

/-- A ledger on the timetable `x`, sized with the equity. -/
structure Compounds (cap : K) (f : Nat → K) (L : Ledger (Ex K)) (x : List Deal × Option (TradeDirection × Nat)) : Prop where
  realised : L.realised = fin (wealth cap f x.1 - cap)
  flat : x.2 = none → L.opened = none
  opened : ∀ dir e, x.2 = some (dir, e) → ∃ k, L.opened = some ⟨dir, k, fin (f e),
    fin (if 0 < wealth cap f x.1 ∧ 0 < f e then wealth cap f x.1 / f e else 0)⟩

theorem wealth_snoc (cap : K) (f : Nat → K) (l : List Deal) (x : Deal) :
    wealth cap f (l ++ [x]) = grown (wealth cap f l) x.dir (f x.entry) (f x.exit) := by simp [wealth]

theorem profit_grown (w e q : K) (dir : TradeDirection) (k : Nat) :
    (⟨dir, k, fin e, fin (if 0 < w ∧ 0 < e then w / e else 0)⟩ : Holding (Ex K)).profit (fin q) = fin (grown w dir e q - w) := by
  by_cases hw : 0 < w ∧ 0 < e
  · have he : e ≠ 0 := hw.2.ne'
    cases dir
    · simp only [Holding.profit, if_pos hw, grown, growth, fin_sub, fin_mul, fin_lit, fin_inj]
      push_cast
      field_simp
    · simp only [Holding.profit, if_pos hw, grown, growth, fin_sub, fin_mul, fin_lit, fin_neg, fin_inj]
      push_cast
      field_simp
      ring
  · cases dir <;> simp [Holding.profit, if_neg hw, grown]

theorem compounds_enter {f : Nat → K} {L : Ledger (Ex K)} {l : List Deal} (hr : L.realised = fin (wealth cap f l - cap))
    (hb : cfg.buyWithEquity = true) (hc : cfg.initialCapital = fin cap) (t : Nat) (dir : TradeDirection) :
    Compounds cap f (L.enter cfg t (fin (f t)) dir) (l, some (dir, t)) := by
  refine ⟨hr, by simp, ?_⟩
  rintro dir' e ⟨⟩
  refine ⟨t, ?_⟩
  simp only [Ledger.enter, hb, hr, hc, if_true, Option.some.injEq, Holding.mk.injEq, true_and]
  generalize wealth cap f l = w
  by_cases hw : 0 < w ∧ 0 < f t
  · have hcond : (F64.le (fin cap + fin (w - cap) + lit 0) (lit 0) || F64.le (fin (f t) : Ex K) (lit 0) : Bool) = false := by
      simp [hw.1, hw.2]
    rw [if_pos hw, hcond]
    simp only [Bool.false_eq_true, if_false, fin_lit, fin_add]
    rw [fin_div _ _ hw.2.ne', fin_inj]
    simp
  · have hcond : (F64.le (fin cap + fin (w - cap) + lit 0) (lit 0) || F64.le (fin (f t) : Ex K) (lit 0) : Bool) = true := by
      simp only [not_and_or, not_lt] at hw
      simpa using hw
    rw [if_neg hw, hcond]
    simp

theorem ledger_compounds (hb : ExBars d N o h l c v) (hf : cfg.buyWithEquity = true) (hc : cfg.initialCapital = fin cap) {n : Nat}
    (hn : n ≤ N) : Compounds cap (fillSeries cfg o c) (ledger cfg d sig n) (deals cfg sig n) := by
  induction n with
  | zero => exact ⟨by simp [ledger, Ledger.realised, fsum, deals, wealth], fun _ => rfl, by simp [deals]⟩
  | succ n ih =>
    rw [deals_succ, ledger, fillPrice_bars hb (by omega)]
    have ih := ih (by omega)
    generalize ledger cfg d sig n = L at ih
    generalize deals cfg sig n = x at ih
    obtain ⟨l, y⟩ := x
    obtain ⟨h1, h2, h3⟩ := ih
    simp only at h1 h2 h3 ⊢
    rcases order cfg sig n with _ | dir
    · exact ⟨h1, h2, h3⟩
    · rcases y with _ | ⟨was, e⟩
      · simp only [Ledger.tick, h2 rfl]
        exact compounds_enter h1 hf hc n dir
      · obtain ⟨k, hx⟩ := h3 was e rfl
        simp only [Ledger.tick, hx]
        by_cases hd : dir = was
        · rw [if_pos hd, if_pos hd]
          exact ⟨h1, h2, h3⟩
        · rw [if_neg hd, if_neg hd]
          have hr (x) : (⟨L.closed ++ [⟨⟨was, k, fin (fillSeries cfg o c e), fin (if 0 < wealth cap (fillSeries cfg o c) l ∧
              0 < fillSeries cfg o c e then wealth cap (fillSeries cfg o c) l / fillSeries cfg o c e else 0)⟩, n,
              fin (fillSeries cfg o c n)⟩], x⟩ : Ledger (Ex K)).realised =
              fin (wealth cap (fillSeries cfg o c) (l ++ [⟨was, e, n⟩]) - cap) := by
            have h1' : fsum (L.closed.map Closed.profit) = fin (wealth cap (fillSeries cfg o c) l - cap) := h1
            simp only [Ledger.realised, List.map_append, List.map_cons, List.map_nil, fsum_snoc, h1', Closed.profit, profit_grown,
              fin_add, wealth_snoc, fin_inj]
            ring
          cases cfg.continous
          · exact ⟨hr none, fun _ => rfl, by simp⟩
          · exact compounds_enter (hr none) hf hc n dir

/-- **C82.** In exact arithmetic, on complete finite bars, each trade for the whole equity: after every tick the capital plus the net
profit is the capital compounded over the closed trades, and the equity is that with the open trade at the bar's close. -/
theorem C82_equity (H : Backtest cfg d sig N st) (hb : ExBars d N o h l c v) (hf : cfg.buyWithEquity = true)
    (hc : cfg.initialCapital = fin cap) {t : Nat} (ht : t < N) :
    (st t).metrics.netProfit = fin (wealth cap (fillSeries cfg o c) (deals cfg sig (t + 1)).1 - cap) ∧
    (st t).metrics.equity = fin (worth cap (fillSeries cfg o c) (deals cfg sig (t + 1)) (c t)) := by
  have hd := backtest_done H t ht
  obtain ⟨h1, h2, h3⟩ := ledger_compounds (sig := sig) hb hf hc (show t + 1 ≤ N from ht)
  have hn : (st t).metrics.netProfit = fin (wealth cap (fillSeries cfg o c) (deals cfg sig (t + 1)).1 - cap) :=
    hd.books.netProfit.trans h1
  refine ⟨hn, ?_⟩
  rw [hd.equity, hc, hn, worth]
  rcases hx : (deals cfg sig (t + 1)).2 with _ | ⟨dir, e⟩
  · have ho : (st t).metrics.openProfit = fin 0 := by rw [hd.books.flat (h2 hx)]; simp
    rw [ho]
    simp
  · obtain ⟨k, hk⟩ := h3 dir e hx
    obtain ⟨q, hq, hoq⟩ := hd.openProfit _ hk
    rw [hb.close t ht] at hq
    cases hq
    rw [profit_grown] at hoq
    rw [hoq]
    simp

theorem grown_scale {k : K} (hk : 0 < k) (w : K) (dir : TradeDirection) (e q : K) : grown (k * w) dir e q = k * grown w dir e q := by
  have : (0 < k * w ∧ 0 < e) ↔ (0 < w ∧ 0 < e) := by rw [mul_pos_iff_of_pos_left hk]
  unfold grown
  by_cases hw : 0 < w ∧ 0 < e
  · rw [if_pos (this.mpr hw), if_pos hw, mul_assoc]
  · rw [if_neg (fun h => hw (this.mp h)), if_neg hw]

theorem wealth_scale {k : K} (hk : 0 < k) (cap : K) (f : Nat → K) (l : List Deal) : wealth (k * cap) f l = k * wealth cap f l := by
  induction l using List.reverseRecOn with
  | nil => rfl
  | append_singleton l x ih => rw [wealth_snoc, wealth_snoc, ih, grown_scale hk]

theorem grown_units {k : K} (hk : 0 < k) (w : K) (dir : TradeDirection) (e q : K) : grown w dir (k * e) (k * q) = grown w dir e q := by
  have : (0 < w ∧ 0 < k * e) ↔ (0 < w ∧ 0 < e) := by rw [mul_pos_iff_of_pos_left hk]
  unfold grown
  by_cases hw : 0 < w ∧ 0 < e
  · rw [if_pos (this.mpr hw), if_pos hw]
    cases dir <;> simp only [growth, mul_div_mul_left _ _ hk.ne']
  · rw [if_neg (fun h => hw (this.mp h)), if_neg hw]

theorem wealth_units {k : K} (hk : 0 < k) (cap : K) {f g : Nat → K} (hg : ∀ t, g t = k * f t) (l : List Deal) :
    wealth cap g l = wealth cap f l := by
  induction l using List.reverseRecOn with
  | nil => rfl
  | append_singleton l x ih => rw [wealth_snoc, wealth_snoc, ih, hg, hg, grown_units hk]

/-- **C82.** The equity is proportional to the capital: with `k` times the capital, and the same signals and bars, it is `k` times
as much after every tick. -/
theorem C82_capital {st' : Nat → Strategy (Ex K)} {k : K} (hk : 0 < k) (H : Backtest cfg d sig N st)
    (H' : Backtest { cfg with initialCapital := fin (k * cap) } d sig N st') (hb : ExBars d N o h l c v)
    (hf : cfg.buyWithEquity = true) (hc : cfg.initialCapital = fin cap) {t : Nat} (ht : t < N) :
    ∃ e : K, (st t).metrics.equity = fin e ∧ (st' t).metrics.equity = fin (k * e) := by
  refine ⟨_, (C82_equity H hb hf hc ht).2, ?_⟩
  have hdeals : ∀ n, deals { cfg with initialCapital := fin (k * cap) } sig n = deals cfg sig n := by
    intro n
    induction n with
    | zero => rfl
    | succ n ih => rw [deals_succ, deals_succ, ih]; rfl
  rw [(C82_equity H' hb hf rfl ht).2, hdeals, fin_inj]
  simp only [worth]
  rcases (deals cfg sig (t + 1)).2 with _ | ⟨dir, e⟩
  · exact wealth_scale hk _ _ _
  · simp only [wealth_scale hk, grown_scale hk]
    rfl

/-- **C82.** The equity does not depend on the unit of the prices: with prices `k` times as high and the same signals it is the same
after every tick. -/
theorem C82_price_units {d' : DataProvider (Ex K)} {st' : Nat → Strategy (Ex K)} {o' h' l' c' v' : Nat → K} {k : K} (hk : 0 < k)
    (H : Backtest cfg d sig N st) (H' : Backtest cfg d' sig N st') (hb : ExBars d N o h l c v) (hb' : ExBars d' N o' h' l' c' v')
    (ho : ∀ t, o' t = k * o t) (hcl : ∀ t, c' t = k * c t)
    (hf : cfg.buyWithEquity = true) (hc : cfg.initialCapital = fin cap) {t : Nat} (ht : t < N) :
    (st' t).metrics.equity = (st t).metrics.equity := by
  have hfs (t : Nat) : fillSeries cfg o' c' t = k * fillSeries cfg o c t := by
    unfold fillSeries
    cases cfg.onBarClose <;> simp [ho, hcl]
  rw [(C82_equity H' hb' hf hc ht).2, (C82_equity H hb hf hc ht).2, fin_inj]
  simp only [worth, wealth_units hk cap hfs, hfs, hcl, grown_units hk]

/-- **C82.** As long as the equity and the prices are positive, capital compounds: the capital plus the net profit is the capital times
the growth factors of the closed trades, in any order. -/
theorem C82_product (H : Backtest cfg d sig N st) (hb : ExBars d N o h l c v) (hf : cfg.buyWithEquity = true)
    (hc : cfg.initialCapital = fin cap) (hcap : 0 < cap) {t : Nat} (ht : t < N)
    (hpos : ∀ x ∈ (deals cfg sig (t + 1)).1, 0 < fillSeries cfg o c x.entry ∧
      0 < growth x.dir (fillSeries cfg o c x.entry) (fillSeries cfg o c x.exit)) :
    (st t).metrics.netProfit = fin (cap * ((deals cfg sig (t + 1)).1.map fun x =>
      growth x.dir (fillSeries cfg o c x.entry) (fillSeries cfg o c x.exit)).prod - cap) := by
  rw [(C82_equity H hb hf hc ht).1]
  generalize (deals cfg sig (t + 1)).1 = l at hpos
  suffices h : 0 < wealth cap (fillSeries cfg o c) l ∧ wealth cap (fillSeries cfg o c) l =
      cap * (l.map fun x => growth x.dir (fillSeries cfg o c x.entry) (fillSeries cfg o c x.exit)).prod by rw [h.2]
  induction l using List.reverseRecOn with
  | nil => simpa [wealth] using hcap
  | append_singleton l x ih =>
    obtain ⟨i1, i2⟩ := ih fun y hy => hpos y (by simp [hy])
    obtain ⟨p1, p2⟩ := hpos x (by simp)
    rw [wealth_snoc, grown, if_pos ⟨i1, p1⟩]
    refine ⟨mul_pos i1 p2, ?_⟩
    rw [List.map_append, List.prod_append, i2]
    simp [mul_assoc]

theorem worth_pos {f : Nat → K} (hcap : 0 < cap) {x : List Deal × Option (TradeDirection × Nat)} (hf : ∀ y ∈ x.1, 0 < f y.exit)
    {q : K} (hq : 0 < q) (h1 : ∀ y ∈ x.1, y.dir = .long) (h2 : ∀ y ∈ x.2, y.1 = .long) : 0 < wealth cap f x.1 ∧ 0 < worth cap f x q := by
  have hg {w e q : K} (hw : 0 < w) (hq : 0 < q) : 0 < grown w .long e q := by
    unfold grown growth
    split
    · rename_i h
      exact mul_pos hw (div_pos hq h.2)
    · exact hw
  obtain ⟨l, y⟩ := x
  simp only at hf h1 h2
  have hw : 0 < wealth cap f l := by
    induction l using List.reverseRecOn with
    | nil => exact hcap
    | append_singleton l x ih =>
      rw [wealth_snoc, h1 x (by simp)]
      exact hg (ih (fun y hy => hf y (by simp [hy])) fun y hy => h1 y (by simp [hy])) (hf x (by simp))
  refine ⟨hw, ?_⟩
  rcases y with _ | ⟨dir, e⟩
  · exact hw
  · obtain rfl : dir = .long := h2 (dir, e) rfl
    exact hg hw hq

theorem deals_exit_lt {α : Type} [F64 α] (cfg : StrategyConfig α) (sig : Nat → Option TradeDirection) (n : Nat) :
    (∀ x ∈ (deals cfg sig n).1, x.exit < n) ∧ ∀ y ∈ (deals cfg sig n).2, y.2 < n := by
  induction n with
  | zero => simp [deals]
  | succ n ih =>
    rw [deals_succ]
    generalize deals cfg sig n = x at ih
    obtain ⟨l, y⟩ := x
    obtain ⟨h1, h2⟩ := ih
    simp only at h1 h2 ⊢
    have h1' : ∀ x ∈ l, x.exit < n + 1 := fun x hx => (h1 x hx).trans (Nat.lt_succ_self n)
    have h2' : ∀ z ∈ y, z.2 < n + 1 := fun z hz => (h2 z hz).trans (Nat.lt_succ_self n)
    rcases order cfg sig n with _ | dir
    · exact ⟨h1', h2'⟩
    · rcases y with _ | ⟨was, e⟩
      · refine ⟨h1', ?_⟩
        rintro z ⟨⟩
        exact Nat.lt_succ_self n
      · simp only
        by_cases hd : dir = was
        · rw [if_pos hd]
          exact ⟨h1', h2'⟩
        · rw [if_neg hd]
          refine ⟨fun x hx => ?_, ?_⟩
          · rcases List.mem_append.mp hx with hx | hx
            · exact h1' x hx
            · simp only [List.mem_singleton] at hx
              subst hx
              exact Nat.lt_succ_self n
          · cases cfg.continous
            · simp
            · rintro z ⟨⟩
              exact Nat.lt_succ_self n

/-- **C82.** Who only buys is never ruined: with positive capital and prices, while all trades are long, the equity is positive. -/
theorem C82_long (H : Backtest cfg d sig N st) (hb : ExBars d N o h l c v) (hf : cfg.buyWithEquity = true)
    (hc : cfg.initialCapital = fin cap) (hcap : 0 < cap) (hp : ∀ t, t < N → 0 < o t ∧ 0 < c t) {t : Nat} (ht : t < N)
    (hl : ∀ T ∈ (st t).trades, T.direction = .long) :
    ∃ e : K, (st t).metrics.equity = fin e ∧ 0 < e := by
  refine ⟨_, (C82_equity H hb hf hc ht).2, ?_⟩
  have hall : ∀ dir, dir ∈ (deals cfg sig (t + 1)).1.map Deal.dir ++ (deals cfg sig (t + 1)).2.toList.map Prod.fst → dir = .long := by
    have := congrArg (List.map Prod.fst) (C82_timetable H ht)
    simp only [List.map_append, List.map_map, Function.comp_def] at this
    rw [show (deals cfg sig (t + 1)).1.map Deal.dir ++ (deals cfg sig (t + 1)).2.toList.map Prod.fst =
      (st t).trades.map (fun T => T.direction) from this.symm]
    intro dir hd
    obtain ⟨T, hT, rfl⟩ := List.mem_map.mp hd
    exact hl T hT
  obtain ⟨e1, _⟩ := deals_exit_lt cfg sig (t + 1)
  refine (worth_pos hcap (fun y hy => ?_) (hp t ht).2 (fun y hy => ?_) fun y hy => ?_).2
  · have := hp y.exit (by have := e1 y hy; omega)
    unfold fillSeries
    cases cfg.onBarClose
    · exact this.1
    · exact this.2
  · exact hall _ (List.mem_append_left _ (List.mem_map_of_mem hy))
  · exact hall _ (List.mem_append_right _ (List.mem_map_of_mem (by simpa using hy)))

theorem wealth_ruined {f : Nat → K} {n : Nat} (hw : wealth cap f (deals cfg sig n).1 ≤ 0) (m : Nat) :
    wealth cap f (deals cfg sig (n + m)).1 = wealth cap f (deals cfg sig n).1 := by
  induction m with
  | zero => rfl
  | succ m ih =>
    rw [← ih] at hw ⊢
    rw [← Nat.add_assoc, deals_succ]
    generalize deals cfg sig (n + m) = x at hw
    obtain ⟨l, y⟩ := x
    simp only at hw ⊢
    rcases order cfg sig (n + m) with _ | dir
    · rfl
    · rcases y with _ | ⟨was, e⟩
      · rfl
      · simp only
        by_cases hd : dir = was
        · rw [if_pos hd]
        · rw [if_neg hd]
          simp only [wealth_snoc]
          exact if_neg fun h => absurd h.1 (not_lt.mpr hw)

/-- **C82.** Ruin is for ever: once the closed trades have lost the capital, the net profit and the equity never change again, and
every trade that is open has size 0. -/
theorem C82_ruin (H : Backtest cfg d sig N st) (hb : ExBars d N o h l c v) (hf : cfg.buyWithEquity = true)
    (hc : cfg.initialCapital = fin cap) {t u : Nat} (htu : t ≤ u) (hu : u < N) {net : K} (hn : (st t).metrics.netProfit = fin net)
    (hr : cap + net ≤ 0) :
    (st u).metrics.netProfit = fin net ∧ (st u).metrics.equity = fin (cap + net) ∧
    ∀ T ∈ (st u).trades, T.isClosed = false → T.fillSize = some (fin 0) := by
  have hw : wealth cap (fillSeries cfg o c) (deals cfg sig (t + 1)).1 = cap + net := by
    rw [(C82_equity H hb hf hc (by omega)).1, fin_inj] at hn
    rw [← hn]
    ring
  have hw' : wealth cap (fillSeries cfg o c) (deals cfg sig (u + 1)).1 = cap + net := by
    obtain ⟨m, rfl⟩ := Nat.exists_eq_add_of_le htu
    have := wealth_ruined (cfg := cfg) (sig := sig) (f := fillSeries cfg o c) (n := t + 1) (cap := cap) (by rw [hw]; exact hr) m
    rw [hw] at this
    rw [← this]
    congr 2
    ring_nf
  refine ⟨?_, ?_, ?_⟩
  · rw [(C82_equity H hb hf hc hu).1, hw', fin_inj]
    ring
  · rw [(C82_equity H hb hf hc hu).2, fin_inj, worth]
    rcases (deals cfg sig (u + 1)).2 with _ | ⟨dir, e⟩
    · exact hw'
    · simp only [hw']
      exact if_neg fun h => absurd h.1 (not_lt.mpr hr)
  · rw [C39_refines H hu]
    intro T hT hcl
    rcases List.mem_append.mp hT with hT | hT
    · obtain ⟨c, _, rfl⟩ := List.mem_map.mp hT
      simp [Closed.toTrade] at hcl
    · obtain ⟨x, hx, rfl⟩ : ∃ x, (ledger cfg d sig (u + 1)).opened = some x ∧ x.toTrade = T := by
        simpa [Option.map_eq_some_iff] using hT
      obtain ⟨_, h2, h3⟩ := ledger_compounds (sig := sig) hb hf hc (show u + 1 ≤ N from hu)
      rcases hy : (deals cfg sig (u + 1)).2 with _ | ⟨dir, e⟩
      · rw [h2 hy] at hx
        cases hx
      · obtain ⟨k, hk⟩ := h3 dir e hy
        rw [hk] at hx
        cases hx
        simp only [Holding.toTrade]
        rw [hw', if_neg fun h => absurd h.1 (not_lt.mpr hr)]

/-- **C82.** Limits of one trade: with positive capital plus net profit `w` and positive prices, an open long trade never takes the equity
to 0, and an open short trade never doubles it; the short trade is worth 0 or less exactly when the price has at least doubled. -/
theorem C82_limits (H : Backtest cfg d sig N st) (hb : ExBars d N o h l c v) (hf : cfg.buyWithEquity = true)
    (hc : cfg.initialCapital = fin cap) {t : Nat} (ht : t < N) {net entry : K} (hn : (st t).metrics.netProfit = fin net)
    (hw : 0 < cap + net) {T : Trade (Ex K)} (hT : T ∈ (st t).trades) (ho : T.isClosed = false) (he : T.entryPrice = some (fin entry))
    (hpos : 0 < entry) (hcl : 0 < c t) :
    ∃ e : K, (st t).metrics.equity = fin e ∧ (T.direction = .long → 0 < e) ∧
      (T.direction = .short → e < 2 * (cap + net) ∧ (e ≤ 0 ↔ 2 * entry ≤ c t)) := by
  have hw' : wealth cap (fillSeries cfg o c) (deals cfg sig (t + 1)).1 = cap + net := by
    rw [(C82_equity H hb hf hc ht).1, fin_inj] at hn
    rw [← hn]
    ring
  refine ⟨_, (C82_equity H hb hf hc ht).2, ?_⟩
  rw [C39_refines H ht] at hT
  rcases List.mem_append.mp hT with hT | hT
  · obtain ⟨c, _, rfl⟩ := List.mem_map.mp hT
    simp [Closed.toTrade] at ho
  obtain ⟨x, hx, rfl⟩ : ∃ x, (ledger cfg d sig (t + 1)).opened = some x ∧ x.toTrade = T := by
    simpa [Option.map_eq_some_iff] using hT
  obtain ⟨_, h2, h3⟩ := ledger_compounds (sig := sig) hb hf hc (show t + 1 ≤ N from ht)
  rcases hy : (deals cfg sig (t + 1)).2 with _ | ⟨dir, k⟩
  · rw [h2 hy] at hx
    cases hx
  obtain ⟨j, hj⟩ := h3 dir k hy
  rw [hj] at hx
  cases hx
  simp only [Holding.toTrade, Option.some.injEq, fin_inj] at he
  simp only [worth, hy, hw', he, grown, hw, hpos, and_self, if_true, Holding.toTrade]
  refine ⟨?_, ?_⟩
  · rintro rfl
    exact mul_pos hw (div_pos hcl hpos)
  · rintro rfl
    simp only [growth]
    refine ⟨?_, ?_⟩
    · have := mul_pos hw (div_pos hcl hpos)
      linarith [mul_sub (cap + net) 2 (c t / entry)]
    · rw [← not_lt, mul_pos_iff_of_pos_left hw, not_lt, sub_nonpos, le_div_iff₀ hpos]

/-- **C82.** Buy and hold: if the first order, `long`, is filled on tick `e` and no `short` order follows, the equity from then on is the
capital times the close over the entry price. -/
theorem C82_hold (H : Backtest cfg d sig N st) (hb : ExBars d N o h l c v) (hf : cfg.buyWithEquity = true)
    (hc : cfg.initialCapital = fin cap) (hcap : 0 < cap) {e t : Nat} (h0 : ∀ k, k < e → order cfg sig k = none)
    (he : order cfg sig e = some .long) (hn : ∀ k, e < k → k ≤ t → order cfg sig k ≠ some .short) (het : e ≤ t) (ht : t < N)
    (hpos : 0 < fillSeries cfg o c e) :
    (st t).metrics.equity = fin (cap * (c t / fillSeries cfg o c e)) := by
  have hd : ∀ k, k ≤ t + 1 → deals cfg sig k = ([], if k ≤ e then none else some (.long, e)) := by
    intro k
    induction k with
    | zero => simp [deals]
    | succ k ih =>
      intro hk
      rw [deals_succ, ih (by omega)]
      rcases lt_trichotomy k e with hlt | rfl | hgt
      · rw [h0 k hlt]
        simp [hlt.le, Nat.succ_le_of_lt hlt]
      · rw [he]
        simp
      · have := hn k hgt (by omega)
        have h1 : ¬ k ≤ e := by omega
        have h2 : ¬ k + 1 ≤ e := by omega
        rcases ho : order cfg sig k with _ | dir
        · simp [h1, h2]
        · cases dir
          · simp [h1, h2]
          · exact absurd ho this
  rw [(C82_equity H hb hf hc ht).2, fin_inj, worth, hd (t + 1) le_rfl, if_neg (by omega)]
  simp [wealth, grown, growth, hcap, hpos]

end exact

/-! ## Concrete runs -/
section witness

/-- The run of `Verif/Props/Strategy2.lean`: short from 10 to 12 (100 becomes 80), long from 12 to 15 (80 becomes 100), short from 15; on the last
close, 14, the equity is 100 times 16/15. -/
example : ∃ st, Backtest exCfg exBars exSig 5 st ∧ deals exCfg exSig 5 = ([⟨.short, 1, 2⟩, ⟨.long, 2, 4⟩], some (.short, 4)) ∧
    (st 4).metrics.netProfit = fin (100 * (growth .short 10 12 * growth .long 12 15) - 100) ∧ (st 4).metrics.equity = fin (100 * (16/15)) := by
  obtain ⟨st, H⟩ := exRun
  refine ⟨st, H, by decide, ?_, ?_⟩
  · rw [C82_product (cap := 100) H exBars_exact rfl rfl (by norm_num) (by norm_num : 4 < 5) (by decide +kernel), fin_inj]
    decide +kernel
  · rw [(C82_equity (cap := 100) H exBars_exact rfl rfl (by norm_num : 4 < 5)).2, fin_inj]
    decide +kernel

/-- Five bars: 10, 10, 25, 25, 30. -/
def ruinBars : DataProvider (Ex ℚ) :=
  .ofSeries 5 (fun t => some (fin ([10, 10, 25, 25, 30].getD t 0))) (fun t => some (fin ([10, 10, 25, 25, 30].getD t 0)))
    (fun t => some (fin ([10, 10, 25, 25, 30].getD t 0))) (fun t => some (fin ([10, 10, 25, 25, 30].getD t 0)))
    (fun _ => some (fin 1))

/-- Sold short at 10 and reversed at 25: a loss of 150 on a capital of 100. The long trade at 25 is for nothing. -/
example : ∃ st, Backtest exCfg ruinBars exSig 5 st ∧ (st 2).metrics.netProfit = fin (-150) ∧ (st 4).metrics.netProfit = fin (-150) ∧
    (st 4).metrics.equity = fin (-50) := by
  obtain ⟨st, H⟩ : ∃ st, Backtest exCfg ruinBars exSig 5 st := C57_strategy_complete exCfg exSig (bars_ofSeries 5 _ _ _ _ _)
  have hb : ExBars ruinBars 5 (fun t => [10, 10, 25, 25, 30].getD t 0) (fun t => [10, 10, 25, 25, 30].getD t 0)
      (fun t => [10, 10, 25, 25, 30].getD t 0) (fun t => [10, 10, 25, 25, 30].getD t 0) (fun _ => (1 : ℚ)) := bars_ofSeries 5 _ _ _ _ _
  have h2 : (st 2).metrics.netProfit = fin (-150) := by
    rw [(C82_equity (cap := 100) H hb rfl rfl (by norm_num : 2 < 5)).1, fin_inj]
    decide +kernel
  obtain ⟨h3, h4, _⟩ := C82_ruin (cap := 100) (t := 2) (u := 4) H hb rfl rfl (by norm_num) (by norm_num) h2 (by norm_num)
  exact ⟨st, H, h2, h3, by rw [h4]; norm_num⟩

/-- Buying on the first bar and holding: bought at 10, the next open; on the last close, 14, the equity is 140. All trades are long, so it
is positive. -/
example : ∃ st, Backtest exCfg exBars (fun t => if t = 0 then some .long else none) 5 st ∧ (st 4).metrics.equity = fin 140 ∧
    ∀ T ∈ (st 4).trades, T.direction = .long := by
  obtain ⟨st, H⟩ : ∃ st, Backtest exCfg exBars (fun t => if t = 0 then some .long else none) 5 st :=
    C57_strategy_complete exCfg _ (bars_ofSeries 5 _ _ _ _ _)
  refine ⟨st, H, ?_, ?_⟩
  · rw [C82_hold (cap := 100) (e := 1) H exBars_exact rfl rfl (by norm_num) (by decide) (by decide) ?_ (by norm_num) (by norm_num : 4 < 5)
      (by decide +kernel), fin_inj]
    · decide +kernel
    · intro k h1 h2
      have : k - 1 ≠ 0 := by omega
      simp [order, exCfg, this]
  · rw [C39_refines H (by norm_num : 4 < 5)]
    decide +kernel

end witness
end Pace
