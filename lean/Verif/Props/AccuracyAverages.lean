import Verif.Props.AccuracyTrades

/-!
# C103: the reported ratios in floats

One unit per trade. Averages per trade, percentages of the capital, profit factor and the like.
-/

set_option linter.unusedSectionVars false

namespace Pace
open Spec
variable {K : Type} [Field K] [LinearOrder K] [IsStrictOrderedRing K] [RootOps K] {R : Rounding K}
variable {α : Type} [F64 α]

/-- A total per trade, none without trades. -/
def Spec.perTrade (x : K) (n : Nat) : K := if n = 0 then 0 else x / n

/-- The number of winning positions. -/
def Spec.winners (f : Nat → K) (l : List Deal) : Nat := l.countP fun x => 0 < dealProfit f x
/-- The number of losing positions. -/
def Spec.losers (f : Nat → K) (l : List Deal) : Nat := l.countP fun x => dealProfit f x < 0

theorem abs_sum_le' {β : Type} (w : β → K) {m : K} : ∀ (q : List β), (∀ y ∈ q, |w y| ≤ m) → |(q.map w).sum| ≤ q.length * m
  | [], _ => by simp
  | a :: q, hb => by
    have h1 := abs_sum_le' w q fun y hy => hb y (by simp [hy])
    have h2 := hb a (by simp)
    rw [List.map_cons, List.sum_cons, List.length_cons]
    push_cast
    exact (abs_add_le _ _).trans (by linarith)

theorem dealProfit_abs {f : Nat → K} {M : K} {N : Nat} (hf : ∀ t, t < N → |f t| ≤ M) (cfg : StrategyConfig α) (sig : Nat → Option TradeDirection) {n : Nat} (hn : n ≤ N) {x : Deal}
    (hx : x ∈ (deals cfg sig n).1) : |dealProfit f x| ≤ 2 * M := by
  have h1 := hf x.entry ((deals_entry_lt cfg sig n x hx).trans_le hn)
  have h2 := hf x.exit (((deals_exit_lt cfg sig n).1 x hx).trans_le hn)
  have hg : |f x.exit - f x.entry| ≤ 2 * M := by
    rw [abs_le] at *; constructor <;> linarith
  unfold dealProfit
  cases x.dir <;> simp only [side] <;> push_cast
  · rwa [one_mul]
  · rwa [neg_one_mul, abs_neg]

/-- The sums over the closed positions are no greater than `2 M` per bar. -/
theorem sums_abs {f : Nat → K} {M : K} (hM : 0 ≤ M) {N : Nat} (hf : ∀ t, t < N → |f t| ≤ M) (cfg : StrategyConfig α) (sig : Nat → Option TradeDirection) {n : Nat} (hn : n ≤ N) :
    |won f (deals cfg sig n).1| ≤ 2 * M * N ∧ |lost f (deals cfg sig n).1| ≤ 2 * M * N ∧ ∀ dir, |bookedOn dir f (deals cfg sig n).1| ≤ 2 * M * N := by
  have hlen := (deals_length_le cfg sig n).trans hn
  have hd := fun x hx => dealProfit_abs hf cfg sig hn (x := x) hx
  have fin : ∀ (w : Deal → K) (q : List Deal), q.length ≤ N → (∀ x ∈ q, |w x| ≤ 2 * M) → |(q.map w).sum| ≤ 2 * M * N := by
    intro w q hq hw
    have h1 := abs_sum_le' w q hw
    have h2 : ((q.length : Nat) : K) * (2 * M) ≤ N * (2 * M) := mul_le_mul_of_nonneg_right (Nat.cast_le.mpr hq) (by linarith)
    linarith
  refine ⟨?_, ?_, fun dir => ?_⟩
  · unfold won
    rw [List.filter_map]
    exact fin _ _ ((List.length_filter_le _ _).trans hlen) fun x hx => hd x (List.mem_of_mem_filter hx)
  · unfold lost
    rw [List.filter_map, List.map_map]
    exact fin _ _ ((List.length_filter_le _ _).trans hlen) fun x hx => by
      show |(|dealProfit f x|)| ≤ _
      rw [abs_abs]; exact hd x (List.mem_of_mem_filter hx)
  · exact fin _ _ ((List.length_filter_le _ _).trans hlen) fun x hx => hd x (List.mem_of_mem_filter hx)

section
variable {V : Valued R α} {u η top : K} (A : R.Accurate u η top) (L : R.Lawful)
variable {cfg : StrategyConfig α} {d : DataProvider α} {sig : Nat → Option TradeDirection} {N : Nat} {st : Nat → Strategy α}
variable {o h l c v : Nat → K} {cap M W : K}

include A L in
/-- A total, divided by a number of trades. -/
theorem near_perTrade (hW0 : 0 ≤ W) (hn : ((N : K) + 2) * u ≤ 1) (htop : 100 * W + 100 * (N + 4) * η ≤ top) {a : α} {x : K} (ha : Near V a x (6 * N * (u * W + η)))
    (hx : |x| ≤ W) {n : Nat} (h53 : n ≤ 2 ^ 53) :
    Near V (if n = 0 then lit 0 else a / lit (n : ℚ)) (perTrade x n) (6 * (N + 2) * (u * W + η)) := by
  have hu := A.u_nonneg
  have hus := A.u_small
  have hη := A.η_nonneg
  have hN0 : (0 : K) ≤ N := Nat.cast_nonneg _
  have hD : 0 ≤ u * W + η := by positivity
  unfold perTrade
  by_cases h0 : n = 0
  · rw [if_pos h0, if_pos h0]
    exact (near_of_val (by rw [V.lit, lit_zero L])).mono (by positivity)
  rw [if_neg h0, if_neg h0]
  have n1 : (1 : K) ≤ n := by exact_mod_cast Nat.one_le_iff_ne_zero.mpr h0
  have n0 : (0 : K) < n := lt_of_lt_of_le one_pos n1
  have he := ha.nonneg
  have hm : |x / n| ≤ W := by
    rw [abs_div, abs_of_pos n0]
    exact (div_le_self (abs_nonneg _) n1).trans hx
  have hen : 6 * N * (u * W + η) / n ≤ 6 * N * (u * W + η) := div_le_self he n1
  have hen0 : 0 ≤ 6 * N * (u * W + η) / n := div_nonneg he n0.le
  have e2 : (N + 2) * u * (u * W + η) ≤ 1 * (u * W + η) := mul_le_mul_of_nonneg_right hn hD
  have e3 : (N + 2) * u * W ≤ 1 * W := mul_le_mul_of_nonneg_right hn hW0
  have e4 : 0 ≤ u * (u * W + η) := mul_nonneg hu hD
  have e5 : 0 ≤ u * W := mul_nonneg hu hW0
  have e6 := mul_le_mul_of_nonneg_left hen hu
  have e7 : 0 ≤ (N : K) * η := by positivity
  refine (Near.div A n0 ha (val_lit_nat L h53) hm ?_).mono ?_
  · linarith
  · linarith

include A L in
/-- **C103.** The averages: profit per trade, per winning trade and loss per losing trade are within `6 (N + 2)` roundings of the exact ones, and the
share of winning trades within two. -/
theorem C103_averages (H : Backtest cfg d sig N st) (hb : PricedBars V d N o h l c v M) (hM : 0 ≤ M) (hc : V.val cfg.initialCapital = Fl.of R (.fin cap))
    (hf : cfg.buyWithEquity = false) (hW : |cap| + 2 * M * N + 2 * M ≤ W) (hn : ((N : K) + 2) * u ≤ 1) (htop : 100 * W + 100 * (N + 4) * η ≤ top)
    (clear : ∀ i j, i < N → j < N → fillSeries cfg o c i = fillSeries cfg o c j ∨ η < |fillSeries cfg o c i - fillSeries cfg o c j|) (h53 : N ≤ 2 ^ 53) (h1 : 4 ≤ top)
    {rfr : α} {tv : Nat → TvMetrics α} (hr : TvRun d cfg rfr st N tv) {t : Nat} (ht : t < N) :
    Near V (tv t).data.avgTrade (perTrade (booked (fillSeries cfg o c) (deals cfg sig (t + 1)).1) (deals cfg sig (t + 1)).1.length) (6 * (N + 2) * (u * W + η)) ∧
    Near V (tv t).data.avgWinningTrade (perTrade (won (fillSeries cfg o c) (deals cfg sig (t + 1)).1) (winners (fillSeries cfg o c) (deals cfg sig (t + 1)).1)) (6 * (N + 2) * (u * W + η)) ∧
    Near V (tv t).data.avgLosingTrade (perTrade (lost (fillSeries cfg o c) (deals cfg sig (t + 1)).1) (losers (fillSeries cfg o c) (deals cfg sig (t + 1)).1)) (6 * (N + 2) * (u * W + η)) ∧
    Near V (tv t).data.percentProfitable (perTrade (winners (fillSeries cfg o c) (deals cfg sig (t + 1)).1 : K) (deals cfg sig (t + 1)).1.length) (2 * u) := by
  have hu := A.u_nonneg
  have hη := A.η_nonneg
  have hN0 : (0 : K) ≤ N := Nat.cast_nonneg _
  have hηu : η ≤ u / 1024 := A.η_small.trans (by have := mul_le_mul_of_nonneg_right A.u_small hu; linarith)
  have fb := hb.floatBars hc
  obtain ⟨k1, k2, k3, s1, s2, -, -, -, -⟩ := C103_trades A L H hb hM hc hf hW hn htop clear ht
  obtain ⟨-, -, -, -, r5, r6, r7, r8, -⟩ := C49_ratios H hr ht
  obtain ⟨b1, b2, -⟩ := sums_abs hM (fun t ht => (fb.fill ht).2) cfg sig (Nat.succ_le_of_lt ht)
  have b0 := (booked_abs cfg sig hM (f := fillSeries cfg o c) (N := N) (fun t ht => (fb.fill ht).2) (t + 1) ht).1
  obtain ⟨-, -, -, hW0⟩ := netEquity_near A L H hb hM hc hf hW hn htop ht
  have hMN : 2 * M * ((t + 1 : Nat) : K) ≤ 2 * M * N := mul_le_mul_of_nonneg_left (by exact_mod_cast ht) (by linarith)
  have hNη : 0 ≤ (N : K) * η := by positivity
  have hca := abs_nonneg cap
  have n1 : Near V (st t).metrics.netProfit (booked (fillSeries cfg o c) (deals cfg sig (t + 1)).1) (6 * N * (u * W + η)) := by
    refine (C83_equity A L H fb hf (W := W) (fun n hn' => ?_) hn (by linarith) ht).1.mono ?_
    · have h1 := (booked_abs cfg sig hM (f := fillSeries cfg o c) (N := N) (fun t ht => (fb.fill ht).2) n hn').1
      have h2 : 2 * M * (n : K) ≤ 2 * M * N := mul_le_mul_of_nonneg_left (by exact_mod_cast hn') (by linarith)
      linarith
    · rw [k1]
      have : (((deals cfg sig (t + 1)).1.length : Nat) : K) ≤ N := by exact_mod_cast (deals_length_le cfg sig (t + 1)).trans ht
      exact mul_le_mul_of_nonneg_right (by linarith) (by positivity)
  have l1 : (deals cfg sig (t + 1)).1.length ≤ N := (deals_length_le cfg sig (t + 1)).trans ht
  have l2 : winners (fillSeries cfg o c) (deals cfg sig (t + 1)).1 ≤ (deals cfg sig (t + 1)).1.length := List.countP_le_length
  have l3 : losers (fillSeries cfg o c) (deals cfg sig (t + 1)).1 ≤ (deals cfg sig (t + 1)).1.length := List.countP_le_length
  rw [k1] at r5 r6
  rw [k2] at r5 r7
  rw [k3] at r8
  have g := fun (a : α) x ha hx n hn' => near_perTrade A L (V := V) (N := N) hW0 hn htop (a := a) (x := x) ha hx (n := n) hn'
  refine ⟨?_, ?_, ?_, ?_⟩
  · rw [r6]; exact g _ _ n1 (by linarith) _ (l1.trans h53)
  · rw [r7]; exact g _ _ s1 (by linarith) _ (l2.trans (l1.trans h53))
  · rw [r8]; exact g _ _ s2 (by linarith) _ (l3.trans (l1.trans h53))
  · rw [r5]
    unfold perTrade
    by_cases h0 : (deals cfg sig (t + 1)).1.length = 0
    · rw [if_pos h0, if_pos h0]
      exact (near_of_val (by rw [V.lit, lit_zero L])).mono (by positivity)
    rw [if_neg h0, if_neg h0]
    have p1 : (1 : K) ≤ ((deals cfg sig (t + 1)).1.length : Nat) := by exact_mod_cast Nat.one_le_iff_ne_zero.mpr h0
    have p0 : (0 : K) < ((deals cfg sig (t + 1)).1.length : Nat) := lt_of_lt_of_le one_pos p1
    have hm : |(winners (fillSeries cfg o c) (deals cfg sig (t + 1)).1 : K) / ((deals cfg sig (t + 1)).1.length : Nat)| ≤ 1 := by
      rw [abs_of_nonneg (by positivity), div_le_one p0]
      exact_mod_cast l2
    refine (Near.div A p0 (near_of_val (val_lit_nat (V := V) L (l2.trans (l1.trans h53)))) (val_lit_nat L (l1.trans h53)) hm ?_).mono ?_
    · rw [zero_div]; linarith
    · rw [zero_div]; linarith

include A L in
/-- The sums behind the ratios. -/
theorem sums_near (H : Backtest cfg d sig N st) (hb : PricedBars V d N o h l c v M) (hM : 0 ≤ M) (hc : V.val cfg.initialCapital = Fl.of R (.fin cap))
    (hf : cfg.buyWithEquity = false) (hW : |cap| + 2 * M * N + 2 * M ≤ W) (hn : ((N : K) + 2) * u ≤ 1) (htop : 100 * W + 100 * (N + 4) * η ≤ top) {t : Nat} (ht : t < N) :
    Near V (st t).metrics.netProfit (booked (fillSeries cfg o c) (deals cfg sig (t + 1)).1) (6 * N * (u * W + η)) ∧ |booked (fillSeries cfg o c) (deals cfg sig (t + 1)).1| ≤ W ∧
    |won (fillSeries cfg o c) (deals cfg sig (t + 1)).1| ≤ W ∧ |lost (fillSeries cfg o c) (deals cfg sig (t + 1)).1| ≤ W ∧
    (∀ dir, |bookedOn dir (fillSeries cfg o c) (deals cfg sig (t + 1)).1| ≤ W) ∧ 0 ≤ W := by
  have hu := A.u_nonneg
  have hη := A.η_nonneg
  have hN0 : (0 : K) ≤ N := Nat.cast_nonneg _
  have fb := hb.floatBars hc
  obtain ⟨b1, b2, b3⟩ := sums_abs hM (fun t ht => (fb.fill ht).2) cfg sig (Nat.succ_le_of_lt ht)
  have b0 := (booked_abs cfg sig hM (f := fillSeries cfg o c) (N := N) (fun t ht => (fb.fill ht).2) (t + 1) ht).1
  obtain ⟨-, -, -, hW0⟩ := netEquity_near A L H hb hM hc hf hW hn htop ht
  have hMN : 2 * M * ((t + 1 : Nat) : K) ≤ 2 * M * N := mul_le_mul_of_nonneg_left (by exact_mod_cast ht) (by linarith)
  have hNη : 0 ≤ (N : K) * η := by positivity
  have hca := abs_nonneg cap
  refine ⟨?_, by linarith, by linarith, by linarith, fun dir => by linarith [b3 dir], hW0⟩
  refine (C83_equity A L H fb hf (W := W) (fun n hn' => ?_) hn (by linarith) ht).1.mono ?_
  · have h1 := (booked_abs cfg sig hM (f := fillSeries cfg o c) (N := N) (fun t ht => (fb.fill ht).2) n hn').1
    have h2 : 2 * M * (n : K) ≤ 2 * M * N := mul_le_mul_of_nonneg_left (by exact_mod_cast hn') (by linarith)
    linarith
  · rw [closedTrades_deals H ht]
    have : (((deals cfg sig (t + 1)).1.length : Nat) : K) ≤ N := by exact_mod_cast (deals_length_le cfg sig (t + 1)).trans ht
    exact mul_le_mul_of_nonneg_right (by linarith) (by positivity)

include A L in
/-- **C103.** The percentages of the starting capital, when it is positive and not below the error: net profit, gross profit and gross loss. -/
theorem C103_percents (H : Backtest cfg d sig N st) (hb : PricedBars V d N o h l c v M) (hM : 0 ≤ M) (hc : V.val cfg.initialCapital = Fl.of R (.fin cap))
    (hf : cfg.buyWithEquity = false) (hW : |cap| + 2 * M * N + 2 * M ≤ W) (hn : ((N : K) + 2) * u ≤ 1) (htop : 100 * W + 100 * (N + 4) * η ≤ top)
    (clear : ∀ i j, i < N → j < N → fillSeries cfg o c i = fillSeries cfg o c j ∨ η < |fillSeries cfg o c i - fillSeries cfg o c j|)
    {rfr : α} {tv : Nat → TvMetrics α} (hr : TvRun d cfg rfr st N tv) {t : Nat} (ht : t < N)
    {G : K} (hG : G = 6 * N * (u * W + η)) (c0 : 0 < cap) (cG : 2 * G ≤ cap) (cT : 2 * (1 + W / cap) ≤ top) :
    Near V (tv t).data.netProfitPercent (booked (fillSeries cfg o c) (deals cfg sig (t + 1)).1 / cap) ((1 + W / cap) * (3 * (G / cap) + u)) ∧
    Near V (tv t).data.grossProfitPercent (won (fillSeries cfg o c) (deals cfg sig (t + 1)).1 / cap) ((1 + W / cap) * (3 * (G / cap) + u)) ∧
    Near V (tv t).data.grossLossPercent (lost (fillSeries cfg o c) (deals cfg sig (t + 1)).1 / cap) ((1 + W / cap) * (3 * (G / cap) + u)) := by
  have hu := A.u_nonneg
  have hη := A.η_nonneg
  obtain ⟨-, -, -, s1, s2, -, -, -, -⟩ := C103_trades A L H hb hM hc hf hW hn htop clear ht
  obtain ⟨n1, b0, b1, b2, -, hW0⟩ := sums_near A L H hb hM hc hf hW hn htop ht
  obtain ⟨r1, r2, r3, -⟩ := C49_ratios H hr ht
  have hG0 : 0 ≤ G := by rw [hG]; positivity
  have hcap := (near_of_val hc).mono hG0
  rw [← hG] at n1 s1 s2
  have hy : cap ≤ |cap| := le_abs_self _
  rw [r1, r2, r3]
  exact ⟨near_fraction A n1 hcap c0 hy cG b0 cT, near_fraction A s1 hcap c0 hy cG b1 cT, near_fraction A s2 hcap c0 hy cG b2 cT⟩

include A L in
/-- **C103.** The quotients, where the denominator is `a` or more: the profit factor of both reports, the long/short ratio of profits and the ratio of
the average win to the average loss. A profit factor without losses is zero. -/
theorem C103_factors (H : Backtest cfg d sig N st) (hb : PricedBars V d N o h l c v M) (hM : 0 ≤ M) (hc : V.val cfg.initialCapital = Fl.of R (.fin cap))
    (hf : cfg.buyWithEquity = false) (hW : |cap| + 2 * M * N + 2 * M ≤ W) (hn : ((N : K) + 2) * u ≤ 1) (htop : 100 * W + 100 * (N + 4) * η ≤ top)
    (clear : ∀ i j, i < N → j < N → fillSeries cfg o c i = fillSeries cfg o c j ∨ η < |fillSeries cfg o c i - fillSeries cfg o c j|) (h53 : N ≤ 2 ^ 53) (h1 : 4 ≤ top)
    {rfr : α} {tv : Nat → TvMetrics α} (hr : TvRun d cfg rfr st N tv)
    {est : Bool} {sy : Option Int} {year : Nat → Option Int} {co : Nat → CobraMetrics α} (hco : CobraRun d cfg est sy year st N co) {t : Nat} (ht : t < N)
    {G a : K} (hG : G = 6 * (N + 2) * (u * W + η)) (a0 : 0 < a) (aG : 2 * G ≤ a) (aT : 4 * (1 + W / a) ≤ top) :
    (a ≤ lost (fillSeries cfg o c) (deals cfg sig (t + 1)).1 →
      Near V (tv t).data.profitFactor (won (fillSeries cfg o c) (deals cfg sig (t + 1)).1 / lost (fillSeries cfg o c) (deals cfg sig (t + 1)).1) ((1 + W / a) * (3 * (G / a) + u)) ∧
      ((deals cfg sig (t + 1)).1 ≠ [] → (co t).data.profitFactor = (tv t).data.profitFactor)) ∧
    (lost (fillSeries cfg o c) (deals cfg sig (t + 1)).1 = 0 → (tv t).data.profitFactor = lit 0 ∧ (co t).data.profitFactor = lit 0) ∧
    (a ≤ |bookedOn .short (fillSeries cfg o c) (deals cfg sig (t + 1)).1| →
      Near V (co t).data.netProfitLSRatio (-(bookedOn .long (fillSeries cfg o c) (deals cfg sig (t + 1)).1 / bookedOn .short (fillSeries cfg o c) (deals cfg sig (t + 1)).1))
        (3 * ((1 + W / a) * (3 * (G / a) + u)))) ∧
    (a ≤ perTrade (lost (fillSeries cfg o c) (deals cfg sig (t + 1)).1) (losers (fillSeries cfg o c) (deals cfg sig (t + 1)).1) →
      Near V (tv t).data.ratioAvgWinAvgLoss (perTrade (won (fillSeries cfg o c) (deals cfg sig (t + 1)).1) (winners (fillSeries cfg o c) (deals cfg sig (t + 1)).1) /
        perTrade (lost (fillSeries cfg o c) (deals cfg sig (t + 1)).1) (losers (fillSeries cfg o c) (deals cfg sig (t + 1)).1)) ((1 + W / a) * (3 * (G / a) + u))) := by
  have hu := A.u_nonneg
  have hus := A.u_small
  have hη := A.η_nonneg
  have hηu : η ≤ u / 1024 := A.η_small.trans (by have := mul_le_mul_of_nonneg_right hus hu; linarith)
  have hN0 : (0 : K) ≤ N := Nat.cast_nonneg _
  obtain ⟨k1, k2, k3, s1, s2, s3, s4, -, z2⟩ := C103_trades A L H hb hM hc hf hW hn htop clear ht
  obtain ⟨-, -, b1, b2, b3, hW0⟩ := sums_near A L H hb hM hc hf hW hn htop ht
  obtain ⟨-, -, -, r4, -, -, -, -, r9⟩ := C49_ratios H hr ht
  obtain ⟨-, q1, q2⟩ := C59_counts H hco ht
  obtain ⟨-, v1, v2, -⟩ := C103_averages A L H hb hM hc hf hW hn htop clear h53 h1 hr ht
  have hG0 : 0 ≤ G := by rw [hG]; positivity
  have hE : 6 * N * (u * W + η) ≤ G := by rw [hG]; exact mul_le_mul_of_nonneg_right (by linarith) (by positivity)
  have hq0 : 0 ≤ W / a := div_nonneg hW0 a0.le
  have aT' : 2 * (1 + W / a) ≤ top := by linarith
  rw [← hG] at v1 v2
  replace s1 := s1.mono hE
  replace s2 := s2.mono hE
  replace s3 := s3.mono hE
  replace s4 := s4.mono hE
  rw [k1] at q1 q2
  have per : |perTrade (won (fillSeries cfg o c) (deals cfg sig (t + 1)).1) (winners (fillSeries cfg o c) (deals cfg sig (t + 1)).1)| ≤ W := by
    unfold perTrade
    by_cases h0 : winners (fillSeries cfg o c) (deals cfg sig (t + 1)).1 = 0
    · rw [if_pos h0, abs_zero]; exact hW0
    · rw [if_neg h0]
      have n1 : (1 : K) ≤ (winners (fillSeries cfg o c) (deals cfg sig (t + 1)).1 : Nat) := by exact_mod_cast Nat.one_le_iff_ne_zero.mpr h0
      rw [abs_div, abs_of_pos (lt_of_lt_of_le one_pos n1)]
      exact (div_le_self (abs_nonneg _) n1).trans b1
  refine ⟨fun ha => ?_, fun h0 => ?_, fun ha => ?_, fun ha => ?_⟩
  · have hne := near_feq_zero L s2 (lt_of_lt_of_le (by linarith) (ha.trans (le_abs_self _)))
    refine ⟨?_, fun hd => ?_⟩
    · rw [r4, hne]
      exact near_fraction A s1 s2 a0 (ha.trans (le_abs_self _)) aG b1 aT'
    · rw [r4, (q2 (fun hl => hd (List.length_eq_zero_iff.mp hl))).2.1]
  · refine ⟨by rw [r4, z2 h0]; rfl, ?_⟩
    by_cases hd : (deals cfg sig (t + 1)).1.length = 0
    · exact (q1 hd).2.1
    · rw [(q2 hd).2.1, z2 h0]; rfl
  · have hne := near_feq_zero L s4 (lt_of_lt_of_le (by linarith) ha)
    have hd : (deals cfg sig (t + 1)).1.length ≠ 0 := by
      intro hl
      rw [List.length_eq_zero_iff.mp hl] at ha
      simp [bookedOn, booked] at ha
      linarith
    rw [(q2 hd).2.2, hne]
    have f1 := near_fraction A s3 s4 a0 ha aG (b3 .long) aT'
    have m1 : Near V (-(lit 1 : α)) (-1 : K) 0 := near_of_val (by rw [V.neg, V.lit, lit_one L]; rfl)
    have hq : |bookedOn .long (fillSeries cfg o c) (deals cfg sig (t + 1)).1 / bookedOn .short (fillSeries cfg o c) (deals cfg sig (t + 1)).1| ≤ W / a := by
      rw [abs_div]
      exact div_le_div₀ hW0 (b3 _) a0 ha
    have hg1 : G / a ≤ 1 / 2 := by rw [div_le_iff₀ a0]; linarith
    have hg0 : 0 ≤ G / a := div_nonneg hG0 a0.le
    simp only [Bool.false_eq_true, if_false]
    generalize bookedOn .long (fillSeries cfg o c) (deals cfg sig (t + 1)).1 / bookedOn .short (fillSeries cfg o c) (deals cfg sig (t + 1)).1 = x at *
    generalize W / a = q at *
    generalize G / a = g at *
    have h2 : (1 + q) * (3 * g) ≤ (1 + q) * (3 * (1 / 2)) := mul_le_mul_of_nonneg_left (by linarith) (by linarith)
    have h3 : (1 + q) * u ≤ (1 + q) * (1 / 1024) := mul_le_mul_of_nonneg_left hus (by linarith)
    have h4 : (1 + q) * (3 * g + u) = (1 + q) * (3 * g) + (1 + q) * u := by ring
    have h5 : 0 ≤ (1 + q) * (3 * g) := by positivity
    have h6 : 0 ≤ q * u := by positivity
    have h7 := mul_le_mul_of_nonneg_right hus (show 0 ≤ (1 + q) * (3 * g + u) by positivity)
    rw [neg_eq_neg_one_mul, mul_comm (-1 : K)]
    refine (Near.mul A f1 m1 (m := q) (by rwa [abs_mul, abs_neg, abs_one, mul_one]) ?_).mono ?_
    · rw [abs_neg, abs_one]; linarith
    · rw [abs_neg, abs_one]
      simp only [mul_zero, zero_add, add_zero, one_mul]
      linarith
  · have hne := near_feq_zero L v2 (lt_of_lt_of_le (by linarith) (ha.trans (le_abs_self _)))
    rw [r9, hne]
    exact near_fraction A v1 v2 a0 (ha.trans (le_abs_self _)) aG per aT'

end
end Pace
