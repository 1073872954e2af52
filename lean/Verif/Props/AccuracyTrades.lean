import Verif.Props.AccuracyReport
import Verif.Props.AccuracyVolatility

/-!
# C103: the reported trade figures in floats

One unit per trade. Gross profit and loss, wins and losses, and the ratios made of them.
-/

set_option linter.unusedSectionVars false

namespace Pace
open Spec
variable {K : Type} [Field K] [LinearOrder K] [IsStrictOrderedRing K] [RootOps K] {R : Rounding K}
variable {α : Type} [F64 α]

/-- What a closed position of one unit has earned. -/
def Spec.dealProfit (f : Nat → K) (x : Deal) : K := (side x.dir : K) * (f x.exit - f x.entry)

/-- What the winning positions have earned. -/
def Spec.won (f : Nat → K) (l : List Deal) : K := ((l.map (dealProfit f)).filter fun p => 0 < p).sum
/-- What the losing positions have lost. -/
def Spec.lost (f : Nat → K) (l : List Deal) : K := ((l.map (dealProfit f)).filter fun p => p < 0).map (fun p => |p|) |>.sum
/-- What the positions of one direction have earned. -/
def Spec.bookedOn (dir : TradeDirection) (f : Nat → K) (l : List Deal) : K := booked f (l.filter fun x => x.dir = dir)

/-- **C103.** Two numbers of the binary64 format are equal or further apart than half the smallest positive one. -/
theorem C103_apart {x y : ℝ} (hx : Binary64.Representable x) (hy : Binary64.Representable y) : x = y ∨ b64η < |x - y| := by
  have key : ∀ z : ℝ, Binary64.Representable z → ∃ m : ℤ, z = m * (2 : ℝ) ^ (-1074 : ℤ) := by
    rintro z ⟨m, q, -, hq, -, rfl⟩
    refine ⟨m * 2 ^ (q - -1074).toNat, ?_⟩
    rw [Binary64.two_zpow_split hq]
    push_cast
    ring
  obtain ⟨m, rfl⟩ := key x hx
  obtain ⟨n, rfl⟩ := key y hy
  by_cases h : m = n
  · left; rw [h]
  · right
    have h1 : (1 : ℝ) ≤ |((m - n : ℤ) : ℝ)| := by
      rw [← Int.cast_abs]
      exact_mod_cast Int.one_le_abs (sub_ne_zero.mpr h)
    have p := Binary64.two_zpow_pos (K := ℝ) (-1075)
    have e : (2 : ℝ) ^ (-1074 : ℤ) = 2 * (2 : ℝ) ^ (-1075 : ℤ) := by
      rw [show (-1074 : ℤ) = 1 + -1075 by norm_num, zpow_add₀ (by norm_num), zpow_one]
    rw [← sub_mul, abs_mul, abs_of_pos (Binary64.two_zpow_pos (K := ℝ) (-1074)), ← Int.cast_sub, e]
    unfold b64η
    have := mul_le_mul_of_nonneg_right h1 (show 0 ≤ 2 * (2 : ℝ) ^ (-1075 : ℤ) by linarith)
    linarith

section
variable {V : Valued R α} {u η top : K} (A : R.Accurate u η top) (L : R.Lawful)
variable {cfg : StrategyConfig α} {d : DataProvider α} {sig : Nat → Option TradeDirection} {N : Nat} {st : Nat → Strategy α}
variable {o h l c v : Nat → K} {cap M W : K}

include A L in
/-- The sign of the profit of one unit survives rounding. -/
theorem unit_sign {x : Holding α} {q : α} {e k : K} (hs : x.size = lit 1) (hp : V.val x.price = Fl.of R (.fin e))
    (hq : V.val q = Fl.of R (.fin k)) (clear : k = e ∨ η < |k - e|) (ht : |k - e| ≤ top) :
    fgt (x.profit q) (lit 0) = decide (0 < (side x.dir : K) * (k - e)) ∧ F64.lt (x.profit q) (lit 0) = decide ((side x.dir : K) * (k - e) < 0) := by
  obtain ⟨w, w1, w2⟩ := A.err (k - e) ht
  have hid : R.rnd w = .fin w := L.idem _ _ w1
  have h1 : V.val (q - x.price) = Fl.of R (.fin w) := by
    rw [V.sub, hq, hp]
    show R.rnd (k + -e) = _
    rw [← sub_eq_add_neg]; exact w1
  have h2 : V.val ((q - x.price) * x.size) = Fl.of R (.fin w) := by
    rw [V.mul, h1, hs, V.lit, lit_one L]
    show R.rnd (w * 1) = _
    rw [mul_one]; exact hid
  obtain ⟨p1, p2⟩ : (0 < w ↔ 0 < k - e) ∧ (w < 0 ↔ k - e < 0) := by
    rcases clear with c | c
    · rw [c, sub_self, rnd_zero L] at w1
      cases w1
      rw [c, sub_self]
      exact ⟨Iff.rfl, Iff.rfl⟩
    · have g0 : 0 < |k - e| := lt_of_le_of_lt A.η_nonneg c
      have h4 : u * |k - e| < |k - e| := by
        have := mul_le_mul_of_nonneg_right A.u_small g0.le
        linarith
      have h5 := lt_of_le_of_lt w2 (max_lt h4 c)
      rw [abs_lt] at h5
      rcases lt_trichotomy (k - e) 0 with g | g | g
      · rw [abs_of_neg g] at h5
        exact ⟨⟨fun _ => by linarith, fun _ => by linarith⟩, ⟨fun _ => g, fun _ => by linarith⟩⟩
      · rw [g, abs_zero] at g0
        exact absurd g0 (lt_irrefl _)
      · rw [abs_of_pos g] at h5
        exact ⟨⟨fun _ => g, fun _ => by linarith⟩, ⟨fun _ => by linarith, fun _ => by linarith⟩⟩
  obtain ⟨dir, tick, price, size⟩ := x
  cases dir
  · have hv : V.val (Holding.profit ⟨.long, tick, price, size⟩ q) = Fl.of R (.fin w) := by
      simp only [Holding.profit]
      rw [V.mul, h2, V.lit, lit_one L]
      show R.rnd (w * 1) = _
      rw [mul_one]; exact hid
    obtain ⟨v1, v2⟩ := val_lt hv L
    rw [v1, v2]
    simp only [side, Int.cast_one, one_mul]
    exact ⟨decide_eq_decide.mpr p1, decide_eq_decide.mpr p2⟩
  · have hv : V.val (Holding.profit ⟨.short, tick, price, size⟩ q) = Fl.of R (.fin (-w)) := by
      simp only [Holding.profit]
      rw [V.mul, h2, V.neg, V.lit, lit_one L]
      show R.rnd (w * -1) = _
      rw [mul_neg_one, L.odd, hid]
      rfl
    obtain ⟨v1, v2⟩ := val_lt hv L
    rw [v1, v2]
    simp only [side, Int.cast_neg, Int.cast_one, neg_mul, one_mul, Left.neg_neg_iff, Left.neg_pos_iff]
    exact ⟨decide_eq_decide.mpr p2, decide_eq_decide.mpr p1⟩

theorem deals_entry_lt (cfg : StrategyConfig α) (sig : Nat → Option TradeDirection) (n : Nat) : ∀ x ∈ (deals cfg sig n).1, x.entry < n := by
  induction n with
  | zero => simp [deals]
  | succ n ih =>
    have h2 := (deals_exit_lt cfg sig n).2
    rw [deals_succ]
    generalize deals cfg sig n = x at ih h2 ⊢
    obtain ⟨l, y⟩ := x
    simp only at ih h2 ⊢
    have h1' : ∀ x ∈ l, x.entry < n + 1 := fun x hx => (ih x hx).trans (Nat.lt_succ_self n)
    rcases order cfg sig n with _ | dir
    · exact h1'
    · rcases y with _ | ⟨was, e⟩
      · exact h1'
      · simp only
        by_cases hd : dir = was
        · rw [if_pos hd]; exact h1'
        · rw [if_neg hd]
          intro x hx
          rcases List.mem_append.mp hx with hx | hx
          · exact h1' x hx
          · simp only [List.mem_singleton] at hx
            subst hx
            exact (h2 (was, e) rfl).trans (Nat.lt_succ_self n)

include A L in
/-- The closed trades and the positions they record. -/
theorem deal_pairs (H : Backtest cfg d sig N st) (hb : PricedBars V d N o h l c v M) (hc : V.val cfg.initialCapital = Fl.of R (.fin cap))
    (hf : cfg.buyWithEquity = false) (h2M : 2 * M ≤ top) (clear : ∀ i j, i < N → j < N → fillSeries cfg o c i = fillSeries cfg o c j ∨ η < |fillSeries cfg o c i - fillSeries cfg o c j|)
    {t : Nat} (ht : t < N) :
    ∃ ps : List (Deal × α), ps.map Prod.fst = (deals cfg sig (t + 1)).1 ∧
      ((st t).trades.filter (·.isClosed)).map (fun T => (T.direction, T.pnlField)) = ps.map (fun x => (x.1.dir, x.2)) ∧
      ∀ x ∈ ps, Near V x.2 (dealProfit (fillSeries cfg o c) x.1) (u * (2 * M) + η) ∧ |dealProfit (fillSeries cfg o c) x.1| ≤ 2 * M ∧
        fgt x.2 (lit 0) = decide (0 < dealProfit (fillSeries cfg o c) x.1) ∧ F64.lt x.2 (lit 0) = decide (dealProfit (fillSeries cfg o c) x.1 < 0) := by
  have fb := hb.floatBars hc
  obtain ⟨hcl, -⟩ := ledger_onTime cfg d sig (t + 1)
  obtain ⟨hs, -⟩ := ledger_unit (cfg := cfg) (d := d) (sig := sig) hf (t + 1)
  have hlen : (ledger cfg d sig (t + 1)).closed.length = (deals cfg sig (t + 1)).1.length := by simpa using congrArg List.length hcl
  have hdir : (ledger cfg d sig (t + 1)).closed.map (fun c => c.pos.dir) = (deals cfg sig (t + 1)).1.map (fun y => y.dir) := by
    have := congrArg (List.map Prod.fst) hcl
    simpa [List.map_map, Function.comp_def] using this
  refine ⟨(deals cfg sig (t + 1)).1.zip ((ledger cfg d sig (t + 1)).closed.map Closed.profit), List.map_fst_zip (by simp [hlen]), ?_, ?_⟩
  · rw [C39_refines H ht, filter_closed, List.map_map]
    have e1 : ((deals cfg sig (t + 1)).1.zip ((ledger cfg d sig (t + 1)).closed.map Closed.profit)).map (fun x => (x.1.dir, x.2)) =
        ((deals cfg sig (t + 1)).1.map (fun y => y.dir)).zip ((ledger cfg d sig (t + 1)).closed.map Closed.profit) := by
      rw [List.zip_map_left]; rfl
    rw [e1, ← hdir, List.zip_map']
    rfl
  · intro y hy
    obtain ⟨i, hi, hab⟩ := List.mem_iff_getElem.mp hy
    have hi1 : i < (ledger cfg d sig (t + 1)).closed.length := by rw [List.length_zip, List.length_map] at hi; omega
    have hi2 : i < (deals cfg sig (t + 1)).1.length := by omega
    rw [List.getElem_zip, List.getElem_map] at hab
    subst hab
    have hci : ((ledger cfg d sig (t + 1)).closed.map (fun c => (c.pos.dir, c.pos.tick, c.pos.price, c.exitTick, c.exitPrice)))[i]? =
        ((deals cfg sig (t + 1)).1.map (fun y => (y.dir, y.entry, fillPrice cfg d y.entry, y.exit, fillPrice cfg d y.exit)))[i]? := by rw [hcl]
    rw [List.getElem?_map, List.getElem?_map, List.getElem?_eq_getElem hi1, List.getElem?_eq_getElem hi2, Option.map_some, Option.map_some,
      Option.some.injEq, Prod.mk.injEq, Prod.mk.injEq, Prod.mk.injEq, Prod.mk.injEq] at hci
    obtain ⟨e1, e2, e3, e4, e5⟩ := hci
    have m1 := List.getElem_mem hi1
    have m2 := List.getElem_mem hi2
    simp only
    generalize (ledger cfg d sig (t + 1)).closed[i] = a at *
    generalize (deals cfg sig (t + 1)).1[i] = b at *
    have b1 : b.entry < N := by have := deals_entry_lt cfg sig (t + 1) b m2; omega
    have b2 : b.exit < N := by have := (deals_exit_lt cfg sig (t + 1)).1 b m2; omega
    obtain ⟨p1, p2⟩ := fb.fill b1
    obtain ⟨q1, q2⟩ := fb.fill b2
    have hg : |fillSeries cfg o c b.exit - fillSeries cfg o c b.entry| ≤ 2 * M := by
      rw [abs_le] at *; constructor <;> linarith
    have n1 := unit_near A L (V := V) (x := a.pos) (q := a.exitPrice) (hs a m1) (by rw [e3]; exact p1) (by rw [e5]; exact q1) p2 q2 h2M
    have n2 := unit_sign A L (V := V) (x := a.pos) (q := a.exitPrice) (hs a m1) (by rw [e3]; exact p1) (by rw [e5]; exact q1) (clear _ _ b2 b1) (by linarith)
    rw [e1] at n1 n2
    refine ⟨n1, ?_, n2⟩
    unfold dealProfit
    cases b.dir <;> simp only [side] <;> push_cast
    · rwa [one_mul]
    · rwa [neg_one_mul, abs_neg]

include A L in
/-- A float sum over some of the closed trades. -/
theorem part_near (hM : 0 ≤ M) (hW : 2 * M * N + 2 * M ≤ W) (hn : ((N : K) + 2) * u ≤ 1) (htop : 100 * W + 100 * (N + 4) * η ≤ top)
    {ps : List (Deal × α)} (hps : ps.length ≤ N) (g : α → α) (w : Deal → K) (hw : ∀ x ∈ ps, Near V (g x.2) (w x.1) (u * (2 * M) + η) ∧ |w x.1| ≤ 2 * M) (P : Deal → Bool) :
    Near V (fsum ((ps.filter fun x => P x.1).map fun x => g x.2)) ((ps.filter fun x => P x.1).map fun x => w x.1).sum (6 * N * (u * W + η)) := by
  have hu := A.u_nonneg
  have hus := A.u_small
  have hη := A.η_nonneg
  have hN0 : (0 : K) ≤ N := Nat.cast_nonneg _
  have hMN : 0 ≤ 2 * M * N := by positivity
  have hW0 : 0 ≤ W := by linarith
  have hD : 0 ≤ u * W + η := by positivity
  have hlen : (((ps.filter fun x => P x.1).length : Nat) : K) ≤ N := by exact_mod_cast (List.length_filter_le _ _).trans hps
  have hlu : (((ps.filter fun x => P x.1).length : Nat) : K) * u ≤ 1 := by
    have := mul_le_mul_of_nonneg_right hlen hu
    linarith
  have hu2M : u * (2 * M) ≤ u * W := mul_le_mul_of_nonneg_left (by linarith) hu
  have hδ : 0 ≤ u * (2 * M) + η := by positivity
  have hus2 := mul_le_mul_of_nonneg_right hus hδ
  have hD3 : (1 + u) * (u * (2 * M) + η) + u * W + η ≤ 3 * (u * W + η) := by linarith
  have hD0 : 0 ≤ (1 + u) * (u * (2 * M) + η) + u * W + η := by positivity
  have e1 : (((ps.filter fun x => P x.1).length : Nat) : K) * ((1 + u) * (u * (2 * M) + η) + u * W + η) ≤ N * (3 * (u * W + η)) := mul_le_mul hlen hD3 hD0 hN0
  have e3 : (N + 2) * u * W ≤ 1 * W := mul_le_mul_of_nonneg_right hn hW0
  have huW : 0 ≤ u * W := mul_nonneg hu hW0
  have e6 := mul_le_mul_of_nonneg_right hus hW0
  have hNη : 0 ≤ (N : K) * η := by positivity
  have hs := fsum_near A L (V := V) hδ hW0 ((ps.filter fun x => P x.1).map fun x => (g x.2, w x.1)) ?_ ?_ (by rw [List.length_map]; exact hlu) (by
    rw [List.length_map]
    linarith)
  · simp only [List.map_map, Function.comp_def, List.length_map] at hs
    refine hs.mono ((drift_le hu hD0 hlu).trans (by linarith))
  · intro y hy
    obtain ⟨x, hx, rfl⟩ := List.mem_map.mp hy
    exact (hw x (List.mem_of_mem_filter hx)).1
  · intro p hp
    have hp' : p.map Prod.snd <+: (ps.filter fun x => P x.1).map fun x => w x.1 := by
      have := hp.map Prod.snd
      simpa [List.map_map, Function.comp_def] using this
    have hb : ∀ y ∈ p.map Prod.snd, |y| ≤ 2 * M := by
      intro y hy
      obtain ⟨x, hx, rfl⟩ := List.mem_map.mp (hp'.subset hy)
      exact (hw x (List.mem_of_mem_filter hx)).2
    have hl : (((p.map Prod.snd).length : Nat) : K) ≤ N := by
      have := hp'.length_le
      rw [List.length_map (as := List.filter _ ps)] at this
      have h3 := this.trans ((List.length_filter_le _ _).trans hps)
      exact Nat.cast_le.mpr h3
    generalize p.map Prod.snd = q at *
    have : |q.sum| ≤ q.length * (2 * M) := by
      clear hp' hl hp
      induction q with
      | nil => simp
      | cons a q ih =>
        have h1 := ih fun y hy => hb y (by simp [hy])
        have h2 := hb a (by simp)
        rw [List.sum_cons, List.length_cons]
        push_cast
        exact (abs_add_le _ _).trans (by linarith)
    have h5 := mul_le_mul_of_nonneg_right hl (show 0 ≤ 2 * M by linarith)
    linarith

include A L in
/-- **C103.** One unit per trade at fill prices that are equal or further apart than `η` (which in binary64 they always are, `C103_apart`): the
numbers of winning and losing trades are the exact ones, and the sums of profits - of winners, of losers, of longs, of shorts - are within
`6 N` roundings of the exact ones. -/
theorem C103_trades (H : Backtest cfg d sig N st) (hb : PricedBars V d N o h l c v M) (hM : 0 ≤ M) (hc : V.val cfg.initialCapital = Fl.of R (.fin cap))
    (hf : cfg.buyWithEquity = false) (hW : |cap| + 2 * M * N + 2 * M ≤ W) (hn : ((N : K) + 2) * u ≤ 1) (htop : 100 * W + 100 * (N + 4) * η ≤ top)
    (clear : ∀ i j, i < N → j < N → fillSeries cfg o c i = fillSeries cfg o c j ∨ η < |fillSeries cfg o c i - fillSeries cfg o c j|) {t : Nat} (ht : t < N) :
    (st t).metrics.closedTrades = (deals cfg sig (t + 1)).1.length ∧
    (st t).metrics.winningTrades = (deals cfg sig (t + 1)).1.countP (fun x => 0 < dealProfit (fillSeries cfg o c) x) ∧
    (st t).metrics.losingTrades = (deals cfg sig (t + 1)).1.countP (fun x => dealProfit (fillSeries cfg o c) x < 0) ∧
    Near V (st t).metrics.grossProfit (won (fillSeries cfg o c) (deals cfg sig (t + 1)).1) (6 * N * (u * W + η)) ∧
    Near V (st t).metrics.grossLoss (lost (fillSeries cfg o c) (deals cfg sig (t + 1)).1) (6 * N * (u * W + η)) ∧
    Near V (st t).metrics.longNetProfit (bookedOn .long (fillSeries cfg o c) (deals cfg sig (t + 1)).1) (6 * N * (u * W + η)) ∧
    Near V (st t).metrics.shortNetProfit (bookedOn .short (fillSeries cfg o c) (deals cfg sig (t + 1)).1) (6 * N * (u * W + η)) ∧
    (won (fillSeries cfg o c) (deals cfg sig (t + 1)).1 = 0 → F64.feq (st t).metrics.grossProfit (lit 0) = true) ∧
    (lost (fillSeries cfg o c) (deals cfg sig (t + 1)).1 = 0 → F64.feq (st t).metrics.grossLoss (lit 0) = true) := by
  have hη := A.η_nonneg
  have hN0 : (0 : K) ≤ N := Nat.cast_nonneg _
  have hMN : 0 ≤ 2 * M * N := by positivity
  have hcap := abs_nonneg cap
  have hNη : 0 ≤ (N : K) * η := by positivity
  have hlen := (deals_length_le cfg sig (t + 1)).trans ht
  obtain ⟨ps, q1, q2, q3⟩ := deal_pairs A L H hb hc hf (by linarith) clear ht
  have s := C40_statistics H ht
  rw [← q1, List.length_map] at hlen
  have hpnl : ((st t).trades.filter (·.isClosed)).map (·.pnlField) = ps.map Prod.snd := by
    have := congrArg (List.map Prod.snd) q2
    simpa [List.map_map, Function.comp_def] using this
  have part := fun (g : α → α) (w : Deal → K) hw P => part_near A L (V := V) (N := N) (M := M) (W := W) hM (by linarith) hn htop hlen g w hw P
  have f1 : ps.filter (fun x => fgt x.2 (lit 0)) = ps.filter fun x => decide (0 < dealProfit (fillSeries cfg o c) x.1) :=
    List.filter_congr fun x hx => (q3 x hx).2.2.1
  have f2 : ps.filter (fun x => !fgt x.2 (lit 0) && F64.lt x.2 (lit 0)) = ps.filter fun x => decide (dealProfit (fillSeries cfg o c) x.1 < 0) := by
    refine List.filter_congr fun x hx => ?_
    rw [(q3 x hx).2.2.1, (q3 x hx).2.2.2]
    rcases lt_trichotomy (dealProfit (fillSeries cfg o c) x.1) 0 with g | g | g
    · simp [g, g.le]
    · simp [g]
    · simp [g, g.le]
  have f3 : ∀ dir : TradeDirection, (((st t).trades.filter (·.isClosed)).filter fun T => decide (T.direction = dir)).map (·.pnlField) =
      (ps.filter fun x => decide (x.1.dir = dir)).map fun x => x.2 := by
    intro dir
    have e1 : (((st t).trades.filter (·.isClosed)).filter fun T => decide (T.direction = dir)).map (·.pnlField) =
        ((((st t).trades.filter (·.isClosed)).map fun T => (T.direction, T.pnlField)).filter fun y => decide (y.1 = dir)).map Prod.snd := by
      rw [List.filter_map, List.map_map]; rfl
    rw [e1, q2, List.filter_map, List.map_map]
    rfl
  have g1 : (st t).metrics.grossProfit = fsum ((ps.filter fun x => decide (0 < dealProfit (fillSeries cfg o c) x.1)).map fun x => x.2) := by
    rw [s.grossProfit, hpnl, List.filter_map, ← f1]; rfl
  have g2 : (st t).metrics.grossLoss = fsum ((ps.filter fun x => decide (dealProfit (fillSeries cfg o c) x.1 < 0)).map fun x => F64.abs x.2) := by
    rw [s.grossLoss, hpnl, List.filter_map, List.map_map, ← f2]; rfl
  have r1 : won (fillSeries cfg o c) (ps.map Prod.fst) = ((ps.filter fun x => decide (0 < dealProfit (fillSeries cfg o c) x.1)).map fun x => dealProfit (fillSeries cfg o c) x.1).sum := by
    unfold won; rw [List.map_map, List.filter_map]; rfl
  have r2 : lost (fillSeries cfg o c) (ps.map Prod.fst) = ((ps.filter fun x => decide (dealProfit (fillSeries cfg o c) x.1 < 0)).map fun x => |dealProfit (fillSeries cfg o c) x.1|).sum := by
    unfold lost; rw [List.map_map, List.filter_map, List.map_map]; rfl
  have z : F64.feq (lit 0 : α) (lit 0) = true := by
    rw [V.feq, V.lit, lit_zero L, val_feq_fin]
    simp
  have none_of : ∀ (l : List (Deal × α)) (w : Deal × α → K), (∀ x ∈ l, 0 < w x) → (l.map w).sum = 0 → l = [] := by
    intro l w hw hs
    cases l with
    | nil => rfl
    | cons a l =>
      have h1 := hw a (by simp)
      have h2 : 0 ≤ (l.map w).sum := List.sum_nonneg (by simp only [List.mem_map]; rintro _ ⟨y, hy, rfl⟩; exact (hw y (by simp [hy])).le)
      rw [List.map_cons, List.sum_cons] at hs
      linarith
  refine ⟨closedTrades_deals H ht, ?_, ?_, ?_, ?_, ?_, ?_, ?_, ?_⟩
  · rw [s.winningTrades, ← q1, List.countP_map]
    have : ((st t).trades.filter (·.isClosed)).countP (fun T => fgt T.pnlField (lit 0)) = (((st t).trades.filter (·.isClosed)).map (·.pnlField)).countP fun p => fgt p (lit 0) := by
      rw [List.countP_map]; rfl
    rw [this, hpnl, List.countP_map]
    exact List.countP_congr fun x hx => by simp [(q3 x hx).2.2.1]
  · rw [s.losingTrades, ← q1, List.countP_map]
    have : ((st t).trades.filter (·.isClosed)).countP (fun T => !fgt T.pnlField (lit 0) && F64.lt T.pnlField (lit 0)) =
        (((st t).trades.filter (·.isClosed)).map (·.pnlField)).countP fun p => !fgt p (lit 0) && F64.lt p (lit 0) := by
      rw [List.countP_map]; rfl
    rw [this, hpnl, List.countP_map, List.countP_eq_length_filter, List.countP_eq_length_filter]
    exact congrArg List.length f2
  · rw [← q1, g1, r1]
    exact part id (dealProfit (fillSeries cfg o c)) (fun x hx => ⟨(q3 x hx).1, (q3 x hx).2.1⟩) fun x => decide (0 < dealProfit (fillSeries cfg o c) x)
  · rw [← q1, g2, r2]
    exact part F64.abs (fun x => |dealProfit (fillSeries cfg o c) x|) (fun x hx => ⟨(q3 x hx).1.abs, by rw [abs_abs]; exact (q3 x hx).2.1⟩)
      fun x => decide (dealProfit (fillSeries cfg o c) x < 0)
  · rw [s.longNetProfit, f3, ← q1, bookedOn, booked, List.filter_map, List.map_map]
    exact part id (dealProfit (fillSeries cfg o c)) (fun x hx => ⟨(q3 x hx).1, (q3 x hx).2.1⟩) fun x => decide (x.dir = .long)
  · rw [s.shortNetProfit, f3, ← q1, bookedOn, booked, List.filter_map, List.map_map]
    exact part id (dealProfit (fillSeries cfg o c)) (fun x hx => ⟨(q3 x hx).1, (q3 x hx).2.1⟩) fun x => decide (x.dir = .short)
  · intro h0
    rw [← q1, r1] at h0
    rw [g1, none_of _ _ (fun x hx => by simpa using (List.mem_filter.mp hx).2) h0]
    exact z
  · intro h0
    rw [← q1, r2] at h0
    rw [g2, none_of _ _ (fun x hx => by
      have : dealProfit (fillSeries cfg o c) x.1 < 0 := by simpa using (List.mem_filter.mp hx).2
      exact abs_pos.mpr this.ne) h0]
    exact z

end
end Pace
