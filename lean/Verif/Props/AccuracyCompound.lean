import Verif.Props.AccuracyCobra

/-!
# C106: the reports of a backtest that reinvests, in floats
-/

set_option linter.unusedSectionVars false

namespace Pace
open Spec
variable {K : Type} [Field K] [LinearOrder K] [IsStrictOrderedRing K] [LawfulRoots K] {R : Rounding K}
variable {α : Type} [F64 α]
variable {cfg : StrategyConfig α} {d : DataProvider α} {sig : Nat → Option TradeDirection} {N : Nat} {st : Nat → Strategy α}

/-- The equity of a run that puts all of it into every position, at the close of tick `t`. -/
def Spec.worthCurve (cfg : StrategyConfig α) (sig : Nat → Option TradeDirection) (cap : K) (f c : Nat → K) (t : Nat) : K :=
  worth cap f (deals cfg sig (t + 1)) (c t)

section
variable {V : Valued R α} {u η top : K} (A : R.Accurate u η top) (L : R.Lawful)
variable {o c : Nat → K} {cap ρ B w₀ m M : K}

theorem worthCurve_le (Tm : TameRun cfg sig N o c cap ρ B w₀ m M) (hρ : 0 ≤ ρ) {t : Nat} (ht : t < N) :
    |worthCurve cfg sig cap (fillSeries cfg o c) c t| ≤ (1 + ρ) * B := by
  have h0 := Tm.worth t ht
  obtain ⟨h1, h2⟩ := Tm.wealth (t + 1) ht
  have hw0 := Tm.positive
  have hB : 0 < B := hw0.trans_le (h1.trans h2)
  have hρB : 0 ≤ ρ * B := by positivity
  unfold worthCurve
  rw [abs_of_pos (hw0.trans_le h0)]
  unfold worth
  have hm := Tm.marks t ht
  generalize hdl : deals cfg sig (t + 1) = x at *
  obtain ⟨xs, _ | ⟨dir, e⟩⟩ := x
  · show wealth cap (fillSeries cfg o c) xs ≤ _
    linarith
  · show grown (wealth cap (fillSeries cfg o c) xs) dir (fillSeries cfg o c e) (c t) ≤ _
    have hch := hm dir e rfl
    unfold grown
    split_ifs with hp
    · have hg : growth dir (fillSeries cfg o c e) (c t) ≤ 1 + ρ := by
        obtain ⟨g1, g2⟩ := abs_le.mp hch
        cases dir with
        | long =>
          show c t / fillSeries cfg o c e ≤ 1 + ρ
          rw [div_le_iff₀ hp.2]; linarith
        | short =>
          show 2 - c t / fillSeries cfg o c e ≤ 1 + ρ
          have : 1 - ρ ≤ c t / fillSeries cfg o c e := by rw [le_div_iff₀ hp.2]; linarith
          linarith
      have s1 := mul_le_mul_of_nonneg_left hg hp.1.le
      have s2 := mul_le_mul_of_nonneg_right h2 (show 0 ≤ 1 + ρ by linarith)
      linarith
    · linarith

/-- What C83 says of the equity, with one bound for the whole run. -/
theorem worthCurve_near (A : R.Accurate u η top) (L : R.Lawful) (H : Backtest cfg d sig N st) (hb : FloatBars V cfg d N o c cap M) (hf : cfg.buyWithEquity = true)
    (Tm : TameRun cfg sig N o c cap ρ B w₀ m M) (F : FarFromLimits u η top ρ (2 * B) m M) {κ G : K} (hκ : κ = 48 * ((1 + ρ) * (u * B)) / w₀)
    (hN : (N + 1) * κ ≤ 1 / 2) (hG : G = (N + 1) * κ * ((1 + ρ) * B)) {t : Nat} (ht : t < N) :
    Near V (st t).metrics.equity (worthCurve cfg sig cap (fillSeries cfg o c) c t) G ∧
    Near V (netEquity cfg (st t)) (wealth cap (fillSeries cfg o c) (deals cfg sig (t + 1)).1) G := by
  have hu := A.u_nonneg
  have hus := A.u_small
  have hη := A.η_nonneg
  have hw0 := Tm.positive
  have hρ := F.change
  obtain ⟨h1, h2⟩ := Tm.wealth (t + 1) ht
  have hB : 0 < B := hw0.trans_le (h1.trans h2)
  have hκ0 : 0 ≤ κ := by rw [hκ]; positivity
  obtain ⟨n1, n2⟩ := C83_compound A L H hb hf Tm F (by rw [← hκ]; exact hN) ht
  rw [← hκ] at n1 n2
  have hx := worthCurve_le Tm hρ ht
  have hx0 := Tm.worth t ht
  have hclosed : ((st t).metrics.closedTrades : K) ≤ N := by
    rw [closedTrades_deals H ht]
    exact_mod_cast (deals_length_le cfg sig (t + 1)).trans ht
  have hc0 : (0 : K) ≤ (st t).metrics.closedTrades := Nat.cast_nonneg _
  have hN0 : (0 : K) ≤ N := Nat.cast_nonneg _
  have κB : 48 * (u * B) ≤ κ * B := by
    have e1 : 48 * u * w₀ ≤ 48 * ((1 + ρ) * (u * B)) := by
      have s1 : u * w₀ ≤ u * B := mul_le_mul_of_nonneg_left (h1.trans h2) hu
      have s2 : 0 ≤ ρ * (u * B) := by positivity
      linarith
    have e2 : 48 * u ≤ κ := by rw [hκ, le_div_iff₀ hw0]; exact e1
    have := mul_le_mul_of_nonneg_right e2 hB.le
    linarith
  have hρB : 0 ≤ κ * (ρ * B) := by positivity
  have hρBN : 0 ≤ N * κ * (ρ * B) := by positivity
  have NκB : 0 ≤ N * κ * B := by positivity
  constructor
  · refine n2.mono ?_
    rw [hG]
    refine mul_le_mul (mul_le_mul_of_nonneg_right (by linarith) hκ0) ((le_abs_self _).trans hx) (hw0.le.trans hx0) (by positivity)
  · have n1' : Near V (st t).metrics.netProfit (wealth cap (fillSeries cfg o c) (deals cfg sig (t + 1)).1 - cap) (N * κ * B) := by
      refine n1.mono (mul_le_mul (mul_le_mul_of_nonneg_right hclosed hκ0) h2 (hw0.le.trans h1) (by positivity))
    have hs : |cap + (wealth cap (fillSeries cfg o c) (deals cfg sig (t + 1)).1 - cap)| ≤ B := by
      rw [add_sub_cancel, abs_of_pos (hw0.trans_le h1)]; exact h2
    have hNκ : N * κ * B ≤ 1 / 2 * B := mul_le_mul_of_nonneg_right (by linarith) hB.le
    have ht1 := F.amounts
    have ht2 := F.small_amount
    have uB : 0 ≤ u * B := by positivity
    have uB1 : u * B ≤ B / 1024 := by have := mul_le_mul_of_nonneg_right hus hB.le; linarith
    have uNκ : u * (N * κ * B) ≤ u * (1 / 2 * B) := mul_le_mul_of_nonneg_left hNκ hu
    have ρB0 : 0 ≤ ρ * B := by positivity
    have := Near.add A (near_of_val hb.capital) n1' hs (by linarith)
    rw [add_sub_cancel] at this
    unfold netEquity
    by_cases h0 : (st t).metrics.closedTrades = 0
    · have hl : (deals cfg sig (t + 1)).1 = [] := by
        rw [closedTrades_deals H ht] at h0
        exact List.length_eq_zero_iff.mp h0
      rw [if_pos h0, hl]
      exact (near_of_val hb.capital).mono (by rw [hG]; positivity)
    rw [if_neg h0]
    refine this.mono ?_
    rw [hG]
    linarith

include A L in
/-- **C106.** A run that puts the whole equity into every position, on a tame run (C83): what both reports keep of it — equity, its maximum and minimum so far, net equity —
is within `G = (N + 1) κ (1 + ρ) B` of the exactly compounded values, `κ = 48 (1 + ρ) u B / w₀`. -/
theorem C106_equity (H : Backtest cfg d sig N st) (hb : FloatBars V cfg d N o c cap M) (hf : cfg.buyWithEquity = true)
    (Tm : TameRun cfg sig N o c cap ρ B w₀ m M) (F : FarFromLimits u η top ρ (2 * B) m M) {κ G : K} (hκ : κ = 48 * ((1 + ρ) * (u * B)) / w₀)
    (hN : (N + 1) * κ ≤ 1 / 2) (hG : G = (N + 1) * κ * ((1 + ρ) * B)) {em : Nat → EquityMetrics α} (he : EquityRun d cfg.initialCapital st N em) {t : Nat} (ht : t < N) :
    Near V (em t).equity (worthCurve cfg sig cap (fillSeries cfg o c) c t) G ∧
    Near V (em t).equityMax (peak cap (worthCurve cfg sig cap (fillSeries cfg o c) c) t) G ∧
    Near V (em t).equityMin (trough cap (worthCurve cfg sig cap (fillSeries cfg o c) c) t) G ∧
    Near V (em t).netEquity (wealth cap (fillSeries cfg o c) (deals cfg sig (t + 1)).1) G := by
  have near := fun k (hk : k < N) => worthCurve_near A L H hb hf Tm F hκ hN hG hk
  have hcap : Near V cfg.initialCapital cap G := (near_of_val hb.capital).mono (near t ht).1.nonneg
  obtain ⟨v1, v2, v3, v4, -, -⟩ := C46_values H he ht
  obtain ⟨y1, y2⟩ := runMax_near hcap (t := t) (x := fun k => (st k).metrics.equity) (y := worthCurve cfg sig cap (fillSeries cfg o c) c) fun k hk => (near k (by omega)).1
  exact ⟨by rw [v1]; exact (near t ht).1, by rw [v3]; exact y1, by rw [v2]; exact y2, by rw [v4]; exact (near t ht).2⟩

include A L in
/-- **C106.** Its maximal drawdown in the Cobra report. -/
theorem C106_drawdown (H : Backtest cfg d sig N st) (hb : FloatBars V cfg d N o c cap M) (hf : cfg.buyWithEquity = true)
    (Tm : TameRun cfg sig N o c cap ρ B w₀ m M) (F : FarFromLimits u η top ρ (2 * B) m M) {κ G : K} (hκ : κ = 48 * ((1 + ρ) * (u * B)) / w₀)
    (hN : (N + 1) * κ ≤ 1 / 2) (hG : G = (N + 1) * κ * ((1 + ρ) * B)) (cG : 2 * G ≤ cap) (cT : 4 * (1 + (1 + ρ) * B / cap) ≤ top)
    {est : Bool} {sy : Option Int} {year : Nat → Option Int} {co : Nat → CobraMetrics α} (hr : CobraRun d cfg est sy year st N co) {t : Nat} (ht : t < N) :
    Near V (co t).data.equityCurveMaxDd (trough 0 (fun k => worthCurve cfg sig cap (fillSeries cfg o c) c k /
      peak cap (worthCurve cfg sig cap (fillSeries cfg o c) c) k - 1) t) (3 * ((1 + (1 + ρ) * B / cap) * (3 * (G / cap) + u))) := by
  have hu := A.u_nonneg
  have hus := A.u_small
  have hη := A.η_nonneg
  have hηu : η ≤ u / 1024 := A.η_small.trans (by have := mul_le_mul_of_nonneg_right hus hu; linarith)
  have c0 : 0 < cap := Tm.positive.trans_le (Tm.wealth 0 (Nat.zero_le _)).1
  have hG0 : 0 ≤ G := (worthCurve_near A L H hb hf Tm F hκ hN hG ht).1.nonneg
  have hρ := F.change
  have hW0 : 0 ≤ (1 + ρ) * B := (abs_nonneg _).trans (worthCurve_le Tm hρ ht)
  have hg0 : 0 ≤ G / cap := div_nonneg hG0 c0.le
  have hg1 : G / cap ≤ 1 / 2 := by rw [div_le_iff₀ c0]; linarith
  have hq0 : 0 ≤ (1 + ρ) * B / cap := div_nonneg hW0 c0.le
  have zero : Near V (lit 0 : α) 0 (3 * ((1 + (1 + ρ) * B / cap) * (3 * (G / cap) + u))) :=
    (near_of_val (by rw [V.lit, lit_zero L])).mono (by positivity)
  have one : Near V (lit 1 : α) 1 0 := near_of_val (by rw [V.lit, lit_one L])
  rw [C48_cobra_values hr ht]
  refine (runMax'_near zero fun k hk => ?_).2
  obtain ⟨m1, m2, -⟩ := C106_equity A L H hb hf Tm F hκ hN hG (cobra_em hr) (t := k) (by omega)
  have hp := (le_peak cap (worthCurve cfg sig cap (fillSeries cfg o c) c) (le_refl k)).1
  have hx := worthCurve_le Tm hρ (t := k) (by omega)
  have fr := near_fraction A m1 m2 c0 (hp.trans (le_abs_self _)) cG hx (by linarith)
  have hq : |worthCurve cfg sig cap (fillSeries cfg o c) c k / peak cap (worthCurve cfg sig cap (fillSeries cfg o c) c) k| ≤ (1 + ρ) * B / cap := by
    rw [abs_div]
    exact div_le_div₀ hW0 hx c0 (hp.trans (le_abs_self _))
  generalize (1 + ρ) * B / cap = q at *
  generalize worthCurve cfg sig cap (fillSeries cfg o c) c k / peak cap (worthCurve cfg sig cap (fillSeries cfg o c) c) k = z at *
  generalize G / cap = g at *
  have h1 : (1 + q) * (3 * g) ≤ (1 + q) * (3 * (1 / 2)) := mul_le_mul_of_nonneg_left (by linarith) (by linarith)
  have h2 : (1 + q) * u ≤ (1 + q) * (1 / 1024) := mul_le_mul_of_nonneg_left hus (by linarith)
  have h3 : (1 + q) * (3 * g + u) = (1 + q) * (3 * g) + (1 + q) * u := by ring
  have h4 : 0 ≤ (1 + q) * (3 * g) := by positivity
  have h5 : 0 ≤ q * u := by positivity
  have h6 := mul_le_mul_of_nonneg_right hus (show 0 ≤ (1 + q) * (3 * g + u) by positivity)
  refine (fr.sub A one (m := 1 + q) ((abs_sub _ _).trans (by rw [abs_one]; linarith)) (by linarith)).mono ?_
  linarith

include A L in
/-- **C106.** Its Sharpe, Sortino and Omega ratios. -/
theorem C106_ratios (hroot : RoundedRoots R) (H : Backtest cfg d sig N st) (hb : FloatBars V cfg d N o c cap M) (hf : cfg.buyWithEquity = true)
    (Tm : TameRun cfg sig N o c cap ρ B w₀ m M) (F : FarFromLimits u η top ρ (2 * B) m M) {κ G Q E : K} (hκ : κ = 48 * ((1 + ρ) * (u * B)) / w₀)
    (hN : (N + 1) * κ ≤ 1 / 2) (hG : G = (N + 1) * κ * ((1 + ρ) * B)) (hQ : Q = 1 + (1 + ρ) * B / w₀) (mG : 2000 * G ≤ w₀)
    (hn : 1000 * (N : K) * u ≤ 1) (h53 : N ≤ 2 ^ 53) (hE : E = 3 * (Q * (3 * (G / w₀) + u)) + N * u * (Q + 1)) {a : K} (a0 : 0 < a) (aE : 42 * N * E ≤ a)
    (aT : 100 * N * (Q + 1) ^ 2 + 300 * (1 + N * Q / a) + 4 * a ≤ top)
    {sy : Option Int} {year : Nat → Option Int} {co : Nat → CobraMetrics α} (h : CobraRun d cfg false sy year st N co) {t : Nat} (ht : t < N) (hne : countedTicks sy year t ≠ [])
    {r : List K} (hr : r = (countedTicks sy year t).map (returnOf cap (worthCurve cfg sig cap (fillSeries cfg o c) c))) :
    (a ≤ RootOps.sqrt (popVar r) →
      Near V (co t).data.sharpe (mean r / RootOps.sqrt (popVar r) * RootOps.sqrt 365) (62 * ((1 + Q / a) * (3 * (21 * E / a) + u)))) ∧
    (a ≤ RootOps.sqrt (popVar (r.map fun x => max 0 (-x))) →
      Near V (co t).data.sortino (mean r / RootOps.sqrt (popVar (r.map fun x => max 0 (-x))) * RootOps.sqrt 365) (62 * ((1 + Q / a) * (3 * (21 * E / a) + u)))) ∧
    (a ≤ (r.map fun x => max 0 (-x)).sum →
      Near V (co t).data.omega ((r.map (max 0)).sum / (r.map fun x => max 0 (-x)).sum * RootOps.sqrt 365) (62 * ((1 + N * Q / a) * (3 * (4 * N * E / a) + u)))) :=
  ratios_near A L hroot hb.capital Tm.positive hQ mG (Tm.wealth 0 (Nat.zero_le _)).1
    (fun k hk => ⟨(worthCurve_near A L H hb hf Tm F hκ hN hG hk).1, worthCurve_le Tm F.change hk, Tm.worth k hk⟩) hn h53 hE a0 aE aT h ht hne hr

end
end Pace
