import Verif.Props.AccuracyContent
import Verif.Props.Program
import Verif.Props.BookError

/-!
# C92: the same signals, and so the same positions, in floats as in exact arithmetic

An indicator that is known up to an error gives the signals of the exact indicator as long as the exact indicator keeps farther than that
error from the threshold.
-/

set_option linter.unusedSectionVars false

namespace Pace
open Spec
variable {K : Type} [Field K] [LinearOrder K] [IsStrictOrderedRing K] [RootOps K] {R : Rounding K}
variable {α : Type} [F64 α]

/-- The signals of a line of numbers that begins on tick `s`: long on the tick on which it rises through `up` (at most `up` the tick before,
now above), otherwise short on the tick on which it falls through `down`. -/
def Spec.lineSignal (s : Nat) (w : Nat → K) (up down : K) (t : Nat) : Option TradeDirection :=
  if s < t ∧ w (t - 1) ≤ up ∧ up < w t then some .long
  else if s < t ∧ down ≤ w (t - 1) ∧ w t < down then some .short
  else none

/-- The signals of two lines of numbers that both have values from tick `s` on: long on the tick on which `w` crosses over `v`, short on the
tick on which it crosses under. -/
def Spec.crossSignal (s : Nat) (w v : Nat → K) (t : Nat) : Option TradeDirection :=
  if s < t ∧ w (t - 1) ≤ v (t - 1) ∧ v t < w t then some .long
  else if s < t ∧ v (t - 1) ≤ w (t - 1) ∧ w t < v t then some .short
  else none

section
variable {V : Valued R α}

theorem near_cmp {a b : α} {x y e f : K} (ha : Near V a x e) (hb : Near V b y f) (h : e + f < |x - y| ∨ (e = 0 ∧ f = 0)) :
    F64.lt a b = decide (x < y) ∧ F64.le a b = decide (x ≤ y) ∧ F64.lt b a = decide (y < x) ∧ F64.le b a = decide (y ≤ x) := by
  obtain ⟨v, h1, h2⟩ := ha
  obtain ⟨w, h3, h4⟩ := hb
  have lt : ∀ p q : K, F64.lt (Fl.of R (.fin p)) (Fl.of R (.fin q)) = decide (p < q) := fun p q => rfl
  have le : ∀ p q : K, F64.le (Fl.of R (.fin p)) (Fl.of R (.fin q)) = decide (p ≤ q) := fun p q => rfl
  rw [V.lt, V.le, V.lt, V.le, h1, h3, lt, le, lt, le]
  have key : (v < w ↔ x < y) ∧ (w < v ↔ y < x) := by
    rw [abs_le] at h2 h4
    rcases h with h | ⟨rfl, rfl⟩
    · rcases lt_abs.mp h with h | h
      · exact ⟨⟨fun _ => by linarith, fun _ => by linarith⟩, ⟨fun _ => by linarith, fun _ => by linarith⟩⟩
      · exact ⟨⟨fun _ => by linarith, fun _ => by linarith⟩, ⟨fun _ => by linarith, fun _ => by linarith⟩⟩
    · have e1 : v = x := by linarith
      have e2 : w = y := by linarith
      rw [e1, e2]
      exact ⟨Iff.rfl, Iff.rfl⟩
  obtain ⟨k1, k2⟩ := key
  refine ⟨by simp only [k1], ?_, by simp only [k2], ?_⟩
  · simp only [← not_lt, k2]
  · simp only [← not_lt, k1]

private theorem line_signals {y : Nat → Option α} {s : Nat} {w : Nat → K} {e : K} {N : Nat} (h : StaysNear V y s w e N) {θ₁ θ₂ : α} {up down : K}
    (h1 : V.val θ₁ = Fl.of R (.fin up)) (h2 : V.val θ₂ = Fl.of R (.fin down))
    (far : e = 0 ∨ ∀ t, t < N → s ≤ t → e < |w t - up| ∧ e < |w t - down|) :
    Runs (total ThresholdStrategy.next) (.ok (ThresholdStrategy.mk' θ₁ θ₂)) y N (lineSignal s w up down) := by
  refine Impl.runs (Inv := fun t q => ThreshInv θ₁ y t q.crossOver ∧ ThreshInv θ₂ y t q.crossUnder) ⟨⟨rfl, rfl⟩, ?_⟩
  rintro t q ht ⟨i1, i2⟩
  obtain ⟨s1, e1, g1⟩ := threshOver_step i1
  obtain ⟨s2, e2, g2⟩ := threshUnder_step i2
  refine ⟨⟨s1, s2⟩, ?_, g1, g2⟩
  have hover : over0 y (fun _ => some θ₁) t = decide (s < t ∧ w (t - 1) ≤ up ∧ up < w t) := by
    cases t with
    | zero => simp [over0, before]
    | succ t =>
      by_cases hs : s ≤ t
      · obtain ⟨a, a1, a2⟩ := stays_at h (show t < N by omega) hs
        obtain ⟨b, b1, b2⟩ := stays_at h ht (show s ≤ t + 1 by omega)
        have nθ : Near V θ₁ up 0 := ⟨up, h1, by simp⟩
        have c1 := near_cmp a2 nθ (far.symm.imp (fun f => by rw [add_zero]; exact (f t (by omega) hs).1) fun f => ⟨f, rfl⟩)
        have c2 := near_cmp b2 nθ (far.symm.imp (fun f => by rw [add_zero]; exact (f (t + 1) ht (by omega)).1) fun f => ⟨f, rfl⟩)
        simp only [over0, before, a1, b1, c1, c2, Nat.add_sub_cancel]
        simp [hs, show s < t + 1 by omega, and_comm, Bool.and_comm]
      · have a1 : y t = none := stays_before h (by omega) (by omega)
        simp only [over0, before, a1]
        simp
        omega
  have hunder : under0 y (fun _ => some θ₂) t = decide (s < t ∧ down ≤ w (t - 1) ∧ w t < down) := by
    cases t with
    | zero => simp [under0, before]
    | succ t =>
      by_cases hs : s ≤ t
      · obtain ⟨a, a1, a2⟩ := stays_at h (show t < N by omega) hs
        obtain ⟨b, b1, b2⟩ := stays_at h ht (show s ≤ t + 1 by omega)
        have nθ : Near V θ₂ down 0 := ⟨down, h2, by simp⟩
        have c1 := near_cmp a2 nθ (far.symm.imp (fun f => by rw [add_zero]; exact (f t (by omega) hs).2) fun f => ⟨f, rfl⟩)
        have c2 := near_cmp b2 nθ (far.symm.imp (fun f => by rw [add_zero]; exact (f (t + 1) ht (by omega)).2) fun f => ⟨f, rfl⟩)
        simp only [under0, before, a1, b1, c1, c2, Nat.add_sub_cancel]
        simp [hs, show s < t + 1 by omega, and_comm, Bool.and_comm]
      · have a1 : y t = none := stays_before h (by omega) (by omega)
        simp only [under0, before, a1]
        simp
        omega
  simp only [total, ThresholdStrategy.next, e1, e2, hover, hunder, lineSignal, decide_eq_true_eq]

/-- **C92.** A strategy with thresholds, fed with floats within `e` of the line `w` which itself is always farther than `e` from both
thresholds, gives exactly the signals of the line `w`. (Williams %R takes its thresholds the other way round, MACD has 0 for both.) -/
theorem C92_signals {y : Nat → Option α} {s : Nat} {w : Nat → K} {e : K} {N : Nat} (h : StaysNear V y s w e N) {c : Thresholds α} {lo hi : K}
    (h1 : V.val c.oversold = Fl.of R (.fin lo)) (h2 : V.val c.overbought = Fl.of R (.fin hi))
    (far : ∀ t, t < N → s ≤ t → e < |w t - lo| ∧ e < |w t - hi|) :
    (∀ new ∈ ([AwesomeOscillatorStrategy.new, BalanceOfPowerStrategy.new, BollingerBandsPercentBStrategy.new,
        ChaikinMoneyFlowStrategy.new, ChandeMomentumOscillatorStrategy.new, CommodityChannelIndexStrategy.new,
        ConnorsRelativeStrengthIndexStrategy.new, CoppockCurveStrategy.new, PriceOscillatorStrategy.new,
        RelativeStrengthIndexStrategy.new, RelativeVolatilityIndexStrategy.new, StochRelativeStrengthIndexStrategy.new,
        VolumeOscillatorStrategy.new] : List (Thresholds α → ThresholdStrategy α)),
      Runs (total ThresholdStrategy.next) (.ok (new c)) y N (lineSignal s w lo hi)) ∧
    Runs (total ThresholdStrategy.next) (.ok (WilliamsPercentRankStrategy.new c)) y N (lineSignal s w hi lo) := by
  refine ⟨fun new hnew => ?_, line_signals h h2 h1 (.inr fun t ht hs => (far t ht hs).symm)⟩
  have : new c = ThresholdStrategy.mk' c.oversold c.overbought := by
    simp only [List.mem_cons, List.not_mem_nil, or_false] at hnew
    rcases hnew with rfl | rfl | rfl | rfl | rfl | rfl | rfl | rfl | rfl | rfl | rfl | rfl | rfl <;> rfl
  rw [this]
  exact line_signals h h1 h2 (.inr far)

/-- **C92.** The MACD strategy in the same way: the signals of the exact line crossing 0. -/
theorem C92_macd_signals (L : R.Lawful) {y : Nat → Option α} {s : Nat} {w : Nat → K} {e : K} {N : Nat} (h : StaysNear V y s w e N)
    (far : ∀ t, t < N → s ≤ t → e < |w t|) :
    Runs (total ThresholdStrategy.next) (.ok MacdStrategy.new) y N (lineSignal s w 0 0) := by
  have h0 : V.val (lit 0) = Fl.of R (.fin 0) := by rw [V.lit]; exact lit_zero L
  exact line_signals h h0 h0 (.inr fun t ht hs => by rw [sub_zero]; exact ⟨far t ht hs, far t ht hs⟩)

/-- **C92.** In exact arithmetic `lineSignal` is what the strategies do, with no condition on the line. -/
theorem C92_signals_exact (s : Nat) (w : Nat → K) (c : Thresholds (Ex K)) {lo hi : K} (h1 : c.oversold = fin lo) (h2 : c.overbought = fin hi)
    (N : Nat) :
    (∀ new ∈ ([AwesomeOscillatorStrategy.new, BalanceOfPowerStrategy.new, BollingerBandsPercentBStrategy.new,
        ChaikinMoneyFlowStrategy.new, ChandeMomentumOscillatorStrategy.new, CommodityChannelIndexStrategy.new,
        ConnorsRelativeStrengthIndexStrategy.new, CoppockCurveStrategy.new, PriceOscillatorStrategy.new,
        RelativeStrengthIndexStrategy.new, RelativeVolatilityIndexStrategy.new, StochRelativeStrengthIndexStrategy.new,
        VolumeOscillatorStrategy.new] : List (Thresholds (Ex K) → ThresholdStrategy (Ex K))),
      Runs (total ThresholdStrategy.next) (.ok (new c)) (flo (startAt s w)) N (lineSignal s w lo hi)) ∧
    Runs (total ThresholdStrategy.next) (.ok (WilliamsPercentRankStrategy.new c)) (flo (startAt s w)) N (lineSignal s w hi lo) ∧
    Runs (total ThresholdStrategy.next) (.ok MacdStrategy.new) (flo (startAt s w)) N (lineSignal s w 0 0) := by
  have h : StaysNear (Valued.unsigned (Rounding.exact K)) (flo (startAt s w)) s w 0 N := by
    intro t _
    unfold startAt
    by_cases hts : t < s
    · rw [if_pos hts]; simp [Within, flo, hts]
    · rw [if_neg hts]; exact ⟨fin (w t), by simp [flo, hts], w t, rfl, by simp⟩
  refine ⟨fun new hnew => ?_, line_signals h h2 h1 (.inl rfl), ?_⟩
  · have : new c = ThresholdStrategy.mk' c.oversold c.overbought := by
      simp only [List.mem_cons, List.not_mem_nil, or_false] at hnew
      rcases hnew with rfl | rfl | rfl | rfl | rfl | rfl | rfl | rfl | rfl | rfl | rfl | rfl | rfl <;> rfl
    rw [this]
    exact line_signals h h1 h2 (.inl rfl)
  · have h0 : (Valued.unsigned (Rounding.exact K)).val (lit 0) = Fl.of _ (.fin 0) := by
      show (lit 0 : Ex K) = fin 0
      simp
    exact line_signals h h0 h0 (.inl rfl)

private theorem cross_signals {y z : Nat → Option α} {s1 s2 : Nat} {w v : Nat → K} {e f : K} {N : Nat} (h : StaysNear V y s1 w e N)
    (g : StaysNear V z s2 v f N) (far : (e = 0 ∧ f = 0) ∨ ∀ t, t < N → max s1 s2 ≤ t → e + f < |w t - v t|) :
    Runs (total CrossStrategy.next) (.ok CrossState.new) (fun t => (y t, z t)) N (crossSignal (max s1 s2) w v) := by
  obtain ⟨s, hs⟩ : ∃ s, s = max s1 s2 := ⟨_, rfl⟩
  rw [← hs] at far ⊢
  refine Impl.runs (Inv := CrossInv y z) ⟨rfl, fun t q ht hq => ?_⟩
  obtain ⟨q', h1, h2⟩ := cross_step hq
  refine ⟨q', ?_, h2⟩
  have key : over0 y z t = decide (s < t ∧ w (t - 1) ≤ v (t - 1) ∧ v t < w t) ∧
      under0 y z t = decide (s < t ∧ v (t - 1) ≤ w (t - 1) ∧ w t < v t) := by
    cases t with
    | zero => simp [over0, under0, before]
    | succ t =>
      by_cases hst : s ≤ t
      · obtain ⟨a, a1, a2⟩ := stays_at h (show t < N by omega) (by omega)
        obtain ⟨b, b1, b2⟩ := stays_at h ht (by omega)
        obtain ⟨a', a1', a2'⟩ := stays_at g (show t < N by omega) (by omega)
        obtain ⟨b', b1', b2'⟩ := stays_at g ht (by omega)
        have c1 := near_cmp a2 a2' (far.symm.imp (fun f => f t (by omega) hst) id)
        have c2 := near_cmp b2 b2' (far.symm.imp (fun f => f (t + 1) ht (by omega)) id)
        simp only [over0, under0, before, a1, b1, a1', b1', c1, c2, Nat.add_sub_cancel]
        simp [show s < t + 1 by omega, Bool.and_comm]
      · have a1 : y t = none ∨ z t = none := by
          by_cases h1 : t < s1
          · exact .inl (stays_before h (by omega) h1)
          · exact .inr (stays_before g (by omega) (by omega))
        rcases a1 with a1 | a1 <;> simp only [over0, under0, before, a1] <;> simp <;> omega
  simp only [total, CrossStrategy.next, h1, cross0, key, crossSignal]
  simp only [decide_eq_true_eq]
  by_cases c1 : s < t ∧ w (t - 1) ≤ v (t - 1) ∧ v t < w t
  · rw [if_pos c1, if_pos c1]; rfl
  · rw [if_neg c1, if_neg c1]
    by_cases c2 : s < t ∧ v (t - 1) ≤ w (t - 1) ∧ w t < v t
    · rw [if_pos c2, if_pos c2]; rfl
    · rw [if_neg c2, if_neg c2]; rfl

/-- **C92.** The strategies that wait for one line to cross the other (vortex, relative vigor): lines known up to `e` and `f` give the
signals of the exact lines if these are always farther than `e + f` apart once both have begun. -/
theorem C92_cross_signals {y z : Nat → Option α} {s1 s2 : Nat} {w v : Nat → K} {e f : K} {N : Nat} (h : StaysNear V y s1 w e N)
    (g : StaysNear V z s2 v f N) (far : ∀ t, t < N → max s1 s2 ≤ t → e + f < |w t - v t|) :
    Runs (total CrossStrategy.next) (.ok CrossState.new) (fun t => (y t, z t)) N (crossSignal (max s1 s2) w v) := cross_signals h g (.inr far)

private theorem exact_line (s : Nat) (w : Nat → K) (N : Nat) : StaysNear (Valued.unsigned (Rounding.exact K)) (flo (startAt s w)) s w 0 N := by
  intro t _
  unfold startAt
  by_cases hts : t < s
  · rw [if_pos hts]; simp [Within, flo, hts]
  · rw [if_neg hts]; exact ⟨fin (w t), by simp [flo, hts], w t, rfl, by simp⟩

/-- **C92.** In exact arithmetic `crossSignal` is what these strategies do. -/
theorem C92_cross_exact (s1 s2 : Nat) (w v : Nat → K) (N : Nat) :
    Runs (total CrossStrategy.next) (.ok CrossState.new) (fun t => (flo (startAt s1 w) t, flo (startAt s2 v) t)) N (crossSignal (max s1 s2) w v) :=
  cross_signals (exact_line s1 w N) (exact_line s2 v N) (.inl ⟨rfl, rfl⟩)

end

/-! ## A whole backtest -/

section
variable {V : Valued R α} {u η top : K} (A : R.Accurate u η top) (L : R.Lawful)

theorem first_total {Q X Y O : Type} {next : Q → X → O × Q} {q : Q} {y : Nat → X × Y} {z : Nat → O} {N : Nat}
    (h : Runs (total next) (.ok q) (fun t => (y t).1) N z) : Runs (total fun q (p : X × Y) => next q p.1) (.ok q) y N z := by
  obtain ⟨s, h0, hs⟩ := h.trace
  exact Runs.of_trace s h0 fun t ht => hs t ht

include A L in
/-- **C92.** The MACD program, with any averages and sources, on bars of finite floats: if the exact MACD line of the exact prices is never
within `16 + 2 (slack short + slack long)` roundings of 0, the program signals on every tick what the same program signals in exact
arithmetic on the exact prices, and its runner and metrics are those of a backtest with these signals, whatever its configuration. So
the positions (`held`), the ticks of all trades and, up to the rounding of the books (C83), the equity are the exact ones. -/
theorem C92_macd_program {d : DataProvider α} {N : Nat} {o h l c v : Nat → K} {M : K} (hb : PricedBars V d N o h l c v M) (hM : 0 ≤ M)
    {dx : DataProvider (Ex K)} (hx : ExBars dx N o h l c v)
    {ss sl : SrcKind} (hss : ss ≠ .volume) (hsl : sl ≠ .volume) (ka kb kg : MaKind) {a b g k : Nat} (ha : 1 ≤ a) (hb' : 1 ≤ b) (hg : 1 ≤ g)
    (hk : a + b + g + N + 1 ≤ k) (hr : Room u η top k M)
    (far : ∀ t, t < N → max (maLength ka a) (maLength kb b) ≤ t + 1 → (16 + 2 * (slack ka a N + slack kb b N)) * (u * M + η) <
      |average ka a 0 (sourceValue ss o h l c v) t - average kb b 0 (sourceValue sl o h l c v) t|)
    (cfg : StrategyConfig α) (cfgx : StrategyConfig (Ex K)) (rfr : α) (rfrx : Ex K) :
    ∃ (sig : Nat → Option TradeDirection) (y : Nat → Option α × Option α) (st : Nat → Strategy α) (tv : Nat → TvMetrics α)
      (yx : Nat → Option (Ex K) × Option (Ex K)) (stx : Nat → Strategy (Ex K)) (tvx : Nat → TvMetrics (Ex K)),
      sig = lineSignal (max (maLength ka a) (maLength kb b) - 1)
        (fun t => average ka a 0 (sourceValue ss o h l c v) t - average kb b 0 (sourceValue sl o h l c v) t) 0 0 ∧
      Runs (noInput fun t => Program.next (withSrc2 ss sl Macd.next) (fun q y => ThresholdStrategy.next q y.1) ⟨d, t⟩)
        (Program.new (do let s ← Ma.new ka a; let l ← Ma.new kb b; let g ← Ma.new kg g; return ⟨s, l, g⟩) MacdStrategy.new cfg rfr) unit N
        (fun t => (y t, sig t, st t, tv t)) ∧
      Runs (noInput fun t => Program.next (withSrc2 ss sl Macd.next) (fun q y => ThresholdStrategy.next q y.1) ⟨dx, t⟩)
        (Program.new (do let s ← Ma.new ka a; let l ← Ma.new kb b; let g ← Ma.new kg g; return ⟨s, l, g⟩) MacdStrategy.new cfgx rfrx) unit N
        (fun t => (yx t, sig t, stx t, tvx t)) ∧
      Backtest cfg d sig N st ∧ Backtest cfgx dx sig N stx := by
  obtain ⟨y, z, r1, n1, -⟩ := C92_macd A L hb hM hss hsl ka kb kg ha hb' hg hk hr
  have r2 := C53_macd_exact hx ss sl ka kb kg ha hb' hg
  have p1 := maLength_pos ka ha
  have p2 := maLength_pos kb hb'
  have s1 := C92_macd_signals L n1 fun t ht hp => far t ht (by omega)
  have s2 := (C92_signals_exact (max (maLength ka a) (maLength kb b) - 1)
    (fun t => average ka a 0 (sourceValue ss o h l c v) t - average kb b 0 (sourceValue sl o h l c v) t) ⟨fin 0, fin 0⟩ rfl rfl N).2.2
  obtain ⟨o', h', l', c', v', b1, -⟩ := hb.bars
  obtain ⟨st, tv, t1, -, t2⟩ := C65_program b1 r1 (first_total (y := fun t => (y t, z t)) s1) cfg rfr
  obtain ⟨stx, tvx, t3, -, t4⟩ := C65_program hx r2 (first_total (y := fun t => (_, _)) s2) cfgx rfrx
  exact ⟨_, _, st, tv, _, stx, tvx, rfl, t2, t4, t1, t3⟩

end
end Pace
