import Verif.Props.AccuracyLines
import Verif.Props.Content8

/-!
# C93: the stochastic RSI in floats against the exact one
-/

set_option linter.unusedSectionVars false

namespace Pace
open Spec
variable {K : Type} [Field K] [LinearOrder K] [IsStrictOrderedRing K] [RootOps K] {R : Rounding K}
variable {α : Type} [F64 α]

/-- The stochastic of a line that begins on tick `s` against its own extremes over the last `m` ticks, as a number: `100 (w - lo) / (hi - lo)`. -/
def Spec.stochLine (m s : Nat) (w : Nat → K) (t : Nat) : K :=
  100 * (w t - (Spec.lowest (startAt s w) m t).getD 0) / ((Spec.highest (startAt s w) m t).getD 0 - (Spec.lowest (startAt s w) m t).getD 0)

/-- The highest and the lowest value of a line that begins on tick `s` over the last `m` ticks are at least `δ` apart, on every tick before
`N` whose window is full and has at least two values in it. -/
def Spec.Spreads (m s : Nat) (w : Nat → K) (δ : K) (N : Nat) : Prop :=
  ∀ t, t < N → max (s + 1) (m - 1) ≤ t → ∀ hi lo, Spec.highest (startAt s w) m t = some hi → Spec.lowest (startAt s w) m t = some lo → δ ≤ hi - lo

private theorem startAt_at {s t : Nat} (w : Nat → K) (h : s ≤ t) : startAt s w t = some (w t) := by
  unfold startAt; rw [if_neg (by omega)]

/-- The extremes of a window that reaches a value. -/
private theorem extremes_at {m s t : Nat} (hm : 1 ≤ m) (hf : m ≤ t + 1) (hs : s ≤ t) (w : Nat → K) :
    ∃ hi lo, Spec.highest (startAt s w) m t = some hi ∧ Spec.lowest (startAt s w) m t = some lo ∧ lo ≤ w t ∧ w t ≤ hi := by
  obtain ⟨hi, h1⟩ := spec_highest_isSome hf (by omega : t + 1 - m ≤ t) (le_refl _) (startAt_at w hs)
  obtain ⟨lo, h2⟩ := spec_lowest_isSome hf (by omega : t + 1 - m ≤ t) (le_refl _) (startAt_at w hs)
  exact ⟨hi, lo, h1, h2, (spec_lowest_some hf h2).2 t _ (by omega) (le_refl _) (startAt_at w hs),
    (spec_highest_some hf h1).2 t _ (by omega) (le_refl _) (startAt_at w hs)⟩

/-- The extremes are values of the line. -/
private theorem extremes_mem {m s t : Nat} (hf : m ≤ t + 1) {w : Nat → K} {hi lo : K} (h1 : Spec.highest (startAt s w) m t = some hi)
    (h2 : Spec.lowest (startAt s w) m t = some lo) : (∃ i, s ≤ i ∧ i ≤ t ∧ w i = hi) ∧ ∃ i, s ≤ i ∧ i ≤ t ∧ w i = lo := by
  have key : ∀ i v, startAt s w i = some v → s ≤ i ∧ w i = v := by
    intro i v h
    unfold startAt at h
    by_cases hs : i < s
    · rw [if_pos hs] at h; cases h
    · rw [if_neg hs] at h; exact ⟨by omega, Option.some.inj h⟩
  obtain ⟨⟨i, -, i2, i3⟩, -⟩ := spec_highest_some hf h1
  obtain ⟨⟨j, -, j2, j3⟩, -⟩ := spec_lowest_some hf h2
  exact ⟨⟨i, (key i _ i3).1, i2, (key i _ i3).2⟩, ⟨j, (key j _ j3).1, j2, (key j _ j3).2⟩⟩

theorem stochLine_abs {m s t : Nat} (hm : 1 ≤ m) (hf : m ≤ t + 1) (hs : s ≤ t) (w : Nat → K) : |stochLine m s w t| ≤ 100 := by
  obtain ⟨hi, lo, h1, h2, h3, h4⟩ := extremes_at hm hf hs w
  unfold stochLine
  rw [h1, h2]
  simp only [Option.getD_some]
  rcases eq_or_lt_of_le (h3.trans h4) with h | h
  · rw [h, sub_self, div_zero, abs_zero]; norm_num
  · rw [abs_of_nonneg (div_nonneg (by linarith) (by linarith)), div_le_iff₀ (by linarith)]
    linarith

section
variable {V : Valued R α} {u η top : K} (A : R.Accurate u η top) (L : R.Lawful)

include A L in
private theorem stochVal_near {v h l : α} {prev : Option α} {w hi lo e B σ δ : K} (nv : Near V v w e) (nh : Near V h hi e) (nl : Near V l lo e)
    (h1 : lo ≤ w) (h2 : w ≤ hi) (hlo : |lo| ≤ B) (hhi : |hi| ≤ B) (hσ : e + u * B + η ≤ σ) (hδ : 0 < δ) (hσδ : 6 * σ ≤ δ) (wide : δ ≤ hi - lo)
    (htop : 1024 * (1 + B + σ) ≤ top) :
    ∃ a, stochVal (some v) (some h) (some l) prev = some a ∧ Near V a (100 * (w - lo) / (hi - lo)) (1610 * (σ / δ) + 101 * u) := by
  have hu := A.u_nonneg
  have hus := A.u_small
  have hη := A.η_nonneg
  have hηs := A.η_small
  have he := nv.nonneg
  have hB : 0 ≤ B := (abs_nonneg _).trans hlo
  have huB : 0 ≤ u * B := mul_nonneg hu hB
  have hσ0 : 0 ≤ σ := by linarith
  have sσ : u * σ ≤ σ / 1024 := by have := mul_le_mul_of_nonneg_right hus hσ0; linarith
  have se : u * e ≤ e / 1024 := by have := mul_le_mul_of_nonneg_right hus he; linarith
  rw [abs_le] at hlo hhi
  have num : Near V (v - l) (w - lo) (3 * σ) := by
    refine (nv.sub A nl (m := 2 * B) (abs_le.mpr ⟨by linarith, by linarith⟩) (by linarith)).mono ?_
    have : u * (2 * B + (e + e)) = 2 * (u * B) + 2 * (u * e) := by ring
    linarith
  have den : Near V (h - l) (hi - lo) (3 * σ) := by
    refine (nh.sub A nl (m := 2 * B) (abs_le.mpr ⟨by linarith, by linarith⟩) (by linarith)).mono ?_
    have : u * (2 * B + (e + e)) = 2 * (u * B) + 2 * (u * e) := by ring
    linarith
  have lit100 : V.val (lit (100 : ℚ)) = Fl.of R (.fin (100 : K)) := by
    have := val_lit_nat (V := V) L (n := 100) (by norm_num); exact_mod_cast this
  have h100 : |(100 : K)| = 100 := abs_of_nonneg (by norm_num)
  have prod : Near V (lit 100 * (v - l)) (100 * (w - lo)) (502 * σ) := by
    refine ((near_of_val lit100).mul A num (m := 200 * B) (abs_le.mpr ⟨by linarith, by linarith⟩) ?_).mono ?_
    · rw [h100]; linarith
    · rw [h100]
      have : u * (200 * B + (100 * (3 * σ) + |w - lo| * 0 + 0 * (3 * σ))) = 200 * (u * B) + 300 * (u * σ) := by ring
      rw [this]
      linarith
  have hd : 0 < hi - lo := by linarith
  have hq : |100 * (w - lo) / (hi - lo)| ≤ 100 := by
    rw [abs_of_nonneg (div_nonneg (by linarith) hd.le), div_le_iff₀ hd]; linarith
  have hσd : 0 ≤ σ / δ := div_nonneg hσ0 hδ.le
  have hσd6 : σ / δ ≤ 1 / 6 := by rw [div_le_div_iff₀ hδ (by norm_num)]; linarith
  have e1 : 2 * (502 * σ + 100 * (3 * σ)) / δ = 1604 * (σ / δ) := by ring
  refine ⟨lit 100 * (v - l) / (h - l), ?_, ?_⟩
  · unfold stochVal
    have : F64.feq (h - l) (lit 0) = false := near_feq_zero L den (by rw [abs_of_pos hd]; linarith)
    simp only [this]
    rfl
  · refine (prod.quot A den hδ (by rw [abs_of_pos hd]; exact wide) (by linarith) hq (by rw [e1]; linarith)).mono ?_
    rw [e1]
    have e2 := mul_le_mul_of_nonneg_right hus hσd
    have e3 := mul_le_mul_of_nonneg_right hus hu
    have e4 : u * (100 + 1604 * (σ / δ)) = 100 * u + 1604 * (u * (σ / δ)) := by ring
    rw [e4]
    linarith

include L in
/-- A window with one value only: the first value shows nothing. -/
private theorem stochVal_single {v h l : α} {prev : Option α} {p : K} (hh : V.val h = Fl.of R (.fin p)) (hl : V.val l = Fl.of R (.fin p)) :
    stochVal (some v) (some h) (some l) prev = prev := by
  have h0 : R.rnd (0 : K) = .fin 0 := by
    have := L.int 0 (by norm_num)
    exact_mod_cast this
  have e1 : (Fl.of R (.fin p) - Fl.of R (.fin p) : Fl R) = Fl.of R (.fin 0) := by
    show R.rnd (p + -p) = _
    rw [add_neg_cancel]
    exact h0
  have : F64.feq (h - l) (lit 0) = true := by
    rw [V.feq, V.sub, hh, hl, V.lit, e1, lit_zero L, val_feq_fin]
    simp
  simp only [stochVal, this, if_true]

include A L in
/-- **C93.** The stochastic of length at least 2 of a line of floats against its own extremes, the floats being within `e` of the numbers `w`
from tick `s` on, none beyond `B`, where the extremes of a window are at least `δ` apart as soon as it holds two values: within
`1610 (e + u B + η) / δ + 101 u` of the exact one; it begins one tick after the line does, or when its window is full. -/
theorem C93_stoch (d : DataProvider α) {m s N : Nat} (hm : 2 ≤ m) {x : Nat → Option α} {w : Nat → K} {e B σ δ : K} (h : StaysNear V x s w e N)
    (hB : ∀ t, t < N → s ≤ t → |w t| ≤ B) (hσ : e + u * B + η ≤ σ) (hδ : 0 < δ) (hσδ : 6 * σ ≤ δ) (wide : Spreads m s w δ N)
    (htop : 1024 * (1 + B + σ) ≤ top) :
    ∃ y, Runs (fun t => Stoch.next ⟨d, t⟩) (Stoch.new m) (fun t => (x t, x t, x t)) N y ∧
      StaysNear V y (max (s + 1) (m - 1)) (stochLine m s w) (1610 * (σ / δ) + 101 * u) N := by
  refine ⟨_, stoch_runs d (by omega) x x x N, ?_⟩
  have hi1 : ∀ t, t < N → Within V (highest0 m x t) (Spec.highest (startAt s w) m t) e := by
    obtain ⟨y, y1, y2⟩ := C94_highest (V := V) d (n := m) (by omega) h
    intro t ht
    rw [Runs.unique (highest_runs d (by omega) x N) y1 t ht]
    exact y2 t ht
  have lo1 : ∀ t, t < N → Within V (lowest0 m x t) (Spec.lowest (startAt s w) m t) e := by
    obtain ⟨y, y1, y2⟩ := C94_lowest (V := V) d (n := m) (by omega) h
    intro t ht
    rw [Runs.unique (lowest_runs d (by omega) x N) y1 t ht]
    exact y2 t ht
  -- nothing before the second value of the line
  have quiet : ∀ t, t < N → t < max (s + 1) (m - 1) → stoch0 m x x x t = none := by
    intro t
    induction t with
    | zero =>
      intro ht hts
      rw [stoch0_eq]
      by_cases hs : 0 < s
      · rw [stays_before h ht hs]; rfl
      · obtain ⟨a, a1, -⟩ := stays_at h ht (by omega)
        have : highest0 m x 0 = none := by unfold highest0; rw [if_neg (by omega)]
        rw [a1, this]; rfl
    | succ t ih =>
      intro ht hts
      rw [stoch0_eq]
      by_cases hs : t + 1 < s
      · rw [stays_before h ht hs]; rfl
      by_cases hf : t + 1 < m - 1
      · obtain ⟨a, a1, -⟩ := stays_at h ht (by omega)
        have : highest0 m x (t + 1) = none := by unfold highest0; rw [if_neg (by omega)]
        rw [a1, this]; rfl
      have hts' : t + 1 = s := by omega
      show stochVal _ _ _ (stoch0 m x x x t) = none
      rw [ih (by omega) (by omega)]
      obtain ⟨p, x', r1, r2, -, -⟩ := stays_reads L h
      have w0 : ∀ i, i < N → Within V (x i) (startAt s p i) 0 := by
        intro i hi
        have := r1 i
        rw [r2 i hi] at this
        cases hsp : startAt s p i with
        | none => rw [hsp] at this; simpa [Within] using this
        | some k =>
          rw [hsp] at this
          simp only [Option.map_some, Option.map_eq_some_iff] at this
          obtain ⟨a, a1, a2⟩ := this
          exact ⟨a, a1, k, a2, by simp⟩
      obtain ⟨y, y1, y2⟩ := C94_highest (V := V) d (n := m) (by omega) w0
      obtain ⟨z, z1, z2⟩ := C94_lowest (V := V) d (n := m) (by omega) w0
      rw [Runs.unique (highest_runs d (by omega) x N) y1 _ ht, Runs.unique (lowest_runs d (by omega) x N) z1 _ ht]
      obtain ⟨hi, lo, b1, b2, -, -⟩ := extremes_at (m := m) (s := s) (t := t + 1) (by omega) (by omega) (by omega) p
      obtain ⟨⟨i, i1, i2, i3⟩, ⟨j, j1, j2, j3⟩⟩ := extremes_mem (by omega) b1 b2
      have y3 := y2 _ ht
      have z3 := z2 _ ht
      rw [b1] at y3
      rw [b2] at z3
      obtain ⟨a, a1, av, a2, a3⟩ := y3
      obtain ⟨b, c1, bv, c2, c3⟩ := z3
      obtain ⟨v, v1, -⟩ := stays_at h ht (by omega)
      rw [v1, a1, c1]
      have ea : av = p s := by
        have := abs_nonpos_iff.mp a3
        rw [← i3, show i = s by omega] at this
        linarith
      have eb : bv = p s := by
        have := abs_nonpos_iff.mp c3
        rw [← j3, show j = s by omega] at this
        linarith
      exact stochVal_single L (a2.trans (by rw [ea])) (c2.trans (by rw [eb]))
  intro t ht
  by_cases hts : t < max (s + 1) (m - 1)
  · rw [quiet t ht hts]
    unfold startAt
    rw [if_pos hts]
    rfl
  · have hs : s ≤ t := by omega
    obtain ⟨hi, lo, b1, b2, b3, b4⟩ := extremes_at (m := m) (s := s) (t := t) (by omega) (by omega) hs w
    obtain ⟨⟨i, i1, i2, i3⟩, ⟨j, j1, j2, j3⟩⟩ := extremes_mem (by omega) b1 b2
    have y3 := hi1 t ht
    have z3 := lo1 t ht
    rw [b1] at y3
    rw [b2] at z3
    obtain ⟨a, a1, a2⟩ := y3
    obtain ⟨b, c1, c2⟩ := z3
    obtain ⟨v, v1, v2⟩ := stays_at h ht hs
    rw [startAt_at _ (by omega), stoch0_eq, v1, a1, c1]
    unfold stochLine
    rw [b1, b2]
    exact stochVal_near A L v2 a2 c2 b3 b4 (by rw [← j3]; exact hB j (by omega) j1) (by rw [← i3]; exact hB i (by omega) i1) hσ hδ hσδ
      (wide t ht (by omega) _ _ b1 b2) htop

/-- What smoothing by a simple average over `N` bars makes of an error `e` in numbers up to 100. -/
def Spec.smoothError (u η : K) (N : Nat) (e : K) : K := e + (4 * N + 5) * (u * (100 + e) + η)

private theorem rsiLine_abs {n : Nat} (hn : 1 ≤ n) (p : Nat → K) (t : Nat) : |rsiLine n p t| ≤ 100 := by
  have h1 : 0 ≤ avgGain n p t := wilder_nonneg hn (fun _ => le_max_right _ _) _
  have h2 : 0 ≤ avgLoss n p t := wilder_nonneg hn (fun _ => le_max_right _ _) _
  unfold rsiLine
  rcases eq_or_lt_of_le (add_nonneg h1 h2) with h | h
  · rw [← h, div_zero, abs_zero]; norm_num
  · rw [abs_of_nonneg (div_nonneg (by linarith) h.le), div_le_iff₀ h]; linarith

include A L in
/-- A simple average of floats within `e` of numbers up to 100. -/
private theorem simple_near (d : DataProvider α) {n k N s : Nat} (hn : 1 ≤ n) (hk : n + N + 1 ≤ k) (fine : 1000 * (k : K) * u ≤ 1) (small : k ≤ 2 ^ 50)
    (htop : 200000 * (k : K) ≤ top) {x : Nat → Option α} {w : Nat → K} {e : K} (h : StaysNear V x s w e N) (he : 0 ≤ e) (he' : e ≤ 300)
    (hw : ∀ t, t < N → s ≤ t → |w t| ≤ 100) :
    (∃ y, Runs (fun t => Sma.next ⟨d, t⟩) (Sma.new n) x N y ∧ StaysNear V y (s + n - 1) (average .sma n s w) (smoothError u η N e) N) ∧
    smoothError u η N e ≤ e + 5 ∧ 0 ≤ smoothError u η N e := by
  have hu := A.u_nonneg
  have hus := A.u_small
  have hη := A.η_nonneg
  have hηs := A.η_small
  have hk1 : (1 : K) ≤ k := by exact_mod_cast (by omega : 1 ≤ k)
  have hηu : η ≤ u := by
    have := mul_le_mul_of_nonneg_right hus hu
    linarith
  have hku : 0 ≤ (k : K) * u := by positivity
  refine ⟨?_, ?_, ?_⟩
  · obtain ⟨y, y1, y2⟩ := C92_average A L d .sma hn hk small (by linarith) h (by norm_num : (0 : K) ≤ 100) he hw (by
      have : 100 + e + η ≤ 1000 := by linarith
      have := mul_le_mul_of_nonneg_left this (show (0 : K) ≤ 40 * k by positivity)
      linarith)
    refine ⟨y, (C53_ma d n x N).1.symm.trans y1, y2.mono ?_⟩
    unfold smoothError slack
    push_cast
    exact le_refl _
  · unfold smoothError
    have h1 : (4 * (N : K) + 5) ≤ 5 * k := by
      have : (4 * N + 5 : Nat) ≤ 5 * k := by omega
      exact_mod_cast this
    have h2 : u * (100 + e) + η ≤ 401 * u := by
      have := mul_le_mul_of_nonneg_left (show 100 + e ≤ 400 by linarith) hu
      linarith
    have h3 := mul_le_mul h1 h2 (by positivity) (by positivity)
    linarith
  · unfold smoothError; positivity

include A L in
/-- **C93.** The stochastic RSI of any lengths (the first two at least 2) and price source, where the average gain and loss of every window
add up to at least `μ`, and the highest and the lowest exact RSI of every window of `m` ticks with at least two of them are `δ` apart: with
`ρ` the error of the RSI, the stochastic is off by at most `1610 ρ / δ + 101 u`, and the two lines by what one and two simple averages make
of that. They begin on the same bars as the exact lines. -/
theorem C93_stoch_rsi (hT : 1 ≤ u * top) {d : DataProvider α} {N : Nat} {o h l c v : Nat → K} {M : K} (hb : PricedBars V d N o h l c v M) (hM : 0 ≤ M)
    {src : SrcKind} (hs : src ≠ .volume) {n m sk sd k : Nat} (hn : 2 ≤ n) (hm : 2 ≤ m) (hsk : 1 ≤ sk) (hsd : 1 ≤ sd) (hk : n + sk + sd + N + 1 ≤ k)
    (hr : Room u η top k M) (htop : 200000 * (k : K) ≤ top) {μ : K} (hμ : 0 < μ) (hEμ : 4 * ((13 + 54 * n) * (u * M + η)) ≤ μ)
    (moves : ∀ t, t < N → n ≤ t → μ ≤ avgGain n (sourceValue src o h l c v) t + avgLoss n (sourceValue src o h l c v) t)
    {ρ : K} (hρ : ρ = 200 * ((13 + 54 * n) * (u * M + η)) / μ + 1601 * u) {δ : K} (hδ : 0 < δ) (hρδ : 6 * ρ ≤ δ)
    (wide : Spreads m n (rsiLine n (sourceValue src o h l c v)) δ N) {s : Nat} (hs' : s = max (n + 1) (m - 1)) {kline dline : Nat → K}
    (hkl : kline = average .sma sk s (stochLine m n (rsiLine n (sourceValue src o h l c v)))) (hdl : dline = average .sma sd (s + sk - 1) kline) :
    ∃ y z, Runs (noInput fun t => withSrc src StochRsi.next ⟨d, t⟩) (StochRsi.new n m sk sd) unit N (fun t => (y t, z t)) ∧
      StaysNear V y (s + sk - 1) kline (smoothError u η N (1610 * (ρ / δ) + 101 * u)) N ∧
      StaysNear V z (s + sk - 1 + sd - 1) dline (smoothError u η N (smoothError u η N (1610 * (ρ / δ) + 101 * u))) N := by
  have hu := A.u_nonneg
  have hus := A.u_small
  have hη := A.η_nonneg
  have hηs := A.η_small
  have huM : 0 ≤ u * M := mul_nonneg hu hM
  have hk1 : (1 : K) ≤ k := by exact_mod_cast (by omega : 1 ≤ k)
  have hηu : η ≤ u := by
    have := mul_le_mul_of_nonneg_right hus hu
    linarith
  obtain ⟨x, r, x1, r1, r2⟩ := rsi_bars A L hT hb hM hs hn (by omega : n + N + 1 ≤ k) hr hμ hEμ moves
  have hE0 : 0 ≤ 200 * ((13 + 54 * (n : K)) * (u * M + η)) / μ := by positivity
  have hE1 : 200 * ((13 + 54 * (n : K)) * (u * M + η)) / μ ≤ 50 := by rw [div_le_iff₀ hμ]; linarith
  have hρ0 : 0 ≤ ρ := by rw [hρ]; positivity
  have hρ1 : ρ ≤ 52 := by rw [hρ]; linarith
  have hρd0 : 0 ≤ ρ / δ := div_nonneg hρ0 hδ.le
  have hρd : ρ / δ ≤ 1 / 6 := by rw [div_le_div_iff₀ hδ (by norm_num)]; linarith
  obtain ⟨y0, y1, y2⟩ := C93_stoch A L d hm r2 (B := 100) (fun t _ _ => rsiLine_abs (by omega) _ t) (by linarith : _ ≤ ρ) hδ hρδ wide (by linarith)
  rw [← hs'] at y2
  have hb0 : ∀ t, s ≤ t → |stochLine m n (rsiLine n (sourceValue src o h l c v)) t| ≤ 100 := fun t ht =>
    stochLine_abs (by omega) (by omega) (by omega) _
  have hb1 : ∀ t, t < N → s + sk - 1 ≤ t → |kline t| ≤ 100 := fun t _ ht => by
    rw [hkl]; exact average_abs .sma hsk (show s + maLength .sma sk ≤ t + 1 from by show s + sk ≤ t + 1; omega) fun i hi _ => hb0 i hi
  have hτ0 : 0 ≤ 1610 * (ρ / δ) + 101 * u := by positivity
  have hτ1 : 1610 * (ρ / δ) + 101 * u ≤ 270 := by linarith
  obtain ⟨⟨y, y3, y4⟩, e1, e2⟩ := simple_near A L d hsk (by omega : sk + N + 1 ≤ k) hr.fine hr.small htop y2 hτ0 (by linarith) fun t _ ht => hb0 t ht
  rw [← hkl] at y4
  obtain ⟨⟨z, z1, z2⟩, -, -⟩ := simple_near A L d hsd (by omega : sd + N + 1 ≤ k) hr.fine hr.small htop y4 e2 (by linarith) hb1
  rw [← hdl] at z2
  exact ⟨y, z, withSrc_runs x1 (C53_stoch_rsi d r1 y1 y3 z1), y4, z2⟩

end

/-! ## The exact side -/

private theorem ownStochastic_line {m s N : Nat} (hm : 2 ≤ m) {w : Nat → K} {δ : K} (hδ : 0 < δ) (wide : Spreads m s w δ N) :
    ∀ t, t < N → ownStochastic (startAt s w) m t = startAt (max (s + 1) (m - 1)) (stochLine m s w) t := by
  have step : ∀ (t : Nat) (prev : Option K), t < N → (t < max (s + 1) (m - 1) → prev = none) →
      (match startAt s w t, Spec.highest (startAt s w) m t, Spec.lowest (startAt s w) m t with
        | some a, some hi, some lo => if hi = lo then prev else some (100 * (a - lo) / (hi - lo))
        | _, _, _ => none) = startAt (max (s + 1) (m - 1)) (stochLine m s w) t := by
    intro t prev ht hp
    by_cases hs : t < s
    · have e1 : startAt s w t = none := by unfold startAt; rw [if_pos hs]
      have e2 : startAt (max (s + 1) (m - 1)) (stochLine m s w) t = none := by unfold startAt; rw [if_pos (by omega)]
      rw [e1, e2]
    by_cases hf : m ≤ t + 1
    swap
    · have e1 : Spec.highest (startAt s w) m t = none := by unfold Spec.highest; rw [if_neg hf]
      have e2 : startAt (max (s + 1) (m - 1)) (stochLine m s w) t = none := by unfold startAt; rw [if_pos (by omega)]
      rw [e1, e2]
      cases startAt s w t <;> rfl
    obtain ⟨hi, lo, b1, b2, b3, b4⟩ := extremes_at (m := m) (s := s) (t := t) (by omega) hf (by omega) w
    rw [startAt_at w (by omega : s ≤ t), b1, b2]
    simp only
    by_cases hts : t < max (s + 1) (m - 1)
    · obtain ⟨⟨i, i1, i2, i3⟩, ⟨j, j1, j2, j3⟩⟩ := extremes_mem hf b1 b2
      rw [if_pos (by rw [← i3, ← j3, show i = s by omega, show j = s by omega]), hp hts]
      unfold startAt
      rw [if_pos hts]
    · have := wide t ht (by omega) _ _ b1 b2
      rw [if_neg (fun e => by rw [e] at this; linarith), startAt_at _ (by omega)]
      unfold stochLine
      rw [b1, b2]
      rfl
  intro t
  induction t with
  | zero => intro ht; rw [ownStochastic]; exact step 0 none ht fun _ => rfl
  | succ t ih =>
    intro ht
    rw [ownStochastic]
    refine step (t + 1) _ ht fun hts => ?_
    rw [ih (by omega)]
    unfold startAt
    rw [if_pos (by omega)]

private theorem stoch_rsi_line {n m sk sd : Nat} (hn : 2 ≤ n) (hm : 2 ≤ m) (hsk : 1 ≤ sk) (hsd : 1 ≤ sd) (d : DataProvider (Ex K)) {N : Nat} (p : Nat → K)
    {μ : K} (hμ : 0 < μ) (moves : ∀ t, t < N → n ≤ t → μ ≤ avgGain n p t + avgLoss n p t) {δ : K} (hδ : 0 < δ) (wide : Spreads m n (rsiLine n p) δ N)
    {s : Nat} (hs : s = max (n + 1) (m - 1)) {kline dline : Nat → K} (hkl : kline = average .sma sk s (stochLine m n (rsiLine n p)))
    (hdl : dline = average .sma sd (s + sk - 1) kline) :
    Runs (fun t => StochRsi.next ⟨d, t⟩) (StochRsi.new n m sk sd) (fun t => some (fin (p t))) N
      (fun t => (flo (startAt (s + sk - 1) kline) t, flo (startAt (s + sk - 1 + sd - 1) dline) t)) := by
  have h1 := (ownStochastic_runs d (by omega : 1 ≤ m) (startAt n (rsiLine n p)) N).congr (y' := flo (startAt s (stochLine m n (rsiLine n p)))) fun t ht => by
    unfold flo; rw [ownStochastic_line hm hδ wide t ht, hs]
  have h2 := (C53_ma d sk (flo (startAt s (stochLine m n (rsiLine n p)))) N).1.symm.trans (ma_exact d .sma hsk s _ N)
  have h3 := (C53_ma d sd (flo (startAt (s + sk - 1) kline)) N).1.symm.trans (ma_exact d .sma hsd (s + sk - 1) kline N)
  rw [hkl, hdl]
  subst hkl
  exact C53_stoch_rsi d (rsi_exact_line hn d p hμ moves) h1 h2 h3

section
variable {V : Valued R α} {u η top : K} (A : R.Accurate u η top) (L : R.Lawful)

include A L in
/-- **C93.** The stochastic RSI program of any lengths, price source and thresholds, on prices and windows as in C93_stoch_rsi: if the exact
smoothed line keeps farther from both thresholds than its error, it signals on every tick what it signals in exact arithmetic. -/
theorem C93_stoch_rsi_program (hT : 1 ≤ u * top) {d : DataProvider α} {N : Nat} {o h l c v : Nat → K} {M : K} (hb : PricedBars V d N o h l c v M) (hM : 0 ≤ M)
    {dx : DataProvider (Ex K)} (hx : ExBars dx N o h l c v)
    {src : SrcKind} (hs : src ≠ .volume) {n m sk sd k : Nat} (hn : 2 ≤ n) (hm : 2 ≤ m) (hsk : 1 ≤ sk) (hsd : 1 ≤ sd) (hk : n + sk + sd + N + 1 ≤ k)
    (hr : Room u η top k M) (htop : 200000 * (k : K) ≤ top) {μ : K} (hμ : 0 < μ) (hEμ : 4 * ((13 + 54 * n) * (u * M + η)) ≤ μ)
    (moves : ∀ t, t < N → n ≤ t → μ ≤ avgGain n (sourceValue src o h l c v) t + avgLoss n (sourceValue src o h l c v) t)
    {ρ : K} (hρ : ρ = 200 * ((13 + 54 * n) * (u * M + η)) / μ + 1601 * u) {δ : K} (hδ : 0 < δ) (hρδ : 6 * ρ ≤ δ)
    (wide : Spreads m n (rsiLine n (sourceValue src o h l c v)) δ N) {s : Nat} (hs' : s = max (n + 1) (m - 1)) {kline : Nat → K}
    (hkl : kline = average .sma sk s (stochLine m n (rsiLine n (sourceValue src o h l c v))))
    {th : Thresholds α} {thx : Thresholds (Ex K)} {lo hi : K} (h1 : V.val th.oversold = Fl.of R (.fin lo)) (h2 : V.val th.overbought = Fl.of R (.fin hi))
    (h3 : thx.oversold = fin lo) (h4 : thx.overbought = fin hi)
    (far : ∀ t, t < N → s + sk - 1 ≤ t → smoothError u η N (1610 * (ρ / δ) + 101 * u) < |kline t - lo| ∧
      smoothError u η N (1610 * (ρ / δ) + 101 * u) < |kline t - hi|)
    (cfg : StrategyConfig α) (cfgx : StrategyConfig (Ex K)) (rfr : α) (rfrx : Ex K) :
    SameSignals d dx N (withSrc src StochRsi.next) (StochRsi.new n m sk sd) (fun q y => ThresholdStrategy.next q y.1)
      (StochRelativeStrengthIndexStrategy.new th) cfg rfr (withSrc src StochRsi.next) (StochRsi.new n m sk sd)
      (fun q y => ThresholdStrategy.next q y.1) (StochRelativeStrengthIndexStrategy.new thx) cfgx rfrx (lineSignal (s + sk - 1) kline lo hi) := by
  obtain ⟨y, z, r, near, -⟩ := C93_stoch_rsi A L hT hb hM hs hn hm hsk hsd hk hr htop hμ hEμ moves hρ hδ hρδ wide hs' hkl rfl
  have rx := withSrc_runs (next := StochRsi.next) (src_exact hx src) (stoch_rsi_line hn hm hsk hsd dx _ hμ moves hδ wide hs' hkl rfl)
  have s1 := (C92_signals near h1 h2 far).1 StochRelativeStrengthIndexStrategy.new (by simp)
  have s2 := (C92_signals_exact (s + sk - 1) kline thx h3 h4 N).1 StochRelativeStrengthIndexStrategy.new (by simp)
  obtain ⟨o', h', l', c', v', b1, -⟩ := hb.bars
  obtain ⟨st, tv, t1, -, t2⟩ := C65_program b1 r (first_total (y := fun t => (y t, z t)) s1) cfg rfr
  obtain ⟨stx, tvx, t3, -, t4⟩ := C65_program hx rx (first_total (y := fun t => (_, _)) s2) cfgx rfrx
  exact ⟨_, st, tv, _, stx, tvx, t2, t4, t1, t3⟩

end
end Pace
