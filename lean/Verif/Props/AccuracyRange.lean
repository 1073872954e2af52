import Verif.Props.AccuracyContent
import Verif.Props.FloatRange

/-!
# C94: ranges, channels and stops in floats against exact ones

The errors of C92 carried through the operations that compare: highest and lowest values, true ranges and what is built from them.
-/

set_option linter.unusedSectionVars false

namespace Pace
open Spec
variable {K : Type} [Field K] [LinearOrder K] [IsStrictOrderedRing K] [RootOps K] {R : Rounding K}
variable {α : Type} [F64 α]

private theorem fl_max (a b : K) : F64.fmax (Fl.of R (.fin a)) (Fl.of R (.fin b)) = Fl.of R (.fin (max a b)) := by
  refine (show (Fl.fmax (.fin a) (.fin b) : Ext K) = .fin (max a b) from ?_)
  unfold Fl.fmax
  by_cases h : a ≤ b
  · rw [max_eq_right h]
    exact if_pos (decide_eq_true h)
  · rw [max_eq_left (le_of_not_ge h)]
    exact if_neg (by rw [show (Ext.fin a).le (Ext.fin b) = decide (a ≤ b) from rfl]; simpa using h)

private theorem fl_abs (a : K) : F64.abs (Fl.of R (.fin a)) = Fl.of R (.fin |a|) := rfl

section
variable {V : Valued R α} {u η top : K}

/-! ## Operations that are exact -/

theorem Spec.Near.abs {a : α} {x e : K} (h : Near V a x e) : Near V (F64.abs a) |x| e := by
  obtain ⟨v, h1, h2⟩ := h
  exact ⟨|v|, by rw [V.abs, h1, fl_abs], (abs_abs_sub_abs_le v x).trans h2⟩

theorem Spec.Near.max {a b : α} {x y e : K} (ha : Near V a x e) (hb : Near V b y e) : Near V (F64.fmax a b) (Max.max x y) e := by
  obtain ⟨v, h1, h2⟩ := ha
  obtain ⟨w, h3, h4⟩ := hb
  refine ⟨Max.max v w, by rw [V.fmax, h1, h3, fl_max], ?_⟩
  exact (abs_max_sub_max_le_max v w x y).trans (max_le h2 h4)

/-- Division by something that is known up to half of its size. -/
theorem Spec.Near.quot (A : R.Accurate u η top) {a b : α} {x y e f m q : K} (ha : Near V a x e) (hb : Near V b y f) (hm : 0 < m) (hy : m ≤ |y|)
    (hf : 2 * f ≤ m) (hq : |x / y| ≤ q) (ht : q + 2 * (e + q * f) / m ≤ top) :
    Near V (a / b) (x / y) (2 * (e + q * f) / m + u * (q + 2 * (e + q * f) / m) + η) := by
  have he := ha.nonneg
  have hf0 := hb.nonneg
  obtain ⟨v, h1, h2⟩ := ha
  obtain ⟨w, h3, h4⟩ := hb
  have hy0 : y ≠ 0 := fun h => by rw [h, abs_zero] at hy; linarith
  have hw : m / 2 ≤ |w| := by
    have := abs_sub_abs_le_abs_sub y w
    rw [abs_sub_comm] at this
    linarith
  have hw0 : w ≠ 0 := fun h => by rw [h, abs_zero] at hw; linarith
  have hwp : 0 < |w| := abs_pos.mpr hw0
  have hq0 : 0 ≤ q := (abs_nonneg _).trans hq
  have key : |v / w - x / y| ≤ 2 * (e + q * f) / m := by
    have e1 : v / w - x / y = ((v - x) - x / y * (w - y)) / w := by field_simp; ring
    have e2 : |(v - x) - x / y * (w - y)| ≤ e + q * f := by
      have h5 := abs_sub (v - x) (x / y * (w - y))
      have h6 : |x / y * (w - y)| ≤ q * f := by rw [abs_mul]; exact mul_le_mul hq h4 (abs_nonneg _) hq0
      linarith
    rw [e1, abs_div, div_le_div_iff₀ hwp hm]
    have e3 : 0 ≤ e + q * f := by positivity
    have e4 := mul_le_mul_of_nonneg_right e2 hm.le
    have e5 := mul_le_mul_of_nonneg_left hw e3
    linarith
  obtain ⟨z, h5, h6⟩ := A.near (k := v / w) (l := x / y) key hq ht
  refine ⟨z, ?_, h6⟩
  have hb0 : V.val b ≠ Fl.of R (.fin 0) := by
    rw [h3]
    intro h
    exact hw0 (Ext.fin.inj (show (Ext.fin w : Ext K) = .fin 0 from h))
  rw [V.div _ _ hb0, h1, h3]
  refine Eq.trans ?_ h5
  exact (if_neg hw0 : (if w = 0 then _ else _) = _)

/-! ## Highest and lowest values -/

theorem Spec.Within.mono {a : Option α} {k : Option K} {e f : K} (h : Within V a k e) (hf : e ≤ f) : Within V a k f := by
  revert h
  unfold Within
  cases k with
  | none => exact id
  | some k => rintro ⟨a, h1, h2⟩; exact ⟨a, h1, h2.mono hf⟩

private theorem within_some {a : Option α} {k : Option K} {e : K} (h : Within V a k e) {b : α} (hb : a = some b) : ∃ w, k = some w ∧ Near V b w e := by
  unfold Within at h
  cases k with
  | none => rw [hb] at h; exact absurd h (by simp)
  | some w =>
    obtain ⟨c, h1, h2⟩ := h
    rw [hb] at h1
    obtain rfl := Option.some.inj h1
    exact ⟨w, rfl, h2⟩

private theorem near_not_nan {a : α} {k e : K} (h : Near V a k e) : V.val a ≠ Fl.of R .nan := by
  obtain ⟨v, h1, -⟩ := h
  rw [h1]
  intro h2
  have : (Ext.fin v : Ext K) = .nan := h2
  cases this

private theorem near_not_lt {a b : α} {v w : K} (ha : V.val a = Fl.of R (.fin v)) (hb : V.val b = Fl.of R (.fin w)) (h : F64.lt a b = false) : w ≤ v := by
  rw [V.lt, ha, hb] at h
  have h' : decide (v < w) = false := h
  exact not_lt.mp (of_decide_eq_false h')

/-- **C94.** The highest of the last `n` floats that are within `e` of some numbers, missing ones being skipped, is within `e` of the highest
of the numbers: comparing does not round. -/
theorem C94_highest (d : DataProvider α) {n N : Nat} (hn : 1 ≤ n) {x : Nat → Option α} {w : Nat → Option K} {e : K}
    (h : ∀ t, t < N → Within V (x t) (w t) e) :
    ∃ y, Runs (fun t => Highest.next ⟨d, t⟩) (Highest.new n) x N y ∧ ∀ t, t < N → Within V (y t) (Spec.highest w n t) e := by
  refine ⟨_, highest_runs d hn x N, fun t ht => ?_⟩
  unfold highest0
  by_cases hf : n ≤ t + 1
  swap
  · unfold Spec.highest
    rw [if_neg hf, if_neg hf]
    rfl
  rw [if_pos hf]
  have hP : ∀ v, some v ∈ win x n t → V.val v ≠ Fl.of R .nan := by
    intro v hv
    obtain ⟨k, h1, h2, h3⟩ := (mem_win hf).mp hv
    obtain ⟨z, -, h5⟩ := within_some (h k (by omega)) h3
    exact near_not_nan h5
  rcases pick_spec maxB (maxLaw_ieee V) (win_ne_nil x hn) hP with ⟨h1, h2⟩ | ⟨m, h1, h2, h3⟩
  · rw [h1]
    have : Spec.highest w n t = none := by
      cases hw : Spec.highest w n t with
      | none => rfl
      | some k =>
        obtain ⟨⟨i, i1, i2, i3⟩, -⟩ := spec_highest_some hf hw
        have h4 := h i (by omega)
        rw [i3] at h4
        obtain ⟨a, a1, -⟩ := h4
        have := h2 _ ((mem_win hf).mpr ⟨i, i1, i2, rfl⟩)
        rw [a1] at this
        exact absurd this (by simp)
    rw [this]
    rfl
  · rw [h1]
    obtain ⟨i, i1, i2, i3⟩ := (mem_win hf).mp h2
    obtain ⟨z, z1, v, z2, z3⟩ := within_some (h i (by omega)) i3
    obtain ⟨k, hk⟩ := spec_highest_isSome hf i1 i2 z1
    rw [hk]
    obtain ⟨⟨j, j1, j2, j3⟩, top⟩ := spec_highest_some hf hk
    have hj := h j (by omega)
    rw [j3] at hj
    obtain ⟨b, b1, r, b2, b3⟩ := hj
    have hle : r ≤ v := near_not_lt z2 b2 (h3 b ((mem_win hf).mpr ⟨j, j1, j2, b1⟩))
    have hzk := top i z i1 i2 z1
    rw [abs_le] at z3 b3
    exact ⟨m, rfl, v, z2, abs_le.mpr ⟨by linarith, by linarith⟩⟩

/-- **C94.** The same of the lowest. -/
theorem C94_lowest (d : DataProvider α) {n N : Nat} (hn : 1 ≤ n) {x : Nat → Option α} {w : Nat → Option K} {e : K}
    (h : ∀ t, t < N → Within V (x t) (w t) e) :
    ∃ y, Runs (fun t => Lowest.next ⟨d, t⟩) (Lowest.new n) x N y ∧ ∀ t, t < N → Within V (y t) (Spec.lowest w n t) e := by
  refine ⟨_, lowest_runs d hn x N, fun t ht => ?_⟩
  unfold lowest0
  by_cases hf : n ≤ t + 1
  swap
  · unfold Spec.lowest
    rw [if_neg hf, if_neg hf]
    rfl
  rw [if_pos hf]
  have hP : ∀ v, some v ∈ win x n t → V.val v ≠ Fl.of R .nan := by
    intro v hv
    obtain ⟨k, h1, h2, h3⟩ := (mem_win hf).mp hv
    obtain ⟨z, -, h5⟩ := within_some (h k (by omega)) h3
    exact near_not_nan h5
  rcases pick_spec minB (minLaw_ieee V) (win_ne_nil x hn) hP with ⟨h1, h2⟩ | ⟨m, h1, h2, h3⟩
  · rw [h1]
    have : Spec.lowest w n t = none := by
      cases hw : Spec.lowest w n t with
      | none => rfl
      | some k =>
        obtain ⟨⟨i, i1, i2, i3⟩, -⟩ := spec_lowest_some hf hw
        have h4 := h i (by omega)
        rw [i3] at h4
        obtain ⟨a, a1, -⟩ := h4
        have := h2 _ ((mem_win hf).mpr ⟨i, i1, i2, rfl⟩)
        rw [a1] at this
        exact absurd this (by simp)
    rw [this]
    rfl
  · rw [h1]
    obtain ⟨i, i1, i2, i3⟩ := (mem_win hf).mp h2
    obtain ⟨z, z1, v, z2, z3⟩ := within_some (h i (by omega)) i3
    obtain ⟨k, hk⟩ := spec_lowest_isSome hf i1 i2 z1
    rw [hk]
    obtain ⟨⟨j, j1, j2, j3⟩, bot⟩ := spec_lowest_some hf hk
    have hj := h j (by omega)
    rw [j3] at hj
    obtain ⟨b, b1, r, b2, b3⟩ := hj
    have hle : v ≤ r := near_not_lt b2 z2 (h3 b ((mem_win hf).mpr ⟨j, j1, j2, b1⟩))
    have hzk := bot i z i1 i2 z1
    rw [abs_le] at z3 b3
    exact ⟨m, rfl, v, z2, abs_le.mpr ⟨by linarith, by linarith⟩⟩

/-! ## True ranges -/

section
variable (A : R.Accurate u η top) (L : R.Lawful)

theorem barRange_abs {h l c : Nat → K} {M : K} {t : Nat} (hp : ∀ i, i ≤ t → |h i| ≤ M ∧ |l i| ≤ M ∧ |c i| ≤ M) : |barRange h l c t| ≤ 2 * M := by
  obtain ⟨h1, h2, -⟩ := hp t (le_refl _)
  rw [abs_le] at h1 h2
  cases t with
  | zero => exact abs_le.mpr ⟨by simp only [barRange]; linarith, by simp only [barRange]; linarith⟩
  | succ t =>
    obtain ⟨-, -, h3⟩ := hp t (by omega)
    rw [abs_le] at h3
    have e1 : |h (t + 1) - c t| ≤ 2 * M := abs_le.mpr ⟨by linarith, by linarith⟩
    have e2 : |l (t + 1) - c t| ≤ 2 * M := abs_le.mpr ⟨by linarith, by linarith⟩
    refine abs_le.mpr ⟨?_, max_le (max_le (by linarith) e1) e2⟩
    have : 0 ≤ barRange h l c (t + 1) := (abs_nonneg _).trans (le_max_right _ _)
    have := (abs_nonneg _).trans e1
    linarith

include A in
/-- **C94.** The true range of every bar is within `2 (u M + η)` of the exact one. -/
theorem C94_range {d : DataProvider α} {N : Nat} {o h l c v : Nat → K} {M : K} (hb : PricedBars V d N o h l c v M) (hM : 0 ≤ M) (htop : 2 * M ≤ top) :
    ∃ r : Nat → α, (∀ t, t < N → Tr.next ⟨d, t⟩ true = .ok (some (r t))) ∧
      StaysNear V (fun t => some (r t)) 0 (barRange h l c) (2 * (u * M + η)) N := by
  obtain ⟨o', h', l', c', v', b, hv⟩ := hb.bars
  have hη := A.η_nonneg
  have nearAt : ∀ {a : α} {w : K}, V.val a = Fl.of R (.fin w) → Near V a w 0 := fun {a w} h => ⟨w, h, by simp⟩
  have diff : ∀ {a b : α} {x y : K}, V.val a = Fl.of R (.fin x) → V.val b = Fl.of R (.fin y) → |x| ≤ M → |y| ≤ M → Near V (a - b) (x - y) (2 * (u * M + η)) := by
    intro a b x y ha hb' hx hy
    rw [abs_le] at hx hy
    refine ((nearAt ha).sub A (nearAt hb') (m := 2 * M) (abs_le.mpr ⟨by linarith, by linarith⟩) (by linarith)).mono ?_
    linarith
  have h1 : ∀ t, ∃ r, tr0 true h' l' c' t = some r := fun t => Option.isSome_iff_exists.mp (tr0_isSome h' l' c' t)
  choose r hr using h1
  refine ⟨r, fun t ht => by rw [tr_step b.high b.low b.close ht, hr], fun t ht => ?_⟩
  unfold startAt
  rw [if_neg (by omega)]
  refine ⟨r t, rfl, ?_⟩
  obtain ⟨-, v2, v3, -, -⟩ := hv t ht
  obtain ⟨-, m2, m3, -⟩ := hb.bound t ht
  have h2 := hr t
  cases t with
  | zero =>
    rw [← Option.some.inj (show some (h' 0 - l' 0) = some (r 0) from h2)]
    exact diff v2 v3 m2 m3
  | succ t =>
    obtain ⟨-, -, -, v4, -⟩ := hv t (by omega)
    obtain ⟨-, -, -, m4⟩ := hb.bound t (by omega)
    rw [← Option.some.inj (show some _ = some (r (t + 1)) from h2)]
    exact ((diff v2 v3 m2 m3).max (diff v2 v4 m2 m4).abs).max (diff v3 v4 m3 m4).abs

include A L in
/-- **C94.** The average true range of any length `n` is within `(2 + 54 n) (u M + η)` of the exact one on every bar, however long the run,
and begins on the same bar. -/
theorem C94_atr {d : DataProvider α} {N : Nat} {o h l c v : Nat → K} {M : K} (hb : PricedBars V d N o h l c v M) (hM : 0 ≤ M) {n k : Nat} (hn : 1 ≤ n)
    (hk : n + N + 1 ≤ k) (hr : Room u η top k M) :
    ∃ y, Runs (noInput fun t => Atr.next ⟨d, t⟩) (Atr.new n) unit N y ∧
      ∀ t, t < N → Within V (y t) (averageRange h l c n t) ((2 + 54 * n) * (u * M + η)) := by
  have hu := A.u_nonneg
  have hus := A.u_small
  have hη := A.η_nonneg
  have hδ : 0 ≤ u * M + η := by positivity
  have hk1 : (1 : K) ≤ k := by exact_mod_cast (by omega : 1 ≤ k)
  have sM : u * M ≤ M / 1024 := by have := mul_le_mul_of_nonneg_right hus hM; linarith
  have w := hr.wide
  have hMk : M + η ≤ k * (M + η) := le_mul_of_one_le_left (by positivity) hk1
  obtain ⟨r, r1, r2⟩ := C94_range A hb hM (by linarith)
  obtain ⟨o', h', l', c', v', b, -⟩ := hb.bars
  obtain ⟨r', y, y1, y2, y3⟩ := C33_atr_is_rma d hn b
  have he : ∀ t, t < N → r' t = r t := fun t ht => by
    have := (y1 t ht).symm.trans (r1 t ht)
    exact Option.some.inj (Except.ok.inj this)
  obtain ⟨z, z1, z2⟩ := C92_average A L d .rma hn hk hr.small (by have := hr.fine; nlinarith) r2 (M := 2 * M) (by linarith) (by positivity)
    (fun t ht _ => barRange_abs fun i hi => let ⟨_, a, b, c⟩ := hb.bound i (by omega); ⟨a, b, c⟩) (by
      have : 40 * (k : K) * (2 * M + 2 * (u * M + η) + η) ≤ 40 * (k : K) * (3 * (M + η)) := mul_le_mul_of_nonneg_left (by linarith) (by positivity)
      linarith)
  have hz := (C53_ma d n (fun t => some (r t)) N).2.2.1.trans ((y2.input_congr fun t ht => by rw [he t ht]) :)
  have e1 := Runs.unique z1 hz
  refine ⟨y, y3, fun t ht => ?_⟩
  have h1 := z2 t ht
  rw [e1 t ht] at h1
  have ea : average .rma n 0 (barRange h l c) = fun t => runningMean n 0 (barRange h l c) (t + 1 - n) := by
    funext t
    simp only [average, Nat.zero_add]
  rw [ea] at h1
  simp only [maLength, Nat.zero_add, slack] at h1
  refine Within.mono (show Within V (y t) (averageRange h l c n t) _ from h1) ?_
  push_cast
  have h2 : u * (2 * M + 2 * (u * M + η)) + η ≤ 3 * (u * M + η) := by
    have := mul_le_mul_of_nonneg_right hus hδ
    linarith
  have := mul_le_mul_of_nonneg_left h2 (show (0 : K) ≤ 18 * n by positivity)
  linarith

end

end
end Pace
