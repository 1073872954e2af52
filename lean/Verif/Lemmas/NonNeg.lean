import Verif.Lemmas.TaRuns2

/-!
# Level 1: signs of float results under a monotone rounding

`NN v`: the float `v` is NaN or not below zero.
-/

set_option linter.unusedSectionVars false

namespace Pace
variable {K : Type} [Field K] [LinearOrder K] [IsStrictOrderedRing K] {R : Rounding K}

/-- NaN or at least 0. -/
def NN (v : Fl R) : Prop := v = Fl.of R .nan ∨ F64.le (Fl.of R (.fin 0)) v = true

theorem nn_nan : NN (Fl.of R .nan) := Or.inl rfl
theorem nn_pinf : NN (Fl.of R .pinf) := Or.inr rfl
theorem nn_fin {k : K} : NN (Fl.of R (.fin k)) ↔ 0 ≤ k := by
  constructor
  · rintro (h | h)
    · exact absurd (show (Ext.fin k : Ext K) = .nan from h) (by simp)
    · exact of_decide_eq_true h
  · intro h; exact Or.inr (decide_eq_true h)
theorem not_nn_ninf : ¬ NN (Fl.of R (.ninf)) := by
  rintro (h | h)
  · exact absurd (show (Ext.ninf : Ext K) = .nan from h) (by simp)
  · exact absurd (show false = true from h) (by simp)

/-- The three shapes of a non-negative or NaN float. -/
theorem NN.cases {v : Fl R} (h : NN v) :
    v = Fl.of R .nan ∨ v = Fl.of R .pinf ∨ ∃ k, 0 ≤ k ∧ v = Fl.of R (.fin k) := by
  match v, h with
  | .nan, _ => exact Or.inl rfl
  | .pinf, _ => exact Or.inr (Or.inl rfl)
  | .ninf, h => exact absurd h not_nn_ninf
  | .fin k, h => exact Or.inr (Or.inr ⟨k, nn_fin.mp h, rfl⟩)

variable (L : R.Lawful)
include L

theorem rnd_zero : R.rnd 0 = .fin 0 := by simpa using L.int 0 (by norm_num)
theorem rnd_one : R.rnd 1 = .fin 1 := by simpa using L.int 1 (by norm_num)
theorem rnd_hundred : R.rnd 100 = .fin 100 := by
  have := L.int 100 (by norm_num)
  simpa using this

theorem lit_zero : (lit 0 : Fl R) = Fl.of R (.fin 0) := by
  show R.rnd ((0 : ℚ) : K) = .fin 0
  rw [Rat.cast_zero]; exact rnd_zero L
theorem lit_one : (lit 1 : Fl R) = Fl.of R (.fin 1) := by
  show R.rnd ((1 : ℚ) : K) = .fin 1
  rw [Rat.cast_one]; exact rnd_one L
theorem lit_hundred : (lit 100 : Fl R) = Fl.of R (.fin 100) := by
  show R.rnd ((100 : ℚ) : K) = .fin 100
  rw [show ((100 : ℚ) : K) = 100 by norm_num]; exact rnd_hundred L

theorem nn_rnd {k : K} (h : 0 ≤ k) : NN (Fl.of R (R.rnd k)) := by
  have := L.mono 0 k h
  rw [rnd_zero L] at this
  exact Or.inr this

/-- Rounding stays below an integer bound. -/
theorem rnd_le_int {k : K} {n : ℤ} (hn : |n| ≤ 2 ^ 53) (h : k ≤ n) : (R.rnd k).le (.fin (n : K)) = true := by
  have := L.mono k n h
  rwa [L.int n hn] at this

theorem NN.add {a b : Fl R} (ha : NN a) (hb : NN b) : NN (a + b) := by
  rcases ha.cases with rfl | rfl | ⟨x, hx, rfl⟩ <;> rcases hb.cases with rfl | rfl | ⟨y, hy, rfl⟩
  · exact nn_nan
  · exact nn_nan
  · exact nn_nan
  · exact nn_nan
  · exact nn_pinf
  · exact nn_pinf
  · exact nn_nan
  · exact nn_pinf
  · exact nn_rnd L (add_nonneg hx hy)

theorem nn_signInf {k : K} (h : 0 ≤ k) : NN (Fl.of R (Fl.signInf k)) := by
  unfold Fl.signInf
  split
  · exact nn_pinf
  · rw [if_neg (not_lt.mpr h)]; exact nn_nan

theorem NN.mul {a b : Fl R} (ha : NN a) (hb : NN b) : NN (a * b) := by
  rcases ha.cases with rfl | rfl | ⟨x, hx, rfl⟩ <;> rcases hb.cases with rfl | rfl | ⟨y, hy, rfl⟩
  · exact nn_nan
  · exact nn_nan
  · exact nn_nan
  · exact nn_nan
  · exact nn_pinf
  · exact nn_signInf L hy
  · exact nn_nan
  · exact nn_signInf L hx
  · exact nn_rnd L (mul_nonneg hx hy)

theorem NN.div {a b : Fl R} (ha : NN a) (hb : NN b) : NN (a / b) := by
  rcases ha.cases with rfl | rfl | ⟨x, hx, rfl⟩ <;> rcases hb.cases with rfl | rfl | ⟨y, hy, rfl⟩
  · exact nn_nan
  · exact nn_nan
  · exact nn_nan
  · exact nn_nan
  · exact nn_nan
  · have : Fl.of R .pinf / Fl.of R (.fin y) = Fl.of R .pinf :=
      (if_neg (not_lt.mpr hy) : (if y < 0 then Ext.ninf else Ext.pinf) = Ext.pinf)
    rw [this]; exact nn_pinf
  · exact nn_nan
  · exact nn_fin.mpr (le_refl (0 : K))
  · by_cases h : y = 0
    · have : Fl.of R (.fin x) / Fl.of R (.fin y) = Fl.of R (Fl.signInf x) :=
        (if_pos h : (if y = 0 then Fl.signInf x else R.rnd (x / y)) = Fl.signInf x)
      rw [this]; exact nn_signInf L hx
    · have : Fl.of R (.fin x) / Fl.of R (.fin y) = Fl.of R (R.rnd (x / y)) :=
        (if_neg h : (if y = 0 then Fl.signInf x else R.rnd (x / y)) = R.rnd (x / y))
      rw [this]; exact nn_rnd L (div_nonneg hx hy)

omit L in
theorem nn_abs (a : Fl R) : NN (F64.abs a) := by
  match a with
  | .nan => exact nn_nan
  | .pinf => exact nn_pinf
  | .ninf => exact nn_pinf
  | .fin k => exact nn_fin.mpr (abs_nonneg k)

omit L in
theorem nn_fmax_fin (a : Fl R) {y : K} (hy : 0 ≤ y) : NN (F64.fmax a (Fl.of R (.fin y))) := by
  match a with
  | .nan => exact nn_fin.mpr hy
  | .pinf => exact nn_pinf
  | .ninf => exact nn_fin.mpr hy
  | .fin k =>
    show NN (if decide (k ≤ y) = true then Fl.of R (.fin y) else Fl.of R (.fin k))
    split
    · exact nn_fin.mpr hy
    · rename_i h; simp at h; exact nn_fin.mpr (by linarith)

omit L in
theorem NN.fmax {a b : Fl R} (ha : NN a) (hb : NN b) : NN (F64.fmax a b) := by
  rcases hb.cases with rfl | rfl | ⟨y, hy, rfl⟩
  · rcases ha.cases with rfl | rfl | ⟨x, hx, rfl⟩
    · exact nn_nan
    · exact nn_pinf
    · exact nn_fin.mpr hx
  · rcases ha.cases with rfl | rfl | ⟨x, hx, rfl⟩ <;> exact nn_pinf
  · exact nn_fmax_fin a hy

omit L in
theorem nn_neg_fmin (a : Fl R) {y : K} (hy : y ≤ 0) : NN (-(F64.fmin a (Fl.of R (.fin y)))) := by
  match a with
  | .nan => exact nn_fin.mpr (by linarith : 0 ≤ -y)
  | .pinf => exact nn_fin.mpr (by linarith : 0 ≤ -y)
  | .ninf => exact nn_pinf
  | .fin k =>
    show NN (-(if decide (k ≤ y) = true then Fl.of R (.fin k) else Fl.of R (.fin y)))
    split
    · rename_i h; simp at h; exact nn_fin.mpr (by linarith : 0 ≤ -k)
    · exact nn_fin.mpr (by linarith : 0 ≤ -y)

/-- `1 - a` for `a` NaN or in [0,1]. -/
theorem nn_one_sub {a : Fl R} (ha : NN a) (h1 : a = Fl.of R .nan ∨ F64.le a (Fl.of R (.fin 1)) = true) :
    NN (lit 1 - a) := by
  rw [lit_one L]
  rcases ha.cases with rfl | rfl | ⟨x, hx, rfl⟩
  · exact nn_nan
  · rcases h1 with h | h
    · exact absurd (show (Ext.pinf : Ext K) = .nan from h) (by simp)
    · exact absurd (show false = true from h) (by simp)
  · rcases h1 with h | h
    · exact absurd (show (Ext.fin x : Ext K) = .nan from h) (by simp)
    · have hx1 : x ≤ 1 := of_decide_eq_true h
      exact nn_rnd L (show 0 ≤ 1 + -x by linarith)

/-- `lit n` for a natural number is at least 1 (or infinite) if `n` is. -/
theorem lit_nat_ge_one {n : Nat} (h : 1 ≤ n) :
    (lit (n : ℚ) : Fl R) = Fl.of R .pinf ∨ ∃ k : K, 1 ≤ k ∧ (lit (n : ℚ) : Fl R) = Fl.of R (.fin k) := by
  have h1 : (1 : K) ≤ (((n : Nat) : ℚ) : K) := by
    rw [Rat.cast_natCast]; exact_mod_cast h
  have hm := L.mono 1 _ h1
  have hn := L.ne_nan ((((n : Nat) : ℚ)) : K)
  rw [rnd_one L] at hm
  show (R.rnd (((n : Nat) : ℚ) : K) = .pinf) ∨ ∃ k : K, 1 ≤ k ∧ R.rnd (((n : Nat) : ℚ) : K) = .fin k
  cases hr : R.rnd (((n : Nat) : ℚ) : K) with
  | nan => exact absurd hr hn
  | pinf => exact Or.inl rfl
  | ninf => rw [hr] at hm; exact absurd (show false = true from hm) (by simp)
  | fin k => rw [hr] at hm; exact Or.inr ⟨k, of_decide_eq_true hm, rfl⟩

theorem nn_lit_nat (n : Nat) : NN (lit (n : ℚ) : Fl R) :=
  nn_rnd L (by rw [Rat.cast_natCast]; positivity)

theorem rmaAlpha_nn {n : Nat} (h : 1 ≤ n) : NN (rmaAlpha n : Fl R) ∧ NN (lit 1 - rmaAlpha n : Fl R) := by
  have hd : NN (rmaAlpha n : Fl R) := by
    unfold rmaAlpha
    exact NN.div L (by rw [lit_one L]; exact nn_fin.mpr zero_le_one) (nn_lit_nat L n)
  refine ⟨hd, nn_one_sub L hd (Or.inr ?_)⟩
  unfold rmaAlpha
  rw [lit_one L]
  rcases lit_nat_ge_one L h with hp | ⟨k, hk, hp⟩ <;> rw [hp]
  · exact decide_eq_true (zero_le_one : (0 : K) ≤ 1)
  · have hne : k ≠ 0 := by rintro rfl; linarith
    have : Fl.of R (.fin 1) / Fl.of R (.fin k) = Fl.of R (R.rnd (1 / k)) :=
      (if_neg hne : (if k = 0 then Fl.signInf 1 else R.rnd (1 / k)) = R.rnd (1 / k))
    rw [this]
    have hle : 1 / k ≤ ((1 : ℤ) : K) := by
      rw [Int.cast_one, div_le_one (by linarith)]; exact hk
    have := rnd_le_int L (n := 1) (by norm_num) hle
    rwa [Int.cast_one] at this

/-- A series that starts at tick `t0` and has no gap afterwards: non-negative (or NaN) inputs give non-negative (or NaN)
smoothed values; there is no output before tick `t0 + len - 1`. -/
theorem ema0_nn {len t0 : Nat} (hlen : 1 ≤ len) {a : Fl R} (ha : NN a) (ha1 : NN (lit 1 - a)) {x : Nat → Option (Fl R)}
    (h0 : ∀ t, t < t0 → x t = none) (hx : ∀ t v, x t = some v → NN v) {N : Nat}
    (hp : ∀ t, t0 ≤ t → t < N → (x t).isSome) :
    (∀ t, t + 1 < t0 + len → ema0 len a x t = none) ∧ ∀ t, t < N → ∀ v, ema0 len a x t = some v → NN v := by
  have hacc : ∀ t, t + 1 ≤ t0 + len → NN (acc0 len x t) := by
    intro t
    induction t with
    | zero => intro _; rw [acc0, lit_zero L]; exact nn_fin.mpr (le_refl _)
    | succ t ih =>
      intro ht
      rw [acc0]
      have h1 : NN (addOpt (acc0 len x t) (x t)) := by
        cases hxt : x t with
        | none => exact ih (by omega)
        | some v => exact NN.add L (ih (by omega)) (hx t v hxt)
      have h2 : ago x (len - 1) t = none := by
        unfold ago
        split
        · exact h0 _ (by omega)
        · rfl
      rw [h2]; exact h1
  have hnone : ∀ t, t + 1 < t0 + len → ¬ (len ≤ t + 1 ∧ WindowPresent x len t) := by
    rintro t ht ⟨h1, h2⟩
    have := h2 (t + 1 - len) (by omega) (by omega)
    rw [h0 _ (by omega)] at this
    simp at this
  have hbefore : ∀ t, t + 1 < t0 + len → ema0 len a x t = none := by
    intro t ht
    by_cases h1 : len = 1
    · have hxt := h0 t (by omega)
      cases t with
      | zero => simp [ema0, sma0, h1, hxt]
      | succ t => simp [ema0, h1, hxt]
    · cases he : ema0 len a x t with
      | none => rfl
      | some v =>
        obtain ⟨s, h2, h3, h4⟩ := ema0_isSome_seeded (alpha := a) h1 t (by rw [he]; rfl)
        exact absurd ⟨h3, h4⟩ (hnone s (by omega))
  refine ⟨hbefore, ?_⟩
  by_cases h1 : len = 1
  · intro t _ v hv
    cases t with
    | zero => simp [ema0, sma0, h1] at hv; exact hx 0 v hv
    | succ t => simp [ema0, h1] at hv; exact hx _ v hv
  · have hsma : ∀ t, t + 1 ≤ t0 + len → ∀ v, sma0 len x t = some v → NN v := by
      intro t ht v hv
      unfold sma0 at hv
      rw [if_neg h1] at hv
      split at hv
      · rw [← Option.some.inj hv]
        refine NN.div L ?_ (nn_lit_nat L len)
        unfold rawSum0
        cases hxt : x t with
        | none => exact hacc t (by omega)
        | some w => exact NN.add L (hacc t (by omega)) (hx t w hxt)
      · simp at hv
    intro t
    induction t with
    | zero => intro _ v hv; exact hsma 0 (by omega) v hv
    | succ t ih =>
      intro htN v hv
      rw [ema0, if_neg h1] at hv
      cases he : ema0 len a x t with
      | none =>
        rw [he] at hv
        -- no output at `t`: the seed has not happened, so the window cannot have lost a value
        by_cases ht : t + 1 + 1 ≤ t0 + len
        · exact hsma (t + 1) ht v hv
        · have hpres : ∀ k, t0 ≤ k → k ≤ t → (x k).isSome := fun k h2 h3 => hp k h2 (by omega)
          have hs : Seeded len x t := ⟨t0 + len - 1, by omega, by omega, fun k h2 h3 => hpres k (by omega) (by omega)⟩
          have hok : EmaOk len x (t + 1) := Or.inr fun r hr hs' => by
            obtain ⟨s, h2, h3, h4⟩ := hs'
            have h5 : t0 ≤ s := by
              by_contra hc
              exact hnone s (by omega) ⟨h3, h4⟩
            exact hpres _ (by omega) (by omega)
          have := ema0_seeded (a := a) h1 hok hs
          rw [he] at this; simp at this
      | some p =>
        rw [he] at hv
        cases hxt : x (t + 1) with
        | none => rw [hxt] at hv; simp at hv
        | some w =>
          rw [hxt] at hv
          rw [← Option.some.inj hv]
          exact NN.add L (NN.mul L ha (hx _ w hxt)) (NN.mul L ha1 (ih (by omega) p he))

end Pace
