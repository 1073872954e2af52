import Verif.Props.AccuracyProgram
import Verif.Props.Content8

/-!
# C93: the RSI in floats against the exact RSI

The relative strength index is `100 U / (U + D)` for the average gain `U` and the average loss `D`.  The code computes it as
`100 - 100 / (1 + U / D)`, where `U / D` may overflow or be a division by either zero.
-/

set_option linter.unusedSectionVars false

namespace Pace
open Spec
variable {K : Type} [Field K] [LinearOrder K] [IsStrictOrderedRing K] [RootOps K] {R : Rounding K}
variable {α : Type} [F64 α]

section
variable {u η top : K} (A : R.Accurate u η top) (L : R.Lawful)

include A L in
private theorem rnd_big {c k : K} (hc1 : 1 ≤ c) (hc : c ≤ top) (hk : c ≤ k) : R.rnd k = .pinf ∨ ∃ v, R.rnd k = .fin v ∧ 1023 / 1024 * c ≤ v := by
  have hu := A.u_nonneg
  have hs := A.u_small
  have hη := A.η_nonneg
  have hηu := A.η_small
  obtain ⟨v, h1, h2⟩ := A.err c (by rw [abs_of_nonneg (by linarith)]; exact hc)
  have h3 : max (u * |c|) η ≤ c / 1024 := by
    rw [abs_of_nonneg (by linarith)]
    exact max_le (by nlinarith) (by nlinarith)
  have h4 := (abs_le.mp (h2.trans h3)).1
  have hm := L.mono _ _ hk
  rw [h1] at hm
  cases hr : R.rnd k with
  | nan => exact absurd hr (L.ne_nan _)
  | pinf => exact .inl rfl
  | ninf => rw [hr] at hm; exact absurd (show false = true from hm) (by simp)
  | fin w =>
    rw [hr] at hm
    have : v ≤ w := of_decide_eq_true hm
    exact .inr ⟨w, rfl, by linarith⟩

private theorem recip_near {s x u : K} (hu : 0 ≤ u) (hus : u ≤ 1 / 1024) (hx : 1 ≤ x) (h : |s - x| ≤ 3 * u * x) :
    0 < s ∧ 0 ≤ 100 / s ∧ 100 / s ≤ 101 ∧ |100 / s - 100 / x| ≤ 400 * u := by
  have hx0 : 0 < x := by linarith
  have h1 := abs_le.mp h
  have h2 : u * x ≤ x / 1024 := by nlinarith
  have hs : 1020 / 1024 * x ≤ s := by linarith
  have hs0 : 0 < s := by linarith
  refine ⟨hs0, by positivity, ?_, ?_⟩
  · rw [div_le_iff₀ hs0]; linarith
  · have e : 100 / s - 100 / x = -(100 * (s - x)) / (s * x) := by field_simp; ring
    rw [e, abs_div, abs_neg, abs_mul, abs_of_pos (by norm_num : (0 : K) < 100), abs_of_pos (mul_pos hs0 hx0), div_le_iff₀ (mul_pos hs0 hx0)]
    have h3 : 100 * |s - x| ≤ 300 * (u * x) := by linarith
    have h4 : u * x * (1020 / 1024) ≤ u * x * (1020 / 1024 * x) := by
      have : 0 ≤ u * x := by positivity
      nlinarith
    have h5 : u * x * (1020 / 1024 * x) ≤ u * x * s := mul_le_mul_of_nonneg_left hs (by positivity)
    have h6 : 0 ≤ u * x := by positivity
    nlinarith

include A in
private theorem last_steps (hT : 1 ≤ u * top) {z P : K} (hz0 : 0 ≤ z) (hz : z ≤ 101) (hP : |z - P| ≤ 1000 * u) :
    ∃ r, Fl.of R (.fin 100) - Fl.of R (R.rnd z) = Fl.of R (.fin r) ∧ |r - (100 - P)| ≤ 1500 * u := by
  have hu := A.u_nonneg
  have hs := A.u_small
  have hη := A.η_nonneg
  have hηu := A.η_small
  have ht := A.top_ge
  have h1024 : 1024 ≤ top := by nlinarith
  have hηu' : η ≤ u := by nlinarith
  obtain ⟨p, h1, h2⟩ := A.err z (by rw [abs_of_nonneg hz0]; linarith)
  have h3 : |p - z| ≤ 101 * u := h2.trans (max_le (by rw [abs_of_nonneg hz0]; nlinarith) (by linarith))
  have h4 := abs_le.mp h3
  have h5 : |100 + -p| ≤ 202 := abs_le.mpr ⟨by linarith, by linarith⟩
  obtain ⟨r, h6, h7⟩ := A.err (100 + -p) (by linarith)
  have h8 : |r - (100 + -p)| ≤ 202 * u := h7.trans (max_le (by nlinarith) (by linarith))
  refine ⟨r, ?_, ?_⟩
  · rw [h1]; exact h6
  · have h9 := abs_le.mp h8
    have h10 := abs_le.mp hP
    exact abs_le.mpr ⟨by linarith, by linarith⟩

include A L in
/-- The RSI formula of two averages that are not both 0, with every rounding and overflow. -/
theorem rsi_formula (hT : 1 ≤ u * top) {g l : K} (hg : 0 ≤ g) (hl : 0 ≤ l) (hpos : 0 < g + l) :
    ∃ r, (lit 100 - lit 100 / (lit 1 + Fl.of R (.fin g) / Fl.of R (.fin l)) : Fl R) = Fl.of R (.fin r) ∧ |r - 100 * g / (g + l)| ≤ 1500 * u := by
  have hu := A.u_nonneg
  have hs := A.u_small
  have hη := A.η_nonneg
  have hηu := A.η_small
  have ht := A.top_ge
  have h1024 : 1024 ≤ top := by nlinarith
  have hηu' : η ≤ u := by nlinarith
  have ht0 : 0 < top := by linarith
  have hinv : 1 / top ≤ u := by rw [div_le_iff₀ ht0]; exact hT
  rw [lit_hundred L, lit_one L]
  -- the value for an infinite sum
  have inf : ∀ P, 0 ≤ P → P ≤ 400 * u → ∃ r, Fl.of R (.fin 100) - Fl.of R (.fin 100) / Fl.of R .pinf = Fl.of R (.fin r) ∧ |r - (100 - P)| ≤ 1500 * u := by
    intro P h0 h1
    have e : Fl.of R (.fin 100) / Fl.of R .pinf = Fl.of R (R.rnd 0) := by rw [rnd_zero L]; rfl
    rw [e]
    exact last_steps A hT (le_refl 0) (by norm_num) (by rw [zero_sub, abs_neg, abs_of_nonneg h0]; linarith)
  have finite : ∀ s P, 0 < s → 100 / s ≤ 101 → |100 / s - P| ≤ 1000 * u →
      ∃ r, Fl.of R (.fin 100) - Fl.of R (.fin 100) / Fl.of R (.fin s) = Fl.of R (.fin r) ∧ |r - (100 - P)| ≤ 1500 * u := by
    intro s P h0 h1 h2
    have e : Fl.of R (.fin 100) / Fl.of R (.fin s) = Fl.of R (R.rnd (100 / s)) :=
      (if_neg h0.ne' : (if s = 0 then Fl.signInf 100 else R.rnd (100 / s)) = R.rnd (100 / s))
    rw [e]
    exact last_steps A hT (by positivity) h1 h2
  rcases hl.lt_or_eq with hl0 | rfl
  · -- a positive loss
    have eP : 100 * g / (g + l) = 100 - 100 / (1 + g / l) := by field_simp; ring
    rw [eP]
    have ediv : Fl.of R (.fin g) / Fl.of R (.fin l) = Fl.of R (R.rnd (g / l)) :=
      (if_neg hl0.ne' : (if l = 0 then Fl.signInf g else R.rnd (g / l)) = R.rnd (g / l))
    rw [ediv]
    have hq0 : 0 ≤ g / l := by positivity
    generalize g / l = q at hq0 ⊢
    have hx1 : 1 ≤ 1 + q := by linarith
    have hx0 : 0 < 1 + q := by linarith
    by_cases hq : q ≤ top / 2
    · obtain ⟨a, a1, a2⟩ := A.err q (by rw [abs_of_nonneg hq0]; linarith)
      have a3 : |a - q| ≤ u * (1 + q) := a2.trans (max_le (by rw [abs_of_nonneg hq0]; nlinarith) (by nlinarith))
      have a4 := abs_le.mp a3
      have hq1 : u * (1 + q) ≤ (1 + q) / 1024 := by nlinarith
      have hb : |1 + a| ≤ 2 * (1 + q) := abs_le.mpr ⟨by linarith, by linarith⟩
      obtain ⟨b, b1, b2⟩ := A.err (1 + a) (abs_le.mpr ⟨by linarith, by linarith⟩)
      have b3 : |b - (1 + a)| ≤ 2 * u * (1 + q) := b2.trans (max_le (by nlinarith) (by nlinarith))
      have b4 := abs_le.mp b3
      have b5 : |b - (1 + q)| ≤ 3 * u * (1 + q) := abs_le.mpr ⟨by linarith, by linarith⟩
      obtain ⟨c1, _, c3, c4⟩ := recip_near hu hs hx1 b5
      have e : Fl.of R (.fin 1) + Fl.of R (R.rnd q) = Fl.of R (.fin b) := by rw [a1]; exact b1
      rw [e]
      exact finite b _ c1 c3 (by linarith)
    · have hq' : top / 2 < q := lt_of_not_ge hq
      have hP0 : 0 ≤ 100 / (1 + q) := by positivity
      have hP : 100 / (1 + q) ≤ 400 * u := by
        have : 100 / (1 + q) ≤ 100 / (top / 2) := div_le_div_of_nonneg_left (by norm_num) (by linarith) (by linarith)
        refine this.trans ?_
        rw [div_div_eq_mul_div, show (100 : K) * 2 / top = 200 * (1 / top) by ring]
        linarith
      have big : ∀ z, z = Ext.pinf ∨ (∃ v, z = .fin v ∧ top / 4 ≤ v) → ∃ r, Fl.of R (.fin 100) - Fl.of R (.fin 100) / Fl.of R z = Fl.of R (.fin r) ∧
          |r - (100 - 100 / (1 + q))| ≤ 1500 * u := by
        rintro z (rfl | ⟨v, rfl, hv⟩)
        · exact inf _ hP0 hP
        · have hv0 : 0 < v := by linarith
          have h1 : 100 / v ≤ 400 * u := by
            have : 100 / v ≤ 100 / (top / 4) := div_le_div_of_nonneg_left (by norm_num) (by linarith) hv
            refine this.trans ?_
            rw [div_div_eq_mul_div, show (100 : K) * 4 / top = 400 * (1 / top) by ring]
            linarith
          have h2 : 0 ≤ 100 / v := by positivity
          exact finite v _ hv0 (by linarith) (abs_le.mpr ⟨by linarith, by linarith⟩)
      rcases rnd_big A L (show 1 ≤ top / 2 by linarith) (by linarith) hq'.le with h | ⟨a, h, ha⟩
      · rw [h]
        exact big .pinf (.inl rfl)
      · rw [h]
        -- the sum is rounded once more
        have e : Fl.of R (.fin 1) + Fl.of R (.fin a) = Fl.of R (R.rnd (1 + a)) := rfl
        rw [e]
        refine big _ ((rnd_big A L (show 1 ≤ top / 3 by linarith) (by linarith) (show top / 3 ≤ 1 + a by linarith)).imp id ?_)
        rintro ⟨v, h1, h2⟩
        exact ⟨v, h1, by linarith⟩
  · -- no loss: the value is 100
    have hg0 : 0 < g := by linarith
    have e1 : Fl.of R (.fin g) / Fl.of R (.fin (0 : K)) = Fl.of R .pinf := by
      have e0 : Fl.of R (.fin g) / Fl.of R (.fin (0 : K)) = Fl.of R (Fl.signInf g) :=
        (if_pos rfl : (if (0 : K) = 0 then Fl.signInf g else R.rnd (g / 0)) = Fl.signInf g)
      rw [e0, Fl.signInf, if_pos hg0]
    have e2 : Fl.of R (.fin (1 : K)) + Fl.of R .pinf = Fl.of R .pinf := rfl
    rw [e1, e2]
    have := inf 0 (le_refl 0) (by positivity)
    rw [add_zero, mul_div_cancel_right₀ _ hg0.ne']
    simpa using this

end

/-! ## The averages of gains and losses -/

private theorem share_near {g l g' l' e m : K} (hg : 0 ≤ g) (hl : 0 ≤ l) (hg' : 0 ≤ g') (hl' : 0 ≤ l') (hm : 0 < m) (hgl : m ≤ g + l)
    (hem : 4 * e ≤ m) (h1 : |g' - g| ≤ e) (h2 : |l' - l| ≤ e) :
    0 < g' + l' ∧ |100 * g' / (g' + l') - 100 * g / (g + l)| ≤ 200 * e / m := by
  have he : 0 ≤ e := (abs_nonneg _).trans h1
  have a1 := abs_le.mp h1
  have a2 := abs_le.mp h2
  have hS : 0 < g + l := by linarith
  have hS' : m / 2 ≤ g' + l' := by linarith
  have hS0 : 0 < g' + l' := by linarith
  refine ⟨hS0, ?_⟩
  have e1 : 100 * g' / (g' + l') - 100 * g / (g + l) = 100 * ((g' - g) * l - g * (l' - l)) / ((g + l) * (g' + l')) := by
    field_simp
    ring
  have b1 : |(g' - g) * l - g * (l' - l)| ≤ e * (g + l) := by
    have c1 : |(g' - g) * l| ≤ e * l := by rw [abs_mul, abs_of_nonneg hl]; exact mul_le_mul_of_nonneg_right h1 hl
    have c2 : |g * (l' - l)| ≤ g * e := by rw [abs_mul, abs_of_nonneg hg]; exact mul_le_mul_of_nonneg_left h2 hg
    have := abs_sub ((g' - g) * l) (g * (l' - l))
    nlinarith
  rw [e1, abs_div, abs_mul, abs_of_pos (by norm_num : (0 : K) < 100), abs_of_pos (mul_pos hS hS0), div_le_div_iff₀ (mul_pos hS hS0) hm]
  have b2 : 100 * (e * (g + l)) * m ≤ 100 * (e * (g + l)) * (2 * (g' + l')) := mul_le_mul_of_nonneg_left (by linarith) (by positivity)
  have b3 := mul_le_mul_of_nonneg_right (mul_le_mul_of_nonneg_left b1 (by norm_num : (0 : K) ≤ 100)) hm.le
  nlinarith

private theorem fl_max (a b : K) : F64.fmax (Fl.of R (.fin a)) (Fl.of R (.fin b)) = Fl.of R (.fin (max a b)) := by
  refine (show (Fl.fmax (.fin a) (.fin b) : Ext K) = .fin (max a b) from ?_)
  unfold Fl.fmax
  by_cases h : a ≤ b
  · rw [max_eq_right h]
    exact if_pos (decide_eq_true h)
  · rw [max_eq_left (le_of_not_ge h)]
    exact if_neg (by rw [show (Ext.fin a).le (Ext.fin b) = decide (a ≤ b) from rfl]; simpa using h)

private theorem fl_min (a b : K) : F64.fmin (Fl.of R (.fin a)) (Fl.of R (.fin b)) = Fl.of R (.fin (min a b)) := by
  refine (show (Fl.fmin (.fin a) (.fin b) : Ext K) = .fin (min a b) from ?_)
  unfold Fl.fmin
  by_cases h : a ≤ b
  · rw [min_eq_left h]
    exact if_pos (decide_eq_true h)
  · rw [min_eq_right (le_of_not_ge h)]
    exact if_neg (by rw [show (Ext.fin a).le (Ext.fin b) = decide (a ≤ b) from rfl]; simpa using h)

private theorem max_near {a b : K} : |max a 0 - max b 0| ≤ |a - b| := by
  simpa using abs_max_sub_max_le_abs a b 0

section
variable {V : Valued R α} {u η top : K} (A : R.Accurate u η top) (L : R.Lawful)

include A L in
private theorem gains_near {x : Nat → Option α} {w : Nat → K} {e M : K} {N : Nat} (h : StaysNear V x 0 w e N)
    (hw : ∀ t, t < N → |w t| ≤ M) (ht : 2 * M + 2 * e ≤ top) :
    StaysNear V (gain0 x) 1 (gain w) (2 * e + u * (2 * M + 2 * e) + η) N ∧ StaysNear V (loss0 x) 1 (loss w) (2 * e + u * (2 * M + 2 * e) + η) N := by
  have h0 : V.val (lit 0) = Fl.of R (.fin 0) := by rw [V.lit]; exact lit_zero L
  have key : ∀ t, t + 1 < N → ∃ a b, x t = some a ∧ x (t + 1) = some b ∧ Near V (b - a) (w (t + 1) - w t) (2 * e + u * (2 * M + 2 * e) + η) := by
    intro t htN
    obtain ⟨a, a1, a2⟩ := stays_at h (show t < N by omega) (Nat.zero_le t)
    obtain ⟨b, b1, b2⟩ := stays_at h htN (Nat.zero_le _)
    refine ⟨a, b, a1, b1, ?_⟩
    have hm : |w (t + 1) - w t| ≤ 2 * M := by
      have := abs_sub (w (t + 1)) (w t)
      have := hw t (by omega)
      have := hw (t + 1) htN
      linarith
    have := b2.sub A a2 hm (by linarith)
    rwa [← two_mul] at this
  constructor <;> intro t htN <;> cases t with
  | zero => cases hx : x 0 <;> simp [Within, startAt, gain0, loss0, before, opt2, hx]
  | succ t =>
    obtain ⟨a, b, a1, b1, v, v1, v2⟩ := key t htN
    unfold startAt
    rw [if_neg (by omega)]
    first
    | refine ⟨F64.fmax (b - a) (lit 0), by simp [gain0, before, a1, b1, opt2], max v 0, by rw [V.fmax, v1, h0, fl_max], ?_⟩
      exact max_near.trans v2
    | refine ⟨-F64.fmin (b - a) (lit 0), by simp [loss0, before, a1, b1, opt2], -min v 0, by rw [V.neg, V.fmin, v1, h0, fl_min]; rfl, ?_⟩
      have e1 : -min v 0 = max (-v) 0 := by rw [← max_neg_neg, neg_zero]
      have e2 : loss w (t + 1) = max (-(w (t + 1) - w t)) 0 := by simp [loss]
      rw [e1, e2]
      refine max_near.trans ?_
      rw [← abs_neg]
      convert v2 using 2
      ring

private theorem wilder_average {n : Nat} (hn : 1 ≤ n) (g : Nat → K) {t : Nat} (ht : n ≤ t) : average .rma n 1 g t = wilder n g (t - n) := by
  show runningMean n 1 g (t + 1 - (1 + n)) = _
  rw [show t + 1 - (1 + n) = t - n by omega]
  generalize t - n = k
  have hn0 : (n : K) ≠ 0 := by exact_mod_cast (by omega : n ≠ 0)
  unfold wilder
  induction k with
  | zero =>
    rw [smoothed_zero, runningMean, mean]
    simp [add_comm]
  | succ k ih =>
    rw [smoothed_succ, runningMean, ih, show 1 + n + k = n + 1 + k by omega]
    field_simp
    ring

/-- The RSI as a line of numbers: `100 U / (U + D)` for the average gain `U` and loss `D`. -/
def Spec.rsiLine (n : Nat) (p : Nat → K) (t : Nat) : K := 100 * avgGain n p t / (avgGain n p t + avgLoss n p t)

include A L in
/-- **C93.** The RSI of any length of a series of floats within `e` of the numbers `w`, none beyond `M`, that moves: where the average gain
and loss of the last bars add up to at least `m`, it is within `200 E / m + 1500 u` of the exact RSI, `E` being the error of the averages. -/
theorem C93_rsi_of_near (hT : 1 ≤ u * top) (d : DataProvider α) {n k : Nat} (hn : 2 ≤ n) {N : Nat} (hk : n + N + 1 ≤ k) (hk50 : k ≤ 2 ^ 50)
    (hu : 12 * (k : K) * u ≤ 1) {x : Nat → Option α} {w : Nat → K} {e E m M : K} (h : StaysNear V x 0 w e N) (hM : 0 ≤ M) (he : 0 ≤ e)
    (hw : ∀ t, t < N → |w t| ≤ M) (htop : 40 * (k : K) * (2 * M + (2 * e + u * (2 * M + 2 * e) + η) + η) ≤ top)
    (hE : 2 * e + u * (2 * M + 2 * e) + η + 18 * n * (u * (2 * M + (2 * e + u * (2 * M + 2 * e) + η)) + η) ≤ E)
    (hm : 0 < m) (hEm : 4 * E ≤ m) (moves : ∀ t, t < N → n ≤ t → m ≤ avgGain n w t + avgLoss n w t) :
    ∃ y, Runs (fun t => Rsi.next ⟨d, t⟩) (Rsi.new n) x N y ∧ StaysNear V y n (rsiLine n w) (200 * E / m + 1500 * u) N := by
  have hu0 := A.u_nonneg
  have hη := A.η_nonneg
  have hn1 : 1 ≤ n := by omega
  have hc0 : 0 ≤ 2 * e + u * (2 * M + 2 * e) + η := by positivity
  have k1 : (1 : K) ≤ k := by exact_mod_cast (by omega : 1 ≤ k)
  have hsome : ∀ t, t < N → (x t).isSome := fun t ht => by
    obtain ⟨a, a1, -⟩ := stays_at h ht (Nat.zero_le t)
    rw [a1]; rfl
  have hgap : NoGap x N := fun t ht _ => hsome (t + 1) ht
  have hchange : 2 * M + 2 * e ≤ top := by
    have h1 : 0 ≤ u * (2 * M + 2 * e) := by positivity
    have h2 : 1 * (2 * M + (2 * e + u * (2 * M + 2 * e) + η) + η) ≤ 40 * (k : K) * (2 * M + (2 * e + u * (2 * M + 2 * e) + η) + η) :=
      mul_le_mul_of_nonneg_right (by linarith) (by positivity)
    linarith
  obtain ⟨n1, n2⟩ := gains_near A L h hw hchange
  have gb : ∀ t, t < N → 1 ≤ t → |gain w t| ≤ 2 * M ∧ |loss w t| ≤ 2 * M := by
    intro t ht _
    have b1 := abs_le.mp (hw t ht)
    have b2 := abs_le.mp (hw (t - 1) (by omega))
    unfold gain loss
    constructor <;> rw [abs_of_nonneg (le_max_right _ _)] <;> exact max_le (by linarith) (by linarith)
  obtain ⟨yu, ru, nu⟩ := C92_average A L d .rma hn1 hk hk50 hu n1 (M := 2 * M) (by linarith) hc0 (fun t ht hs => (gb t ht hs).1) htop
  obtain ⟨yd, rd, nd⟩ := C92_average A L d .rma hn1 hk hk50 hu n2 (M := 2 * M) (by linarith) hc0 (fun t ht hs => (gb t ht hs).2) htop
  have eu := Runs.unique (ru :) ((C53_ma d n (gain0 x) N).2.2.1.trans (rma_runs d hn1 _ N (rsi_emaOk hn (gain0_isSome x) hgap)))
  have ed := Runs.unique (rd :) ((C53_ma d n (loss0 x) N).2.2.1.trans (rma_runs d hn1 _ N (rsi_emaOk hn (loss0_isSome x) hgap)))
  have hal := valued_rmaAlpha V L hn1
  have han := rmaAlpha_nn (R := R) L hn1
  rw [← hal.2, ← hal.1] at han
  have hz : V.val (lit 0) = Fl.of R (.fin 0) := (V.lit 0).trans (lit_zero L)
  have pres : ∀ t, 1 ≤ t → t < N → ((x t).isSome && (before x t).isSome) = true := by
    intro t h1 h2
    cases t with
    | zero => omega
    | succ t => simp [before, hsome (t + 1) h2, hsome t (by omega)]
  have zero : ∀ t, t < 1 → before x t = none := fun t ht => by
    obtain rfl : t = 0 := by omega
    rfl
  have hup : ∀ t, t < N → ∀ v, rma0 n (gain0 x) t = some v → NN (V.val v) := by
    refine (ema0_nn_ieee V L hn1 han.1 han.2 (t0 := 1) (fun t ht => ?_) (fun t v hv => ?_) (N := N)
      (fun t h2 h3 => by rw [gain0_isSome]; exact pres t h2 h3)).2
    · unfold gain0; rw [zero t ht]; cases x t <;> rfl
    · unfold gain0 at hv
      cases hxt : x t <;> cases hbt : before x t <;> simp [hxt, hbt, opt2] at hv
      rw [← hv, V.fmax, hz]; exact nn_fmax_fin _ (le_refl _)
  have hdn : ∀ t, t < N → ∀ v, rma0 n (loss0 x) t = some v → NN (V.val v) := by
    refine (ema0_nn_ieee V L hn1 han.1 han.2 (t0 := 1) (fun t ht => ?_) (fun t v hv => ?_) (N := N)
      (fun t h2 h3 => by rw [loss0_isSome]; exact pres t h2 h3)).2
    · unfold loss0; rw [zero t ht]; cases x t <;> rfl
    · unfold loss0 at hv
      cases hxt : x t <;> cases hbt : before x t <;> simp [hxt, hbt, opt2] at hv
      rw [← hv, V.neg, V.fmin, hz]; exact nn_neg_fmin _ (le_refl _)
  refine ⟨_, rsi_runs d hn x N hgap, fun t ht => ?_⟩
  have gu := nu t ht
  have gd := nd t ht
  rw [eu t ht] at gu
  rw [ed t ht] at gd
  simp only [maLength, slack] at gu gd
  unfold startAt at gu gd ⊢
  by_cases hts : t < n
  · rw [if_pos (show t < 1 + n - 1 by omega)] at gu
    rw [if_pos hts]
    show rsi0 n x t = none
    unfold rsi0
    rw [show rma0 n (gain0 x) t = none from gu]
    cases rma0 n (loss0 x) t <;> rfl
  · rw [if_neg (show ¬ t < 1 + n - 1 by omega), wilder_average hn1 _ (by omega)] at gu gd
    rw [if_neg hts]
    obtain ⟨a, a1, g, a2, a3⟩ := gu
    obtain ⟨b, b1, l, b2, b3⟩ := gd
    have pa : 0 ≤ g := nn_fin.mp (a2 ▸ hup t ht a a1)
    have pb : 0 ≤ l := nn_fin.mp (b2 ▸ hdn t ht b b1)
    have qa : 0 ≤ avgGain n w t := wilder_nonneg hn1 (fun _ => le_max_right _ _) _
    have qb : 0 ≤ avgLoss n w t := wilder_nonneg hn1 (fun _ => le_max_right _ _) _
    push_cast at a3 b3
    obtain ⟨pos, near⟩ := share_near qa qb pa pb hm (moves t ht (by omega)) hEm (a3.trans hE) (b3.trans hE)
    obtain ⟨r, r1, r2⟩ := rsi_formula A L hT pa pb pos
    refine ⟨_, by rw [rsi0, a1, b1]; rfl, r, ?_, ?_⟩
    · rw [(rsi_value_valued V L (a2 ▸ nn_fin.mpr pa) (b2 ▸ nn_fin.mpr pb)).2, a2, b2]
      exact r1
    · have := abs_add_le (r - 100 * g / (g + l)) (100 * g / (g + l) - rsiLine n w t)
      rw [sub_add_sub_cancel] at this
      unfold rsiLine at this ⊢
      linarith

include A L in
/-- The RSI indicator of any length `n` and price source in floats: where the average gain and loss add up to at least `m` on every
bar, it is within `200 (13 + 54 n) (u M + η) / m + 1500 u` of the exact RSI, however long the run; and it begins on the same bar. -/
theorem rsi_bars (hT : 1 ≤ u * top) {d : DataProvider α} {N : Nat} {o h l c v : Nat → K} {M : K} (hb : PricedBars V d N o h l c v M) (hM : 0 ≤ M)
    {src : SrcKind} (hs : src ≠ .volume) {n k : Nat} (hn : 2 ≤ n) (hk : n + N + 1 ≤ k) (hr : Room u η top k M) {m : K} (hm : 0 < m)
    (hEm : 4 * ((13 + 54 * n) * (u * M + η)) ≤ m)
    (moves : ∀ t, t < N → n ≤ t → m ≤ avgGain n (sourceValue src o h l c v) t + avgLoss n (sourceValue src o h l c v) t) :
    ∃ x y, (∀ t, t < N → Src.next ⟨d, t⟩ src = .ok (x t)) ∧ Runs (fun t => Rsi.next ⟨d, t⟩) (Rsi.new n) x N y ∧
      StaysNear V y n (rsiLine n (sourceValue src o h l c v)) (200 * ((13 + 54 * n) * (u * M + η)) / m + 1500 * u) N := by
  have hu := A.u_nonneg
  have hus := A.u_small
  have hη := A.η_nonneg
  have hk1 : (1 : K) ≤ k := by exact_mod_cast (by omega : 1 ≤ k)
  have huM : 0 ≤ u * M := by positivity
  have suM : u * (u * M) ≤ u * M / 1024 := by have := mul_le_mul_of_nonneg_right hus huM; linarith
  have sη : u * η ≤ η / 1024 := by have := mul_le_mul_of_nonneg_right hus hη; linarith
  have sM : u * M ≤ M / 1024 := by have := mul_le_mul_of_nonneg_right hus hM; linarith
  have hwide := hr.wide
  have hkM : (M + η) ≤ k * (M + η) := le_mul_of_one_le_left (by positivity) hk1
  obtain ⟨x, x1, x2⟩ := C92_source A L hb hM (by linarith) hs
  have hec : 2 * (5 * (u * M + η)) + u * (2 * M + 2 * (5 * (u * M + η))) + η ≤ 13 * (u * M + η) := by
    have e : u * (2 * M + 2 * (5 * (u * M + η))) = 2 * (u * M) + 10 * (u * (u * M)) + 10 * (u * η) := by ring
    rw [e]; linarith
  have hn0 : (0 : K) ≤ n := Nat.cast_nonneg _
  obtain ⟨y, y1, y2⟩ := C93_rsi_of_near A L hT d hn hk hr.small (by
      have h1 := hr.fine
      have h2 : 0 ≤ (k : K) * u := by positivity
      linarith) x2 hM
    (by positivity) (fun t ht => sourceValue_abs (hb.bound t ht) hs) (E := (13 + 54 * n) * (u * M + η)) (m := m)
    (by
      have h1 : 2 * M + (2 * (5 * (u * M + η)) + u * (2 * M + 2 * (5 * (u * M + η))) + η) + η ≤ 25 * (M + η) := by linarith
      have := mul_le_mul_of_nonneg_left h1 (show (0 : K) ≤ 40 * k by positivity)
      linarith)
    (by
      have h1 : u * (2 * M + (2 * (5 * (u * M + η)) + u * (2 * M + 2 * (5 * (u * M + η))) + η)) + η ≤ 3 * (u * M + η) := by
        have h2 := mul_le_mul_of_nonneg_left hec hu
        have e : u * (13 * (u * M + η)) = 13 * (u * (u * M)) + 13 * (u * η) := by ring
        have e2 : u * (2 * M + (2 * (5 * (u * M + η)) + u * (2 * M + 2 * (5 * (u * M + η))) + η)) =
          2 * (u * M) + u * (2 * (5 * (u * M + η)) + u * (2 * M + 2 * (5 * (u * M + η))) + η) := by ring
        linarith
      have h3 := mul_le_mul_of_nonneg_left h1 (show (0 : K) ≤ 18 * n by positivity)
      linarith) hm hEm moves
  exact ⟨x, y, x1, y1, y2⟩

include A L in
/-- **C93.** The RSI indicator of any length `n` and price source in floats: where the average gain and loss add up to at least `m` on every
bar, it is within `200 (13 + 54 n) (u M + η) / m + 1500 u` of the exact RSI, however long the run; and it begins on the same bar. -/
theorem C93_rsi (hT : 1 ≤ u * top) {d : DataProvider α} {N : Nat} {o h l c v : Nat → K} {M : K} (hb : PricedBars V d N o h l c v M) (hM : 0 ≤ M)
    {src : SrcKind} (hs : src ≠ .volume) {n k : Nat} (hn : 2 ≤ n) (hk : n + N + 1 ≤ k) (hr : Room u η top k M) {m : K} (hm : 0 < m)
    (hEm : 4 * ((13 + 54 * n) * (u * M + η)) ≤ m)
    (moves : ∀ t, t < N → n ≤ t → m ≤ avgGain n (sourceValue src o h l c v) t + avgLoss n (sourceValue src o h l c v) t) :
    ∃ y, Runs (noInput fun t => withSrc src RelativeStrengthIndex.next ⟨d, t⟩) (Rsi.new n) unit N y ∧
      StaysNear V y n (rsiLine n (sourceValue src o h l c v)) (200 * ((13 + 54 * n) * (u * M + η)) / m + 1500 * u) N := by
  obtain ⟨x, y, x1, y1, y2⟩ := rsi_bars A L hT hb hM hs hn hk hr hm hEm moves
  exact ⟨y, withSrc_runs x1 y1, y2⟩

end

/-! ## Programs -/

theorem rsi_exact_line {n : Nat} (hn : 2 ≤ n) (d : DataProvider (Ex K)) {N : Nat} (p : Nat → K) {m : K} (hm : 0 < m)
    (moves : ∀ t, t < N → n ≤ t → m ≤ avgGain n p t + avgLoss n p t) :
    Runs (fun t => Rsi.next ⟨d, t⟩) (Rsi.new n) (fun t => some (fin (p t))) N (flo (startAt n (rsiLine n p))) := by
  obtain ⟨y, h1, h2, h3⟩ := C34_rsi_exact d hn p N
  refine h1.congr fun t ht => ?_
  by_cases hts : t < n
  · rw [h2 t ht hts, flo, startAt, if_pos hts]; rfl
  · obtain ⟨k, rfl⟩ : ∃ k, t = n + k := ⟨t - n, by omega⟩
    have hp := moves (n + k) ht (by omega)
    rw [h3 k ht, flo, startAt, if_neg hts]
    unfold rsiLine avgGain avgLoss at *
    rw [Nat.add_sub_cancel_left] at *
    rw [if_neg (fun hc => by rw [hc.1, hc.2] at hp; linarith)]
    rfl

section
variable {V : Valued R α} {u η top : K} (A : R.Accurate u η top) (L : R.Lawful)

include A L in
/-- **C93.** The RSI program with any length, price source and thresholds on bars of finite floats: if the average gain and loss of the exact
prices add up to at least `m` on every bar and the exact RSI keeps farther than the error of C93_rsi from both thresholds, the program
signals on every tick what the same program signals in exact arithmetic, and both backtests are those of these signals. -/
theorem C93_rsi_program (hT : 1 ≤ u * top) {d : DataProvider α} {N : Nat} {o h l c v : Nat → K} {M : K} (hb : PricedBars V d N o h l c v M) (hM : 0 ≤ M)
    {dx : DataProvider (Ex K)} (hx : ExBars dx N o h l c v) {src : SrcKind} (hs : src ≠ .volume) {n k : Nat} (hn : 2 ≤ n) (hk : n + N + 1 ≤ k)
    (hr : Room u η top k M) {m : K} (hm : 0 < m) (hEm : 4 * ((13 + 54 * n) * (u * M + η)) ≤ m)
    (moves : ∀ t, t < N → n ≤ t → m ≤ avgGain n (sourceValue src o h l c v) t + avgLoss n (sourceValue src o h l c v) t)
    {th : Thresholds α} {thx : Thresholds (Ex K)} {lo hi : K} (h1 : V.val th.oversold = Fl.of R (.fin lo)) (h2 : V.val th.overbought = Fl.of R (.fin hi))
    (h3 : thx.oversold = fin lo) (h4 : thx.overbought = fin hi)
    (far : ∀ t, t < N → n ≤ t → 200 * ((13 + 54 * n) * (u * M + η)) / m + 1500 * u < |rsiLine n (sourceValue src o h l c v) t - lo| ∧
      200 * ((13 + 54 * n) * (u * M + η)) / m + 1500 * u < |rsiLine n (sourceValue src o h l c v) t - hi|)
    (cfg : StrategyConfig α) (cfgx : StrategyConfig (Ex K)) (rfr : α) (rfrx : Ex K) :
    ∃ (sig : Nat → Option TradeDirection) (y : Nat → Option α) (st : Nat → Strategy α) (tv : Nat → TvMetrics α)
      (yx : Nat → Option (Ex K)) (stx : Nat → Strategy (Ex K)) (tvx : Nat → TvMetrics (Ex K)),
      sig = lineSignal n (rsiLine n (sourceValue src o h l c v)) lo hi ∧
      Runs (noInput fun t => Program.next (withSrc src RelativeStrengthIndex.next) ThresholdStrategy.next ⟨d, t⟩)
        (Program.new (Rsi.new n) (RelativeStrengthIndexStrategy.new th) cfg rfr) unit N (fun t => (y t, sig t, st t, tv t)) ∧
      Runs (noInput fun t => Program.next (withSrc src RelativeStrengthIndex.next) ThresholdStrategy.next ⟨dx, t⟩)
        (Program.new (Rsi.new n) (RelativeStrengthIndexStrategy.new thx) cfgx rfrx) unit N (fun t => (yx t, sig t, stx t, tvx t)) ∧
      Backtest cfg d sig N st ∧ Backtest cfgx dx sig N stx := by
  obtain ⟨y, r1, n1⟩ := C93_rsi A L hT hb hM hs hn hk hr hm hEm moves
  have s1 := (C92_signals n1 h1 h2 far).1 RelativeStrengthIndexStrategy.new (by simp)
  have s2 := (C92_signals_exact n (rsiLine n (sourceValue src o h l c v)) thx h3 h4 N).1 RelativeStrengthIndexStrategy.new (by simp)
  obtain ⟨o', h', l', c', v', b1, -⟩ := hb.bars
  obtain ⟨st, tv, t1, -, t2⟩ := C65_program b1 r1 s1 cfg rfr
  obtain ⟨stx, tvx, t3, -, t4⟩ := C65_program hx (withSrc_runs (next := RelativeStrengthIndex.next) (src_exact hx src) (rsi_exact_line hn dx _ hm moves)) s2 cfgx rfrx
  exact ⟨_, _, st, tv, _, stx, tvx, rfl, t2, t4, t1, t3⟩

end

/-- **C93.** The project's example program in IEEE binary64, on every data frame with `N ≥ 1` complete rows of prices up to `M`, the average
gain and loss of whose closes add up to at least `m` on every row: if the exact RSI of the closes is never within
`153800 (2^-53 M + 2^-1075) / m + 1500 * 2^-53` of 50, the program runs to its end without panic; it goes Long exactly when the exact average
gain of the closes overtakes the average loss and Short exactly when it falls behind, as it does in exact arithmetic (C65_example); and the
equity it reports after every row is within `6 (n + 2)` roundings of 1000 plus position times price change, `n` the number of closed trades. -/
theorem C93_example {fromSecs : B64 → Res Nat} {df : Frame B64} {time : List (Option B64)} {N : Nat} (hN : 1 ≤ N) (hN' : N ≤ 2 ^ 29)
    {o' h' l' c' v' : Nat → B64}
    (hcols : Ohlcv df (hist (fun k => some (o' k)) N) (hist (fun k => some (h' k)) N) (hist (fun k => some (l' k)) N)
      (hist (fun k => some (c' k)) N) (hist (fun k => some (v' k)) N) time)
    (ht : ∀ x, some x ∈ time → F64.feq x x = true → ∃ n, fromSecs x = .ok n)
    {o h l c v : Nat → ℝ} {M : ℝ} (hM : 0 ≤ M)
    (hval : ∀ t, t < N → (o' t).val = Fl.of _ (.fin (o t)) ∧ (h' t).val = Fl.of _ (.fin (h t)) ∧ (l' t).val = Fl.of _ (.fin (l t)) ∧
      (c' t).val = Fl.of _ (.fin (c t)) ∧ (v' t).val = Fl.of _ (.fin (v t)))
    (hbound : ∀ t, t < N → |o t| ≤ M ∧ |h t| ≤ M ∧ |l t| ≤ M ∧ |c t| ≤ M) (hW : 1000 + 2 * M * N + 2 * M ≤ (2 : ℝ) ^ (900 : ℤ))
    {m : ℝ} (hm : 0 < m) (hEm : 3076 * (b64u * M + b64η) ≤ m) (moves : ∀ t, t < N → 14 ≤ t → m ≤ avgGain 14 c t + avgLoss 14 c t)
    (far : ∀ t, t < N → 14 ≤ t → 153800 * (b64u * M + b64η) / m + 1500 * b64u < |100 * avgGain 14 c t / (avgGain 14 c t + avgLoss 14 c t) - 50|) :
    ∃ (d : DataProvider B64) (sig : Nat → Option TradeDirection) (y : Nat → Option B64) (st : Nat → Strategy B64) (tv : Nat → TvMetrics B64),
      DataProvider.fromDf fromSecs df = .ok d ∧ RsiSignals c N sig ∧
      (∀ os, BacktestProgram fromSecs df RelativeStrengthIndex.default RelativeStrengthIndex.defaultNext
        (RelativeStrengthIndexStrategy.new exampleThresholds) ThresholdStrategy.next exampleConfig (lit 0) os ↔
          os = hist (fun t => (y t, sig t, st t, tv t)) N) ∧
      Backtest exampleConfig d sig N st ∧
      ∀ t, t < N → Near (Sf.valued _) (st t).metrics.equity (1000 + earned (fun k => held (exampleConfig : StrategyConfig B64) sig (k + 1)) o c t)
        (6 * ((st t).metrics.closedTrades + 2) * (b64u * (1000 + 2 * M * N + 2 * M) + b64η)) := by
  have L := binary64_lawful ℝ
  have hT : 1 ≤ b64u * (2 : ℝ) ^ (1023 : ℤ) := by
    unfold b64u
    rw [← zpow_add₀ (by norm_num : (2 : ℝ) ≠ 0)]
    exact one_le_zpow₀ (by norm_num) (by norm_num)
  have hM' : M ≤ (2 : ℝ) ^ (900 : ℤ) := by
    have h1 : (0 : ℝ) ≤ 2 * M * N := by positivity
    generalize (2 : ℝ) ^ (900 : ℤ) = T at *
    linarith
  have priced : ∀ d, Bars d N o' h' l' c' v' → PricedBars (Sf.valued (Rounding.binary64 ℝ)) d N o h l c v M := fun d hd =>
    ⟨⟨o', h', l', c', v', hd, hval⟩, hbound⟩
  have line : ∀ d : DataProvider B64, Bars d N o' h' l' c' v' → Runs (noInput fun t => RelativeStrengthIndex.defaultNext ⟨d, t⟩)
      RelativeStrengthIndex.default unit N (rsi0 14 fun t => some (c' t)) := fun d hd =>
    withSrc_runs (fun t ht => by simp [Src.next, ctx_barClose hd.close ht]) (rsi_runs d (by norm_num) _ N fun t _ _ => rfl)
  have near : StaysNear (Sf.valued (Rounding.binary64 ℝ)) (rsi0 14 fun t => some (c' t)) 14 (rsiLine 14 c)
      (153800 * (b64u * M + b64η) / m + 1500 * b64u) N := by
    let d0 : DataProvider B64 := .ofSeries N (fun t => some (o' t)) (fun t => some (h' t)) (fun t => some (l' t)) (fun t => some (c' t)) (fun t => some (v' t))
    have hd0 : Bars d0 N o' h' l' c' v' := bars_ofSeries N _ _ _ _ _
    obtain ⟨y, y1, y2⟩ := C93_rsi (u := b64u) (η := b64η) (binary64_accurate ℝ) L hT (priced d0 hd0) hM (src := .close) (by decide) (n := 14) (by norm_num) (k := 14 + N + 1) le_rfl
      (room_binary64 (by omega) hM hM') hm (by push_cast; exact le_trans (le_of_eq (by ring)) hEm) moves
    have e := Runs.unique (y1 :) (line d0 hd0)
    intro t ht
    rw [← e t ht]
    have := y2.mono (f := 153800 * (b64u * M + b64η) / m + 1500 * b64u) (by push_cast; exact le_of_eq (by ring))
    exact this t ht
  have h50 : (lit 50 : B64).val = Fl.of _ (.fin 50) := by
    have := val_lit_nat (V := Sf.valued _) L (n := 50) (by norm_num)
    push_cast at this
    exact this
  have s1 := (C92_signals near (c := exampleThresholds) (lo := 50) (hi := 50) h50 h50 fun t ht hs => ⟨far t ht hs, far t ht hs⟩).1
    RelativeStrengthIndexStrategy.new (by simp)
  obtain ⟨d, st, tv, e1, e2, e3, -, e5⟩ := C65_frame (ind := RelativeStrengthIndex.defaultNext) (ind0 := RelativeStrengthIndex.default)
    (sgn := ThresholdStrategy.next) hN hcols (fun k hk => by
      obtain ⟨q1, q2, q3, q4, q5⟩ := hval k hk
      have key : ∀ (a : B64) (x : ℝ), a.val = Fl.of _ (.fin x) → F64.feq a a = true := by
        intro a x hax
        rw [(Sf.valued _).feq]
        refine (congrArg₂ F64.feq hax hax).trans ?_
        simp [F64.feq, Ext.feq, Fl.of]
      exact ⟨key _ _ q1, key _ _ q2, key _ _ q3, key _ _ q4, key _ _ q5⟩) ht line s1 exampleConfig (lit 0)
  refine ⟨d, _, _, st, tv, e1, ?_, e5, e3, fun t ht => ?_⟩
  · -- the signals are those of the example in exact arithmetic
    obtain ⟨sig, g1, g2⟩ := example_signals c N
    have g3 := (C92_signals_exact 14 (rsiLine 14 c) (exampleThresholds : Thresholds (Ex ℝ)) (lo := 50) (hi := 50) (by simp [exampleThresholds])
      (by simp [exampleThresholds]) N).1 RelativeStrengthIndexStrategy.new (by simp)
    have g4 := Runs.unique g1 (g3.input_congr fun t ht => by
      unfold flo startAt
      by_cases hts : t < 14
      · rw [if_pos hts, if_pos hts]; rfl
      · rw [if_neg hts, if_neg hts]
        have := moves t ht (by omega)
        unfold rsiAt
        rw [if_neg (fun hc => by rw [hc.1, hc.2] at this; linarith)]
        rfl)
    exact ⟨fun t ht => by rw [← g4 t ht]; exact g2.long t ht, fun t ht => by rw [← g4 t ht]; exact g2.short t ht⟩
  · have h1000 : (exampleConfig : StrategyConfig B64).initialCapital.val = Fl.of _ (.fin 1000) := by
      have := val_lit_nat (V := Sf.valued _) L (n := 1000) (by norm_num)
      push_cast at this
      exact this
    have a1000 : |(1000 : ℝ)| = 1000 := abs_of_nonneg (by norm_num)
    have := C92_equity_binary64 (priced d e2) hM (by omega) (cfg := exampleConfig) rfl h1000 (by rw [a1000]; exact hW) e3 ht
    rw [a1000] at this
    exact this

end Pace
