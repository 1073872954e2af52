import Verif.Props.AccuracyConnors

/-!
# C101: the relative volatility index in floats against the textbook one
-/

set_option linter.unusedSectionVars false

namespace Pace
open Spec
variable {K : Type} [Field K] [LinearOrder K] [IsStrictOrderedRing K] [LawfulRoots K] {R : Rounding K}
variable {α : Type} [F64 α]

/-- The population standard deviation of the last `n` prices on the bars on which the price rose, 0 on the others; the deviation begins on
bar `n - 1`, and nothing is said of bar 0. -/
def Spec.upMoves (p : Nat → K) (n t : Nat) : Option K :=
  if t = 0 then none else if p t ≤ p (t - 1) then some 0 else startAt (n - 1) (deviationLine n p) t

/-- The same of the bars on which the price did not rise. -/
def Spec.downMoves (p : Nat → K) (n t : Nat) : Option K :=
  if t = 0 then none else if p (t - 1) < p t then some 0 else startAt (n - 1) (deviationLine n p) t

/-- The exponential averages of both. -/
def Spec.upAverage (n m : Nat) (p : Nat → K) (t : Nat) : K := (emaSeries (upMoves p n) m t).getD 0
def Spec.downAverage (n m : Nat) (p : Nat → K) (t : Nat) : K := (emaSeries (downMoves p n) m t).getD 0

/-- The relative volatility index as a line of numbers: the share of the upward average, in percent. -/
def Spec.volatilityLine (n m : Nat) (p : Nat → K) (t : Nat) : K := 100 * upAverage n m p t / (upAverage n m p t + downAverage n m p t)

/-- The error of the two averages: that of the standard deviation and what the averaging adds. -/
def Spec.volatilityError (u M : K) (N n m : Nat) : K := stdevError u M N n + (60 + 13 * N + 28 * m) * (u * (M + 1))

/-! ## Exponential averages of series with gaps -/

/-- Both missing, or both present and at most `e` apart. -/
def Close (e : K) : Option K → Option K → Prop
  | none, none => True
  | some a, some b => |a - b| ≤ e
  | _, _ => False

theorem fullWindow_getD {x : Nat → Option K} {len t : Nat} {w : List K} (h : fullWindow x len t = some w) : w = win (fun t => (x t).getD 0) len t := by
  have h1 := fullWindow_eq_win h
  have h2 : win (fun t => (x t).getD 0) len t = (win x len t).map (·.getD 0) := by simp [win, Function.comp_def]
  rw [h2, h1, List.map_map]
  simp [Function.comp_def]

theorem fullWindow_gap {x : Nat → Option K} {len r t : Nat} (h : x r = none) (h1 : r ≤ t) (h2 : t < r + len) : fullWindow x len t = none := by
  cases hf : fullWindow x len t with
  | none => rfl
  | some w =>
    have h3 := fullWindow_isSome.mp (show (fullWindow x len t).isSome by rw [hf]; rfl)
    have := h3.2 r h1 (by omega)
    rw [h] at this
    simp at this

theorem fullWindow_close {x y : Nat → Option K} {e : K} {len : Nat} (hlen : 1 ≤ len) {t : Nat} (h : ∀ k, k ≤ t → Close e (x k) (y k)) :
    Close e ((fullWindow x len t).map mean) ((fullWindow y len t).map mean) := by
  have hs : ∀ k, k ≤ t → (x k).isSome = (y k).isSome := fun k hk => by
    have := h k hk
    revert this
    cases x k <;> cases y k <;> simp [Close]
  have hw : (fullWindow x len t).isSome ↔ (fullWindow y len t).isSome := by
    rw [fullWindow_isSome, fullWindow_isSome]
    refine and_congr_right fun _ => ⟨fun g k h1 h2 => ?_, fun g k h1 h2 => ?_⟩
    · rw [← hs k h1]; exact g k h1 h2
    · rw [hs k h1]; exact g k h1 h2
  cases hx : fullWindow x len t with
  | none =>
    cases hy : fullWindow y len t with
    | none => trivial
    | some v => rw [hx, hy] at hw; simp at hw
  | some w =>
    cases hy : fullWindow y len t with
    | none => rw [hx, hy] at hw; simp at hw
    | some v =>
      show |mean w - mean v| ≤ e
      obtain ⟨hl, hp⟩ := fullWindow_isSome.mp (show (fullWindow x len t).isSome by rw [hx]; rfl)
      have h0 : (0 : K) < len := by exact_mod_cast hlen
      rw [fullWindow_getD hx, fullWindow_getD hy, mean, mean, win_length, win_length, ← sub_div, abs_div, abs_of_pos h0, div_le_iff₀ h0]
      have key : ∀ j, j ≤ len → |((List.range j).map fun i => (x (t + 1 - len + i)).getD 0).sum - ((List.range j).map fun i => (y (t + 1 - len + i)).getD 0).sum| ≤ e * j := by
        intro j hj
        induction j with
        | zero => simp
        | succ j ih =>
          simp only [List.range_succ, List.map_append, List.sum_append, List.map_singleton, List.sum_singleton]
          have h1 := ih (by omega)
          have h2 : |(x (t + 1 - len + j)).getD 0 - (y (t + 1 - len + j)).getD 0| ≤ e := by
            have h3 := h (t + 1 - len + j) (by omega)
            have h4 := hp (t + 1 - len + j) (by omega) (by omega)
            revert h3 h4
            cases x (t + 1 - len + j) <;> cases y (t + 1 - len + j) <;> simp [Close]
          rw [abs_le] at h1 h2 ⊢
          push_cast
          constructor <;> linarith
      exact key len (le_refl len)

private theorem factor_range {len : Nat} (hlen : 1 ≤ len) : (0 : K) < 2 / ((len : K) + 1) ∧ 2 / ((len : K) + 1) ≤ 1 := by
  have h : (1 : K) ≤ len := by exact_mod_cast hlen
  exact ⟨by positivity, by rw [div_le_one (by linarith)]; linarith⟩

theorem emaSeries_close {x y : Nat → Option K} {e : K} {len : Nat} (hlen : 1 ≤ len) {N : Nat} (h : ∀ t, t < N → Close e (x t) (y t)) :
    ∀ t, t < N → Close e (emaSeries x len t) (emaSeries y len t) := by
  obtain ⟨c0, c1⟩ := factor_range (K := K) hlen
  intro t
  induction t with
  | zero => intro ht; exact fullWindow_close hlen fun k hk => h k (by omega)
  | succ t ih =>
    intro ht
    have h1 := ih (by omega)
    have h2 := h (t + 1) ht
    have h3 := fullWindow_close hlen (x := x) (y := y) (t := t + 1) fun k hk => h k (by omega)
    rw [emaSeries, emaSeries]
    cases hx : emaSeries x len t <;> cases hy : emaSeries y len t <;> rw [hx, hy] at h1
    · exact h3
    · exact h1.elim
    · exact h1.elim
    · rename_i a b
      revert h2
      cases x (t + 1) <;> cases y (t + 1) <;> intro h2
      · trivial
      · exact h2.elim
      · exact h2.elim
      · rename_i v w
        show |_ - _| ≤ e
        replace h1 : |a - b| ≤ e := h1
        replace h2 : |v - w| ≤ e := h2
        rw [abs_le] at h1 h2 ⊢
        generalize 2 / ((len : K) + 1) = c at *
        have g1 := mul_le_mul_of_nonneg_left h1.1 (show 0 ≤ 1 - c by linarith)
        have g2 := mul_le_mul_of_nonneg_left h1.2 (show 0 ≤ 1 - c by linarith)
        have g3 := mul_le_mul_of_nonneg_left h2.1 c0.le
        have g4 := mul_le_mul_of_nonneg_left h2.2 c0.le
        constructor <;> linarith

theorem emaSeries_bounds {x : Nat → Option K} {len : Nat} (hlen : 1 ≤ len) {lo hi : K} {N : Nat} (h : ∀ t, t < N → ∀ k, x t = some k → lo ≤ k ∧ k ≤ hi) :
    ∀ t, t < N → ∀ k, emaSeries x len t = some k → lo ≤ k ∧ k ≤ hi := by
  obtain ⟨c0, c1⟩ := factor_range (K := K) hlen
  have hw : ∀ t, t < N → ∀ k, (fullWindow x len t).map mean = some k → lo ≤ k ∧ k ≤ hi := by
    intro t ht k hk
    obtain ⟨w, h1, rfl⟩ := Option.map_eq_some_iff.mp hk
    refine mean_bounds (by rw [← List.length_pos_iff, (fullWindow_length h1).1]; omega) fun v hv => ?_
    have h2 : some v ∈ win x len t := by rw [fullWindow_eq_win h1]; exact List.mem_map_of_mem hv
    obtain ⟨i, h3, h4⟩ := List.mem_map.mp (by simpa only [win] using h2)
    have := List.mem_range.mp h3
    have := (fullWindow_isSome.mp (show (fullWindow x len t).isSome by rw [h1]; rfl)).1
    exact h _ (by omega) v h4
  intro t
  induction t with
  | zero => exact hw 0
  | succ t ih =>
    intro ht k hk
    rw [emaSeries] at hk
    cases hx : emaSeries x len t with
    | none => rw [hx] at hk; exact hw (t + 1) ht k hk
    | some e =>
      rw [hx] at hk
      obtain ⟨w, h1, rfl⟩ := Option.map_eq_some_iff.mp hk
      have h2 := h (t + 1) ht w h1
      have h3 := ih (by omega) e hx
      generalize 2 / ((len : K) + 1) = c at *
      have g1 := mul_le_mul_of_nonneg_left h3.1 (show 0 ≤ 1 - c by linarith)
      have g2 := mul_le_mul_of_nonneg_left h3.2 (show 0 ≤ 1 - c by linarith)
      have g3 := mul_le_mul_of_nonneg_left h2.1 c0.le
      have g4 := mul_le_mul_of_nonneg_left h2.2 c0.le
      constructor <;> linarith

/-- After a gap the average is missing for a whole window. -/
theorem emaSeries_gap {x : Nat → Option K} {len r : Nat} (h : x r = none) : ∀ t, r ≤ t → t < r + len → emaSeries x len t = none := by
  intro t
  induction t with
  | zero => intro h1 h2; rw [emaSeries, fullWindow_gap h h1 h2]; rfl
  | succ t ih =>
    intro h1 h2
    rw [emaSeries]
    rcases Nat.lt_or_ge t r with h3 | h3
    · obtain rfl : r = t + 1 := by omega
      rw [h, fullWindow_gap h h1 h2]
      cases emaSeries x len t <;> rfl
    · rw [ih h3 (by omega), fullWindow_gap h h1 h2]; rfl

theorem emaSeries_present {x : Nat → Option K} {len s : Nat} (hlen : 1 ≤ len) (h : ∀ t, s ≤ t → (x t).isSome) {t : Nat} (ht : s + len ≤ t + 1) :
    (emaSeries x len t).isSome := by
  have hw : (fullWindow x len t).isSome := fullWindow_isSome.mpr ⟨by omega, fun k h1 h2 => h k (by omega)⟩
  cases t with
  | zero => rw [emaSeries]; simpa using hw
  | succ t =>
    rw [emaSeries]
    cases emaSeries x len t with
    | none => simpa using hw
    | some e => simpa using h (t + 1) (by omega)

section
variable {V : Valued R α} {u η top : K} (A : R.Accurate u η top) (L : R.Lawful)

include A L in
/-- The exponential average of floats, with gaps. -/
theorem ema0_near {len : Nat} (hlen : 2 ≤ len) (h53 : len + 1 ≤ 2 ^ 53) (hul : 6 * ((len : K) + 1) * u ≤ 1) {x : Nat → Option α} {xs : Nat → Option K} (h : Reads V x xs)
    {M : K} (hM : 0 ≤ M) (hx : ∀ t k, xs t = some k → |k| ≤ M) {N : Nat} (hN : 2 * (N : K) * u ≤ 1) (ht1 : 3 * (len * M) + 4 * N * η ≤ top)
    {E : K} (hE1 : (4 * N + 5) * (u * M + η) ≤ E) (hE2 : 9 * (len + 1) * (u * M + η) ≤ E) (ht2 : 2 * (M + E) + 8 * η ≤ top) :
    ∀ t, t < N → Within V (ema0 len (emaAlpha len) x t) (emaSeries xs len t) E := by
  have hu := A.u_nonneg
  have hη := A.η_nonneg
  have ha := near_emaAlpha (V := V) A L (show 1 ≤ len by omega) h53 hul
  obtain ⟨c0, c1⟩ := factor_range (K := K) (show 1 ≤ len by omega)
  have hl : (2 : K) ≤ len := by exact_mod_cast hlen
  have hcu : 12 * u ≤ 2 / ((len : K) + 1) := by rw [le_div_iff₀ (by linarith)]; linarith
  have hδ : 0 ≤ u * M + η := by positivity
  have base : ∀ t, t < N → Within V (sma0 len x t) ((fullWindow xs len t).map mean) E := by
    intro t ht
    have htN : (t : K) + 1 ≤ N := by exact_mod_cast ht
    have t0 : (0 : K) ≤ t := Nat.cast_nonneg _
    by_cases hp : len ≤ t + 1 ∧ WindowPresent xs len t
    · obtain ⟨w, hw⟩ := Option.isSome_iff_exists.mp (fullWindow_isSome.mpr hp)
      rw [hw]
      have e1 : ((2 * (t + 1 - 0) : Nat) : K) = 2 * ((t : K) + 1) := by rw [Nat.sub_zero]; push_cast; ring
      have g1 := mul_le_mul_of_nonneg_right htN hu
      have g2 := mul_le_mul_of_nonneg_right htN hη
      obtain ⟨b, b1, b2⟩ := sma_near A L hlen (by omega) h hM hx (s := 0) (fun t h => absurd h (by omega)) hw (by rw [e1]; linarith) (by rw [e1]; linarith)
      refine ⟨b, b1, b2.mono (le_trans ?_ hE1)⟩
      rw [Nat.sub_zero]
      exact mul_le_mul_of_nonneg_right (by linarith) hδ
    · rw [fullWindow_isNone hp, sma0, if_neg (by omega), if_neg (by rw [reads_window h]; exact hp)]
      rfl
  intro t
  induction t with
  | zero => exact base 0
  | succ t ih =>
    intro ht
    have h1 := ih (by omega)
    rw [ema0, if_neg (by omega), emaSeries]
    cases he : emaSeries xs len t with
    | none =>
      rw [he] at h1
      rw [show ema0 len (emaAlpha len) x t = none from h1]
      exact base (t + 1) ht
    | some e =>
      rw [he] at h1
      obtain ⟨b, b1, b2⟩ := h1
      rw [b1]
      cases hxt : xs (t + 1) with
      | none => rw [reads_none h hxt]; rfl
      | some k =>
        obtain ⟨v, v1, v2⟩ := reads_some h hxt
        rw [v1]
        have hk := hx _ _ hxt
        have heM : |e| ≤ M := abs_le.mpr (emaSeries_bounds (show 1 ≤ len by omega) (N := N) (fun t _ k hk => abs_le.mp (hx t k hk)) t (by omega) e he)
        refine ⟨_, rfl, (smooth_near A L c0 c1 hcu ha b2 v2 heM hk ht2).mono ?_⟩
        have e1 : 18 * (u * M + η) = 2 / ((len : K) + 1) * (9 * (len + 1) * (u * M + η)) := by field_simp; ring
        have e2 := mul_le_mul_of_nonneg_left hE2 c0.le
        generalize 2 / ((len : K) + 1) = c at *
        linarith

include A L in
/-- The exponential average of floats that are near a series of numbers with the same gaps. -/
theorem ema_gaps {len : Nat} (hlen : 1 ≤ len) (h53 : len + 1 ≤ 2 ^ 53) (hul : 6 * ((len : K) + 1) * u ≤ 1) {x : Nat → Option α} {xs : Nat → Option K} {e : K} (he : 0 ≤ e) {N : Nat}
    (h : ∀ t, t < N → Within V (x t) (xs t) e) {M B : K} (hx : ∀ t, t < N → ∀ k, xs t = some k → |k| ≤ M) (hM : 0 ≤ M) (hB : M + e ≤ B)
    (hN : 2 * (N : K) * u ≤ 1) (ht1 : 3 * (len * B) + 4 * N * η ≤ top)
    {E : K} (hE : E = (14 + 4 * N + 9 * len) * (u * B + η)) (ht2 : 2 * (B + E) + 8 * η ≤ top) :
    ∀ t, t < N → Within V (ema0 len (emaAlpha len) x t) (emaSeries xs len t) (e + E) := by
  have hu := A.u_nonneg
  have hη := A.η_nonneg
  have hB0 : 0 ≤ B := by linarith
  have hδ : 0 ≤ u * B + η := by positivity
  have N0 : (0 : K) ≤ N := Nat.cast_nonneg _
  have l0 : (0 : K) ≤ len := Nat.cast_nonneg _
  have hE0 : 0 ≤ E := by rw [hE]; positivity
  have mono : ∀ {o : Option α} {k : Option K} {e f : K}, Within V o k e → e ≤ f → Within V o k f := by
    intro o k e f h hf
    cases k with
    | none => exact h
    | some k => obtain ⟨a, h1, h2⟩ := h; exact ⟨a, h1, h2.mono hf⟩
  rcases Nat.lt_or_ge len 2 with h1 | h1
  · obtain rfl : len = 1 := by omega
    intro t ht
    have e1 : ema0 1 (emaAlpha 1) x t = x t := by cases t <;> simp [ema0, sma0]
    rw [e1, emaSeries_one]
    exact mono (h t ht) (by linarith)
  -- the floats as numbers
  have num : ∀ t, t < N → ∃ k : Option K, (x t).map V.val = k.map (fun k => Fl.of R (.fin k)) ∧ Close e k (xs t) := by
    intro t ht
    have h2 := h t ht
    cases hk : xs t with
    | none => rw [hk] at h2; exact ⟨none, by rw [show x t = none from h2]; rfl, trivial⟩
    | some k =>
      rw [hk] at h2
      obtain ⟨a, a1, v, v1, v2⟩ := h2
      exact ⟨some v, by rw [a1]; simp [v1], v2⟩
  choose! ys hys1 hys2 using num
  let x' : Nat → Option α := fun t => if t < N then x t else none
  let y' : Nat → Option K := fun t => if t < N then ys t else none
  have hr : Reads V x' y' := by
    intro t
    show (if t < N then x t else none).map V.val = (if t < N then ys t else none).map _
    split
    · next ht => exact hys1 t ht
    · rfl
  have hy : ∀ t k, y' t = some k → |k| ≤ B := by
    intro t k hk
    have hk : (if t < N then ys t else none) = some k := hk
    split at hk
    · next ht =>
      have h2 := hys2 t ht
      rw [hk] at h2
      cases hxt : xs t with
      | none => rw [hxt] at h2; exact h2.elim
      | some w =>
        rw [hxt] at h2
        have h2 : |k - w| ≤ e := h2
        have := hx t ht w hxt
        have := abs_sub_abs_le_abs_sub k w
        linarith
    · cases hk
  have near := ema0_near A L h1 h53 hul hr hB0 hy hN ht1 (E := E) (by rw [hE]; exact mul_le_mul_of_nonneg_right (by linarith) hδ)
    (by rw [hE]; exact mul_le_mul_of_nonneg_right (by linarith) hδ) ht2
  have hc := emaSeries_close (e := e) hlen (x := y') (y := xs) (N := N) fun t ht => by
    show Close e (if t < N then ys t else none) (xs t)
    rw [if_pos ht]; exact hys2 t ht
  intro t ht
  have same : ema0 len (emaAlpha len) x' t = ema0 len (emaAlpha len) x t := ema0_congr _ _ fun k hk => by
    show (if k < N then x k else none) = x k
    rw [if_pos (by omega)]
  have n1 := near t ht
  have n2 := hc t ht
  rw [same] at n1
  revert n1 n2
  cases emaSeries y' len t <;> cases emaSeries xs len t <;> intro n1 n2
  · exact n1
  · exact n2.elim
  · exact n2.elim
  · rename_i v w
    obtain ⟨a, a1, z, z1, z2⟩ := n1
    have n2 : |v - w| ≤ e := n2
    exact ⟨a, a1, z, z1, by
      rw [abs_le] at z2 n2 ⊢
      constructor <;> linarith⟩

/-! ## The relative volatility index -/

include A L in
/-- Which way the price went is read correctly off the rounded difference. -/
theorem near_sign {a b : α} {x y : K} (ha : V.val a = Fl.of R (.fin x)) (hb : V.val b = Fl.of R (.fin y)) (clear : x = y ∨ η < |x - y|) (ht : |x - y| ≤ top) :
    F64.le (a - b) (lit 0) = decide (x ≤ y) ∧ fgt (a - b) (lit 0) = decide (y < x) := by
  have hus := A.u_small
  have h0 : Near V (lit 0 : α) 0 0 := near_of_val (by have := val_lit_nat (V := V) L (n := 0) (by norm_num); exact_mod_cast this)
  have e : V.val (a - b) = Fl.of R (R.rnd (x + -y)) := by rw [V.sub, ha, hb]; rfl
  have key : ∃ E, Near V (a - b) (x - y) E ∧ (E + 0 < |x - y - 0| ∨ (E = 0 ∧ (0 : K) = 0)) := by
    rcases clear with rfl | hη
    · exact ⟨0, near_of_val (by rw [e, add_neg_cancel, rnd_zero L, sub_self]), .inr ⟨rfl, rfl⟩⟩
    · obtain ⟨v, v1, v2⟩ := A.err (x - y) ht
      refine ⟨_, ⟨v, by rw [e, ← sub_eq_add_neg, v1], v2⟩, .inl ?_⟩
      rw [add_zero, sub_zero]
      have : 0 < |x - y| := lt_of_le_of_lt A.η_nonneg hη
      exact max_lt (by have := mul_le_mul_of_nonneg_right hus this.le; linarith) hη
  obtain ⟨E, k1, k2⟩ := key
  obtain ⟨-, c2, c3, -⟩ := near_cmp k1 h0 k2
  refine ⟨c2.trans (by simp), c3.trans (by simp)⟩

theorem moves_gap (p : Nat → K) {n m t : Nat} (hn : 2 ≤ n) (hm : 1 ≤ m) (hnm : m = 1 ∨ n ≤ m + 2) (ht : t < n + m - 2) :
    emaSeries (upMoves p n) m t = none ∨ emaSeries (downMoves p n) m t = none := by
  have warm : ∀ r, r ≤ n - 2 → upMoves p n r = none ∨ downMoves p n r = none := by
    intro r hr
    unfold upMoves downMoves startAt
    by_cases h0 : r = 0
    · simp [h0]
    · rw [if_neg h0, if_neg h0, if_pos (show r < n - 1 by omega)]
      by_cases h1 : p r ≤ p (r - 1)
      · right; rw [if_neg (not_lt.mpr h1)]
      · left; rw [if_neg h1]
  have key : ∀ r, r ≤ n - 2 → r ≤ t → t < r + m → emaSeries (upMoves p n) m t = none ∨ emaSeries (downMoves p n) m t = none := fun r h1 h2 h3 =>
    (warm r h1).imp (fun h => emaSeries_gap h t h2 h3) fun h => emaSeries_gap h t h2 h3
  rcases hnm with rfl | h
  · exact key t (by omega) (le_refl t) (by omega)
  · rcases Nat.lt_or_ge t m with h1 | h1
    · exact key 0 (by omega) (by omega) (by omega)
    · exact key (n - 2) (le_refl _) (by omega) (by omega)

theorem moves_present (p : Nat → K) {n m t : Nat} (hn : 2 ≤ n) (hm : 1 ≤ m) (ht : n + m - 2 ≤ t) :
    emaSeries (upMoves p n) m t = some (upAverage n m p t) ∧ emaSeries (downMoves p n) m t = some (downAverage n m p t) := by
  have s : ∀ {x : Option K}, x.isSome → x = some (x.getD 0) := fun {x} h => by cases x <;> simp at h ⊢
  refine ⟨s (emaSeries_present (s := n - 1) hm (fun r hr => ?_) (by omega)), s (emaSeries_present (s := n - 1) hm (fun r hr => ?_) (by omega))⟩
  · unfold upMoves startAt
    rw [if_neg (by omega), if_neg (show ¬ r < n - 1 by omega)]
    split <;> rfl
  · unfold downMoves startAt
    rw [if_neg (by omega), if_neg (show ¬ r < n - 1 by omega)]
    split <;> rfl

theorem moves_bounds {p : Nat → K} {n N : Nat} (hn : 2 ≤ n) {M : K} (hM : 0 ≤ M) (hp : ∀ t, t < N → |p t| ≤ M) {t : Nat} (ht : t < N) {k : K}
    (hk : upMoves p n t = some k ∨ downMoves p n t = some k) : 0 ≤ k ∧ k ≤ 2 * M := by
  have dev : startAt (n - 1) (deviationLine n p) t = some k → 0 ≤ k ∧ k ≤ 2 * M := fun h => by
    unfold startAt at h
    split at h
    · cases h
    · obtain rfl := Option.some.inj h
      obtain ⟨h1, h2, -⟩ := deviation_bounds (show 1 ≤ n by omega) (show n ≤ t + 1 by omega) hM fun k hk => hp k (by omega)
      exact ⟨h1, h2⟩
  unfold upMoves downMoves at hk
  by_cases h0 : t = 0
  · simp [h0] at hk
  rw [if_neg h0, if_neg h0] at hk
  rcases hk with hk | hk <;> split at hk
  · obtain rfl := Option.some.inj hk; exact ⟨le_refl _, by linarith⟩
  · exact dev hk
  · obtain rfl := Option.some.inj hk; exact ⟨le_refl _, by linarith⟩
  · exact dev hk

/-- The averages are between 0 and twice the largest price. -/
theorem averages_bounds {p : Nat → K} {n m N : Nat} (hn : 2 ≤ n) (hm : 1 ≤ m) {M : K} (hM : 0 ≤ M) (hp : ∀ t, t < N → |p t| ≤ M) {t : Nat} (ht : t < N) :
    (0 ≤ upAverage n m p t ∧ upAverage n m p t ≤ 2 * M) ∧ (0 ≤ downAverage n m p t ∧ downAverage n m p t ≤ 2 * M) := by
  have key : ∀ x : Nat → Option K, (∀ t, t < N → ∀ k, x t = some k → 0 ≤ k ∧ k ≤ 2 * M) → 0 ≤ (emaSeries x m t).getD 0 ∧ (emaSeries x m t).getD 0 ≤ 2 * M := by
    intro x hx
    cases he : emaSeries x m t with
    | none => exact ⟨le_refl _, by simpa using hM⟩
    | some e => exact emaSeries_bounds hm hx t ht e he
  exact ⟨key _ fun t ht k hk => moves_bounds hn hM hp ht (.inl hk), key _ fun t ht k hk => moves_bounds hn hM hp ht (.inr hk)⟩

include A L in
/-- The share of one of two averages, in percent. -/
theorem near_share {a b : α} {p q E M ν : K} (ha : Near V a p E) (hb : Near V b q E) (hp : 0 ≤ p) (hp1 : p ≤ 2 * M) (hq : 0 ≤ q) (hq1 : q ≤ 2 * M)
    (hν : 0 < ν) (hpq : ν ≤ p + q) (hE : 16 * E ≤ ν) (huE : 20 * (u * (M + 1)) ≤ E) (hEM : E ≤ 2 * (M + 1)) (htop : 1024 * (M + 1) ≤ top) (hM : 0 ≤ M) :
    F64.feq a (-b) = false ∧ Near V (a / (a + b) * lit 100) (100 * p / (p + q)) (1212 * (E / ν) + 303 * u) := by
  have hu := A.u_nonneg
  have hus := A.u_small
  have hη := A.η_nonneg
  have hηu : η ≤ u / 1024 := A.η_small.trans (by have := mul_le_mul_of_nonneg_right hus hu; linarith)
  have hE0 := ha.nonneg
  have uE : u * E ≤ E / 1024 := by have := mul_le_mul_of_nonneg_right hus hE0; linarith
  have uM : 0 ≤ u * M := mul_nonneg hu hM
  refine ⟨?_, ?_⟩
  · obtain ⟨v, h1, h2⟩ := ha
    obtain ⟨w, h3, h4⟩ := hb
    rw [V.feq, V.neg, h1, h3]
    show F64.feq (Fl.of R (.fin v)) (Fl.of R (.fin (-w))) = false
    rw [val_feq_fin]
    refine decide_eq_false fun g => ?_
    rw [abs_le] at h2 h4
    linarith
  · have hs : |p + q| = p + q := abs_of_nonneg (by linarith)
    have n2 : Near V (a + b) (p + q) (3 * E) := by
      refine (ha.add A hb (m := 4 * M) (by rw [hs]; linarith) (by linarith)).mono ?_
      have : u * (4 * M + (E + E)) = 4 * (u * M) + 2 * (u * E) := by ring
      linarith
    have n3 := ha.ratio A n2 hν (by rw [hs]; exact hpq) (by rw [hs, abs_of_nonneg hp]; linarith) (G := 4 * E) (by linarith) (by linarith) (by linarith)
    have hd : E / ν ≤ 1 / 16 := by rw [div_le_div_iff₀ hν (by norm_num)]; linarith
    have e1 : 4 * E / ν = 4 * (E / ν) := by ring
    rw [e1] at n3
    have n4 := n3.percent A L (by
      rw [abs_div, hs, abs_of_nonneg hp, div_le_one (by linarith)]; linarith) (by linarith) (by linarith)
    have e2 : 100 * p / (p + q) = p / (p + q) * 100 := by ring
    rw [e2]
    exact n4.mono (by linarith)

include A L in
/-- **C101.** The relative volatility index of lengths `n` (deviation, at least 2) and `m` (averages), `n ≤ m + 2` or `m = 1`, of floats that are the prices `p`
up to `M`: if no price change is smaller than the spacing `η` of the floats around 0 and both averages add up to at least `μ` on every
bar, it is within `1212 E / μ + 303 u` of the textbook index, `E` being the error of the averages, and begins on bar `n + m - 2`. -/
theorem C101_relative_volatility (hroot : RoundedRoots R) (d : DataProvider α) {n m k : Nat} (hn : 2 ≤ n) (hm : 1 ≤ m) (hnm : m = 1 ∨ n ≤ m + 2) {N : Nat}
    (hk : n + m + N + 1 ≤ k) {M : K} (hM : 0 ≤ M) (hr : Room u η top k M) (htop : 100 * n * (M + 1) ^ 2 ≤ top) (htop2 : 1000 * k * (M + 1) ≤ top)
    {x : Nat → Option α} {p : Nat → K} (hx : StaysNear V x 0 p 0 N) (hp : ∀ t, t < N → |p t| ≤ M)
    (clear : ∀ t, t + 1 < N → p (t + 1) = p t ∨ η < |p (t + 1) - p t|)
    {E μ : K} (hE : E = volatilityError u M N n m) (hμ : 0 < μ) (hEμ : 16 * E ≤ μ)
    (moves : ∀ t, t < N → n + m - 2 ≤ t → μ ≤ upAverage n m p t + downAverage n m p t) :
    ∃ y, Runs (fun t => RelativeVolatilityIndex.next ⟨d, t⟩) (RelativeVolatilityIndex.new n m) x N y ∧
      StaysNear V y (n + m - 2) (volatilityLine n m p) (1212 * (E / μ) + 303 * u) N := by
  have hu := A.u_nonneg
  have hus := A.u_small
  have hη := A.η_nonneg
  have hηu : η ≤ u / 1024 := A.η_small.trans (by have := mul_le_mul_of_nonneg_right hus hu; linarith)
  have hkk : (n : K) + m + N + 1 ≤ k := by exact_mod_cast hk
  have hn2 : (2 : K) ≤ n := by exact_mod_cast hn
  have hm1 : (1 : K) ≤ m := by exact_mod_cast hm
  have N0 : (0 : K) ≤ N := Nat.cast_nonneg _
  have hfine := hr.fine
  have hsm := hr.small
  have big : 4000 * (M + 1) ≤ top := by
    have := mul_le_mul_of_nonneg_right (show (4 : K) ≤ k by linarith) (show 0 ≤ M + 1 by linarith)
    linarith
  have huM : 0 ≤ u * M := mul_nonneg hu hM
  obtain ⟨sd, r1, n1⟩ := C98_stdev A L hroot d hn (k := k) (by omega) hM hr htop true (hx.mono (show (0 : K) ≤ 5 * (u * M + η) by positivity)) hp
  have n1' : StaysNear V sd (n - 1) (deviationLine n p) (stdevError u M N n) N := by
    have : StaysNear V sd (n - 1) (fun t => standardDeviation true (win p n t)) (stdevError u M N n) N := by simpa [stdevFactor] using n1
    exact this
  obtain ⟨f1, f2, -, -, f5⟩ := stdevError_facts A (show n + N + 1 ≤ k by omega) hM hfine
  have key : ∀ t, t < N → ∃ a, x t = some a ∧ V.val a = Fl.of R (.fin (p t)) := fun t ht => by
    obtain ⟨a, h1, v, h2, h3⟩ := stays_at hx ht (Nat.zero_le t)
    obtain rfl : v = p t := sub_eq_zero.mp (abs_nonpos_iff.mp h3)
    exact ⟨a, h1, h2⟩
  have zero : Near V (lit 0 : α) 0 (stdevError u M N n) :=
    (near_of_val (by have := val_lit_nat (V := V) L (n := 0) (by norm_num); exact_mod_cast this)).mono f5.le
  -- what the code averages
  have sign : ∀ t, t + 1 < N → ∀ a b, x (t + 1) = some a → x t = some b →
      F64.le (a - b) (lit 0) = decide (p (t + 1) ≤ p t) ∧ fgt (a - b) (lit 0) = decide (p t < p (t + 1)) := by
    intro t ht a b ha hb
    obtain ⟨a', a1, a2⟩ := key (t + 1) ht
    obtain ⟨b', b1, b2⟩ := key t (by omega)
    rw [a1] at ha
    rw [b1] at hb
    obtain rfl := Option.some.inj ha
    obtain rfl := Option.some.inj hb
    refine near_sign A L a2 b2 (clear t ht) ?_
    have := abs_sub (p (t + 1)) (p t)
    have := hp (t + 1) ht
    have := hp t (by omega)
    linarith
  have hu1 : ∀ t, t < N → Within V ((opt2 (fun a p => if F64.le (a - p) (lit 0) then some (lit 0) else sd t) (x t) (prev x t)).join) (upMoves p n t) (stdevError u M N n) := by
    intro t ht
    cases t with
    | zero =>
      obtain ⟨a, a1, -⟩ := key 0 ht
      rw [a1]; rfl
    | succ t =>
      obtain ⟨a, a1, -⟩ := key (t + 1) ht
      obtain ⟨b, b1, -⟩ := key t (by omega)
      have hs := (sign t ht a b a1 b1).1
      have hd := n1' (t + 1) ht
      show Within V ((opt2 _ (x (t + 1)) (x t)).join) _ _
      rw [a1, b1]
      simp only [opt2, Option.join_some, hs, upMoves, Nat.add_sub_cancel, if_neg (Nat.succ_ne_zero t), decide_eq_true_eq]
      split
      · exact ⟨_, rfl, zero⟩
      · exact hd
  have hw1 : ∀ t, t < N → Within V ((opt2 (fun a p => if fgt (a - p) (lit 0) then some (lit 0) else sd t) (x t) (prev x t)).join) (downMoves p n t) (stdevError u M N n) := by
    intro t ht
    cases t with
    | zero =>
      obtain ⟨a, a1, -⟩ := key 0 ht
      rw [a1]; rfl
    | succ t =>
      obtain ⟨a, a1, -⟩ := key (t + 1) ht
      obtain ⟨b, b1, -⟩ := key t (by omega)
      have hs := (sign t ht a b a1 b1).2
      have hd := n1' (t + 1) ht
      show Within V ((opt2 _ (x (t + 1)) (x t)).join) _ _
      rw [a1, b1]
      simp only [opt2, Option.join_some, hs, downMoves, Nat.add_sub_cancel, if_neg (Nat.succ_ne_zero t), decide_eq_true_eq]
      split
      · exact ⟨_, rfl, zero⟩
      · exact hd
  -- no gap once an average has begun
  have ok : ∀ (z : Nat → Option α) (zs : Nat → Option K), (∀ t, t < N → Within V (z t) (zs t) (stdevError u M N n)) → zs 0 = none →
      (∀ t, 1 ≤ t → n - 1 ≤ t → (zs t).isSome) → EmaOk m z N := by
    intro z zs h h0 h1
    rcases hnm with hnm | hnm
    · exact .inl hnm
    refine .inr fun t ht ⟨s, s1, s2, s3⟩ => ?_
    have : m ≤ s := by
      by_contra hlt
      have h5 := s3 0 (by omega) (by omega)
      have h6 := h 0 (by omega)
      rw [h0] at h6
      rw [show z 0 = none from h6] at h5
      simp at h5
    have h7 := h (t + 1) ht
    have h8 := h1 (t + 1) (by omega) (by omega)
    obtain ⟨w, hw⟩ := Option.isSome_iff_exists.mp h8
    rw [hw] at h7
    obtain ⟨a, a1, -⟩ := h7
    rw [a1]; rfl
  have uk := ok _ _ hu1 (by simp [upMoves]) fun t h1 h2 => by
    unfold upMoves startAt
    rw [if_neg (by omega), if_neg (show ¬ t < n - 1 by omega)]
    split <;> rfl
  have wk := ok _ _ hw1 (by simp [downMoves]) fun t h1 h2 => by
    unfold downMoves startAt
    rw [if_neg (by omega), if_neg (show ¬ t < n - 1 by omega)]
    split <;> rfl
  refine ⟨_, C53_relative_volatility d r1 (ema_runs d hm (emaAlpha m) _ N uk) (ema_runs d hm (emaAlpha m) _ N wk), ?_⟩
  -- the averages
  have uk1 : (k : K) * u ≤ 1 / 1000 := by linarith
  have mu : (m : K) * u ≤ 1 / 1000 := by have := mul_le_mul_of_nonneg_right (show (m : K) ≤ k by linarith) hu; linarith
  have Nu : (N : K) * u ≤ 1 / 1000 := by have := mul_le_mul_of_nonneg_right (show (N : K) ≤ k by linarith) hu; linarith
  have mM : (m : K) * (M + 1) ≤ k * (M + 1) := mul_le_mul_of_nonneg_right (by linarith) (by linarith)
  have Nη : (N : K) * η ≤ 1 / 1000 := by have := mul_le_mul_of_nonneg_left (show η ≤ u by linarith) N0; linarith
  have uM1 : 0 ≤ u * (M + 1) := mul_nonneg hu (by linarith)
  have coef : (14 + 4 * (N : K) + 9 * m) * u ≤ 3 / 100 := by linarith
  have h3 : u * (3 * (M + 1)) + η ≤ 301 / 100 * (u * (M + 1)) := by linarith
  have c0 : (0 : K) ≤ 14 + 4 * N + 9 * m := by linarith
  have hEe : (14 + 4 * (N : K) + 9 * m) * (u * (3 * (M + 1)) + η) ≤ (60 + 13 * N + 28 * m) * (u * (M + 1)) := by
    have g1 := mul_le_mul_of_nonneg_left h3 c0
    have g2 := mul_le_mul_of_nonneg_right (show (14 + 4 * (N : K) + 9 * m) * (301 / 100) ≤ 60 + 13 * N + 28 * m by linarith) uM1
    linarith
  have hEs : (14 + 4 * (N : K) + 9 * m) * (u * (3 * (M + 1)) + η) ≤ M + 1 := by
    have g1 := mul_le_mul_of_nonneg_left h3 c0
    have g2 := mul_le_mul_of_nonneg_right coef (show 0 ≤ M + 1 by linarith)
    linarith
  have hEE : volatilityError u M N n m ≤ 2 * (M + 1) := by
    unfold volatilityError
    have g1 : (60 + 13 * (N : K) + 28 * m) * u ≤ 1 := by linarith
    have g2 := mul_le_mul_of_nonneg_right g1 (show 0 ≤ M + 1 by linarith)
    linarith
  have h6 : 6 * ((m : K) + 1) * u ≤ 1 := by linarith
  have avg : ∀ (z : Nat → Option α) (zs : Nat → Option K), (∀ t, t < N → Within V (z t) (zs t) (stdevError u M N n)) →
      (∀ t, t < N → ∀ w, zs t = some w → 0 ≤ w ∧ w ≤ 2 * M) → ∀ t, t < N → Within V (ema0 m (emaAlpha m) z t) (emaSeries zs m t) E := by
    intro z zs h hb t ht
    have g := ema_gaps A L hm (by omega) h6 f5.le h (fun t ht w hw => by
      obtain ⟨b1, b2⟩ := hb t ht w hw
      exact abs_le.mpr ⟨by linarith, b2⟩) (by linarith : 0 ≤ 2 * M) (B := 3 * (M + 1)) (by linarith) (by linarith) (by linarith) rfl (by linarith) t ht
    revert g
    cases emaSeries zs m t with
    | none => exact id
    | some w =>
      rintro ⟨a, a1, a2⟩
      refine ⟨a, a1, a2.mono ?_⟩
      rw [hE]; unfold volatilityError
      linarith
  have nu := avg _ _ hu1 fun t ht w hw => moves_bounds hn hM hp ht (.inl hw)
  have nw := avg _ _ hw1 fun t ht w hw => moves_bounds hn hM hp ht (.inr hw)
  have hE20 : 20 * (u * (M + 1)) ≤ E := by
    rw [hE]; unfold volatilityError
    have : 0 ≤ (60 + 13 * (N : K) + 28 * m) * (u * (M + 1)) := by positivity
    linarith
  intro t ht
  have nut := nu t ht
  have nwt := nw t ht
  unfold startAt
  by_cases hts : t < n + m - 2
  · rw [if_pos hts]
    rcases moves_gap p hn hm hnm hts with h | h
    · rw [h] at nut
      show (opt2 _ _ _).join = none
      rw [show ema0 m (emaAlpha m) _ t = none from nut]
      rfl
    · rw [h] at nwt
      show (opt2 _ _ _).join = none
      rw [show ema0 m (emaAlpha m) _ t = none from nwt]
      have e0 : ∀ (f : α → α → Option α) (z : Option α), (opt2 f z none).join = none := fun f z => by cases z <;> rfl
      exact e0 _ _
  rw [if_neg hts]
  obtain ⟨e1, e2⟩ := moves_present p hn hm (show n + m - 2 ≤ t by omega)
  rw [e1] at nut
  rw [e2] at nwt
  obtain ⟨a, a1, a2⟩ := nut
  obtain ⟨b, b1, b2⟩ := nwt
  obtain ⟨⟨p1, p2⟩, q1, q2⟩ := averages_bounds hn hm hM hp ht
  obtain ⟨s1, s2⟩ := near_share A L a2 b2 p1 p2 q1 q2 hμ (moves t ht (by omega)) hEμ hE20 (by rw [hE]; exact hEE) (by linarith) hM
  refine ⟨a / (a + b) * lit 100, ?_, s2⟩
  show (opt2 _ _ _).join = _
  rw [a1, b1]
  simp only [opt2, Option.join_some, s1]
  rfl

include A L in
/-- **C101.** The relative volatility index program of any such lengths, thresholds and price of the bar, under the conditions of
C101_relative_volatility: if the textbook index keeps farther from both thresholds than the error, the program signals on every tick what
it signals in exact arithmetic, which is what the textbook index signals, and both backtests are those of these signals. -/
theorem C101_relative_volatility_program (hroot : RoundedRoots R) {d : DataProvider α} {N : Nat} {o h l c v : Nat → K} {M : K} (hb : PricedBars V d N o h l c v M) (hM : 0 ≤ M)
    {dx : DataProvider (Ex K)} (hx : ExBars dx N o h l c v) {src : SrcKind} (hs : BarPrice src) {p : Nat → K} (hp : p = sourceValue src o h l c v)
    {n m k : Nat} (hn : 2 ≤ n) (hm : 1 ≤ m) (hnm : m = 1 ∨ n ≤ m + 2) (hk : n + m + N + 1 ≤ k) (hr : Room u η top k M) (htop : 100 * n * (M + 1) ^ 2 ≤ top)
    (htop2 : 1000 * k * (M + 1) ≤ top) (clear : ∀ t, t + 1 < N → p (t + 1) = p t ∨ η < |p (t + 1) - p t|)
    {E μ : K} (hE : E = volatilityError u M N n m) (hμ : 0 < μ) (hEμ : 16 * E ≤ μ)
    (moves : ∀ t, t < N → n + m - 2 ≤ t → μ ≤ upAverage n m p t + downAverage n m p t)
    {th : Thresholds α} {thx : Thresholds (Ex K)} {lo hi : K} (h1 : V.val th.oversold = Fl.of R (.fin lo)) (h2 : V.val th.overbought = Fl.of R (.fin hi))
    (h3 : thx.oversold = fin lo) (h4 : thx.overbought = fin hi)
    (far : ∀ t, t < N → n + m - 2 ≤ t → 1212 * (E / μ) + 303 * u < |volatilityLine n m p t - lo| ∧ 1212 * (E / μ) + 303 * u < |volatilityLine n m p t - hi|)
    (cfg : StrategyConfig α) (cfgx : StrategyConfig (Ex K)) (rfr : α) (rfrx : Ex K) :
    SameSignals d dx N (withSrc src RelativeVolatilityIndex.next) (RelativeVolatilityIndex.new n m) ThresholdStrategy.next (RelativeVolatilityIndexStrategy.new th) cfg rfr
      (withSrc src RelativeVolatilityIndex.next) (RelativeVolatilityIndex.new n m) ThresholdStrategy.next (RelativeVolatilityIndexStrategy.new thx) cfgx rfrx
      (lineSignal (n + m - 2) (volatilityLine n m p) lo hi) := by
  have hu := A.u_nonneg
  have hη := A.η_nonneg
  obtain ⟨x, x1, x2⟩ := barPrice_reads hb hs
  rw [← hp] at x2
  have hv : src ≠ .volume := by rcases hs with rfl | rfl | rfl | rfl <;> simp
  have hpM : ∀ t, t < N → |p t| ≤ M := fun t ht => by rw [hp]; exact sourceValue_abs (hb.bound t ht) hv
  obtain ⟨y, r, near⟩ := C101_relative_volatility A L hroot d hn hm hnm hk hM hr htop htop2 x2 hpM clear hE hμ hEμ moves
  -- exact arithmetic
  have hx0 : StaysNear (Valued.unsigned (Rounding.exact K)) (fun t => some (fin (p t))) 0 p 0 N := fun t _ => by
    unfold startAt
    rw [if_neg (by omega)]
    exact ⟨_, rfl, p t, rfl, by simp⟩
  have hEE : volatilityError 0 M N n m ≤ E := by
    rw [hE]; unfold volatilityError stdevError
    have g1 : 0 ≤ (20 + 6 * (N : K) + 12 * n) * (u * (M + 1)) := by positivity
    have g2 : 0 ≤ (60 + 13 * (N : K) + 28 * m) * (u * (M + 1)) := by positivity
    rw [zero_mul, mul_zero, mul_zero]
    linarith
  obtain ⟨yx, rx, nearx⟩ := C101_relative_volatility (exact_accurate A.top_ge) exact_lawful (V := Valued.unsigned (Rounding.exact K)) (fun _ _ => rfl) dx hn hm hnm hk hM
    (hr := ⟨by simp, by
      have := hr.wide
      have : 0 ≤ 1000 * (k : K) * η := by positivity
      linarith, hr.small⟩) htop htop2 hx0 hpM (fun t _ => by
        by_cases he : p (t + 1) = p t
        · exact .inl he
        · exact .inr (abs_pos.mpr (sub_ne_zero.mpr he))) rfl hμ (by linarith) moves
  have e1 : 1212 * (volatilityError 0 M N n m / μ) + 303 * 0 ≤ 1212 * (E / μ) + 303 * u := by
    have := div_le_div_of_nonneg_right hEE hμ.le
    linarith
  have sg1 := (C92_signals near h1 h2 far).1 RelativeVolatilityIndexStrategy.new (by simp)
  have sg2 := (C92_signals (V := Valued.unsigned (Rounding.exact K)) (nearx.mono e1) (c := thx) (by rw [h3]; rfl) (by rw [h4]; rfl) far).1
    RelativeVolatilityIndexStrategy.new (by simp)
  obtain ⟨o', h', l', c', v', b1, -⟩ := hb.bars
  obtain ⟨st, tv, q1, -, q2⟩ := C65_program b1 (withSrc_runs x1 r) sg1 cfg rfr
  have sx := src_exact' hx src
  rw [← hp] at sx
  obtain ⟨stx, tvx, q3, -, q4⟩ := C65_program hx (withSrc_runs sx rx) sg2 cfgx rfrx
  exact ⟨_, st, tv, _, stx, tvx, q2, q4, q1, q3⟩

end
end Pace
