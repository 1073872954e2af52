import Verif.Props.AccuracyDmi
import Verif.Props.AccuracyCurves
import Verif.Props.AccuracyRsi

/-!
# C100: the Connors RSI in floats against the exact one

The streak is a whole number, which the code counts without error; the percent rank is a count of comparisons of rounded rates of change.
-/

set_option linter.unusedSectionVars false

namespace Pace
open Spec
variable {K : Type} [Field K] [LinearOrder K] [IsStrictOrderedRing K] [LawfulRoots K] {R : Rounding K}
variable {α : Type} [F64 α]

/-- The percentage of the `k` previous values of a line that are not above the current one, the line beginning on bar 1. -/
def Spec.rankLine (k : Nat) (r : Nat → K) (t : Nat) : K :=
  100 * (((List.range k).countP fun i => decide (1 ≤ t - 1 - i ∧ r (t - 1 - i) ≤ r t) : Nat) : K) / (k : K)

/-- The Connors RSI as a line of numbers: the mean of the RSI of the price, the RSI of its up/down streak and the percent rank of its one-bar
rate of change. -/
def Spec.connorsLine (n m k : Nat) (p : Nat → K) (t : Nat) : K := (rsiLine n p t + rsiLine m (streakSeries p) t + rankLine k (rateLine 1 p) t) / 3

/-- It is clear how the rate of change of each bar compares with each of the `k` before it: they have the same two prices, or both are
unchanged, or the rates differ by more than `e`. -/
def Spec.ClearRanks (k : Nat) (p : Nat → K) (e : K) (N : Nat) : Prop := ∀ t, t < N → k ≤ t → ∀ j, 1 ≤ j → j < t → t ≤ j + k →
  (p j = p t ∧ p (j - 1) = p (t - 1)) ∨ (p j = p (j - 1) ∧ p t = p (t - 1)) ∨ e < |rateLine 1 p j - rateLine 1 p t|

theorem countLe_win {last : α} {x : Nat → Option α} {len t : Nat} (ht : len ≤ t) :
    countLe last (win x len (t - 1)) = (List.range len).countP fun i => (x (t - 1 - i)).any (F64.le · last) := by
  unfold countLe
  rw [← List.countP_eq_length_filter, ← List.countP_reverse, win, ← List.map_reverse, List.countP_map]
  have hr : (List.range len).reverse = (List.range len).map fun i => len - 1 - i := by
    apply List.ext_getElem?
    intro i
    by_cases hi : i < len
    · rw [List.getElem?_reverse (by simpa using hi), List.getElem?_map, List.getElem?_range hi]
      simp only [List.length_range, Option.map_some]
      rw [List.getElem?_range (by omega)]
    · rw [List.getElem?_eq_none (by simp; omega), List.getElem?_eq_none (by simp; omega)]
  rw [hr, List.countP_map]
  apply List.countP_congr
  intro i hi
  have hi := List.mem_range.mp hi
  simp only [Function.comp, show t - 1 + 1 - len + (len - 1 - i) = t - 1 - i by omega]
  cases x (t - 1 - i) <;> simp

/-- The up/down series of the code, tick by tick. -/
private def udSeries (x : Nat → Option α) : Nat → Option α
  | 0 => ConnorsRsi.computeUpDown (x 0) none none
  | t + 1 => ConnorsRsi.computeUpDown (x (t + 1)) (x t) (udSeries x t)

private theorem udSeries_eq (x : Nat → Option α) (t : Nat) : udSeries x t = ConnorsRsi.computeUpDown (x t) (prev x t) (prev (udSeries x) t) := by
  cases t <;> rfl

section
variable {V : Valued R α} {u η top : K} (A : R.Accurate u η top) (L : R.Lawful)

/-- The streak of floats is that of the numbers they are. -/
theorem streak_exact {x : Nat → Option α} {p : Nat → K} {N : Nat} (hx : StaysNear V x 0 p 0 N) {t : Nat} (ht : t < N) :
    ((streak x t : Int) : K) = streakSeries p t := by
  unfold streakSeries
  congr 1
  have key : ∀ t, t < N → ∃ a, x t = some a ∧ V.val a = Fl.of R (.fin (p t)) := fun t ht => by
    obtain ⟨a, h1, v, h2, h3⟩ := stays_at hx ht (Nat.zero_le t)
    obtain rfl : v = p t := sub_eq_zero.mp (abs_nonpos_iff.mp h3)
    exact ⟨a, h1, h2⟩
  induction t with
  | zero =>
    obtain ⟨a, a1, -⟩ := key 0 ht
    simp [streak, a1]
  | succ t ih =>
    obtain ⟨a, a1, a2⟩ := key t (by omega)
    obtain ⟨b, b1, b2⟩ := key (t + 1) ht
    have e1 : sameValue (x t) (x (t + 1)) = sameValue (some (fin (p t) : Ex K)) (some (fin (p (t + 1)))) := by
      rw [a1, b1]
      show (false || F64.feq a b) = (false || F64.feq (fin (p t) : Ex K) (fin (p (t + 1))))
      rw [V.feq, a2, b2]; rfl
    have e2 : rises (x t) (x (t + 1)) = rises (some (fin (p t) : Ex K)) (some (fin (p (t + 1)))) := by
      rw [a1, b1]
      show F64.lt a b = F64.lt (fin (p t) : Ex K) (fin (p (t + 1)))
      rw [V.lt, a2, b2]; rfl
    rw [streak, streak, e1, e2, ih (by omega)]

include L in
private theorem ud_val (x : Nat → Option α) {t : Nat} (ht : t < 2 ^ 53) : (udSeries x t).map V.val = some (Fl.of R (.fin (streak x t : K))) := by
  induction t with
  | zero => exact C62_streak_ieee V L x (t := 0) ht (ud := none) rfl
  | succ t ih => exact C62_streak_ieee V L x ht (ud := udSeries x t) (ih (by omega))

include L in
private theorem ud_near {x : Nat → Option α} {p : Nat → K} {N : Nat} (hN : N ≤ 2 ^ 53) (hx : StaysNear V x 0 p 0 N) :
    StaysNear V (udSeries x) 0 (streakSeries p) 0 N := by
  intro t ht
  have h := ud_val (V := V) L x (show t < 2 ^ 53 by omega)
  rw [streak_exact hx ht] at h
  cases hy : udSeries x t with
  | none => rw [hy] at h; cases h
  | some a =>
    rw [hy] at h
    exact ⟨a, rfl, near_of_val (Option.some.inj h)⟩

theorem streakSeries_abs (p : Nat → K) (t : Nat) : |streakSeries p t| ≤ (t : K) + 1 := by
  have h := streak_bound (fun t => some (fin (p t) : Ex K)) t
  unfold streakSeries
  exact_mod_cast h

theorem rankLine_range {k : Nat} (hk : 1 ≤ k) (r : Nat → K) (t : Nat) : 0 ≤ rankLine k r t ∧ rankLine k r t ≤ 100 := C29_range hk _

include A L in
/-- The percent rank of floats near a line of numbers, if it is clear which of the previous numbers are not above the current one. -/
theorem rank_near {rc : Nat → Option α} {r : Nat → K} {e : K} {N : Nat} (hrc : StaysNear V rc 1 r e N) {k : Nat} (hk : 1 ≤ k) (hk53 : k ≤ 2 ^ 53)
    (clear : ∀ t, t < N → k ≤ t → ∀ j, 1 ≤ j → j < t → t ≤ j + k →
      ((∀ a b, rc j = some a → rc t = some b → V.val a = V.val b) ∧ r j = r t) ∨ 2 * e < |r j - r t|)
    (htop : 1024 ≤ top) (hηu : η ≤ u) : StaysNear V (prank0 k rc) k (rankLine k r) (303 * u) N := by
  intro t ht
  have hu := A.u_nonneg
  have hus := A.u_small
  have hη := A.η_nonneg
  unfold startAt prank0
  by_cases htk : t < k
  · rw [if_pos htk, if_neg (by omega)]; rfl
  rw [if_neg htk, if_pos (by omega)]
  obtain ⟨b, b1, b2⟩ := stays_at hrc ht (show 1 ≤ t by omega)
  rw [b1]
  refine ⟨lit (countLe b (win rc k (t - 1)) : ℚ) / lit (k : ℚ) * lit 100, rfl, ?_⟩
  have hc : countLe b (win rc k (t - 1)) = (List.range k).countP fun i => decide (1 ≤ t - 1 - i ∧ r (t - 1 - i) ≤ r t) := by
    rw [countLe_win (by omega)]
    apply List.countP_congr
    intro i hi
    have hi := List.mem_range.mp hi
    by_cases h0 : t - 1 - i < 1
    · rw [stays_before hrc (by omega) h0]
      simp only [Option.any_none, Bool.false_eq_true, decide_eq_true_eq, false_iff]
      omega
    · obtain ⟨a, a1, a2⟩ := stays_at hrc (show t - 1 - i < N by omega) (show 1 ≤ t - 1 - i by omega)
      rw [a1]
      simp only [Option.any_some, decide_eq_true_eq]
      have hle : F64.le a b = decide (r (t - 1 - i) ≤ r t) := by
        rcases clear t ht (by omega) (t - 1 - i) (by omega) (by omega) (by omega) with ⟨h1, h2⟩ | h1
        · obtain ⟨w, w1, -⟩ := b2
          have e : F64.le (Fl.of R (.fin w)) (Fl.of R (.fin w)) = decide (w ≤ w) := rfl
          rw [V.le, h1 a b a1 b1, w1, e, h2]
          simp
        · exact (near_cmp a2 b2 (.inl (by linarith))).2.1
      rw [hle]
      simp only [decide_eq_true_eq]
      constructor
      · exact fun h => ⟨by omega, h⟩
      · exact fun h => h.2
  have hcl : countLe b (win rc k (t - 1)) ≤ k := (List.length_filter_le _ _).trans (by rw [win_length])
  rw [rankLine, ← hc]
  generalize countLe b (win rc k (t - 1)) = cnt at hcl
  have hk0 : (0 : K) < k := by exact_mod_cast hk
  have hq : |(cnt : K) / k| ≤ 1 := by
    rw [abs_of_nonneg (by positivity), div_le_one hk0]
    exact_mod_cast hcl
  have h1 := Near.div A hk0 (near_of_val (val_lit_nat (V := V) L (hcl.trans hk53))) (val_lit_nat L hk53) hq (by rw [zero_div]; linarith)
  have h2 := h1.percent A L hq (by rw [zero_div]; linarith) htop
  rw [zero_div] at h2
  have e : (cnt : K) / k * 100 = 100 * cnt / k := by ring
  rw [e] at h2
  refine h2.mono ?_
  linarith

include A L in
/-- **C100.** The Connors RSI of any lengths of floats that are the prices `p`: if no price is nearer 0 than `m₀` or beyond `M`, the average gain
and loss of the prices add up to at least `μ` and those of the streak to at least `ν` on every bar, and it is clear how the rates of change
compare, it is within `68 (E / μ + F / ν) + 2000 u` of the exact Connors RSI and begins on the same bar; `E` and `F` are the errors of the
averages of the prices and of the streak. -/
theorem C100_connors (hT : 1 ≤ u * top) (d : DataProvider α) {n m k w : Nat} (hn : 2 ≤ n) (hm : 2 ≤ m) (hk : 1 ≤ k) {N : Nat} (hw : n + m + k + N + 1 ≤ w)
    {M : K} (hM : 0 ≤ M) (hr : Room u η top w M) (hrN : Room u η top w N)
    {x : Nat → Option α} {p : Nat → K} (hx : StaysNear V x 0 p 0 N) (hp : ∀ t, t < N → |p t| ≤ M)
    {E μ : K} (hE : E = (3 + 54 * n) * (u * M + η)) (hμ : 0 < μ) (hEμ : 4 * E ≤ μ) (moves : ∀ t, t < N → n ≤ t → μ ≤ avgGain n p t + avgLoss n p t)
    {F ν : K} (hF : F = (3 + 54 * m) * (u * N + η)) (hν : 0 < ν) (hFν : 4 * F ≤ ν)
    (turns : ∀ t, t < N → m ≤ t → ν ≤ avgGain m (streakSeries p) t + avgLoss m (streakSeries p) t)
    {m₀ : K} (hm₀ : 0 < m₀) (hDm : 6 * (u * M + η) ≤ m₀) (away : ∀ t, t < N → m₀ ≤ |p t|) (htop : 800 * (1 + 2 * M / m₀) ≤ top)
    (clear : ClearRanks k p (820 * ((3 * (u * M + η) / m₀ + u) * (1 + 2 * M / m₀))) N) :
    ∃ y, Runs (fun t => ConnorsRsi.next ⟨d, t⟩) (ConnorsRsi.new n m k) x N y ∧
      StaysNear V y (max n (max m k)) (connorsLine n m k p) (68 * (E / μ + F / ν) + 2000 * u) N := by
  have hu := A.u_nonneg
  have hus := A.u_small
  have hη := A.η_nonneg
  have hηu2 := A.η_small
  have htop1 := A.top_ge
  have h1024 : 1024 ≤ top := by nlinarith
  have hηu : η ≤ u := by nlinarith
  have hw6 : (6 : K) ≤ w := by exact_mod_cast (by omega : 6 ≤ w)
  have hsm := hr.small
  have avg : ∀ {x : Nat → Option α} {q : Nat → K} {B E μ : K} {n : Nat}, 2 ≤ n → n + N + 1 ≤ w → StaysNear V x 0 q 0 N → 0 ≤ B → (∀ t, t < N → |q t| ≤ B) →
      Room u η top w B → E = (3 + 54 * n) * (u * B + η) → 0 < μ → 4 * E ≤ μ → (∀ t, t < N → n ≤ t → μ ≤ avgGain n q t + avgLoss n q t) →
      ∃ y, Runs (fun t => Rsi.next ⟨d, t⟩) (Rsi.new n) x N y ∧ StaysNear V y n (rsiLine n q) (200 * E / μ + 1500 * u) N := by
    intro x q B E μ n hn hw hx hB hq hr hE hμ hEμ moves
    have huB : 0 ≤ u * B := mul_nonneg hu hB
    have suB : u * (u * B) ≤ u * B / 1024 := by have := mul_le_mul_of_nonneg_right hus huB; linarith
    have sη : u * η ≤ η / 1024 := by have := mul_le_mul_of_nonneg_right hus hη; linarith
    have sB : u * B ≤ B / 1024 := by have := mul_le_mul_of_nonneg_right hus hB; linarith
    refine C93_rsi_of_near A L hT d hn hw hr.small ?_ hx hB (le_refl 0) hq ?_ ?_ hμ hEμ moves
    · have h1 := hr.fine
      have h2 : 0 ≤ (w : K) * u := by positivity
      linarith
    · have h1 : 2 * B + (2 * 0 + u * (2 * B + 2 * 0) + η) + η ≤ 25 * (B + η) := by
        have e : u * (2 * B + 2 * 0) = 2 * (u * B) := by ring
        rw [e]; linarith
      have := mul_le_mul_of_nonneg_left h1 (show (0 : K) ≤ 40 * w by positivity)
      have := hr.wide
      linarith
    · have e : u * (2 * B + 2 * 0) = 2 * (u * B) := by ring
      have e2 : u * (2 * B + (2 * 0 + 2 * (u * B) + η)) = 2 * (u * B) + 2 * (u * (u * B)) + u * η := by ring
      rw [e, e2, hE]
      have h1 : 2 * (u * B) + 2 * (u * (u * B)) + u * η + η ≤ 3 * (u * B + η) := by linarith
      have h3 := mul_le_mul_of_nonneg_left h1 (show (0 : K) ≤ 18 * n by positivity)
      linarith
  obtain ⟨y1, r1, n1⟩ := avg hn (by omega) hx hM hp hr hE hμ hEμ moves
  have hud := ud_near L (show N ≤ 2 ^ 53 by omega) hx
  obtain ⟨y2, r2, n2⟩ := avg hm (by omega) hud (Nat.cast_nonneg N) (fun t ht => by
    refine (streakSeries_abs p t).trans ?_
    exact_mod_cast ht) hrN hF hν hFν turns
  have hwide : 5000 * (M + η) ≤ top := by
    have h1 := hr.wide
    have h2 : 6 * (M + η) ≤ w * (M + η) := mul_le_mul_of_nonneg_right hw6 (by positivity)
    have h3 : 0 ≤ M + η := by positivity
    linarith
  obtain ⟨y3, r3, n3⟩ := C96_roc A L (c := 0) hM (by norm_num) (by rwa [zero_mul]) hp (le_refl 1) hm₀ (by linarith) away hwide htop
  have hzero : 2 * (0 : K) + 3 = 3 := by norm_num
  rw [hzero] at n3
  have key : ∀ t, t < N → ∃ a, x t = some a ∧ V.val a = Fl.of R (.fin (p t)) := fun t ht => by
    obtain ⟨a, h1, v, h2, h3⟩ := stays_at hx ht (Nat.zero_le t)
    obtain rfl : v = p t := sub_eq_zero.mp (abs_nonpos_iff.mp h3)
    exact ⟨a, h1, h2⟩
  -- the float of a rate of change
  have rate : ∀ t, 1 ≤ t → t < N → ∀ a, y3 t = some a → V.val a = lit 100 * (Fl.of R (.fin (p t)) - Fl.of R (.fin (p (t - 1)))) / Fl.of R (.fin (p (t - 1))) := by
    intro t h1 ht a ha
    have e := (roc_runs 1 (le_refl 1) x N).unique r3 t ht
    obtain ⟨b, b1, b2⟩ := key t ht
    obtain ⟨c, c1, c2⟩ := key (t - 1) (by omega)
    have hne : p (t - 1) ≠ 0 := fun h => by
      have := away (t - 1) (by omega)
      rw [h, abs_zero] at this
      linarith
    have hz : F64.feq c (lit 0) = false := near_feq_zero L (near_of_val c2) (abs_pos.mpr hne)
    rw [ha] at e
    unfold roc0 lag0 ago at e
    rw [if_pos h1] at e
    simp only [b1, c1] at e
    simp [hz] at e
    rw [← e, V.div _ _ (by rw [c2]; exact fun h => hne (by injection h)), V.mul, V.sub, V.lit, b2, c2]
  have n4 := rank_near A L n3 hk (by omega) (fun t ht htk j h1 h2 h3 => by
    rcases clear t ht htk j h1 h2 h3 with ⟨c1, c2⟩ | ⟨c1, c2⟩ | c1
    · exact .inl ⟨fun a b ha hb => by rw [rate j h1 (by omega) a ha, rate t (by omega) ht b hb, c1, c2], by unfold rateLine; rw [c1, c2]⟩
    · refine .inl ⟨fun a b ha hb => ?_, by unfold rateLine; rw [c1, c2]; simp⟩
      rw [rate j h1 (by omega) a ha, rate t (by omega) ht b hb, c1, c2]
      have sub0 : ∀ z : K, (Fl.of R (.fin z) - Fl.of R (.fin z) : Fl R) = Fl.of R (.fin 0) := fun z => by
        have e : (Fl.of R (.fin z) - Fl.of R (.fin z) : Fl R) = Fl.of R (R.rnd (z + -z)) := rfl
        rw [e, add_neg_cancel, rnd_zero L]
      have mul0 : (lit 100 * Fl.of R (.fin 0) : Fl R) = Fl.of R (.fin 0) := by
        rw [lit_hundred L]
        have e : (Fl.of R (.fin 100) * Fl.of R (.fin 0) : Fl R) = Fl.of R (R.rnd (100 * 0)) := rfl
        rw [e, mul_zero, rnd_zero L]
      have div0 : ∀ z : K, z ≠ 0 → (Fl.of R (.fin 0) / Fl.of R (.fin z) : Fl R) = Fl.of R (.fin 0) := fun z hz => by
        have e : (Fl.of R (.fin 0) / Fl.of R (.fin z) : Fl R) = Fl.of R (R.rnd (0 / z)) :=
          (if_neg hz : (if z = 0 then Fl.signInf 0 else R.rnd (0 / z)) = R.rnd (0 / z))
        rw [e, zero_div, rnd_zero L]
      have hne : ∀ i, i < N → p i ≠ 0 := fun i hi h => by
        have := away i hi
        rw [h, abs_zero] at this
        linarith
      rw [sub0, sub0, mul0, div0 _ (hne _ (by omega)), div0 _ (hne _ (by omega))]
    · exact .inr (by linarith)) h1024 hηu
  refine ⟨_, connors_runs d (ud := udSeries x) (fun t _ => udSeries_eq x t) r1 r2 r3 (prank_runs d hk y3 N), fun t ht => ?_⟩
  unfold startAt
  by_cases hs : t < max n (max m k)
  · rw [if_pos hs]
    show opt3 _ _ _ _ = none
    rcases (show t < n ∨ t < m ∨ t < k by omega) with h | h | h
    · rw [stays_before n1 ht h]; rfl
    · rw [stays_before n2 ht h]; cases y1 t <;> rfl
    · rw [stays_before n4 ht h]; cases y1 t <;> cases y2 t <;> rfl
  rw [if_neg hs]
  obtain ⟨a, a1, a2⟩ := stays_at n1 ht (show n ≤ t by omega)
  obtain ⟨b, b1, b2⟩ := stays_at n2 ht (show m ≤ t by omega)
  obtain ⟨c, c1, c2⟩ := stays_at n4 ht (show k ≤ t by omega)
  refine ⟨(a + b + c) / lit 3, by rw [a1, b1, c1]; rfl, ?_⟩
  have share : ∀ {n : Nat} {q : Nat → K} {μ : K}, 1 ≤ n → 0 < μ → μ ≤ avgGain n q t + avgLoss n q t → 0 ≤ rsiLine n q t ∧ rsiLine n q t ≤ 100 := by
    intro n q μ hn hμ h
    have qa : 0 ≤ avgGain n q t := wilder_nonneg hn (fun _ => le_max_right _ _) _
    have qb : 0 ≤ avgLoss n q t := wilder_nonneg hn (fun _ => le_max_right _ _) _
    unfold rsiLine
    exact ⟨div_nonneg (by linarith) (by linarith), by rw [div_le_iff₀ (by linarith)]; linarith⟩
  obtain ⟨p1, p2⟩ := share (show 1 ≤ n by omega) hμ (moves t ht (by omega))
  obtain ⟨q1, q2⟩ := share (show 1 ≤ m by omega) hν (turns t ht (by omega))
  obtain ⟨s1, s2⟩ := rankLine_range hk (rateLine 1 p) t
  have lit3 : V.val (lit (3 : ℚ)) = Fl.of R (.fin (3 : K)) := by
    have := val_lit_nat (V := V) L (n := 3) (by norm_num); exact_mod_cast this
  unfold connorsLine
  generalize rsiLine n p t = P at *
  generalize rsiLine m (streakSeries p) t = Q at *
  generalize rankLine k (rateLine 1 p) t = S at *
  have d1 : 200 * E / μ = 200 * (E / μ) := by ring
  have d2 : 200 * F / ν = 200 * (F / ν) := by ring
  have f1 : 0 ≤ E / μ := by
    refine div_nonneg ?_ hμ.le
    rw [hE]; positivity
  have f2 : 0 ≤ F / ν := by
    refine div_nonneg ?_ hν.le
    rw [hF]; positivity
  have f3 : E / μ ≤ 1 / 4 := by rw [div_le_iff₀ hμ]; linarith
  have f4 : F / ν ≤ 1 / 4 := by rw [div_le_iff₀ hν]; linarith
  rw [d1] at a2
  rw [d2] at b2
  generalize E / μ = e at *
  generalize F / ν = f at *
  have ue : u * e ≤ e / 1024 := by have := mul_le_mul_of_nonneg_right hus f1; linarith
  have uf : u * f ≤ f / 1024 := by have := mul_le_mul_of_nonneg_right hus f2; linarith
  have uu : u * u ≤ u / 1024 := by have := mul_le_mul_of_nonneg_right hus hu; linarith
  have g1 : Near V (a + b) (P + Q) (201 * (e + f) + 3210 * u) := by
    refine (a2.add A b2 (m := 200) (abs_le.mpr ⟨by linarith, by linarith⟩) (by linarith)).mono ?_
    have e1 : u * (200 + (200 * e + 1500 * u + (200 * f + 1500 * u))) = 200 * u + 200 * (u * e) + 200 * (u * f) + 3000 * (u * u) := by ring
    rw [e1]; linarith
  have g2 : Near V (a + b + c) (P + Q + S) (202 * (e + f) + 3900 * u) := by
    refine (g1.add A c2 (m := 300) (abs_le.mpr ⟨by linarith, by linarith⟩) (by linarith)).mono ?_
    have e1 : u * (300 + (201 * (e + f) + 3210 * u + 303 * u)) = 300 * u + 201 * (u * e) + 201 * (u * f) + 3513 * (u * u) := by ring
    rw [e1]; linarith
  refine (Near.div A (by norm_num) g2 lit3 (m := 100) (abs_le.mpr ⟨by linarith, by linarith⟩) (by linarith)).mono ?_
  have e1 : u * (100 + (202 * (e + f) + 3900 * u) / 3) = 100 * u + 202 / 3 * (u * e) + 202 / 3 * (u * f) + 1300 * (u * u) := by ring
  rw [e1]; linarith

end

/-! ## How far a streak moves -/

theorem wilder_ge {n : Nat} (hn : 1 ≤ n) {g f : Nat → K} {b : K} {N : Nat} (h : ∀ t, 1 ≤ t → t < N → b ≤ g t + f t) (k : Nat) (hk : n + k < N) :
    b ≤ wilder n g k + wilder n f k := by
  have hn0 : (0 : K) < n := by exact_mod_cast hn
  have hn1 : (1 : K) ≤ n := by exact_mod_cast hn
  induction k with
  | zero =>
    unfold wilder
    rw [smoothed_zero, smoothed_zero, mean, mean]
    simp only [List.length_map, List.length_range]
    rw [← add_div, le_div_iff₀ hn0]
    have key : ∀ m, m ≤ n → b * m ≤ ((List.range m).map fun i => g (i + 1)).sum + ((List.range m).map fun i => f (i + 1)).sum := by
      intro m hm
      induction m with
      | zero => simp
      | succ m ih =>
        have := h (m + 1) (by omega) (by omega)
        have := ih (by omega)
        simp only [List.range_succ, List.map_append, List.sum_append, List.map_singleton, List.sum_singleton]
        push_cast
        linarith
    exact key n (le_refl n)
  | succ k ih =>
    have h1 := ih (by omega)
    have h2 := h (n + 1 + k) (by omega) (by omega)
    unfold wilder at h1 ⊢
    rw [smoothed_succ, smoothed_succ]
    have ha : 1 / (n : K) ≤ 1 := by rw [div_le_one hn0]; exact hn1
    have ha0 : 0 ≤ 1 / (n : K) := by positivity
    generalize 1 / (n : K) = a at *
    have h3 := mul_le_mul_of_nonneg_left h1 (show 0 ≤ 1 - a by linarith)
    have h4 := mul_le_mul_of_nonneg_left h2 ha0
    linarith

/-- **C100.** For a price that changes on every bar, the average gain and loss of its streak add up to at least 1 on every bar, for every
length. -/
theorem C100_turns {p : Nat → K} {N : Nat} (hp : ∀ t, t + 1 < N → p (t + 1) ≠ p t) {m : Nat} (hm : 1 ≤ m) {t : Nat} (ht : t < N) (hmt : m ≤ t) :
    1 ≤ avgGain m (streakSeries p) t + avgLoss m (streakSeries p) t := by
  unfold avgGain avgLoss
  refine wilder_ge hm (N := N) (fun t h1 h2 => ?_) _ (by omega)
  obtain ⟨t, rfl⟩ : ∃ s, t = s + 1 := ⟨t - 1, by omega⟩
  have hne := hp t h2
  have key : streak (fun t => some (fin (p t) : Ex K)) t + 1 ≤ streak (fun t => some (fin (p t) : Ex K)) (t + 1) ∨
      streak (fun t => some (fin (p t) : Ex K)) (t + 1) + 1 ≤ streak (fun t => some (fin (p t) : Ex K)) t := by
    have e : sameValue (some (fin (p t) : Ex K)) (some (fin (p (t + 1)))) = false := by
      show (false || F64.feq (fin (p t) : Ex K) (fin (p (t + 1)))) = false
      simp [hne.symm]
    rw [streak, if_neg (by rw [e]; simp)]
    split <;> omega
  unfold gain loss streakSeries
  simp only [Nat.add_sub_cancel]
  generalize streak (fun t => some (fin (p t) : Ex K)) t = a at *
  generalize streak (fun t => some (fin (p t) : Ex K)) (t + 1) = b at *
  rcases key with h | h
  · have h' : (a : K) + 1 ≤ b := by exact_mod_cast h
    have := le_max_left ((b : K) - a) 0
    have := le_max_right ((a : K) - b) 0
    linarith
  · have h' : (b : K) + 1 ≤ a := by exact_mod_cast h
    have := le_max_right ((b : K) - a) 0
    have := le_max_left ((a : K) - b) 0
    linarith

/-! ## Programs -/

/-- The Connors RSI in exact arithmetic is its line. -/
theorem connors_line (d : DataProvider (Ex K)) {n m k : Nat} (hn : 2 ≤ n) (hm : 2 ≤ m) (hk : 1 ≤ k) {N : Nat} (hN : N ≤ 2 ^ 53) (p : Nat → K)
    {μ ν : K} (hμ : 0 < μ) (moves : ∀ t, t < N → n ≤ t → μ ≤ avgGain n p t + avgLoss n p t) (hν : 0 < ν)
    (turns : ∀ t, t < N → m ≤ t → ν ≤ avgGain m (streakSeries p) t + avgLoss m (streakSeries p) t) (hp : ∀ t, t < N → p t ≠ 0) :
    Runs (fun t => ConnorsRsi.next ⟨d, t⟩) (ConnorsRsi.new n m k) (fun t => some (fin (p t))) N (flo (startAt (max n (max m k)) (connorsLine n m k p))) := by
  have hrate : ∀ j, j < N → rateOfChange p 1 j = if 1 ≤ j then some (rateLine 1 p j) else none := fun j hj => by
    unfold rateOfChange rateLine
    by_cases h1 : 1 ≤ j
    · have := hp (j - 1) (by omega)
      simp [h1, this]
    · simp [h1]
  have hpr : Runs (fun t => Prank.next ⟨d, t⟩) (Prank.new k) (flo (rateOfChange p 1)) N (flo (startAt k (rankLine k (rateLine 1 p)))) := by
    refine (C29_prank d hk (rateOfChange p 1) N).congr fun t ht => ?_
    show _ = (startAt k (rankLine k (rateLine 1 p)) t).map fin
    unfold startAt
    by_cases htk : t < k
    · rw [if_pos htk, if_neg (by omega)]; rfl
    rw [if_neg htk, if_pos (by omega), hrate t ht, if_pos (by omega)]
    simp only [Option.map_some]
    unfold rankLine
    congr 5
    apply List.countP_congr
    intro i hi
    have hi := List.mem_range.mp hi
    rw [hrate (t - 1 - i) (by omega)]
    by_cases h1 : 1 ≤ t - 1 - i <;> simp [h1]
  refine (C53_connors exact_lawful hN (rsi_exact_line hn d p hμ moves) (rsi_exact_line hm d (streakSeries p) hν turns)
    (C28_roc_complete p (le_refl 1) N) hpr).congr fun t _ => ?_
  refine (opt3_map_fin (g := fun r u q : K => (r + u + q) / 3) (fun a b c => by
    simp only [fin_add, fin_lit]; rw [fin_div _ _ (by norm_num)]; push_cast; rfl) (startAt n (rsiLine n p) t)
      (startAt m (rsiLine m (streakSeries p)) t) (startAt k (rankLine k (rateLine 1 p)) t)).trans ?_
  show _ = (startAt _ _ t).map fin
  congr 1
  unfold startAt
  by_cases hs : t < max n (max m k)
  · rw [if_pos (show t < max n (max m k) from hs)]
    rcases (show t < n ∨ t < m ∨ t < k by omega) with h | h | h
    · rw [if_pos h]; rfl
    · rw [if_pos h]; split <;> rfl
    · rw [if_pos h]; split <;> split <;> rfl
  · rw [if_neg (show ¬ t < n by omega), if_neg (show ¬ t < m by omega), if_neg (show ¬ t < k by omega), if_neg hs]
    rfl

/-- The open, high, low and close of a bar, as the code reads them. -/
def Spec.BarPrice (src : SrcKind) : Prop := src = .open_ ∨ src = .high ∨ src = .low ∨ src = .close

section
variable {V : Valued R α} {u η top : K} (A : R.Accurate u η top) (L : R.Lawful)

theorem barPrice_reads {d : DataProvider α} {N : Nat} {o h l c v : Nat → K} {M : K} (hb : PricedBars V d N o h l c v M) {src : SrcKind} (hs : BarPrice src) :
    ∃ x, (∀ t, t < N → Src.next ⟨d, t⟩ src = .ok (x t)) ∧ StaysNear V x 0 (sourceValue src o h l c v) 0 N := by
  obtain ⟨o', h', l', c', v', b, hv⟩ := hb.bars
  rcases hs with rfl | rfl | rfl | rfl
  · exact ⟨fun t => some (o' t), fun t ht => ctx_barOpen b.open_ ht, fun t ht => ⟨_, rfl, near_of_val (hv t ht).1⟩⟩
  · exact ⟨fun t => some (h' t), fun t ht => ctx_barHigh b.high ht, fun t ht => ⟨_, rfl, near_of_val (hv t ht).2.1⟩⟩
  · exact ⟨fun t => some (l' t), fun t ht => ctx_barLow b.low ht, fun t ht => ⟨_, rfl, near_of_val (hv t ht).2.2.1⟩⟩
  · exact ⟨fun t => some (c' t), fun t ht => ctx_barClose b.close ht, fun t ht => ⟨_, rfl, near_of_val (hv t ht).2.2.2.1⟩⟩

include A L in
/-- **C100.** The Connors RSI program with any lengths, thresholds and price of the bar, under the conditions of C100_connors: if the exact
Connors RSI keeps farther than the error from both thresholds, the program signals on every tick what the same program signals in exact
arithmetic, and both backtests are those of these signals. -/
theorem C100_connors_program (hT : 1 ≤ u * top) {d : DataProvider α} {N : Nat} {o h l c v : Nat → K} {M : K} (hb : PricedBars V d N o h l c v M) (hM : 0 ≤ M)
    {dx : DataProvider (Ex K)} (hx : ExBars dx N o h l c v) {src : SrcKind} (hs : BarPrice src) {p : Nat → K} (hp : p = sourceValue src o h l c v)
    {n m k w : Nat} (hn : 2 ≤ n) (hm : 2 ≤ m) (hk : 1 ≤ k) (hw : n + m + k + N + 1 ≤ w) (hr : Room u η top w M) (hrN : Room u η top w N)
    {E μ : K} (hE : E = (3 + 54 * n) * (u * M + η)) (hμ : 0 < μ) (hEμ : 4 * E ≤ μ) (moves : ∀ t, t < N → n ≤ t → μ ≤ avgGain n p t + avgLoss n p t)
    {F ν : K} (hF : F = (3 + 54 * m) * (u * N + η)) (hν : 0 < ν) (hFν : 4 * F ≤ ν)
    (turns : ∀ t, t < N → m ≤ t → ν ≤ avgGain m (streakSeries p) t + avgLoss m (streakSeries p) t)
    {m₀ : K} (hm₀ : 0 < m₀) (hDm : 6 * (u * M + η) ≤ m₀) (away : ∀ t, t < N → m₀ ≤ |p t|) (htop : 800 * (1 + 2 * M / m₀) ≤ top)
    (clear : ClearRanks k p (820 * ((3 * (u * M + η) / m₀ + u) * (1 + 2 * M / m₀))) N)
    {th : Thresholds α} {thx : Thresholds (Ex K)} {lo hi : K} (h1 : V.val th.oversold = Fl.of R (.fin lo)) (h2 : V.val th.overbought = Fl.of R (.fin hi))
    (h3 : thx.oversold = fin lo) (h4 : thx.overbought = fin hi)
    (far : ∀ t, t < N → max n (max m k) ≤ t → 68 * (E / μ + F / ν) + 2000 * u < |connorsLine n m k p t - lo| ∧
      68 * (E / μ + F / ν) + 2000 * u < |connorsLine n m k p t - hi|)
    (cfg : StrategyConfig α) (cfgx : StrategyConfig (Ex K)) (rfr : α) (rfrx : Ex K) :
    SameSignals d dx N (withSrc src ConnorsRsi.next) (ConnorsRsi.new n m k) ThresholdStrategy.next (ConnorsRelativeStrengthIndexStrategy.new th) cfg rfr
      (withSrc src ConnorsRsi.next) (ConnorsRsi.new n m k) ThresholdStrategy.next (ConnorsRelativeStrengthIndexStrategy.new thx) cfgx rfrx
      (lineSignal (max n (max m k)) (connorsLine n m k p) lo hi) := by
  obtain ⟨x, x1, x2⟩ := barPrice_reads hb hs
  rw [← hp] at x2
  have hv : src ≠ .volume := by rcases hs with rfl | rfl | rfl | rfl <;> simp
  have hpM : ∀ t, t < N → |p t| ≤ M := fun t ht => by rw [hp]; exact sourceValue_abs (hb.bound t ht) hv
  obtain ⟨y, y1, y2⟩ := C100_connors A L hT d hn hm hk hw hM hr hrN x2 hpM hE hμ hEμ moves hF hν hFν turns hm₀ hDm away htop clear
  have hsm := hr.small
  have rx := connors_line dx hn hm hk (show N ≤ 2 ^ 53 by omega) p hμ moves hν turns fun t ht h0 => by
    have := away t ht
    rw [h0, abs_zero] at this
    linarith
  subst hp
  obtain ⟨o', h', l', c', v', b1, -⟩ := hb.bars
  exact (C92_line_program b1 hx (withSrc_runs (next := ConnorsRsi.next) x1 y1) y2 (withSrc_runs (next := ConnorsRsi.next) (src_exact hx src) rx)
    h1 h2 h3 h4 far cfg cfgx rfr rfrx).1

end

end Pace
