import Verif.Props.AccuracyCompound

/-!
# C107: Welford's variance in floats
-/

set_option linter.unusedSectionVars false

namespace Pace
open Spec
variable {K : Type} [Field K] [LinearOrder K] [IsStrictOrderedRing K]

theorem sqDev_split (l : List K) : sqDev l = (l.map fun v => v ^ 2).sum - mean l * l.sum := by
  by_cases h : l = []
  · subst h; simp [sqDev]
  · exact sqDev_eq h

theorem mean_times (l : List K) : mean l * (l.length : K) = l.sum := by
  by_cases h : l = []
  · subst h; simp
  · exact mean_mul_length h

/-- The mean moves by its share of the distance. -/
theorem mean_moves (p : Nat → K) (n : Nat) : mean (hist p (n + 1)) = mean (hist p n) + (p n - mean (hist p n)) / ((n + 1 : Nat) : K) := by
  have hn : ((n + 1 : Nat) : K) ≠ 0 := Nat.cast_ne_zero.mpr (by omega)
  have h0 := mean_times (hist p n)
  have h1 := mean_times (hist p (n + 1))
  rw [hist_length] at h0 h1
  have hs : (hist p (n + 1)).sum = (hist p n).sum + p n := by simp [hist_succ']
  refine mul_right_cancel₀ hn ?_
  rw [h1, hs, add_mul, div_mul_cancel₀ _ hn, ← h0]
  push_cast
  ring

theorem sqDev_moves (p : Nat → K) (n : Nat) :
    sqDev (hist p (n + 1)) = sqDev (hist p n) + (p n - mean (hist p n)) * (p n - mean (hist p (n + 1))) := by
  have h0 := mean_times (hist p n)
  have h1 := mean_times (hist p (n + 1))
  rw [hist_length] at h0 h1
  have hs : (hist p (n + 1)).sum = (hist p n).sum + p n := by simp [hist_succ']
  have hq : ((hist p (n + 1)).map fun v => v ^ 2).sum = ((hist p n).map fun v => v ^ 2).sum + p n ^ 2 := by simp [hist_succ']
  rw [sqDev_split, sqDev_split, hq, hs]
  rw [hs] at h1
  push_cast at h1
  linear_combination (mean (hist p (n + 1))) * h0 - mean (hist p n) * h1

variable [LawfulRoots K]

/-- The state after one input. -/
theorem welford_state {α : Type} [F64 α] (s : WelfordsVar α) (v : α) :
    (s.next v).2 = ⟨s.n + 1, s.mean + (v - s.mean) / lit ((s.n + 1 : Nat) : ℚ),
      s.deviation + (v - s.mean) * (v - (s.mean + (v - s.mean) / lit ((s.n + 1 : Nat) : ℚ)))⟩ := by
  unfold WelfordsVar.next
  dsimp only
  split <;> rfl

theorem mean_abs {p : Nat → K} {n : Nat} {M : K} (hM : 0 ≤ M) (hp : ∀ i, i < n → |p i| ≤ M) : |mean (hist p n)| ≤ M := by
  unfold mean
  rw [hist_length]
  rcases Nat.eq_zero_or_pos n with rfl | h
  · simpa using hM
  · have hl : (0 : K) < (n : K) := by exact_mod_cast h
    rw [abs_div, abs_of_pos hl, div_le_iff₀ hl, mul_comm]
    have := abs_sum_le' p (List.range n) fun i hi => hp i (List.mem_range.mp hi)
    rw [List.length_range] at this
    exact this

theorem sqDev_le {p : Nat → K} {n : Nat} {M : K} (hM : 0 ≤ M) (hp : ∀ i, i < n → |p i| ≤ M) : |sqDev (hist p n)| ≤ n * (4 * M ^ 2) := by
  have hm := mean_abs hM hp
  unfold sqDev
  generalize mean (hist p n) = m at *
  have e : (hist p n).map (fun v => (v - m) ^ 2) = (List.range n).map fun i => (p i - m) ^ 2 := by
    unfold hist
    rw [List.map_map]; rfl
  rw [e]
  have := abs_sum_le' (fun i => (p i - m) ^ 2) (List.range n) (m := 4 * M ^ 2) fun i hi => by
    have h1 := abs_le.mp (hp i (List.mem_range.mp hi))
    have h2 := abs_le.mp hm
    rw [abs_of_nonneg (_root_.sq_nonneg _)]
    have h3 : |p i - m| ≤ 2 * M := abs_le.mpr ⟨by linarith, by linarith⟩
    have h4 := mul_le_mul h3 h3 (abs_nonneg _) (by linarith)
    rw [abs_mul_abs_self] at h4
    linarith [show (p i - m) ^ 2 = (p i - m) * (p i - m) by ring, show 4 * M ^ 2 = 2 * M * (2 * M) by ring]
  rwa [List.length_range] at this

variable {R : Rounding K} {α : Type} [F64 α]
variable {V : Valued R α} {u η top : K} (A : R.Accurate u η top) (L : R.Lawful)

include A in
/-- One step of the mean: the float it was at, plus the rounded share of the distance. -/
theorem welford_mean_step {a m b : α} {x v n : K} (ha : V.val a = Fl.of R (.fin x)) (hm : V.val m = Fl.of R (.fin v)) (hb : V.val b = Fl.of R (.fin n)) (hn : 1 ≤ n)
    {B : K} (hB : 1 ≤ B) (hx : 10 * |x| ≤ 11 * B) (hv : 10 * |v| ≤ 11 * B) (htop : 50 * B ≤ top) :
    Near V (a - m) (x - v) (3 * (u * B)) ∧ Near V (m + (a - m) / b) (v + (x - v) / n) (9 * (u * B)) := by
  have hu := A.u_nonneg
  have hus := A.u_small
  have hη := A.η_nonneg
  have hηu : η ≤ u / 1024 := A.η_small.trans (by have := mul_le_mul_of_nonneg_right hus hu; linarith)
  have uB : u ≤ u * B := le_mul_of_one_le_right hu hB
  have uB0 : 0 ≤ u * B := hu.trans uB
  have uuB : u * (u * B) ≤ u * B / 1024 := by have := mul_le_mul_of_nonneg_right hus uB0; linarith
  have uB1 : u * B ≤ B / 1024 := by have := mul_le_mul_of_nonneg_right hus (show 0 ≤ B by linarith); linarith
  have hn0 : 0 < n := by linarith
  have hd : |x - v| ≤ 22 / 10 * B := (abs_sub _ _).trans (by linarith)
  have n1 : Near V (a - m) (x - v) (3 * (u * B)) := (Near.sub A (near_of_val ha) (near_of_val hm) hd (by linarith)).mono (by linarith)
  have hq : |(x - v) / n| ≤ 22 / 10 * B := by
    rw [abs_div, abs_of_pos hn0]
    exact (div_le_self (abs_nonneg _) hn).trans hd
  have hf : 3 * (u * B) / n ≤ 3 * (u * B) := div_le_self (by linarith) hn
  have hf0 : 0 ≤ 3 * (u * B) / n := by positivity
  have hff : u * (3 * (u * B) / n) ≤ u * (3 * (u * B)) := mul_le_mul_of_nonneg_left hf hu
  have n2 : Near V ((a - m) / b) ((x - v) / n) (55 / 10 * (u * B)) := (Near.div A hn0 n1 hb hq (by linarith)).mono (by linarith)
  have hs : |v + (x - v) / n| ≤ 33 / 10 * B := (abs_add_le _ _).trans (by linarith)
  exact ⟨n1, (Near.add A (near_of_val hm) n2 hs (by linarith)).mono (by linarith)⟩

include A L in
/-- Mean and sum of squares of Welford's algorithm. -/
theorem welford_near {x : Nat → α} {p : Nat → K} {N : Nat} (h53 : N ≤ 2 ^ 53) {B δ E : K} (hB : 1 ≤ B)
    (hx : ∀ i, i < N → Near V (x i) (p i) δ) (hp : ∀ i, i < N → |p i| ≤ B) (hδ0 : 0 ≤ δ) (hδ : 100 * δ ≤ B) (hnu : 1000 * (N : K) * u ≤ 1)
    (htop : 50 * (N + 1) * B ^ 2 ≤ top) (hE : E = δ + N * u * B) {n : Nat} (hn : n ≤ N) :
    (feed WelfordsVar.next WelfordsVar.new (hist x n)).n = n ∧
    Near V (feed WelfordsVar.next WelfordsVar.new (hist x n)).mean (mean (hist p n)) (δ + 9 * n * (u * B)) ∧
    Near V (feed WelfordsVar.next WelfordsVar.new (hist x n)).deviation (sqDev (hist p n)) (n * (70 * (B * E))) := by
  have hu := A.u_nonneg
  have hus := A.u_small
  have hη := A.η_nonneg
  have hηu : η ≤ u / 1024 := A.η_small.trans (by have := mul_le_mul_of_nonneg_right hus hu; linarith)
  have hB0 : 0 ≤ B := by linarith
  have B2 : B ≤ B ^ 2 := by have := mul_le_mul_of_nonneg_left hB hB0; linarith [show B ^ 2 = B * B by ring]
  have uB : u ≤ u * B := le_mul_of_one_le_right hu hB
  have uB0 : 0 ≤ u * B := hu.trans uB
  have N0 : (0 : K) ≤ N := Nat.cast_nonneg _
  have NB2 : 0 ≤ (N : K) * B ^ 2 := by positivity
  have tB : 50 * B ≤ top := by linarith
  have NuB : (N : K) * u * B ≤ B / 1000 := by have := mul_le_mul_of_nonneg_right (show (N : K) * u ≤ 1 / 1000 by linarith) hB0; linarith
  have NuB0 : 0 ≤ (N : K) * u * B := by positivity
  have E0 : 0 ≤ E := by rw [hE]; linarith
  have EB : 100 * E ≤ 11 / 10 * B := by rw [hE]; linarith
  have BE0 : 0 ≤ B * E := by positivity
  have EE : E * E ≤ 11 / 1000 * (B * E) := by have := mul_le_mul_of_nonneg_right (show E ≤ 11 / 1000 * B by linarith) E0; linarith
  have BEB : B * E ≤ 11 / 1000 * B ^ 2 := by
    have := mul_le_mul_of_nonneg_left (show E ≤ 11 / 1000 * B by linarith) hB0
    linarith [show B ^ 2 = B * B by ring]
  have NBE : (N : K) * (B * E) ≤ N * (11 / 1000 * B ^ 2) := mul_le_mul_of_nonneg_left BEB N0
  have NuBB : (N : K) * u * B ^ 2 ≤ B * E := by
    have : 0 ≤ B * δ := by positivity
    rw [hE]
    linarith [show B * (δ + N * u * B) = B * δ + N * u * B ^ 2 by ring]
  have NuBE : (N : K) * u * (B * E) ≤ B * E / 1000 := by have := mul_le_mul_of_nonneg_right (show (N : K) * u ≤ 1 / 1000 by linarith) BE0; linarith
  induction n with
  | zero =>
    refine ⟨rfl, ?_, ?_⟩
    · have : mean (hist p 0) = 0 := by simp [hist, mean]
      rw [this]
      exact (near_of_val (by show V.val (lit 0) = _; rw [V.lit, lit_zero L])).mono (by push_cast; linarith)
    · have : sqDev (hist p 0) = 0 := by simp [hist, sqDev]
      rw [this]
      exact (near_of_val (by show V.val (lit 0) = _; rw [V.lit, lit_zero L])).mono (by push_cast; linarith)
  | succ n ih =>
    obtain ⟨i1, i2, i3⟩ := ih (by omega)
    have hn1 : (1 : K) ≤ ((n + 1 : Nat) : K) := by exact_mod_cast Nat.succ_pos n
    have n0 : (0 : K) ≤ n := Nat.cast_nonneg _
    have nN : ((n + 1 : Nat) : K) ≤ N := by exact_mod_cast hn
    have nN' : (n : K) + 1 ≤ N := by push_cast at nN; exact nN
    have hu1 : u ≤ N * u := le_mul_of_one_le_left hu (hn1.trans nN)
    have uBE : u * B ≤ E := by
      have := mul_le_mul_of_nonneg_right hu1 hB0
      rw [hE]; linarith
    rw [hist_succ', feed_snoc, welford_state]
    set s := feed WelfordsVar.next (WelfordsVar.new : WelfordsVar α) (hist x n) with hs
    obtain ⟨xv, hxv, hxe⟩ := hx n hn
    obtain ⟨v, hv, hve⟩ := i2
    have pn := hp n hn
    have m0 := mean_abs hB0 fun i (hi : i < n) => hp i (by omega)
    have m1 := mean_abs (n := n + 1) hB0 fun i hi => hp i (by omega)
    have nuB : (n : K) * (u * B) ≤ N * u * B := by
      have := mul_le_mul_of_nonneg_right (show (n : K) ≤ N by linarith) uB0
      linarith
    have nuB0 : 0 ≤ (n : K) * (u * B) := by positivity
    have hxa : 10 * |xv| ≤ 11 * B := by
      have := abs_add_le (xv - p n) (p n)
      rw [sub_add_cancel] at this
      linarith
    have hva : 10 * |v| ≤ 11 * B := by
      have := abs_add_le (v - mean (hist p n)) (mean (hist p n))
      rw [sub_add_cancel] at this
      linarith
    have hc : V.val (lit ((s.n + 1 : Nat) : ℚ) : α) = Fl.of R (.fin ((n + 1 : Nat) : K)) := by
      rw [i1]; exact val_lit_nat L (hn.trans h53)
    obtain ⟨d1, d2⟩ := welford_mean_step A hxv hv hc hn1 hB hxa hva tB
    have hnp : (0 : K) < ((n + 1 : Nat) : K) := by linarith
    -- the mean
    have mean_err : Near V (s.mean + (x n - s.mean) / lit ((s.n + 1 : Nat) : ℚ)) (mean (hist p (n + 1))) (δ + 9 * ((n + 1 : Nat) : K) * (u * B)) := by
      obtain ⟨w, hw, hwe⟩ := d2
      refine ⟨w, hw, ?_⟩
      have e : v + (xv - v) / ((n + 1 : Nat) : K) - mean (hist p (n + 1)) =
          (v - mean (hist p n)) * (1 - 1 / ((n + 1 : Nat) : K)) + (xv - p n) * (1 / ((n + 1 : Nat) : K)) := by
        rw [mean_moves]
        field_simp
        ring
      have q0 : 0 ≤ 1 / ((n + 1 : Nat) : K) := by positivity
      have q1 : 1 / ((n + 1 : Nat) : K) ≤ 1 := by rw [div_le_one hnp]; exact hn1
      have h1 : |v + (xv - v) / ((n + 1 : Nat) : K) - mean (hist p (n + 1))| ≤ δ + 9 * n * (u * B) := by
        rw [e]
        refine (abs_add_le _ _).trans ?_
        rw [abs_mul, abs_mul, abs_of_nonneg (show 0 ≤ 1 - 1 / ((n + 1 : Nat) : K) by linarith), abs_of_nonneg q0]
        have g1 := mul_le_mul_of_nonneg_right hve (show 0 ≤ 1 - 1 / ((n + 1 : Nat) : K) by linarith)
        have g2 := mul_le_mul_of_nonneg_right hxe q0
        have g3 := mul_nonneg (show 0 ≤ 9 * (n : K) * (u * B) by positivity) q0
        linarith
      have h2 := abs_add_le (w - (v + (xv - v) / ((n + 1 : Nat) : K))) (v + (xv - v) / ((n + 1 : Nat) : K) - mean (hist p (n + 1)))
      rw [sub_add_sub_cancel] at h2
      push_cast at hwe h1 h2 ⊢
      linarith
    refine ⟨by show s.n + 1 = n + 1; rw [i1], mean_err, ?_⟩
    -- the sum of squares
    have n1uB : 9 * ((n + 1 : Nat) : K) * (u * B) ≤ 9 * (N * u * B) := by
      have := mul_le_mul_of_nonneg_right nN uB0
      linarith
    have δE : δ + 9 * (N * u * B) ≤ 9 * E := by rw [hE]; linarith
    have δE' : δ ≤ E := by rw [hE]; linarith
    have f1 : Near V (x n - s.mean) (p n - mean (hist p n)) (13 * E) := by
      obtain ⟨w, hw, hwe⟩ := d1
      refine ⟨w, hw, ?_⟩
      have e : w - (p n - mean (hist p n)) = w - (xv - v) + ((xv - p n) - (v - mean (hist p n))) := by ring
      rw [e]
      have h1 := abs_add_le (w - (xv - v)) ((xv - p n) - (v - mean (hist p n)))
      have h2 := abs_sub (xv - p n) (v - mean (hist p n))
      linarith
    have f2 : Near V (x n - (s.mean + (x n - s.mean) / lit ((s.n + 1 : Nat) : ℚ))) (p n - mean (hist p (n + 1))) (13 * E) := by
      have hd : |p n - mean (hist p (n + 1))| ≤ 2 * B := (abs_sub _ _).trans (by linarith)
      have ue : u * (2 * B + (δ + (δ + 9 * ((n + 1 : Nat) : K) * (u * B)))) ≤ u * (2 * B + B / 5) := mul_le_mul_of_nonneg_left (by linarith) hu
      refine (Near.sub A (hx n hn) mean_err hd (by linarith)).mono ?_
      linarith
    have a1 : |p n - mean (hist p n)| ≤ 2 * B := (abs_sub _ _).trans (by linarith)
    have a2 : |p n - mean (hist p (n + 1))| ≤ 2 * B := (abs_sub _ _).trans (by linarith)
    have prod : Near V ((x n - s.mean) * (x n - (s.mean + (x n - s.mean) / lit ((s.n + 1 : Nat) : ℚ)))) ((p n - mean (hist p n)) * (p n - mean (hist p (n + 1)))) (60 * (B * E)) := by
      have hm : |(p n - mean (hist p n)) * (p n - mean (hist p (n + 1)))| ≤ 4 * B ^ 2 := by
        rw [abs_mul]
        have := mul_le_mul a1 a2 (abs_nonneg _) (by linarith)
        linarith [show 2 * B * (2 * B) = 4 * B ^ 2 by ring]
      have h1 := mul_le_mul_of_nonneg_right a1 (show 0 ≤ 13 * E by linarith)
      have h2 := mul_le_mul_of_nonneg_right a2 (show 0 ≤ 13 * E by linarith)
      have hin : |p n - mean (hist p n)| * (13 * E) + |p n - mean (hist p (n + 1))| * (13 * E) + 13 * E * (13 * E) ≤ 539 / 10 * (B * E) := by linarith
      have huB2 : u * B ^ 2 ≤ B * E := by
        have := mul_le_mul_of_nonneg_right hu1 (show 0 ≤ B ^ 2 by positivity)
        linarith
      have hub : u * (4 * B ^ 2 + (|p n - mean (hist p n)| * (13 * E) + |p n - mean (hist p (n + 1))| * (13 * E) + 13 * E * (13 * E))) ≤ u * (4 * B ^ 2 + 6 / 10 * B ^ 2) :=
        mul_le_mul_of_nonneg_left (by linarith) hu
      have hub2 : u ≤ u * B ^ 2 := le_mul_of_one_le_right hu (hB.trans B2)
      refine (Near.mul A f1 f2 hm (by linarith)).mono ?_
      linarith
    show Near V (s.deviation + _ * _) _ _
    rw [sqDev_moves]
    have hT : |sqDev (hist p n) + (p n - mean (hist p n)) * (p n - mean (hist p (n + 1)))| ≤ 4 * (N * B ^ 2) := by
      rw [← sqDev_moves]
      have h1 := sqDev_le (n := n + 1) hB0 fun i hi => hp i (by omega)
      have h2 := mul_le_mul_of_nonneg_right nN (show 0 ≤ 4 * B ^ 2 by positivity)
      linarith
    have nBE : ((n : K)) * (70 * (B * E)) ≤ 70 * (N * (B * E)) := by
      have := mul_le_mul_of_nonneg_right (show (n : K) ≤ N by linarith) (show 0 ≤ 70 * (B * E) by linarith)
      linarith
    have hN1 : (1 : K) ≤ N := hn1.trans nN
    have NB2' : B ^ 2 ≤ N * B ^ 2 := le_mul_of_one_le_left (by positivity) hN1
    have ub : u * (4 * (N * B ^ 2) + (n * (70 * (B * E)) + 60 * (B * E))) ≤ u * (4 * (N * B ^ 2) + 130 * (N * (B * E))) := by
      have : B * E ≤ N * (B * E) := le_mul_of_one_le_left BE0 hN1
      exact mul_le_mul_of_nonneg_left (by linarith) hu
    have hηBE : η ≤ B * E / 1024 := by
      have h1 : u * B ≤ B * E := by
        have := le_mul_of_one_le_left E0 hB
        linarith
      linarith
    refine (Near.add A i3 prod hT (by linarith)).mono ?_
    push_cast
    linarith

theorem welford_first {s : WelfordsVar α} (h : s.n = 0) (v : α) : (s.next v).1 = lit 0 := by
  unfold WelfordsVar.next
  dsimp only
  rw [if_pos (by omega)]

theorem welford_later {s : WelfordsVar α} (h : 1 ≤ s.n) (v : α) : (s.next v).1 = (s.next v).2.deviation / (lit ((s.n + 1 : Nat) : ℚ) - lit 1) := by
  rw [welford_state]
  unfold WelfordsVar.next
  dsimp only
  rw [if_neg (by omega)]

/-- The float the fast variance gives on tick `t`. -/
def fastVar (x : Nat → α) (t : Nat) : α := (WelfordsVar.next (feed WelfordsVar.next WelfordsVar.new (hist x t)) (x t)).1

theorem fast_runs (x : Nat → α) (N : Nat) :
    Runs (total WelfordsVar.next) (.ok (WelfordsVar.new : WelfordsVar α)) x N (fastVar x) ∧
    Runs (total Var.next) (.ok (Var.build true : Var α)) x N (fastVar x) ∧
    Runs (total WelfordsStdev.next) (.ok (WelfordsStdev.new : WelfordsStdev α)) x N (fun t => F64.sqrt (fastVar x t)) ∧
    Runs (total StatStdev.next) (.ok (StatStdev.build true : StatStdev α)) x N (fun t => F64.sqrt (fastVar x t)) := by
  refine ⟨?_, ?_, ?_, ?_⟩
  · apply Impl.runs (Inv := fun t s => s = feed WelfordsVar.next WelfordsVar.new (hist x t))
    refine ⟨rfl, ?_⟩
    rintro t _ _ rfl
    exact ⟨(WelfordsVar.next (feed WelfordsVar.next WelfordsVar.new (hist x t)) (x t)).2, rfl, by rw [hist_succ', feed_snoc]⟩
  · apply Impl.runs (Inv := fun t s => s = ⟨true, .new, feed WelfordsVar.next WelfordsVar.new (hist x t), .new⟩)
    refine ⟨rfl, ?_⟩
    rintro t _ _ rfl
    exact ⟨⟨true, .new, (WelfordsVar.next (feed WelfordsVar.next WelfordsVar.new (hist x t)) (x t)).2, .new⟩, rfl, by rw [hist_succ', feed_snoc]⟩
  · apply Impl.runs (Inv := fun t s => s = ⟨feed WelfordsVar.next WelfordsVar.new (hist x t)⟩)
    refine ⟨rfl, ?_⟩
    rintro t _ _ rfl
    exact ⟨⟨(WelfordsVar.next (feed WelfordsVar.next WelfordsVar.new (hist x t)) (x t)).2⟩, rfl, by rw [hist_succ', feed_snoc]⟩
  · apply Impl.runs (Inv := fun t s => s = ⟨⟨true, .new, feed WelfordsVar.next WelfordsVar.new (hist x t), .new⟩⟩)
    refine ⟨rfl, ?_⟩
    rintro t _ _ rfl
    exact ⟨⟨⟨true, .new, (WelfordsVar.next (feed WelfordsVar.next WelfordsVar.new (hist x t)) (x t)).2, .new⟩⟩, rfl, by rw [hist_succ', feed_snoc]⟩

/-- **C107.** The fast variance, alone and as the fast mode of the variance, gives the same float on every tick, whatever the floats; the fast standard
deviation, alone and as the fast mode of the standard deviation, gives its square root. -/
theorem C107_fast (x : Nat → α) (N : Nat) :
    ∃ y : Nat → α, Runs (total WelfordsVar.next) (.ok (WelfordsVar.new : WelfordsVar α)) x N y ∧
      Runs (total Var.next) (.ok (Var.build true : Var α)) x N y ∧
      Runs (total WelfordsStdev.next) (.ok (WelfordsStdev.new : WelfordsStdev α)) x N (fun t => F64.sqrt (y t)) ∧
      Runs (total StatStdev.next) (.ok (StatStdev.build true : StatStdev α)) x N (fun t => F64.sqrt (y t)) :=
  ⟨fastVar x, fast_runs x N⟩

include L in
/-- The divisor of the sample variance is exact. -/
theorem divisor {t : Nat} (ht : t < 2 ^ 53) : V.val (lit ((t + 1 : Nat) : ℚ) - lit 1 : α) = Fl.of R (.fin (t : K)) := by
  have w1 : V.val (lit 1 : α) = Fl.of R (.fin 1) := by
    have := val_lit_nat (V := V) L (n := 1) (by norm_num)
    exact_mod_cast this
  rw [V.sub, val_lit_nat (V := V) L (n := t + 1) (by omega), w1]
  show R.rnd (((t + 1 : Nat) : K) + -1) = _
  have := L.int (t : ℤ) (by rw [abs_of_nonneg (by positivity)]; exact_mod_cast (by omega : t ≤ 2 ^ 53))
  push_cast at this ⊢
  rw [add_neg_cancel_right]
  exact this

include A L in
private theorem welford_var_near {x : Nat → α} {p : Nat → K} {N : Nat} (h53 : N ≤ 2 ^ 53) {B δ E : K} (hB : 1 ≤ B)
    (hx : ∀ i, i < N → Near V (x i) (p i) δ) (hp : ∀ i, i < N → |p i| ≤ B) (hδ : 100 * δ ≤ B) (hnu : 1000 * (N : K) * u ≤ 1)
    (htop : 50 * (N + 1) * B ^ 2 ≤ top) (hE : E = δ + N * u * B) {t : Nat} (h1 : 1 ≤ t) (ht : t < N) :
    Near V (fastVar x t) (sampleVar (hist p (t + 1))) (150 * (B * E)) ∧
    0 ≤ B * E ∧ u * B ≤ E ∧ B * E ≤ 11 / 1000 * B ^ 2 ∧ |sampleVar (hist p (t + 1))| ≤ 8 * B ^ 2 := by
  have hu := A.u_nonneg
  have hus := A.u_small
  have hη := A.η_nonneg
  have hηu : η ≤ u / 1024 := A.η_small.trans (by have := mul_le_mul_of_nonneg_right hus hu; linarith)
  have hδ0 : 0 ≤ δ := (hx t ht).nonneg
  obtain ⟨c1, -, -⟩ := welford_near A L h53 hB hx hp hδ0 hδ hnu htop hE (n := t) ht.le
  obtain ⟨-, -, c3⟩ := welford_near A L h53 hB hx hp hδ0 hδ hnu htop hE (n := t + 1) ht
  unfold fastVar
  rw [welford_later (by rw [c1]; exact h1), c1, ← feed_snoc, ← hist_succ']
  have hB0 : 0 ≤ B := by linarith
  have B2 : B ≤ B ^ 2 := by have := mul_le_mul_of_nonneg_left hB hB0; linarith [show B ^ 2 = B * B by ring]
  have t1 : (1 : K) ≤ t := by exact_mod_cast h1
  have t0 : (0 : K) < t := by linarith
  have tN : (t : K) + 1 ≤ N := by exact_mod_cast ht
  have uB : u ≤ u * B := le_mul_of_one_le_right hu hB
  have uB0 : 0 ≤ u * B := hu.trans uB
  have NuB : (N : K) * u * B ≤ B / 1000 := by have := mul_le_mul_of_nonneg_right (show (N : K) * u ≤ 1 / 1000 by linarith) hB0; linarith
  have uE : u * B ≤ E := by
    have := mul_le_mul_of_nonneg_right (show (1 : K) ≤ N by linarith) uB0
    rw [hE]; linarith
  have E0 : 0 ≤ E := uB0.trans uE
  have EB : E ≤ 11 / 1000 * B := by rw [hE]; linarith
  have BE0 : 0 ≤ B * E := by positivity
  have BEB : B * E ≤ 11 / 1000 * B ^ 2 := by
    have := mul_le_mul_of_nonneg_left EB hB0
    linarith [show B ^ 2 = B * B by ring]
  have uB2 : u * B ^ 2 ≤ B * E := by
    have := mul_le_mul_of_nonneg_left uE hB0
    linarith [show B * (u * B) = u * B ^ 2 by ring]
  have EBE : E ≤ B * E := le_mul_of_one_le_left E0 hB
  have v1 := divisor (V := V) L (t := t) (by omega)
  have hd := sqDev_le (n := t + 1) hB0 fun i hi => hp i (by omega)
  have hm : |sampleVar (hist p (t + 1))| ≤ 8 * B ^ 2 := by
    unfold sampleVar
    rw [hist_length]
    push_cast at hd ⊢
    rw [add_sub_cancel_right, abs_div, abs_of_pos t0, div_le_iff₀ t0]
    have := mul_le_mul_of_nonneg_right t1 (show 0 ≤ 4 * B ^ 2 by positivity)
    linarith
  refine ⟨?_, BE0, uE, BEB, hm⟩
  have e : sampleVar (hist p (t + 1)) = sqDev (hist p (t + 1)) / (t : K) := by
    unfold sampleVar
    rw [hist_length]
    push_cast
    rw [add_sub_cancel_right]
  have q : ((t + 1 : Nat) : K) * (70 * (B * E)) / t ≤ 140 * (B * E) := by
    rw [div_le_iff₀ t0]
    push_cast
    have := mul_le_mul_of_nonneg_right t1 (show 0 ≤ 70 * (B * E) by linarith)
    linarith
  have q0 : 0 ≤ ((t + 1 : Nat) : K) * (70 * (B * E)) / t := by positivity
  have uq := mul_le_mul_of_nonneg_left q hu
  have uBE := mul_le_mul_of_nonneg_right hus BE0
  have tB : 100 * B ^ 2 ≤ top := by
    have := mul_le_mul_of_nonneg_right (show (1 : K) ≤ N by linarith) (show 0 ≤ B ^ 2 by positivity)
    linarith
  rw [e] at hm ⊢
  refine (Near.div A t0 c3 v1 hm (by linarith)).mono ?_
  linarith

include A L in
/-- The sample variances of such numbers. -/
theorem fast_var_abs {x : Nat → α} {p : Nat → K} {N : Nat} (h53 : N ≤ 2 ^ 53) {B δ : K} (hB : 1 ≤ B)
    (hx : ∀ i, i < N → Near V (x i) (p i) δ) (hp : ∀ i, i < N → |p i| ≤ B) (hδ : 100 * δ ≤ B) (hnu : 1000 * (N : K) * u ≤ 1)
    (htop : 50 * (N + 1) * B ^ 2 ≤ top) {t : Nat} (h1 : 1 ≤ t) (ht : t < N) : |sampleVar (hist p (t + 1))| ≤ 8 * B ^ 2 :=
  (welford_var_near A L h53 hB hx hp hδ hnu htop rfl h1 ht).2.2.2.2

include A L in
/-- **C107.** Fed at most `2^53` floats, each within `δ` of a number of at most `B`, the fast variance is 0 on the first tick and from the second tick on
within `150·B·(δ + N·u·B)` of the sample variance of all numbers so far. -/
theorem C107_variance {x : Nat → α} {p : Nat → K} {N : Nat} (h53 : N ≤ 2 ^ 53) {B δ : K} (hB : 1 ≤ B)
    (hx : ∀ i, i < N → Near V (x i) (p i) δ) (hp : ∀ i, i < N → |p i| ≤ B) (hδ : 100 * δ ≤ B) (hnu : 1000 * (N : K) * u ≤ 1)
    (htop : 50 * (N + 1) * B ^ 2 ≤ top) :
    ∃ y : Nat → α, Runs (total WelfordsVar.next) (.ok (WelfordsVar.new : WelfordsVar α)) x N y ∧ Runs (total Var.next) (.ok (Var.build true : Var α)) x N y ∧
      (0 < N → Near V (y 0) 0 0) ∧ ∀ t, 1 ≤ t → t < N → Near V (y t) (sampleVar (hist p (t + 1))) (150 * (B * (δ + N * u * B))) := by
  obtain ⟨y1, y2, -, -⟩ := fast_runs x N
  refine ⟨fastVar x, y1, y2, fun h0 => ?_, fun t h1 ht => (welford_var_near A L h53 hB hx hp hδ hnu htop rfl h1 ht).1⟩
  rw [show fastVar x 0 = lit 0 from welford_first rfl (x 0)]
  exact near_of_val (by rw [V.lit, lit_zero L])

include A L in
/-- **C107.** Where the sample standard deviation is at least `a` and the error of the variance at most `a²`, the fast standard deviation is within `168/a` times
`B·(δ + N·u·B)` of it. -/
theorem C107_stdev (hroot : RoundedRoots R) {x : Nat → α} {p : Nat → K} {N : Nat} (h53 : N ≤ 2 ^ 53) {B δ : K} (hB : 1 ≤ B)
    (hx : ∀ i, i < N → Near V (x i) (p i) δ) (hp : ∀ i, i < N → |p i| ≤ B) (hδ : 100 * δ ≤ B) (hnu : 1000 * (N : K) * u ≤ 1)
    (htop : 50 * (N + 1) * B ^ 2 ≤ top) :
    ∃ y : Nat → α, Runs (total WelfordsStdev.next) (.ok (WelfordsStdev.new : WelfordsStdev α)) x N y ∧
      Runs (total StatStdev.next) (.ok (StatStdev.build true : StatStdev α)) x N y ∧
      (∀ t, 1 ≤ t → t < N → ∀ a, 0 < a → a ≤ RootOps.sqrt (sampleVar (hist p (t + 1))) → 150 * (B * (δ + N * u * B)) ≤ a ^ 2 →
        Near V (y t) (RootOps.sqrt (sampleVar (hist p (t + 1)))) (168 / a * (B * (δ + N * u * B)))) := by
  obtain ⟨-, -, y1, y2⟩ := fast_runs x N
  refine ⟨_, y1, y2, fun t h1 ht a ha haz he => ?_⟩
  obtain ⟨n1, BE0, uE, BEB, hz⟩ := welford_var_near A L h53 hB hx hp hδ hnu htop rfl h1 ht
  have hu := A.u_nonneg
  have hus := A.u_small
  have hη := A.η_nonneg
  have hηu : η ≤ u / 1024 := A.η_small.trans (by have := mul_le_mul_of_nonneg_right hus hu; linarith)
  generalize δ + N * u * B = E at *
  have z0 := sampleVar_nonneg p t
  generalize sampleVar (hist p (t + 1)) = z at *
  rw [abs_of_nonneg z0] at hz
  have s0 := LawfulRoots.sqrt_nonneg z
  have ss := LawfulRoots.sqrt_mul_self z z0
  obtain ⟨w, hw, hwe⟩ := n1
  have hB0 : 0 < B := by linarith
  have aa := mul_self_le_mul_self ha.le haz
  have w0 : 0 ≤ w := by
    have := (abs_le.mp hwe).1
    have e : a ^ 2 = a * a := by ring
    linarith
  have r0 := LawfulRoots.sqrt_nonneg w
  have rr := LawfulRoots.sqrt_mul_self w w0
  have s3 : RootOps.sqrt z ≤ 3 * B := by
    refine root_le z0 (by linarith) ?_
    have e : 0 ≤ B ^ 2 := by positivity
    linarith [show 3 * B * (3 * B) = 9 * B ^ 2 by ring]
  have close : |RootOps.sqrt w - RootOps.sqrt z| ≤ 150 * (B * E) / a := by
    rw [le_div_iff₀ ha]
    refine le_trans ?_ hwe
    have e : w - z = (RootOps.sqrt w - RootOps.sqrt z) * (RootOps.sqrt w + RootOps.sqrt z) := by linear_combination ss - rr
    rw [e, abs_mul]
    refine mul_le_mul_of_nonneg_left ?_ (abs_nonneg _)
    exact (show a ≤ RootOps.sqrt w + RootOps.sqrt z by linarith).trans (le_abs_self _)
  have c1 : 150 * (B * E) / a ≤ a := by
    rw [div_le_iff₀ ha]
    linarith [show a ^ 2 = a * a by ring]
  have wB : |RootOps.sqrt w| ≤ 6 * B := by
    have := abs_add_le (RootOps.sqrt w - RootOps.sqrt z) (RootOps.sqrt z)
    rw [sub_add_cancel, abs_of_nonneg s0] at this
    linarith
  have tB : 6 * B ≤ top := by
    have t1 : (1 : K) ≤ N := by exact_mod_cast (by omega : 1 ≤ N)
    have h1 := mul_le_mul_of_nonneg_right t1 (show 0 ≤ B ^ 2 by positivity)
    have B2 : B ≤ B ^ 2 := by have := mul_le_mul_of_nonneg_left hB hB0.le; linarith [show B ^ 2 = B * B by ring]
    linarith
  obtain ⟨k, k1, k2⟩ := A.err (RootOps.sqrt w) (wB.trans tB)
  refine ⟨k, ?_, ?_⟩
  · rw [V.sqrt, hw]
    refine Eq.trans (if_neg (not_lt.mpr w0) : (if w < 0 then Ext.nan else R.sqrtR w) = R.sqrtR w) ?_
    rw [hroot w w0]
    exact k1
  · have uw := mul_le_mul_of_nonneg_left wB hu
    have uB : u ≤ u * B := le_mul_of_one_le_right hu hB
    have f1 : max (u * |RootOps.sqrt w|) η ≤ 6 * (u * B) := max_le (by linarith) (by linarith)
    have f2 : 6 * (u * B) ≤ 6 * E * (3 * B / a) := by
      have : 1 ≤ 3 * B / a := by rw [le_div_iff₀ ha]; linarith
      have uB0 : 0 ≤ u * B := by positivity
      have := mul_le_mul (show 6 * (u * B) ≤ 6 * E by linarith) this zero_le_one (by linarith)
      linarith
    have e1 : 6 * E * (3 * B / a) = 18 * (B * E) / a := by ring
    have e2 : (168 : K) / a * (B * E) = 168 * (B * E) / a := by ring
    have e3 : 168 * (B * E) / a = 150 * (B * E) / a + 18 * (B * E) / a := by ring
    have := abs_add_le (k - RootOps.sqrt w) (RootOps.sqrt w - RootOps.sqrt z)
    rw [sub_add_sub_cancel] at this
    rw [e2]
    linarith

end Pace
