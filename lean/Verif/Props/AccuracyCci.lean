import Verif.Props.AccuracyCurves
import Verif.Props.BookError

/-!
# C96: the mean deviation and the commodity channel index in floats against exact ones
-/

set_option linter.unusedSectionVars false

namespace Pace
open Spec
variable {K : Type} [Field K] [LinearOrder K] [IsStrictOrderedRing K] [RootOps K] {R : Rounding K}
variable {α : Type} [F64 α]

theorem meanAbsDev_win (p : Nat → K) (n t : Nat) :
    meanAbsDev (win p n t) = ((List.range n).map fun (i : Nat) => |p (t + 1 - n + i) - mean (win p n t)|).sum / n := by
  unfold meanAbsDev
  rw [show (win p n t).length = n by simp [win]]
  congr 2
  unfold win
  rw [List.map_map]; rfl

theorem mean_win_abs {p : Nat → K} {n t : Nat} (hn : 1 ≤ n) (ht : n ≤ t + 1) {M : K} (h : ∀ k, k ≤ t → |p k| ≤ M) : |mean (win p n t)| ≤ M := by
  have hn0 : (0 : K) < n := by exact_mod_cast hn
  unfold mean
  rw [show (win p n t).length = n by simp [win], abs_div, abs_of_pos hn0, div_le_iff₀ hn0, mul_comm]
  exact sum_win_abs ht fun k _ hk => h k hk

theorem le_range_sum {f : Nat → K} (hf : ∀ i, 0 ≤ f i) {n i : Nat} (hi : i < n) : f i ≤ ((List.range n).map f).sum :=
  List.single_le_sum (by simp only [List.mem_map]; rintro _ ⟨j, -, rfl⟩; exact hf j) _ (List.mem_map.mpr ⟨i, List.mem_range.mpr hi, rfl⟩)

/-- A value of the window is at most `n` mean deviations away from the mean. -/
theorem dev_le_mean {p : Nat → K} {n t : Nat} (hn : 1 ≤ n) (ht : n ≤ t + 1) : |p t - mean (win p n t)| ≤ n * meanAbsDev (win p n t) := by
  have hn0 : (n : K) ≠ 0 := by have : (0 : K) < n := by exact_mod_cast hn
                               exact this.ne'
  rw [meanAbsDev_win, mul_div_cancel₀ _ hn0]
  have := le_range_sum (f := fun (i : Nat) => |p (t + 1 - n + i) - mean (win p n t)|) (fun _ => abs_nonneg _) (show n - 1 < n by omega)
  rwa [show t + 1 - n + (n - 1) = t by omega] at this

section
variable {V : Valued R α} {u η top : K} (A : R.Accurate u η top) (L : R.Lawful)

include A L in
theorem near_meanDev {x : Nat → Option α} {p : Nat → K} {n t : Nat} (hn : 1 ≤ n) (ht : n ≤ t + 1) (hn53 : n ≤ 2 ^ 53) (hnu : 1000 * (n : K) * u ≤ 1)
    {m : α} {T B : K} (hB : 0 ≤ B) (hT : 0 ≤ T)
    (hx : ∀ k, t + 1 - n ≤ k → k ≤ t → ∃ a, x k = some a ∧ Near V (a - m) (p k - mean (win p n t)) T)
    (hp : ∀ k, k ≤ t → |p k - mean (win p n t)| ≤ B) (htop : 4 * n * (B + T + η) ≤ top) :
    Near V (fsum ((win x n t).map fun v => F64.abs (v.getD m - m)) / lit (n : ℚ)) (meanAbsDev (win p n t))
      (1001 / 1000 * (T + u * T + u * (n * B) + η) + u * (B + 2 * (T + u * T + u * (n * B) + η)) + η) := by
  have hu := A.u_nonneg
  have hus := A.u_small
  have hη := A.η_nonneg
  have hn1 : (1 : K) ≤ n := by exact_mod_cast hn
  have hn0 : (0 : K) < n := by linarith
  have key : ∀ i : Nat, ∃ a : α, i < n → x (t + 1 - n + i) = some a ∧ Near V (a - m) (p (t + 1 - n + i) - mean (win p n t)) T := by
    intro i
    by_cases hi : i < n
    · obtain ⟨a, h1, h2⟩ := hx (t + 1 - n + i) (by omega) (by omega)
      exact ⟨a, fun _ => ⟨h1, h2⟩⟩
    · exact ⟨m, fun h => absurd h hi⟩
  choose a ha using key
  let l : List (α × K) := (List.range n).map fun (i : Nat) => (F64.abs (a i - m), |p (t + 1 - n + i) - mean (win p n t)|)
  have e1 : (win x n t).map (fun v => F64.abs (v.getD m - m)) = l.map Prod.fst := by
    simp only [l, win, List.map_map]
    refine List.map_congr_left fun i hi => ?_
    simp only [Function.comp, (ha i (List.mem_range.mp hi)).1, Option.getD_some]
  have e2 : l.map Prod.snd = (List.range n).map fun (i : Nat) => |p (t + 1 - n + i) - mean (win p n t)| := by
    simp only [l, List.map_map]; rfl
  have e3 : l.length = n := by simp [l]
  have mem : ∀ z ∈ l, Near V z.1 z.2 T ∧ 0 ≤ z.2 ∧ z.2 ≤ B := by
    intro z hz
    obtain ⟨i, hi, rfl⟩ := List.mem_map.mp hz
    exact ⟨(ha i (List.mem_range.mp hi)).2.abs, abs_nonneg _, hp _ (by have := List.mem_range.mp hi; omega)⟩
  have bound : ∀ q : List (α × K), (∀ z ∈ q, 0 ≤ z.2 ∧ z.2 ≤ B) → 0 ≤ (q.map Prod.snd).sum ∧ (q.map Prod.snd).sum ≤ q.length * B := by
    intro q
    induction q with
    | nil => intro _; simp
    | cons z q ih =>
      intro h
      obtain ⟨i1, i2⟩ := ih fun w hw => h w (List.mem_cons_of_mem _ hw)
      obtain ⟨j1, j2⟩ := h z List.mem_cons_self
      rw [List.map_cons, List.sum_cons, List.length_cons]
      push_cast
      constructor <;> linarith
  set D := T + u * T + u * (n * B) + η with hD
  have hD0 : 0 ≤ D := by positivity
  have uT : u * T ≤ T / 1000 := by have := mul_le_mul_of_nonneg_right hus hT; linarith
  have unB : u * (n * B) ≤ B / 1000 := by have := mul_le_mul_of_nonneg_right hnu hB; linarith
  have nB : 0 ≤ n * B := by positivity
  have nT : T ≤ n * T := by have := mul_le_mul_of_nonneg_right hn1 hT; linarith
  have Dle : D ≤ 1001 / 1000 * T + B / 1000 + η := by linarith
  have nD := mul_le_mul_of_nonneg_left Dle hn0.le
  have nη : η ≤ n * η := by have := mul_le_mul_of_nonneg_right hn1 hη; linarith
  have hfs := fsum_near A L (V := V) hT nB l (fun z hz => (mem z hz).1) (fun q hq => by
      obtain ⟨b1, b2⟩ := bound q fun z hz => (mem z (hq.subset hz)).2
      rw [abs_of_nonneg b1]
      refine b2.trans (mul_le_mul_of_nonneg_right ?_ hB)
      have := hq.length_le
      rw [e3] at this
      exact_mod_cast this) (by rw [e3]; linarith) (by
      rw [e3, show (1 + u) * T + u * (n * B) + η = D by rw [hD]; ring]
      linarith)
  rw [e3, show (1 + u) * T + u * (n * B) + η = D by rw [hD]; ring, ← e1, e2] at hfs
  have hdr : drift u D n ≤ n * (1001 / 1000 * D) := by
    have h1 := drift_le' hu hD0 n (by linarith)
    have h2 := mul_le_mul_of_nonneg_left (show 1 + (n : K) * u ≤ 1001 / 1000 by linarith) (show 0 ≤ (n : K) * D by positivity)
    linarith
  have hfs := hfs.mono hdr
  obtain ⟨b1, b2⟩ := bound l fun z hz => (mem z hz).2
  rw [e3, e2] at b2
  rw [e2] at b1
  rw [meanAbsDev_win]
  have ecan : (n : K) * (1001 / 1000 * D) / n = 1001 / 1000 * D := by field_simp
  refine (hfs.div A hn0 (val_lit_nat L hn53) (m := B) ?_ ?_).mono ?_
  · rw [abs_div, abs_of_nonneg b1, abs_of_pos hn0, div_le_iff₀ hn0]; linarith
  · rw [ecan]
    have nBB : B ≤ n * B := by have := mul_le_mul_of_nonneg_right hn1 hB; linarith
    linarith
  · rw [ecan]
    have := mul_le_mul_of_nonneg_left (show B + 1001 / 1000 * D ≤ B + 2 * D by linarith) hu
    linarith

include A L in
/-- The simple average and the mean deviation of floats that are within five roundings of numbers up to `M`. -/
theorem sma_dev_room (d : DataProvider α) {len k : Nat} (hlen : 2 ≤ len) {N : Nat} (hk : len + N + 1 ≤ k) {M : K} (hM : 0 ≤ M) (hr : Room u η top k M)
    {x : Nat → Option α} {p : Nat → K} (h : StaysNear V x 0 p (5 * (u * M + η)) N) (hp : ∀ t, t < N → |p t| ≤ M) :
    ∃ m y, Runs (fun t => Sma.next ⟨d, t⟩) (Sma.new len) x N m ∧ Runs (fun t => Dev.next ⟨d, t⟩) (Dev.new len) x N y ∧
      StaysNear V m (len - 1) (fun t => mean (win p len t)) ((11 + 5 * N) * (u * M + η)) N ∧
      StaysNear V y (len - 1) (fun t => meanAbsDev (win p len t)) ((24 + 6 * N + 3 * len) * (u * M + η)) N := by
  have hu0 := A.u_nonneg
  have hus := A.u_small
  have hη := A.η_nonneg
  have huM : 0 ≤ u * M := mul_nonneg hu0 hM
  have hδ : 0 ≤ u * M + η := by positivity
  have sM : u * M ≤ M / 1024 := by have := mul_le_mul_of_nonneg_right hus hM; linarith
  have hkk : (len : K) + N + 1 ≤ k := by exact_mod_cast hk
  have hl2 : (2 : K) ≤ len := by exact_mod_cast hlen
  have hN0 : (0 : K) ≤ N := Nat.cast_nonneg _
  have hk0 : (0 : K) ≤ k := by linarith
  have fine := hr.fine
  have wide := hr.wide
  have kδ : 1000 * k * (u * (u * M + η)) ≤ u * M + η := by
    have := mul_le_mul_of_nonneg_right fine hδ
    linarith
  have lenδ : 0 ≤ (len : K) * (u * (u * M + η)) := by positivity
  have Nδ : 0 ≤ (N : K) * (u * (u * M + η)) := by positivity
  have uδ : 0 ≤ u * (u * M + η) := by positivity
  have kks : ((len : K) + N + 1) * (u * (u * M + η)) ≤ k * (u * (u * M + η)) := mul_le_mul_of_nonneg_right hkk uδ
  have kM : ((len : K) + N + 1) * (M + η) ≤ k * (M + η) := mul_le_mul_of_nonneg_right hkk (by linarith)
  have lM : 0 ≤ (len : K) * M := by positivity
  have lη : 0 ≤ (len : K) * η := by positivity
  have NM : 0 ≤ (N : K) * M := by positivity
  have Nη : 0 ≤ (N : K) * η := by positivity
  obtain ⟨m, m1, m2⟩ := C92_average A L d .sma (n := len) (k := k) (by omega) hk hr.small (by linarith [mul_nonneg hk0 hu0]) h hM (by positivity)
    (fun t ht _ => hp t ht) (by
      have := mul_le_mul_of_nonneg_left (show M + 5 * (u * M + η) + η ≤ 10 * (M + η) by linarith) (show (0 : K) ≤ 40 * k by linarith)
      have : 0 ≤ (k : K) * (M + η) := by positivity
      linarith)
  have r1 : Runs (fun t => Sma.next ⟨d, t⟩) (Sma.new len) x N m := (C53_ma d len x N).1.symm.trans m1
  have eqm := Runs.unique r1 (sma_runs d (show 1 ≤ len by omega) x N)
  have m3 : StaysNear V m (len - 1) (fun t => mean (win p len t)) ((11 + 5 * N) * (u * M + η)) N := by
    have m2' : StaysNear V m (len - 1) (fun t => mean (win p len t)) (5 * (u * M + η) + slack .sma len N * (u * (M + 5 * (u * M + η)) + η)) N := by
      have := m2
      simp only [maLength, Nat.zero_add] at this
      exact this
    refine m2'.mono ?_
    unfold slack
    push_cast
    have e1 : u * (M + 5 * (u * M + η)) + η ≤ (u * M + η) + 5 * (u * (u * M + η)) := by linarith
    have e2 := mul_le_mul_of_nonneg_left e1 (show (0 : K) ≤ 4 * N + 5 by linarith)
    have : 0 ≤ (N : K) * (u * M + η) := by positivity
    linarith
  have fit : 4 * len * (2 * M + (19 + 5 * N) * (u * M + η) + η) ≤ top := by
    have e1 : (19 + 5 * (N : K)) * (u * M) ≤ M := by
      have := mul_le_mul_of_nonneg_right (show (19 + 5 * (N : K)) * u ≤ 1 by
        have := mul_le_mul_of_nonneg_right (show 19 + 5 * (N : K) ≤ 1000 * k by linarith) hu0; linarith) hM
      linarith
    have lu : 1000 * (len : K) * u ≤ 1 := by
      have := mul_le_mul_of_nonneg_right (show 1000 * (len : K) ≤ 1000 * k by linarith) hu0; linarith
    have e2 : (19 + 5 * (N : K)) * η ≤ u := by
      have h1 := mul_le_mul_of_nonneg_right (show (19 + 5 * (N : K)) * u ≤ 1 by
        have := mul_le_mul_of_nonneg_right (show 19 + 5 * (N : K) ≤ 1000 * k by linarith) hu0; linarith) hu0
      have h2 := mul_le_mul_of_nonneg_left A.η_small (show 0 ≤ 19 + 5 * (N : K) by linarith)
      linarith
    have e3 := mul_le_mul_of_nonneg_left (show 2 * M + (19 + 5 * N) * (u * M + η) + η ≤ 3 * M + u + η by linarith) (show (0 : K) ≤ 4 * len by linarith)
    have := A.top_ge
    linarith
  refine ⟨m, dev0 len x, r1, dev_runs d (by omega) x N, m3, fun t ht => ?_⟩
  unfold startAt dev0
  rw [if_neg (by omega : ¬ len = 1), ← eqm t ht]
  by_cases hts : t < len - 1
  · rw [if_pos hts, stays_before m3 ht hts]; rfl
  rw [if_neg hts]
  obtain ⟨b, b1, b2⟩ := stays_at m3 ht (by omega)
  have hmean : |mean (win p len t)| ≤ M := mean_win_abs (by omega) (by omega) fun k hk => hp k (by omega)
  refine ⟨_, by rw [b1]; rfl, (near_meanDev A L (T := (19 + 5 * N) * (u * M + η)) (B := 2 * M) (by omega) (by omega) (by have := hr.small; omega)
    (by have := mul_le_mul_of_nonneg_right (show (len : K) ≤ k by linarith) hu0; linarith) (by linarith) (by positivity) ?_ ?_ fit).mono ?_⟩
  · intro j hj1 hj2
    obtain ⟨a, a1, a2⟩ := stays_at h (show j < N by omega) (Nat.zero_le _)
    have hpj := hp j (by omega)
    refine ⟨a, a1, (a2.sub A b2 (m := 2 * M) ?_ ?_).mono ?_⟩
    · have := abs_sub (p j) (mean (win p len t)); linarith
    · have hq : 0 ≤ 2 * M + (19 + 5 * (N : K)) * (u * M + η) + η := by positivity
      have := mul_le_mul_of_nonneg_right (show (1 : K) ≤ 4 * len by linarith) hq
      linarith
    · linarith
  · intro j hj
    have hpj := hp j (by omega)
    have := abs_sub (p j) (mean (win p len t)); linarith
  · have e1 : u * ((19 + 5 * (N : K)) * (u * M + η)) ≤ (u * M + η) / 2 := by linarith
    have e2 : u * (len * (2 * M)) + η ≤ 2 * (len * (u * M + η)) := by
      have := mul_le_mul_of_nonneg_right hl2 hη
      linarith
    have e3 : (19 + 5 * N) * (u * M + η) + u * ((19 + 5 * (N : K)) * (u * M + η)) + u * (len * (2 * M)) + η ≤ (20 + 5 * N + 2 * len) * (u * M + η) := by linarith
    have e4 := mul_le_mul_of_nonneg_left e3 hu0
    have : 0 ≤ (N : K) * (u * M + η) := by positivity
    have : 0 ≤ (len : K) * (u * M + η) := by positivity
    have : 2 * (u * M + η) ≤ (len : K) * (u * M + η) := mul_le_mul_of_nonneg_right hl2 hδ
    linarith

/-- The commodity channel index as a line of numbers. -/
def Spec.channelLine (len : Nat) (x : Nat → K) (t : Nat) : K := (x t - mean (win x len t)) / (15 / 1000 * meanAbsDev (win x len t))

include A L in
/-- **C96.** The mean deviation of floats that are within five roundings of numbers up to `M`: within `24 + 6 N + 3 len` roundings of the
exact one; and it begins on the same tick. -/
theorem C96_dev (d : DataProvider α) {len k : Nat} (hlen : 2 ≤ len) {N : Nat} (hk : len + N + 1 ≤ k) {M : K} (hM : 0 ≤ M) (hr : Room u η top k M)
    {x : Nat → Option α} {p : Nat → K} (h : StaysNear V x 0 p (5 * (u * M + η)) N) (hp : ∀ t, t < N → |p t| ≤ M) :
    ∃ y, Runs (fun t => Dev.next ⟨d, t⟩) (Dev.new len) x N y ∧
      StaysNear V y (len - 1) (fun t => meanAbsDev (win p len t)) ((24 + 6 * N + 3 * len) * (u * M + η)) N := by
  obtain ⟨m, y, -, h2, -, h4⟩ := sma_dev_room A L d hlen hk hM hr h hp
  exact ⟨y, h2, h4⟩

include A L in
/-- One value of the index. `D` is the error of the mean deviation and at least that of the distance to the mean. -/
theorem near_channel {a b : α} {x y D T M m n : K} (ha : Near V a x T) (hb : Near V b y D) (hTD : 2 * T ≤ n * D) (hDM : u * M + η ≤ D / 24) (hM : 0 ≤ M)
    (hyM : |y| ≤ 2 * M) (hm : 0 < m) (hy : m ≤ |y|) (hDm : 8 * D ≤ m) (hn : 2 ≤ n) (hq : |x| ≤ n * |y|) (ht1 : 2 * M + D ≤ top) (ht2 : 200 * n ≤ top) :
    F64.feq (b * lit (15 / 1000)) (lit 0) = false ∧ Near V (a / (b * lit (15 / 1000))) (x / (15 / 1000 * y)) (610 * (n * (D / m)) + 150 * (n * u)) := by
  have hu := A.u_nonneg
  have hus := A.u_small
  have hη := A.η_nonneg
  have hηu : η ≤ u / 1024 := A.η_small.trans (by have := mul_le_mul_of_nonneg_right hus hu; linarith)
  have hD0 := hb.nonneg
  have huM : 0 ≤ u * M := mul_nonneg hu hM
  have hlit : Near V (lit (15 / 1000)) (15 / 1000 : K) (15 / 1000 * u) := by
    have h15 : |(15 / 1000 : K)| = 15 / 1000 := abs_of_nonneg (by norm_num)
    obtain ⟨v, h1, h2⟩ := A.err (15 / 1000) (by rw [h15]; have := A.top_ge; linarith)
    refine ⟨v, ?_, h2.trans (max_le (by rw [h15, mul_comm]) (by linarith))⟩
    rw [V.lit]
    refine Eq.trans ?_ h1
    show R.rnd _ = R.rnd _
    push_cast
    rfl
  have uD : u * D ≤ D / 1024 := by have := mul_le_mul_of_nonneg_right hus hD0; linarith
  have uuD : u * (u * D) ≤ D / 1024 := by
    have := mul_le_mul_of_nonneg_left uD hu
    linarith
  have uuM : u * (u * M) ≤ u * M / 1024 := by have := mul_le_mul_of_nonneg_right hus huM; linarith
  have n1 : Near V (b * lit (15 / 1000)) (15 / 1000 * y) (6 / 100 * D) := by
    have e15 : |y * (15 / 1000)| = |y| * (15 / 1000) := by rw [abs_mul, abs_of_nonneg (show (0 : K) ≤ 15 / 1000 by norm_num)]
    have l15 : |(15 / 1000 : K)| = 15 / 1000 := abs_of_nonneg (by norm_num)
    have uy : |y| * (15 / 1000 * u) ≤ 30 / 1000 * (u * M) := by
      have := mul_le_mul_of_nonneg_right hyM (show 0 ≤ 15 / 1000 * u by positivity)
      linarith
    have uuy := mul_le_mul_of_nonneg_left uy hu
    rw [mul_comm (15 / 1000 : K) y]
    refine (hb.mul A hlit (m := 30 / 1000 * M) (by rw [e15]; linarith) ?_).mono ?_
    · rw [l15]
      have : u * M ≤ M / 1024 := by have := mul_le_mul_of_nonneg_right hus hM; linarith
      linarith
    · rw [l15]
      linarith
  have hy0 : 0 < |y| := lt_of_lt_of_le hm hy
  have e15 : |15 / 1000 * y| = 15 / 1000 * |y| := by rw [abs_mul, abs_of_nonneg (show (0 : K) ≤ 15 / 1000 by norm_num)]
  have hq' : |x / (15 / 1000 * y)| ≤ 67 * n := by
    rw [abs_div, e15, div_le_iff₀ (by positivity)]
    have : 0 ≤ n * |y| := by positivity
    linarith
  have hg : D / m ≤ 1 / 8 := by rw [div_le_div_iff₀ hm (by norm_num)]; linarith
  have hg0 : 0 ≤ D / m := div_nonneg hD0 hm.le
  have e1 : 2 * (T + 67 * n * (6 / 100 * D)) / (15 / 1000 * m) ≤ 605 * (n * (D / m)) := by
    rw [show 605 * (n * (D / m)) = 605 * (n * D) / m by ring, div_le_div_iff₀ (by positivity) hm]
    have h1 : 0 ≤ n * D := by positivity
    have h2 := mul_le_mul_of_nonneg_right (show 2 * (T + 67 * n * (6 / 100 * D)) ≤ 605 * (n * D) * (15 / 1000) by linarith) hm.le
    linarith
  have ng := mul_le_mul_of_nonneg_left hg (show 0 ≤ n by linarith)
  have ng0 : 0 ≤ n * (D / m) := by positivity
  refine ⟨near_feq_zero L n1 (by rw [e15]; linarith), ?_⟩
  refine (ha.quot A n1 (m := 15 / 1000 * m) (by positivity) (by rw [e15]; linarith) (by linarith) hq' (by linarith)).mono ?_
  have g1 := mul_le_mul_of_nonneg_left e1 hu
  have g2 := mul_le_mul_of_nonneg_left ng hu
  have g3 : 2 * u ≤ n * u := mul_le_mul_of_nonneg_right hn hu
  linarith

include A L in
/-- **C96.** The commodity channel index of length at least 2 of any price source on prices up to `M`, as long as the mean deviation stays
above `m`: with `D` the error of the mean deviation, within `610 len D / m + 150 len u` of the exact index; and it begins on the same bar. -/
theorem C96_cci {d : DataProvider α} {N : Nat} {o h l c v : Nat → K} {M : K} (hb : PricedBars V d N o h l c v M) (hM : 0 ≤ M)
    {src : SrcKind} (hs : src ≠ .volume) {len k : Nat} (hlen : 2 ≤ len) (hk : len + N + 1 ≤ k) (hr : Room u η top k M) (htop : 200 * (len : K) ≤ top) {m : K} (hm : 0 < m)
    (hDm : 8 * ((24 + 6 * N + 3 * len) * (u * M + η)) ≤ m) (away : ∀ t, t < N → len ≤ t + 1 → m ≤ meanAbsDev (win (sourceValue src o h l c v) len t)) :
    ∃ y, Runs (noInput fun t => withSrc src CommodityChannelIndex.next ⟨d, t⟩) (CommodityChannelIndex.new len) unit N y ∧
      StaysNear V y (len - 1) (channelLine len (sourceValue src o h l c v))
        (610 * (len * ((24 + 6 * N + 3 * len) * (u * M + η) / m)) + 150 * (len * u)) N := by
  have hu0 := A.u_nonneg
  have hus := A.u_small
  have hη := A.η_nonneg
  have huM : 0 ≤ u * M := mul_nonneg hu0 hM
  have hδ : 0 ≤ u * M + η := by positivity
  have hkk : (len : K) + N + 1 ≤ k := by exact_mod_cast hk
  have hl2 : (2 : K) ≤ len := by exact_mod_cast hlen
  have hN0 : (0 : K) ≤ N := Nat.cast_nonneg _
  have kM := mul_le_mul_of_nonneg_right hkk (show 0 ≤ M + η by linarith)
  have lM : 0 ≤ (len : K) * M := by positivity
  have lη : 0 ≤ (len : K) * η := by positivity
  have NM : 0 ≤ (N : K) * M := by positivity
  have Nη : 0 ≤ (N : K) * η := by positivity
  have wide := hr.wide
  obtain ⟨x, x1, x2⟩ := C92_source A L hb hM (by linarith) hs
  generalize hp : sourceValue src o h l c v = p at *
  have pb : ∀ t, t < N → |p t| ≤ M := fun t ht => by rw [← hp]; exact sourceValue_abs (hb.bound t ht) hs
  obtain ⟨mm, y, r1, r2, near1, near2⟩ := sma_dev_room A L d hlen hk hM hr x2 pb
  refine ⟨_, withSrc_runs x1 (C53_cci d r1 r2), fun t ht => ?_⟩
  unfold startAt
  by_cases hts : t < len - 1
  · rw [if_pos hts]
    show safeDiv _ _ = none
    rw [stays_before near2 ht hts]
    cases opt2 (· - ·) (x t) (mm t) <;> rfl
  rw [if_neg hts]
  obtain ⟨a, a1, a2⟩ := stays_at x2 ht (Nat.zero_le t)
  obtain ⟨b, b1, b2⟩ := stays_at near1 ht (by omega)
  obtain ⟨e, e1, e2⟩ := stays_at near2 ht (by omega)
  have hmean : |mean (win p len t)| ≤ M := mean_win_abs (by omega) (by omega) fun k hk => pb k (by omega)
  have hmad := away t ht (by omega)
  have hmad0 : 0 ≤ meanAbsDev (win p len t) := by linarith
  have fine := hr.fine
  have uδ : 0 ≤ u * (u * M + η) := by positivity
  have small : ((24 + 6 * N + 3 * len) * (u * M + η)) ≤ M + u + η := by
    have h1 : (24 + 6 * (N : K) + 3 * len) * u ≤ 1 := by
      have := mul_le_mul_of_nonneg_right (show 24 + 6 * (N : K) + 3 * len ≤ 1000 * k by linarith) hu0; linarith
    have h2 := mul_le_mul_of_nonneg_right h1 hM
    have h3 := mul_le_mul_of_nonneg_right h1 hu0
    have h4 := mul_le_mul_of_nonneg_left A.η_small (show 0 ≤ 24 + 6 * (N : K) + 3 * len by linarith)
    linarith
  have hmadM : |meanAbsDev (win p len t)| ≤ 2 * M := by
    have hn0 : (0 : K) < len := by linarith
    rw [abs_of_nonneg hmad0, meanAbsDev_win, div_le_iff₀ hn0]
    have := sum_win_abs (w := fun j => |p j - mean (win p len t)|) (e := 2 * M) (show len ≤ t + 1 by omega) fun j _ hj => by
      rw [abs_abs]
      have := abs_sub (p j) (mean (win p len t))
      have := pb j (by omega)
      linarith
    have h2 := (le_abs_self _).trans this
    simp only [win] at h2 ⊢
    linarith
  have sub : Near V (a - b) (p t - mean (win p len t)) ((19 + 5 * N) * (u * M + η)) := by
    have hpt := pb t ht
    refine (a2.sub A b2 (m := 2 * M) ?_ ?_).mono ?_
    · have := abs_sub (p t) (mean (win p len t)); linarith
    · have : 0 ≤ (N : K) * (u * M + η) := by positivity
      have : 0 ≤ (len : K) * (u * M + η) := by positivity
      have := A.top_ge
      linarith
    · have e1 : (16 + 5 * (N : K)) * u * (u * M + η) ≤ 1 * (u * M + η) := by
        refine mul_le_mul_of_nonneg_right ?_ hδ
        have := mul_le_mul_of_nonneg_right (show 16 + 5 * (N : K) ≤ 1000 * k by linarith) hu0; linarith
      linarith
  have Nδ : 0 ≤ (N : K) * (u * M + η) := by positivity
  have lδ : 2 * (u * M + η) ≤ (len : K) * (u * M + η) := mul_le_mul_of_nonneg_right hl2 hδ
  obtain ⟨ne, res⟩ := near_channel A L sub e2 (n := (len : K)) (m := m) (M := M)
    (by
      have h1 := mul_le_mul_of_nonneg_right hl2 (show 0 ≤ (24 + 6 * (N : K) + 3 * len) * (u * M + η) by positivity)
      linarith) (by linarith) hM hmadM hm (by rw [abs_of_nonneg hmad0]; exact hmad) hDm hl2
    (by rw [abs_of_nonneg hmad0]; exact dev_le_mean (by omega) (by omega)) (by have := A.top_ge; linarith) htop
  exact ⟨_, by simp [safeDiv, a1, b1, e1, opt2, ne], res⟩

include A L in
/-- **C96.** The commodity channel index program of any length of at least 2, price source and thresholds on prices up to `M`, as long as
the mean deviation stays above `m`. -/
theorem C96_cci_program {d : DataProvider α} {N : Nat} {o h l c v : Nat → K} {M : K} (hb : PricedBars V d N o h l c v M) (hM : 0 ≤ M)
    {dx : DataProvider (Ex K)} (hx : ExBars dx N o h l c v)
    {src : SrcKind} (hs : src ≠ .volume) {len k : Nat} (hlen : 2 ≤ len) (hk : len + N + 1 ≤ k) (hr : Room u η top k M) (htop : 200 * (len : K) ≤ top) {m : K} (hm : 0 < m)
    (hDm : 8 * ((24 + 6 * N + 3 * len) * (u * M + η)) ≤ m) (away : ∀ t, t < N → len ≤ t + 1 → m ≤ meanAbsDev (win (sourceValue src o h l c v) len t))
    {th : Thresholds α} {thx : Thresholds (Ex K)} {lo hi : K} (t1 : V.val th.oversold = Fl.of R (.fin lo)) (t2 : V.val th.overbought = Fl.of R (.fin hi))
    (t3 : thx.oversold = fin lo) (t4 : thx.overbought = fin hi) :
    let line := channelLine len (sourceValue src o h l c v)
    let e := 610 * (len * ((24 + 6 * N + 3 * len) * (u * M + η) / m)) + 150 * (len * u)
    (∀ t, t < N → len - 1 ≤ t → e < |line t - lo| ∧ e < |line t - hi|) →
    ∀ (cfg : StrategyConfig α) (cfgx : StrategyConfig (Ex K)) (rfr : α) (rfrx : Ex K),
    SameSignals d dx N (withSrc src CommodityChannelIndex.next) (CommodityChannelIndex.new len) ThresholdStrategy.next (CommodityChannelIndexStrategy.new th) cfg rfr
      (withSrc src CommodityChannelIndex.next) (CommodityChannelIndex.new len) ThresholdStrategy.next (CommodityChannelIndexStrategy.new thx) cfgx rfrx
      (lineSignal (len - 1) line lo hi) := by
  intro line e far cfg cfgx rfr rfrx
  obtain ⟨y, r, near⟩ := C96_cci A L hb hM hs hlen hk hr htop hm hDm away
  obtain ⟨o', h', l', c', v', b1, -⟩ := hb.bars
  refine (C92_line_program b1 hx r near ((withSrc_runs (src_exact' hx src) (C53_cci_exact hlen _)).congr fun t ht => ?_) t1 t2 t3 t4 far cfg cfgx rfr rfrx).1
  show _ = Option.map fin (startAt (len - 1) _ t)
  unfold startAt
  by_cases hts : t < len - 1
  · rw [if_pos hts, if_pos (by omega)]; rfl
  · have := away t ht (by omega)
    rw [if_neg hts, if_neg (by omega), if_neg (by intro h0; rw [h0] at this; linarith)]; rfl

end

end Pace
