import Verif.Props.AccuracyPrograms

/-!
# C96: rates of change, weighted averages and the Coppock curve in floats against exact ones
-/

set_option linter.unusedSectionVars false

namespace Pace
open Spec
variable {K : Type} [Field K] [LinearOrder K] [IsStrictOrderedRing K] [RootOps K] {R : Rounding K}
variable {α : Type} [F64 α]

section
variable {V : Valued R α} {u η top : K} (A : R.Accurate u η top) (L : R.Lawful)

/-- The percentage change over `n` ticks as a line of numbers. -/
def Spec.rateLine (n : Nat) (x : Nat → K) (t : Nat) : K := 100 * (x t - x (t - n)) / x (t - n)

include A L in
/-- One percentage change. -/
theorem near_rate {a b : α} {x y e D M m : K} (ha : Near V a x e) (hb : Near V b y e) (hM : 0 ≤ M) (hx : |x| ≤ M) (hyM : |y| ≤ M)
    (hd : Near V (a - b) (x - y) D) (heD : e ≤ D) (huD : 2 * (u * M) + η ≤ D) (hm : 0 < m) (hy : m ≤ |y|) (hDm : 2 * D ≤ m)
    (h1 : 200 * (M + D) ≤ top) (h2 : 800 * (1 + 2 * M / m) ≤ top) :
    Near V (lit 100 * (a - b) / b) (100 * (x - y) / y) (410 * ((D / m + u) * (1 + 2 * M / m))) := by
  have he := ha.nonneg
  have hu := A.u_nonneg
  have hus := A.u_small
  have hη := A.η_nonneg
  have hηu : η ≤ u / 1024 := A.η_small.trans (by have := mul_le_mul_of_nonneg_right hus hu; linarith)
  have lit100 : V.val (lit (100 : ℚ)) = Fl.of R (.fin (100 : K)) := by
    have := val_lit_nat (V := V) L (n := 100) (by norm_num); exact_mod_cast this
  have h100 : |(100 : K)| = 100 := abs_of_nonneg (by norm_num)
  have hdiff : |x - y| ≤ 2 * M := by have := abs_sub x y; linarith
  have hD0 : 0 ≤ D := he.trans heD
  have uD : u * D ≤ D / 1024 := by have := mul_le_mul_of_nonneg_right hus hD0; linarith
  have huM : 0 ≤ u * M := mul_nonneg hu hM
  have hy0 : 0 < |y| := lt_of_lt_of_le hm hy
  have n1 : Near V (lit 100 * (a - b)) (100 * (x - y)) (202 * D) := by
    refine ((near_of_val lit100).mul A hd (m := 200 * M) (by rw [abs_mul, h100]; linarith) (by rw [h100]; linarith)).mono ?_
    rw [h100, show u * (200 * M + (100 * D + |x - y| * 0 + 0 * D)) = 200 * (u * M) + 100 * (u * D) by ring]
    linarith
  have hq : |100 * (x - y) / y| ≤ 100 * (2 * M / m) := by
    rw [abs_div, abs_mul, h100, ← mul_div_assoc, div_le_div_iff₀ hy0 hm]
    have := mul_le_mul hdiff hy hm.le (by linarith : 0 ≤ 2 * M)
    linarith
  have hQ0 : 0 ≤ 2 * M / m := by positivity
  generalize 2 * M / m = Q at *
  have hG : D / m ≤ 1 / 2 := by rw [div_le_div_iff₀ hm (by norm_num)]; linarith
  have hG0 : 0 ≤ D / m := div_nonneg hD0 hm.le
  have e1 : 2 * (202 * D + 100 * Q * e) / m ≤ 404 * (D / m * (1 + Q)) := by
    rw [show 404 * (D / m * (1 + Q)) = 2 * (202 * D + 202 * (Q * D)) / m by ring]
    refine div_le_div_of_nonneg_right ?_ hm.le
    have := mul_le_mul_of_nonneg_left heD hQ0
    have := mul_nonneg hQ0 hD0
    linarith
  have e2 : D / m * (1 + Q) ≤ 1 / 2 * (1 + Q) := mul_le_mul_of_nonneg_right hG (by linarith)
  have e3 : 0 ≤ D / m * (1 + Q) := by positivity
  refine (n1.quot A hb hm hy (by linarith) hq (by linarith)).mono ?_
  have g1 := mul_le_mul_of_nonneg_left e1 hu
  have g2 := mul_le_mul_of_nonneg_right hus e3
  have g3 : 0 ≤ u * Q := mul_nonneg hu hQ0
  linarith

include A L in
/-- **C96.** `Roc(n)` of floats that are within `c <= 10` roundings of numbers up to `M` and not below `m` in size: within
`410 ((2 c + 3) (u M + η) / m + u) (1 + 2 M / m)` of the exact percentage change; and it begins on the same tick. -/
theorem C96_roc {x : Nat → Option α} {p : Nat → K} {N : Nat} {M c : K} (hM : 0 ≤ M) (hc : c ≤ 10)
    (hx : StaysNear V x 0 p (c * (u * M + η)) N) (hp : ∀ t, t < N → |p t| ≤ M) {n : Nat} (hn : 1 ≤ n) {m : K} (hm : 0 < m)
    (hDm : 2 * ((2 * c + 3) * (u * M + η)) ≤ m) (away : ∀ t, t < N → m ≤ |p t|) (h1 : 5000 * (M + η) ≤ top) (h2 : 800 * (1 + 2 * M / m) ≤ top) :
    ∃ y, Runs (fun _ => Roc.next) (Roc.new n) x N y ∧
      StaysNear V y n (rateLine n p) (410 * (((2 * c + 3) * (u * M + η) / m + u) * (1 + 2 * M / m))) N := by
  have hu := A.u_nonneg
  have hus := A.u_small
  have hη := A.η_nonneg
  have huM : 0 ≤ u * M := mul_nonneg hu hM
  have sM : u * M ≤ M / 1024 := by have := mul_le_mul_of_nonneg_right hus hM; linarith
  have hδ : 0 ≤ u * M + η := by positivity
  refine ⟨_, roc_runs n hn x N, fun t ht => ?_⟩
  unfold startAt roc0 lag0 ago
  by_cases htn : t < n
  · rw [if_pos htn, if_neg (by omega)]; rfl
  rw [if_neg htn, if_pos (by omega)]
  obtain ⟨a, a1, a2⟩ := stays_at hx ht (Nat.zero_le t)
  obtain ⟨b, b1, b2⟩ := stays_at hx (show t - n < N by omega) (Nat.zero_le _)
  have hc0 : 0 ≤ c * (u * M + η) := a2.nonneg
  have cδ : c * (u * M + η) ≤ 10 * (u * M + η) := mul_le_mul_of_nonneg_right hc hδ
  have hmt := away (t - n) (by omega)
  have ne := near_feq_zero L b2 (by linarith)
  have e3 : (2 * c + 3) * (u * M + η) = 2 * (c * (u * M + η)) + 3 * (u * M + η) := by ring
  refine ⟨lit 100 * (a - b) / b, by simp [a1, b1, ne], ?_⟩
  refine near_rate A L a2 b2 hM (hp t ht) (hp _ (by omega)) (near_change A hM (by linarith) hc a2 b2 (hp t ht) (hp _ (by omega))) ?_ ?_ hm hmt hDm ?_ h2
  · rw [e3]; linarith
  · rw [e3]; linarith
  · rw [e3]; linarith

theorem weightedMean_win (w : Nat → K) (n t : Nat) :
    weightedMean (win w n t) = ((List.range n).map fun (i : Nat) => ((i : K) + 1) * w (t + 1 - n + i)).sum / ((n : K) * (n + 1) / 2) := by
  unfold weightedMean win
  rw [List.length_map, List.length_range]
  congr 2
  rw [List.zipWith_map_right, List.zipWith_self]

theorem weightedMean_near {p w : Nat → K} {e : K} {n t : Nat} (hn : 1 ≤ n) (ht : n ≤ t + 1) (h : ∀ k, t + 1 - n ≤ k → k ≤ t → |p k - w k| ≤ e) :
    |weightedMean (win p n t) - weightedMean (win w n t)| ≤ e := by
  have key : ∀ m, m ≤ n → |((List.range m).map fun (i : Nat) => ((i : K) + 1) * p (t + 1 - n + i)).sum - ((List.range m).map fun (i : Nat) => ((i : K) + 1) * w (t + 1 - n + i)).sum| ≤ (m : K) * (m + 1) / 2 * e := by
    intro m
    induction m with
    | zero => intro _; simp
    | succ m ih =>
      intro hm
      have h1 := abs_le.mp (ih (by omega))
      have h2 := abs_le.mp (h (t + 1 - n + m) (by omega) (by omega))
      have hm0 : (0 : K) ≤ (m : K) + 1 := by positivity
      have h3 := mul_le_mul_of_nonneg_left h2.1 hm0
      have h4 := mul_le_mul_of_nonneg_left h2.2 hm0
      rw [List.range_succ, List.map_append, List.map_append, List.sum_append, List.sum_append]
      simp only [List.map_cons, List.map_nil, List.sum_cons, List.sum_nil, add_zero]
      push_cast
      rw [abs_le]
      constructor <;> linarith
  have hn0 : (0 : K) < n := by exact_mod_cast hn
  have hpos : (0 : K) < (n : K) * (n + 1) / 2 := by positivity
  rw [weightedMean_win, weightedMean_win, ← sub_div, abs_div, abs_of_pos hpos, div_le_iff₀ hpos, mul_comm e]
  exact key n le_rfl

include A L in
/-- **C96.** `Wma(len)` of floats that are within `e` of the numbers `w` from tick `s` on, none beyond `M`: within `e` plus `4 len + 3`
roundings of the exact weighted mean. -/
theorem C96_wma (d : DataProvider α) {len : Nat} (hlen : 1 ≤ len) (h53 : len * len * (len + 1) / 2 ≤ 2 ^ 53) (hu : 2 * (len : K) * u ≤ 1)
    {x : Nat → Option α} {s : Nat} {w : Nat → K} {e : K} {N : Nat} (h : StaysNear V x s w e N) {M : K} (hM : 0 ≤ M) (he : 0 ≤ e)
    (hw : ∀ t, t < N → s ≤ t → |w t| ≤ M) (htop : 4 * (len * len * (len + 1) / 2 : K) * (M + e) + 4 * len * η ≤ top) :
    ∃ y, Runs (fun t => Wma.next ⟨d, t⟩) (Wma.new len) x N y ∧
      StaysNear V y (s + len - 1) (fun t => weightedMean (win w len t)) (e + (4 * len + 3) * (u * (M + e) + η)) N := by
  obtain ⟨p, x', h1, h2, h3, h4⟩ := stays_reads L h
  have hp : ∀ t k, startAt s p t = some k → |k| ≤ M + e := by
    intro t k hk
    unfold startAt at hk
    by_cases hs : t < s
    · rw [if_pos hs] at hk; cases hk
    rw [if_neg hs] at hk
    obtain rfl := Option.some.inj hk
    by_cases ht : t < N
    · have e1 := h3 t ht (by omega)
      have e2 := hw t ht (by omega)
      have := abs_add_le (p t - w t) (w t)
      rw [sub_add_cancel] at this
      linarith
    · rw [h4 t (by omega), abs_zero]; linarith
  obtain ⟨y, g1, g2⟩ := C68_wma A L d hlen h53 hu h1 (add_nonneg hM he) hp htop N
  refine ⟨y, g1.input_congr fun t ht => h2 t ht, fun t ht => ?_⟩
  have g3 := g2 t ht
  rw [fullWindow_startAt s p hlen] at g3
  unfold startAt
  by_cases hts : t < s + len - 1
  · rw [if_neg (by omega)] at g3
    rw [if_pos hts]
    exact g3
  · rw [if_pos (by omega)] at g3
    rw [if_neg hts]
    obtain ⟨a, a1, v, a2, a3⟩ := g3
    refine ⟨a, a1, v, a2, ?_⟩
    have h5 := weightedMean_near (p := p) (w := w) hlen (show len ≤ t + 1 by omega) fun k hk1 hk2 => h3 k (by omega) (by omega)
    have h6 := abs_add_le (v - weightedMean (win p len t)) (weightedMean (win p len t) - weightedMean (win w len t))
    rw [sub_add_sub_cancel] at h6
    linarith

/-- The Coppock curve as a line of numbers. -/
def Spec.coppockLine (len a b : Nat) (x : Nat → K) (t : Nat) : K := weightedMean (win (fun t => rateLine a x t + rateLine b x t) len t)

theorem rateLine_abs {x : Nat → K} {M m : K} (hm : 0 < m) {n t : Nat} (h1 : |x t| ≤ M) (h2 : |x (t - n)| ≤ M) (h3 : m ≤ |x (t - n)|) :
    |rateLine n x t| ≤ 100 * (2 * M / m) := by
  have h100 : |(100 : K)| = 100 := abs_of_nonneg (by norm_num)
  have hdiff : |x t - x (t - n)| ≤ 2 * M := by have := abs_sub (x t) (x (t - n)); linarith
  unfold rateLine
  rw [abs_div, abs_mul, h100, ← mul_div_assoc, div_le_div_iff₀ (lt_of_lt_of_le hm h3) hm]
  have := mul_le_mul hdiff h3 hm.le ((abs_nonneg _).trans hdiff)
  linarith

include A L in
/-- **C96.** The Coppock curve of any lengths and price source on prices up to `M` and not below `m` in size: within
`(13390 (u M + η) / m + (3200 + 2900 len) u) (1 + 2 M / m)` of the exact curve; and it begins on the same bar. -/
theorem C96_coppock {d : DataProvider α} {N : Nat} {o h l c v : Nat → K} {M : K} (hb : PricedBars V d N o h l c v M) (hM : 0 ≤ M)
    {src : SrcKind} (hs : src ≠ .volume) {len a b : Nat} (hlen : 1 ≤ len) (ha : 1 ≤ a) (hb' : 1 ≤ b)
    (h53 : len * len * (len + 1) / 2 ≤ 2 ^ 53) (hu : 2 * (len : K) * u ≤ 1) {m : K} (hm : 0 < m) (hDm : 26 * (u * M + η) ≤ m)
    (away : ∀ t, t < N → m ≤ |sourceValue src o h l c v t|) (h1 : 5000 * (M + η) ≤ top) (h2 : 1500 * ((len : K) * len * (len + 1)) * (1 + 2 * M / m) ≤ top) :
    ∃ y, Runs (noInput fun t => withSrc src CoppockCurve.next ⟨d, t⟩) (CoppockCurve.new len a b) unit N y ∧
      StaysNear V y (max a b + len - 1) (coppockLine len a b (sourceValue src o h l c v))
        ((13390 * ((u * M + η) / m) + (3200 + 2900 * len) * u) * (1 + 2 * M / m)) N := by
  have hu0 := A.u_nonneg
  have hus := A.u_small
  have hη := A.η_nonneg
  have hηu : η ≤ u / 1024 := A.η_small.trans (by have := mul_le_mul_of_nonneg_right hus hu0; linarith)
  have huM : 0 ≤ u * M := mul_nonneg hu0 hM
  have hδ : 0 ≤ u * M + η := by positivity
  have hl1 : (1 : K) ≤ len := by exact_mod_cast hlen
  have hQ0 : 0 ≤ 2 * M / m := by positivity
  have hL1 : (2 : K) * len ≤ (len : K) * len * (len + 1) := by
    have := mul_le_mul hl1 (show (2 : K) ≤ len + 1 by linarith) (by norm_num) (by linarith)
    have := mul_le_mul_of_nonneg_left this (show (0 : K) ≤ len by linarith)
    linarith
  have hL : (2 : K) ≤ (len : K) * len * (len + 1) := by linarith
  have h800 : 800 * (1 + 2 * M / m) ≤ top := by
    have := mul_le_mul_of_nonneg_right (show (800 : K) ≤ 1500 * ((len : K) * len * (len + 1)) by linarith) (show 0 ≤ 1 + 2 * M / m by linarith)
    linarith
  obtain ⟨x, x1, x2⟩ := C92_source A L hb hM (by linarith) hs
  generalize hp : sourceValue src o h l c v = p at *
  have pb : ∀ t, t < N → |p t| ≤ M := fun t ht => by rw [← hp]; exact sourceValue_abs (hb.bound t ht) hs
  have d13 : (2 * (5 : K) + 3) * (u * M + η) = 13 * (u * M + η) := by ring
  obtain ⟨ra, ra1, ra2⟩ := C96_roc A L hM (by norm_num) x2 pb ha hm (by linarith) away h1 h800
  obtain ⟨rb, rb1, rb2⟩ := C96_roc A L hM (by norm_num) x2 pb hb' hm (by linarith) away h1 h800
  rw [d13, mul_div_assoc] at ra2 rb2
  have bound : ∀ n t, t < N → |rateLine n p t| ≤ 100 * (2 * M / m) := fun n t ht => rateLine_abs hm (pb t ht) (pb _ (by omega)) (away _ (by omega))
  have hG : (u * M + η) / m ≤ 1 / 26 := by rw [div_le_div_iff₀ hm (by norm_num)]; linarith
  have hG0 : 0 ≤ (u * M + η) / m := div_nonneg hδ hm.le
  generalize (u * M + η) / m = g at *
  generalize 2 * M / m = Q at *
  have gQ : g * (1 + Q) ≤ 1 / 26 * (1 + Q) := mul_le_mul_of_nonneg_right hG (by linarith)
  have gQ0 : 0 ≤ g * (1 + Q) := by positivity
  have uQ : u * (1 + Q) ≤ 1 / 1024 * (1 + Q) := mul_le_mul_of_nonneg_right hus (by linarith)
  have uQ0 : 0 ≤ u * (1 + Q) := by positivity
  have k1 := mul_le_mul_of_nonneg_right hus gQ0
  have k2 := mul_le_mul_of_nonneg_right hus uQ0
  have k3 : 0 ≤ u * Q := mul_nonneg hu0 hQ0
  have sum : StaysNear V (fun t => opt2 (· + ·) (ra t) (rb t)) (max a b) (fun t => rateLine a p t + rateLine b p t) (13390 * (g * (1 + Q)) + 1030 * (u * (1 + Q))) N := by
    intro t ht
    unfold startAt
    by_cases hts : t < max a b
    · rw [if_pos hts]
      show opt2 _ (ra t) (rb t) = none
      by_cases h1 : t < a
      · rw [stays_before ra2 ht h1]; rfl
      · rw [stays_before rb2 ht (by omega)]; cases ra t <;> rfl
    · rw [if_neg hts]
      obtain ⟨z1, g1, g2⟩ := stays_at ra2 ht (by omega)
      obtain ⟨z2, g3, g4⟩ := stays_at rb2 ht (by omega)
      have b1 := bound a t ht
      have b2 := bound b t ht
      refine ⟨_, by simp only [g1, g3]; rfl, (g2.add A g4 (m := 200 * Q) ?_ ?_).mono ?_⟩
      · rw [abs_le] at b1 b2 ⊢; constructor <;> linarith
      · linarith
      · linarith
  have room : 4 * ((len : K) * len * (len + 1) / 2) * (200 * Q + (13390 * (g * (1 + Q)) + 1030 * (u * (1 + Q)))) + 4 * len * η ≤ top := by
    have e1 := mul_le_mul_of_nonneg_left (show 200 * Q + (13390 * (g * (1 + Q)) + 1030 * (u * (1 + Q))) ≤ 717 * (1 + Q) by linarith) (show 0 ≤ (len : K) * len * (len + 1) by linarith)
    have e2 : 4 * (len : K) * η ≤ 2 * len := by
      have := mul_le_mul_of_nonneg_left (show η ≤ 1 / 2 by linarith) (show (0 : K) ≤ 4 * len by linarith)
      linarith
    have e3 := mul_le_mul_of_nonneg_left (show 1 ≤ 1 + Q by linarith) (show 0 ≤ (len : K) * len * (len + 1) by linarith)
    linarith
  obtain ⟨y, y1, y2⟩ := C96_wma A L d hlen h53 hu sum (M := 200 * Q) (by linarith) (by positivity)
    (fun t ht _ => by
      have b1 := bound a t ht
      have b2 := bound b t ht
      rw [abs_le] at b1 b2 ⊢; constructor <;> linarith) room
  refine ⟨_, withSrc_runs x1 (C53_coppock d ra1 rb1 y1), y2.mono ?_⟩
  have f1 : u * (200 * Q + (13390 * (g * (1 + Q)) + 1030 * (u * (1 + Q)))) + η ≤ 718 * (u * (1 + Q)) := by
    have := mul_le_mul_of_nonneg_left gQ hu0
    linarith
  have f2 := mul_le_mul_of_nonneg_left f1 (show (0 : K) ≤ 4 * len + 3 by linarith)
  have f3 : (len : K) * 0 ≤ len * (u * (1 + Q)) := mul_le_mul_of_nonneg_left uQ0 (by linarith)
  linarith

include A L in
/-- **C96.** The Coppock curve program of any lengths and price source on prices up to `M` and not below `m` in size. -/
theorem C96_coppock_program {d : DataProvider α} {N : Nat} {o h l c v : Nat → K} {M : K} (hb : PricedBars V d N o h l c v M) (hM : 0 ≤ M)
    {dx : DataProvider (Ex K)} (hx : ExBars dx N o h l c v) {src : SrcKind} (hs : src ≠ .volume) {len a b : Nat} (hlen : 1 ≤ len) (ha : 1 ≤ a) (hb' : 1 ≤ b)
    (h53 : len * len * (len + 1) / 2 ≤ 2 ^ 53) (hu : 2 * (len : K) * u ≤ 1) {m : K} (hm : 0 < m) (hDm : 26 * (u * M + η) ≤ m)
    (away : ∀ t, t < N → m ≤ |sourceValue src o h l c v t|) (h1 : 5000 * (M + η) ≤ top) (h2 : 1500 * ((len : K) * len * (len + 1)) * (1 + 2 * M / m) ≤ top)
    {th : Thresholds α} {thx : Thresholds (Ex K)} {lo hi : K} (t1 : V.val th.oversold = Fl.of R (.fin lo)) (t2 : V.val th.overbought = Fl.of R (.fin hi))
    (t3 : thx.oversold = fin lo) (t4 : thx.overbought = fin hi) :
    let line := coppockLine len a b (sourceValue src o h l c v)
    let e := (13390 * ((u * M + η) / m) + (3200 + 2900 * len) * u) * (1 + 2 * M / m)
    (∀ t, t < N → max a b + len - 1 ≤ t → e < |line t - lo| ∧ e < |line t - hi|) →
    ∀ (cfg : StrategyConfig α) (cfgx : StrategyConfig (Ex K)) (rfr : α) (rfrx : Ex K),
    SameSignals d dx N (withSrc src CoppockCurve.next) (CoppockCurve.new len a b) ThresholdStrategy.next (CoppockCurveStrategy.new th) cfg rfr
      (withSrc src CoppockCurve.next) (CoppockCurve.new len a b) ThresholdStrategy.next (CoppockCurveStrategy.new thx) cfgx rfrx
      (lineSignal (max a b + len - 1) line lo hi) := by
  intro line e far cfg cfgx rfr rfrx
  obtain ⟨y, r, near⟩ := C96_coppock A L hb hM hs hlen ha hb' h53 hu hm hDm away h1 h2
  obtain ⟨o', h', l', c', v', b1, -⟩ := hb.bars
  refine (C92_line_program b1 hx r near ((C53_coppock_exact hx src hlen ha hb').congr fun t ht => ?_) t1 t2 t3 t4 far cfg cfgx rfr rfrx).1
  have ev : ∀ k, k ≤ t → (fun t => opt2 (· + ·) (rateOfChange (sourceValue src o h l c v) a t) (rateOfChange (sourceValue src o h l c v) b t)) k =
      startAt (max a b) (fun t => rateLine a (sourceValue src o h l c v) t + rateLine b (sourceValue src o h l c v) t) k := by
    intro k hk
    have ne : ∀ n, sourceValue src o h l c v (k - n) ≠ 0 := fun n e => by
      have := away (k - n) (by omega)
      rw [e, abs_zero] at this
      linarith
    have hrate : ∀ n, rateOfChange (sourceValue src o h l c v) n k = if k < n then none else some (rateLine n (sourceValue src o h l c v) k) := fun n => by
      unfold rateOfChange rateLine
      by_cases hkn : k < n
      · rw [if_pos hkn, if_neg (by omega)]
      · rw [if_neg hkn, if_pos ⟨by omega, ne n⟩]
    show opt2 _ (rateOfChange _ a k) (rateOfChange _ b k) = _
    rw [hrate a, hrate b]
    unfold startAt
    by_cases h1 : k < a
    · rw [if_pos h1, if_pos (show k < max a b by omega)]; rfl
    · by_cases h2 : k < b
      · rw [if_neg h1, if_pos h2, if_pos (show k < max a b by omega)]; rfl
      · rw [if_neg h1, if_neg h2, if_neg (show ¬ k < max a b by omega)]; rfl
  rw [fullWindow_agree hlen ev, fullWindow_startAt _ _ hlen]
  show _ = Option.map fin (startAt (max a b + len - 1) _ t)
  unfold startAt
  by_cases hts : t < max a b + len - 1
  · rw [if_pos hts, if_neg (by omega)]; rfl
  · rw [if_neg hts, if_pos (by omega)]; rfl

end

end Pace
