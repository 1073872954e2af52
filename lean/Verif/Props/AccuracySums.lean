import Verif.Props.AccuracyLines

/-!
# C95: sums and ratios of sums in floats against exact ones

The running sum drifts: its error grows with the number of bars, not only with the length.
-/

set_option linter.unusedSectionVars false

namespace Pace
open Spec
variable {K : Type} [Field K] [LinearOrder K] [IsStrictOrderedRing K] [RootOps K] {R : Rounding K}
variable {α : Type} [F64 α]

theorem sum_win_near {p w : Nat → K} {e : K} {n t : Nat} (ht : n ≤ t + 1) (h : ∀ k, t + 1 - n ≤ k → k ≤ t → |p k - w k| ≤ e) :
    |(win p n t).sum - (win w n t).sum| ≤ n * e := by
  have key : ∀ m, m ≤ n → |((List.range m).map fun i => p (t + 1 - n + i)).sum - ((List.range m).map fun i => w (t + 1 - n + i)).sum| ≤ m * e := by
    intro m
    induction m with
    | zero => intro _; simp
    | succ m ih =>
      intro hm
      have h1 := abs_le.mp (ih (by omega))
      have h2 := abs_le.mp (h (t + 1 - n + m) (by omega) (by omega))
      rw [List.range_succ, List.map_append, List.map_append, List.sum_append, List.sum_append]
      simp only [List.map_cons, List.map_nil, List.sum_cons, List.sum_nil, add_zero]
      push_cast
      rw [abs_le]
      constructor <;> linarith
  exact key n le_rfl

theorem sum_win_abs {w : Nat → K} {e : K} {n t : Nat} (ht : n ≤ t + 1) (h : ∀ k, t + 1 - n ≤ k → k ≤ t → |w k| ≤ e) :
    |(win w n t).sum| ≤ n * e := by
  have h0 : (win (fun _ => (0 : K)) n t).sum = 0 := by unfold win; simp
  have := sum_win_near (p := w) (w := fun _ => 0) ht (e := e) fun k h1 h2 => by rw [sub_zero]; exact h k h1 h2
  rwa [h0, sub_zero] at this

section
variable {V : Valued R α} {u η top : K} (A : R.Accurate u η top) (L : R.Lawful)

include A L in
/-- **C95.** The running sum of the last `len` of floats that are within `e` of the numbers `w` from tick `s` on, none beyond `M`: within
`len` times `e` plus its own rounding errors, which grow with the number of bars. -/
theorem C95_sum (d : DataProvider α) {len : Nat} (hlen : 1 ≤ len) {x : Nat → Option α} {s : Nat} {w : Nat → K} {e : K} {N : Nat}
    (h : StaysNear V x s w e N) {M : K} (hM : 0 ≤ M) (he : 0 ≤ e) (hw : ∀ t, t < N → s ≤ t → |w t| ≤ M) (hu : 2 * (N : K) * u ≤ 1)
    (htop : 3 * (len * (M + e)) + 4 * (N : K) * η ≤ top) :
    ∃ y, Runs (fun t => Sum.next ⟨d, t⟩) (Sum.new len) x N y ∧
      StaysNear V y (s + len - 1) (fun t => (win w len t).sum) (len * e + (4 * N + 2) * (u * (len * (M + e)) + η)) N := by
  have hu0 := A.u_nonneg
  have hη := A.η_nonneg
  obtain ⟨p, x', h1, h2, h3, h4⟩ := stays_reads L h
  have hp : ∀ t k, startAt s p t = some k → |k| ≤ M + e := by
    intro t k hk
    unfold startAt at hk
    by_cases hs : t < s
    · rw [if_pos hs] at hk; cases hk
    rw [if_neg hs] at hk
    obtain rfl := Option.some.inj hk
    by_cases ht : t < N
    · have e1 := h3 t ht (by omega)
      have e2 := hw t ht (by omega)
      have := abs_add_le (p t - w t) (w t)
      rw [sub_add_cancel] at this
      linarith
    · rw [h4 t (by omega), abs_zero]; linarith
  have hNs : ((2 * (N - s) : Nat) : K) ≤ 2 * N := by
    have : ((2 * (N - s) : Nat) : K) ≤ ((2 * N : Nat) : K) := by exact_mod_cast (by omega)
    push_cast at this ⊢
    exact this
  obtain ⟨y, g1, g2⟩ := C68_sum A L d hlen h1 (add_nonneg hM he) hp (fun t ht => if_pos ht) (N := N)
    ((mul_le_mul_of_nonneg_right hNs hu0).trans hu) (by
      have := mul_le_mul_of_nonneg_right hNs hη
      linarith)
  refine ⟨y, g1.input_congr fun t ht => h2 t ht, fun t ht => ?_⟩
  have g3 := g2 t ht
  rw [fullWindow_startAt s p hlen] at g3
  unfold startAt
  by_cases hts : t < s + len - 1
  · rw [if_neg (by omega)] at g3
    rw [if_pos hts]
    exact g3
  · rw [if_pos (by omega)] at g3
    rw [if_neg hts]
    obtain ⟨a, a1, v, a2, a3⟩ := g3
    refine ⟨a, a1, v, a2, ?_⟩
    have h5 := sum_win_near (p := p) (w := w) (show len ≤ t + 1 by omega) fun k hk1 hk2 => h3 k (by omega) (by omega)
    have h6 := abs_add_le (v - (win p len t).sum) ((win p len t).sum - (win w len t).sum)
    rw [sub_add_sub_cancel] at h6
    have h7 : ((t - s : Nat) : K) ≤ N := by exact_mod_cast (by omega)
    have h8 : 0 ≤ u * (len * (M + e)) + η := by positivity
    have h9 := mul_le_mul_of_nonneg_right (show (4 * ((t - s : Nat) : K) + 2) ≤ 4 * N + 2 by linarith) h8
    linarith

/-- With room for it and inputs of at most `2 M` known up to `c` roundings, a sum is known up to `len (c + 6 + 12 N)` roundings. -/
theorem sum_room (A : R.Accurate u η top) (L : R.Lawful) (d : DataProvider α) {len k : Nat} (hlen : 1 ≤ len) {N : Nat} (hk : len + N + 1 ≤ k) {M : K} (hM : 0 ≤ M) (hr : Room u η top k M)
    {x : Nat → Option α} {s : Nat} {w : Nat → K} {c : K} (hc0 : 0 ≤ c) (hc : c ≤ 100) (h : StaysNear V x s w (c * (u * M + η)) N)
    (hw : ∀ t, t < N → s ≤ t → |w t| ≤ 2 * M) :
    ∃ y, Runs (fun t => Sum.next ⟨d, t⟩) (Sum.new len) x N y ∧
      StaysNear V y (s + len - 1) (fun t => (win w len t).sum) (len * (c + 6 + 12 * N) * (u * M + η)) N := by
  have hu0 := A.u_nonneg
  have hus := A.u_small
  have hη := A.η_nonneg
  have huM : 0 ≤ u * M := mul_nonneg hu0 hM
  have hδ : 0 ≤ u * M + η := by positivity
  have sM : u * M ≤ M / 1024 := by have := mul_le_mul_of_nonneg_right hus hM; linarith
  have hkk : (len : K) + N + 1 ≤ k := by exact_mod_cast hk
  have hl0 : (1 : K) ≤ len := by exact_mod_cast hlen
  have hN0 : (0 : K) ≤ N := Nat.cast_nonneg _
  have cδ : c * (u * M + η) ≤ 100 * (u * M + η) := mul_le_mul_of_nonneg_right hc hδ
  have hku : 2 * (N : K) * u ≤ 1 := by
    have := mul_le_mul_of_nonneg_right (show 2 * (N : K) ≤ 1000 * k by linarith) hu0
    linarith [hr.fine]
  obtain ⟨y, g1, g2⟩ := C95_sum A L d hlen h (M := 2 * M) (by linarith) (by positivity) hw hku (by
    have e1 : 3 * ((len : K) * (2 * M + c * (u * M + η))) ≤ 3 * ((len : K) * (2 * M + 100 * (M / 1024 + η))) := by
      have := mul_le_mul_of_nonneg_left (show 2 * M + c * (u * M + η) ≤ 2 * M + 100 * (M / 1024 + η) by linarith) (show (0 : K) ≤ len by linarith)
      linarith
    have e2 := mul_le_mul_of_nonneg_right hkk (show 0 ≤ M + η by linarith)
    have e3 : 0 ≤ (len : K) * M := by positivity
    have e4 : 0 ≤ (len : K) * η := by positivity
    have e5 : 0 ≤ (N : K) * M := by positivity
    have e6 : 0 ≤ (N : K) * η := by positivity
    have e7 := hr.wide
    linarith)
  refine ⟨y, g1, g2.mono ?_⟩
  have e1 : u * (2 * M + c * (u * M + η)) + η / len ≤ 3 * (u * M + η) := by
    have h1 : η / len ≤ η := div_le_self hη hl0
    have h2 := mul_le_mul_of_nonneg_left cδ hu0
    have h3 := mul_le_mul_of_nonneg_right hus hδ
    have h4 : u * (100 * (u * M + η)) ≤ 100 / 1024 * (u * M + η) := by linarith
    linarith
  have e2 : u * (len * (2 * M + c * (u * M + η))) + η ≤ len * (3 * (u * M + η)) := by
    have := mul_le_mul_of_nonneg_left e1 (show (0 : K) ≤ len by linarith)
    have h2 : (len : K) * (η / len) = η := by field_simp
    linarith
  have e3 := mul_le_mul_of_nonneg_left e2 (show (0 : K) ≤ 4 * N + 2 by linarith)
  linarith

theorem Spec.Near.min {a b : α} {x y e : K} (ha : Near V a x e) (hb : Near V b y e) : Near V (F64.fmin a b) (Min.min x y) e := by
  obtain ⟨v, h1, h2⟩ := ha
  obtain ⟨w, h3, h4⟩ := hb
  refine ⟨Min.min v w, ?_, ?_⟩
  · rw [V.fmin, h1, h3]
    refine (show (Fl.fmin (.fin v) (.fin w) : Ext K) = .fin (Min.min v w) from ?_)
    unfold Fl.fmin
    by_cases h : v ≤ w
    · rw [min_eq_left h]
      exact if_pos (decide_eq_true h)
    · rw [min_eq_right (le_of_not_ge h)]
      exact if_neg (by rw [show (Ext.fin v).le (Ext.fin w) = decide (v ≤ w) from rfl]; simpa using h)
  · exact (abs_min_sub_min_le_max v w x y).trans (max_le h2 h4)

/-- A change between two floats. -/
theorem near_change (A : R.Accurate u η top) {M : K} (hM : 0 ≤ M) (hw : 20 * (M + η) ≤ top) {a b : α} {x y c : K} (hc : c ≤ 10)
    (ha : Near V a x (c * (u * M + η))) (hb : Near V b y (c * (u * M + η))) (hx : |x| ≤ M) (hy : |y| ≤ M) :
    Near V (a - b) (x - y) ((2 * c + 3) * (u * M + η)) := by
  have hu0 := A.u_nonneg
  have hus := A.u_small
  have hη := A.η_nonneg
  have huM : 0 ≤ u * M := mul_nonneg hu0 hM
  have hδ : 0 ≤ u * M + η := by positivity
  have sM : u * M ≤ M / 1024 := by have := mul_le_mul_of_nonneg_right hus hM; linarith
  have cδ : c * (u * M + η) ≤ 10 * (u * M + η) := mul_le_mul_of_nonneg_right hc hδ
  rw [abs_le] at hx hy
  refine (ha.sub A hb (m := 2 * M) (abs_le.mpr ⟨by linarith, by linarith⟩) ?_).mono ?_
  · linarith
  · have h2 := mul_le_mul_of_nonneg_left cδ hu0
    have h3 := mul_le_mul_of_nonneg_right hus hδ
    linarith

/-- The Chande momentum oscillator as a line of numbers: `100 (G - D) / (G + D)` for the sums `G` of the gains and `D` of the losses of the
last `n` changes. -/
def Spec.momentumLine (n : Nat) (x : Nat → K) (t : Nat) : K :=
  100 * ((win (gain x) n t).sum - (win (loss x) n t).sum) / ((win (gain x) n t).sum + (win (loss x) n t).sum)

/-- `100 (g - d) / (g + d)` for floats near two numbers of the same sign. -/
theorem near_balance (A : R.Accurate u η top) (L : R.Lawful) {g d : α} {G D S B m : K} (hg : Near V g G S) (hd : Near V d D S) (hG : 0 ≤ G)
    (hD : 0 ≤ D) (hB : G + D ≤ B) (hm : 0 < m) (hGD : m ≤ G + D) (hSm : 6 * S ≤ m) (huB : u * B + η ≤ S / 2) (htop : 200 * (B + S) ≤ top) (h2 : 1024 ≤ top) :
    Near V (lit 100 * (g - d) / (g + d)) (100 * (G - D) / (G + D)) (1400 * (S / m) + 102 * u) ∧ F64.feq g (-d) = false := by
  have hu0 := A.u_nonneg
  have hus := A.u_small
  have hη := A.η_nonneg
  have hηu := A.η_small
  have hS : 0 ≤ S := hg.nonneg
  have lit100 : V.val (lit (100 : ℚ)) = Fl.of R (.fin (100 : K)) := by
    have := val_lit_nat (V := V) L (n := 100) (by norm_num); exact_mod_cast this
  have h100 : |(100 : K)| = 100 := abs_of_nonneg (by norm_num)
  have uS : u * S ≤ S / 1024 := by have := mul_le_mul_of_nonneg_right hus hS; linarith
  have hp : 0 < G + D := by linarith
  have hdiff : |G - D| ≤ B := abs_le.mpr ⟨by linarith, by linarith⟩
  have hsum : |G + D| ≤ B := by rw [abs_of_pos hp]; exact hB
  have n1 : Near V (g - d) (G - D) (3 * S) := (hg.sub A hd (m := B) hdiff (by linarith)).mono (by linarith)
  have n2 : Near V (g + d) (G + D) (3 * S) := (hg.add A hd (m := B) hsum (by linarith)).mono (by linarith)
  have n3 : Near V (lit 100 * (g - d)) (100 * (G - D)) (360 * S) := by
    refine ((near_of_val lit100).mul A n1 (m := 100 * B) (by rw [abs_mul, h100]; linarith) ?_).mono ?_
    · rw [h100]; linarith
    · rw [h100]
      have e1 : u * (100 * B + (100 * (3 * S) + |G - D| * 0 + 0 * (3 * S))) = 100 * (u * B) + 300 * (u * S) := by ring
      rw [e1]
      linarith
  have hq : |100 * (G - D) / (G + D)| ≤ 100 := by
    rw [abs_div, abs_mul, h100, abs_of_pos hp, div_le_iff₀ hp]
    have : |G - D| ≤ G + D := abs_le.mpr ⟨by linarith, by linarith⟩
    linarith
  have e1 : 2 * (360 * S + 100 * (3 * S)) / m = 1320 * (S / m) := by ring
  have hSq : S / m ≤ 1 / 6 := by rw [div_le_div_iff₀ hm (by norm_num)]; linarith
  have hS0 : 0 ≤ S / m := div_nonneg hS hm.le
  constructor
  · refine (n3.quot A n2 hm (by rw [abs_of_pos hp]; exact hGD) (by linarith) hq ?_).mono ?_
    · rw [e1]; linarith
    · rw [e1]
      have e3 := mul_le_mul_of_nonneg_right hus hS0
      have e4 := mul_le_mul_of_nonneg_right hus hu0
      linarith
  · obtain ⟨v, v1, v2⟩ := hg
    obtain ⟨w, w1, w2⟩ := hd
    rw [V.feq, V.neg, v1, w1]
    refine (val_feq_fin v (-w)).trans (decide_eq_false fun e => ?_)
    rw [abs_le] at v2 w2
    linarith

/-- The error of a sum is small against the sum of the bounds. -/
theorem sum_error_room (A : R.Accurate u η top) {len N k : Nat} (hk : len + N + 1 ≤ k) {M : K} (hM : 0 ≤ M) (hr : Room u η top k M) {C : K} (hC0 : 0 ≤ C)
    (hC : C ≤ 100) : len * (C + 12 * N) * (u * M + η) ≤ len * M / 8 + 1 / 1000 := by
  have hu0 := A.u_nonneg
  have hus := A.u_small
  have hη := A.η_nonneg
  have hηu := A.η_small
  have hl0 : (0 : K) ≤ len := Nat.cast_nonneg _
  have hN0 : (0 : K) ≤ N := Nat.cast_nonneg _
  have hkk : (len : K) + N + 1 ≤ k := by exact_mod_cast hk
  have hf := hr.fine
  have uN : (N : K) * u ≤ 1 / 1000 := by have := mul_le_mul_of_nonneg_right (show (N : K) ≤ k by linarith) hu0; linarith
  have ul : (len : K) * u ≤ 1 / 1000 := by have := mul_le_mul_of_nonneg_right (show (len : K) ≤ k by linarith) hu0; linarith
  have cu : (C + 12 * N) * u ≤ 1 / 8 := by have := mul_le_mul_of_nonneg_right hC hu0; linarith
  have ul0 : 0 ≤ (len : K) * u := by positivity
  have c0 : 0 ≤ (C + 12 * N) * u := by positivity
  have e1 : len * ((C + 12 * N) * u * M) ≤ len * (1 / 8 * M) := mul_le_mul_of_nonneg_left (mul_le_mul_of_nonneg_right cu hM) hl0
  have e2 : len * (C + 12 * N) * η ≤ len * (C + 12 * N) * (u * u) := mul_le_mul_of_nonneg_left hηu (by positivity)
  have e3 : (len : K) * u * ((C + 12 * N) * u) ≤ 1 / 1000 * (1 / 8) := mul_le_mul ul cu c0 (by norm_num)
  have e4 : len * (C + 12 * N) * (u * M + η) = len * ((C + 12 * N) * u * M) + len * (C + 12 * N) * η := by ring
  have e5 : len * (C + 12 * N) * (u * u) = (len : K) * u * ((C + 12 * N) * u) := by ring
  rw [e4]
  rw [e5] at e2
  linarith

include A L in
/-- **C95.** The Chande momentum oscillator of any length and price source where the sums of the gains and the losses add up to at least `m`:
within `1400 S / m + 102 u` of the exact one, `S` being `len (19 + 12 N)` roundings; and it begins on the same bar. -/
theorem C95_cmo {d : DataProvider α} {N : Nat} {o h l c v : Nat → K} {M : K} (hb : PricedBars V d N o h l c v M) (hM : 0 ≤ M)
    {src : SrcKind} (hs : src ≠ .volume) {len k : Nat} (hlen : 2 ≤ len) (hk : len + N + 1 ≤ k) (hr : Room u η top k M) (htop : 1024 ≤ top)
    {m : K} (hm : 0 < m) (hSm : 6 * (len * (19 + 12 * N) * (u * M + η)) ≤ m)
    (moves : ∀ t, t < N → len ≤ t → m ≤ (win (gain (sourceValue src o h l c v)) len t).sum + (win (loss (sourceValue src o h l c v)) len t).sum) :
    ∃ y, Runs (noInput fun t => withSrc src ChandeMomentumOscillator.next ⟨d, t⟩) (ChandeMomentumOscillator.new len) unit N y ∧
      StaysNear V y len (momentumLine len (sourceValue src o h l c v)) (1400 * (len * (19 + 12 * N) * (u * M + η) / m) + 102 * u) N := by
  have hu0 := A.u_nonneg
  have hη := A.η_nonneg
  have hl1 : (2 : K) ≤ len := by exact_mod_cast hlen
  have hN0 : (0 : K) ≤ N := Nat.cast_nonneg _
  have hkk : (len : K) + N + 1 ≤ k := by exact_mod_cast hk
  have huM : 0 ≤ u * M := mul_nonneg hu0 hM
  have hwide : (1000 : K) * ((len : K) + N + 1) * (M + η) ≤ top := (mul_le_mul_of_nonneg_right (by linarith) (by positivity)).trans hr.wide
  have h20 : 20 * (M + η) ≤ top := (mul_le_mul_of_nonneg_right (by linarith) (by positivity)).trans hwide
  obtain ⟨x, x1, x2⟩ := C92_source A L hb hM (by linarith) hs
  generalize hp : sourceValue src o h l c v = p at *
  have pb : ∀ t, t < N → |p t| ≤ M := fun t ht => by rw [← hp]; exact sourceValue_abs (hb.bound t ht) hs
  have h0 : Near V (lit 0) 0 (13 * (u * M + η)) := (near_of_val (V.lit 0 |>.trans (lit_zero L))).mono (by positivity)
  have chg : ∀ t, t + 1 < N → ∃ a b, x t = some a ∧ x (t + 1) = some b ∧ Near V (b - a) (p (t + 1) - p t) (13 * (u * M + η)) := by
    intro t ht
    obtain ⟨a, a1, a2⟩ := stays_at x2 (show t < N by omega) (Nat.zero_le t)
    obtain ⟨b, b1, b2⟩ := stays_at x2 ht (Nat.zero_le _)
    exact ⟨a, b, a1, b1, (near_change A hM h20 (c := 5) (by norm_num) b2 a2 (pb _ ht) (pb t (by omega))).mono (le_of_eq (by ring))⟩
  have ng : StaysNear V (fun t => opt2 (fun a p => F64.fmax (lit 0) (a - p)) (x t) (prev x t)) 1 (gain p) (13 * (u * M + η)) N := by
    intro t ht
    cases t with
    | zero => cases hx : x 0 <;> simp [Within, startAt, prev, opt2, hx]
    | succ t =>
      obtain ⟨a, b, a1, b1, c1⟩ := chg t ht
      unfold startAt
      rw [if_neg (by omega)]
      refine ⟨F64.fmax (lit 0) (b - a), by simp [prev, a1, b1, opt2], ?_⟩
      have := h0.max c1
      rwa [max_comm] at this
  have nl : StaysNear V (fun t => opt2 (fun a p => F64.abs (F64.fmin (lit 0) (a - p))) (x t) (prev x t)) 1 (loss p) (13 * (u * M + η)) N := by
    intro t ht
    cases t with
    | zero => cases hx : x 0 <;> simp [Within, startAt, prev, opt2, hx]
    | succ t =>
      obtain ⟨a, b, a1, b1, c1⟩ := chg t ht
      unfold startAt
      rw [if_neg (by omega)]
      refine ⟨F64.abs (F64.fmin (lit 0) (b - a)), by simp [prev, a1, b1, opt2], ?_⟩
      have := (h0.min c1).abs
      have e : loss p (t + 1) = |min 0 (p (t + 1) - p t)| := by
        rw [abs_of_nonpos (min_le_left _ _), ← max_neg_neg, neg_zero, max_comm]
        simp [loss]
      rwa [← e] at this
  have gb : ∀ t, t < N → 1 ≤ t → |gain p t| ≤ 2 * M ∧ |loss p t| ≤ 2 * M ∧ |gain p t + loss p t| ≤ 2 * M := by
    intro t ht _
    have b1 := abs_le.mp (pb t ht)
    have b2 := abs_le.mp (pb (t - 1) (by omega))
    unfold gain loss
    refine ⟨?_, ?_, ?_⟩
    · rw [abs_of_nonneg (le_max_right _ _)]; exact max_le (by linarith) (by linarith)
    · rw [abs_of_nonneg (le_max_right _ _)]; exact max_le (by linarith) (by linarith)
    · rw [abs_of_nonneg (add_nonneg (le_max_right _ _) (le_max_right _ _))]
      rcases le_total (p t) (p (t - 1)) with hh | hh
      · rw [max_eq_right (by linarith), max_eq_left (by linarith)]; linarith
      · rw [max_eq_left (by linarith), max_eq_right (by linarith)]; linarith
  obtain ⟨g, g1, g2⟩ := sum_room A L d (show 1 ≤ len by omega) hk hM hr (by norm_num) (by norm_num) ng fun t ht hs => (gb t ht hs).1
  obtain ⟨z, z1, z2⟩ := sum_room A L d (show 1 ≤ len by omega) hk hM hr (by norm_num) (by norm_num) nl fun t ht hs => (gb t ht hs).2.1
  have er := sum_error_room A hk hM hr (C := 19) (by norm_num) (by norm_num)
  rw [show (13 : K) + 6 + 12 * N = 19 + 12 * N by ring, show 1 + len - 1 = len by omega] at g2 z2
  refine ⟨_, withSrc_runs x1 (C53_cmo d hlen g1 z1), fun t ht => ?_⟩
  unfold startAt
  by_cases hts : t < len
  · rw [if_pos hts]
    show Option.join (opt2 _ (g t) (z t)) = none
    rw [stays_before g2 ht hts]; rfl
  · rw [if_neg hts]
    obtain ⟨a, a1, a2⟩ := stays_at g2 ht (by omega)
    obtain ⟨b, b1, b2⟩ := stays_at z2 ht (by omega)
    have hB := sum_win_abs (w := fun t => gain p t + loss p t) (show len ≤ t + 1 by omega) fun k h1 h2 => (gb k (by omega) (by omega)).2.2
    have hsplit : (win (fun t => gain p t + loss p t) len t).sum = (win (gain p) len t).sum + (win (loss p) len t).sum := by
      unfold win; exact List.sum_map_add
    rw [hsplit] at hB
    have hlM : 0 ≤ (len : K) * M := by positivity
    have big : 425 * ((len : K) * M) + 1 ≤ top := by
      have : 0 ≤ (len : K) * η := by positivity
      have : 0 ≤ (N : K) * (M + η) := by positivity
      linarith
    obtain ⟨n1, n2⟩ := near_balance A L a2 b2 (sum_win_nonneg (fun t => le_max_right _ _) _ _) (sum_win_nonneg (fun t => le_max_right _ _) _ _)
      ((le_abs_self _).trans hB) hm (moves t ht (by omega)) hSm (by
        have h1 : 0 ≤ (len : K) * N * (u * M + η) := by positivity
        have h2 : 0 ≤ (len : K) * (u * M) := by positivity
        have h3 : 2 * η ≤ (len : K) * η := mul_le_mul_of_nonneg_right hl1 hη
        linarith) (by linarith) htop
    exact ⟨_, by simp [a1, b1, opt2, n2], n1⟩

/-- `100 (4 a + 2 b + c) / 7` for floats near numbers up to 1. -/
theorem near_weighted (A : R.Accurate u η top) (L : R.Lawful) {a b c : α} {x y z ρ : K} (ha : Near V a x ρ) (hb : Near V b y ρ) (hc : Near V c z ρ)
    (hρ : ρ ≤ 1) (hx : |x| ≤ 1) (hy : |y| ≤ 1) (hz : |z| ≤ 1) (htop : 4096 ≤ top) :
    Near V (lit 100 * (lit 4 * a + lit 2 * b + c) / lit 7) (100 * (4 * x + 2 * y + z) / 7) (103 * ρ + 490 * u) := by
  have hu0 := A.u_nonneg
  have hus := A.u_small
  have hη := A.η_nonneg
  have hηu : η ≤ u / 1024 := A.η_small.trans (by have := mul_le_mul_of_nonneg_right hus hu0; linarith)
  have hρ0 := ha.nonneg
  have uρ : u * ρ ≤ ρ / 1024 := by have := mul_le_mul_of_nonneg_right hus hρ0; linarith
  have uu : u * u ≤ u / 1024 := by have := mul_le_mul_of_nonneg_right hus hu0; linarith
  have l4 : V.val (lit (4 : ℚ)) = Fl.of R (.fin (4 : K)) := by have := val_lit_nat (V := V) L (n := 4) (by norm_num); exact_mod_cast this
  have l2 : V.val (lit (2 : ℚ)) = Fl.of R (.fin (2 : K)) := by have := val_lit_nat (V := V) L (n := 2) (by norm_num); exact_mod_cast this
  have l7 : V.val (lit (7 : ℚ)) = Fl.of R (.fin (7 : K)) := by have := val_lit_nat (V := V) L (n := 7) (by norm_num); exact_mod_cast this
  have l100 : V.val (lit (100 : ℚ)) = Fl.of R (.fin (100 : K)) := by have := val_lit_nat (V := V) L (n := 100) (by norm_num); exact_mod_cast this
  have a4 : |(4 : K)| = 4 := abs_of_nonneg (by norm_num)
  have a2 : |(2 : K)| = 2 := abs_of_nonneg (by norm_num)
  have a100 : |(100 : K)| = 100 := abs_of_nonneg (by norm_num)
  have n1 : Near V (lit 4 * a) (4 * x) (405 / 100 * ρ + 405 / 100 * u) := by
    refine ((near_of_val l4).mul A ha (m := 4) (by rw [abs_mul, a4]; linarith) (by rw [a4]; linarith)).mono ?_
    rw [a4, show u * (4 + (4 * ρ + |x| * 0 + 0 * ρ)) = 4 * u + 4 * (u * ρ) by ring]
    linarith
  have n2 : Near V (lit 2 * b) (2 * y) (205 / 100 * ρ + 205 / 100 * u) := by
    refine ((near_of_val l2).mul A hb (m := 2) (by rw [abs_mul, a2]; linarith) (by rw [a2]; linarith)).mono ?_
    rw [a2, show u * (2 + (2 * ρ + |y| * 0 + 0 * ρ)) = 2 * u + 2 * (u * ρ) by ring]
    linarith
  rw [abs_le] at hx hy hz
  have n3 : Near V (lit 4 * a + lit 2 * b) (4 * x + 2 * y) (612 / 100 * ρ + 124 / 10 * u) := by
    refine (n1.add A n2 (m := 6) (abs_le.mpr ⟨by linarith, by linarith⟩) (by linarith)).mono ?_
    linarith
  have n4 : Near V (lit 4 * a + lit 2 * b + c) (4 * x + 2 * y + z) (713 / 100 * ρ + 196 / 10 * u) := by
    refine (n3.add A hc (m := 7) (abs_le.mpr ⟨by linarith, by linarith⟩) (by linarith)).mono ?_
    linarith
  have h7 : |4 * x + 2 * y + z| ≤ 7 := abs_le.mpr ⟨by linarith, by linarith⟩
  have n5 : Near V (lit 100 * (lit 4 * a + lit 2 * b + c)) (100 * (4 * x + 2 * y + z)) (7138 / 10 * ρ + 2670 * u) := by
    refine ((near_of_val l100).mul A n4 (m := 700) (by rw [abs_mul, a100]; linarith) (by rw [a100]; linarith)).mono ?_
    rw [a100, show u * (700 + (100 * (713 / 100 * ρ + 196 / 10 * u) + |4 * x + 2 * y + z| * 0 + 0 * (713 / 100 * ρ + 196 / 10 * u))) =
      700 * u + 713 * (u * ρ) + 1960 * (u * u) by ring]
    linarith
  refine (Near.div A (by norm_num : (0 : K) < 7) n5 l7 (m := 100) ?_ ?_).mono ?_
  · rw [abs_div, abs_mul, a100, abs_of_nonneg (by norm_num : (0 : K) ≤ 7), div_le_iff₀ (by norm_num)]; linarith
  · linarith
  · rw [show u * (100 + (7138 / 10 * ρ + 2670 * u) / 7) = 100 * u + (7138 / 70 * (u * ρ) + 2670 / 7 * (u * u)) by ring]
    linarith

/-- The ultimate oscillator as a line of numbers. -/
def Spec.ultimateLine (n1 n2 n3 : Nat) (h l c : Nat → K) (t : Nat) : K :=
  100 * (4 * ((win (buyingPressure l c) n1 t).sum / (win (trueSpread h l c) n1 t).sum) +
    2 * ((win (buyingPressure l c) n2 t).sum / (win (trueSpread h l c) n2 t).sum) +
    (win (buyingPressure l c) n3 t).sum / (win (trueSpread h l c) n3 t).sum) / 7

include A L in
/-- **C95.** The ultimate oscillator of any three lengths on well-formed bars, where the true spreads of each window add up to at least `m`:
within `620 S / m + 700 u` of the exact one, `S` being `(n1 + n2 + n3) (8 + 12 N)` roundings; and it begins on the same bar. -/
theorem C95_ultimate {d : DataProvider α} {N : Nat} {o h l c v : Nat → K} {M : K} (hb : PricedBars V d N o h l c v M) (hM : 0 ≤ M)
    (hw : WellFormed o h l c) {n1 n2 n3 k : Nat} (h1 : 1 ≤ n1) (h2 : 1 ≤ n2) (h3 : 1 ≤ n3) (hk : n1 + n2 + n3 + N + 1 ≤ k) (hr : Room u η top k M)
    (htop : 4096 ≤ top) {m : K} (hm : 0 < m) (hSm : 8 * (((n1 + n2 + n3 : ℕ) : K) * (8 + 12 * N) * (u * M + η)) ≤ m)
    (spread : ∀ t, t < N → ∀ n, n = n1 ∨ n = n2 ∨ n = n3 → n ≤ t → m ≤ (win (trueSpread h l c) n t).sum) :
    ∃ y, Runs (noInput fun t => UltimateOscillator.next ⟨d, t⟩) (UltimateOscillator.new n1 n2 n3) unit N y ∧
      StaysNear V y (max (max n1 n2) n3) (ultimateLine n1 n2 n3 h l c)
        (620 * (((n1 + n2 + n3 : ℕ) : K) * (8 + 12 * N) * (u * M + η) / m) + 700 * u) N := by
  have hu0 := A.u_nonneg
  have hus := A.u_small
  have hη := A.η_nonneg
  have huM : 0 ≤ u * M := mul_nonneg hu0 hM
  have hN0 : (0 : K) ≤ N := Nat.cast_nonneg _
  have hk1 : (1 : K) ≤ k := by exact_mod_cast (by omega : 1 ≤ k)
  have h2M : 2 * M ≤ top := by
    have : 2 * (M + η) ≤ 1000 * (k : K) * (M + η) := mul_le_mul_of_nonneg_right (by linarith) (by positivity)
    linarith [hr.wide]
  obtain ⟨o', h', l', c', v', b, hv⟩ := hb.bars
  have pair : ∀ t, t + 1 < N → Near V (c' (t + 1) - F64.fmin (l' (t + 1)) (c' t)) (buyingPressure l c (t + 1)) (2 * (u * M + η)) ∧
      Near V (F64.fmax (h' (t + 1)) (c' t) - F64.fmin (l' (t + 1)) (c' t)) (trueSpread h l c (t + 1)) (2 * (u * M + η)) ∧
      |buyingPressure l c (t + 1)| ≤ 2 * M ∧ |trueSpread h l c (t + 1)| ≤ 2 * M := by
    intro t ht
    obtain ⟨-, v2, v3, v4, -⟩ := hv (t + 1) ht
    obtain ⟨-, -, -, w4, -⟩ := hv t (by omega)
    obtain ⟨-, m2, m3, m4⟩ := hb.bound (t + 1) ht
    obtain ⟨-, -, -, m5⟩ := hb.bound t (by omega)
    have lo := (near_of_val v3).min (near_of_val w4)
    have hi := (near_of_val v2).max (near_of_val w4)
    have blo : |min (l (t + 1)) (c t)| ≤ M := by
      rw [abs_le] at *; exact ⟨le_min (by linarith) (by linarith), (min_le_left _ _).trans (by linarith)⟩
    have bhi : |max (h (t + 1)) (c t)| ≤ M := by
      rw [abs_le] at *; exact ⟨le_trans (by linarith) (le_max_left _ _), max_le (by linarith) (by linarith)⟩
    obtain ⟨q, q1, q2⟩ := lo
    obtain ⟨r, r1, r2⟩ := hi
    have q3 : q = min (l (t + 1)) (c t) := by
      have := abs_nonpos_iff.mp q2; linarith
    have r3 : r = max (h (t + 1)) (c t) := by
      have := abs_nonpos_iff.mp r2; linarith
    rw [q3] at q1
    rw [r3] at r1
    refine ⟨Near.gap A v4 q1 m4 blo h2M, Near.gap A r1 q1 bhi blo h2M, ?_, ?_⟩
    · show |c (t + 1) - min (l (t + 1)) (c t)| ≤ _
      rw [abs_le] at *; constructor <;> linarith
    · show |max (h (t + 1)) (c t) - min (l (t + 1)) (c t)| ≤ _
      rw [abs_le] at *; constructor <;> linarith
  have nb : StaysNear V (fun t => opt3 (fun c l p => c - F64.fmin l p) (some (c' t)) (some (l' t)) (prev (fun t => some (c' t)) t)) 1 (buyingPressure l c) (2 * (u * M + η)) N := by
    intro t ht
    cases t with
    | zero => simp [Within, startAt, prev, opt3]
    | succ t =>
      unfold startAt
      rw [if_neg (by omega)]
      exact ⟨_, rfl, (pair t ht).1⟩
  have nt : StaysNear V (fun t => opt3 (fun h l p => F64.fmax h p - F64.fmin l p) (some (h' t)) (some (l' t)) (prev (fun t => some (c' t)) t)) 1 (trueSpread h l c) (2 * (u * M + η)) N := by
    intro t ht
    cases t with
    | zero => simp [Within, startAt, prev, opt3]
    | succ t =>
      unfold startAt
      rw [if_neg (by omega)]
      exact ⟨_, rfl, (pair t ht).2.1⟩
  have bb : ∀ t, t < N → 1 ≤ t → |buyingPressure l c t| ≤ 2 * M ∧ |trueSpread h l c t| ≤ 2 * M := by
    intro t ht h1
    obtain ⟨s, rfl⟩ : ∃ s, t = s + 1 := ⟨t - 1, by omega⟩
    exact (pair s ht).2.2
  have hδ : 0 ≤ u * M + η := by positivity
  generalize hS : ((n1 + n2 + n3 : ℕ) : K) * (8 + 12 * N) * (u * M + η) = S at *
  have one : ∀ n, 1 ≤ n → (n = n1 ∨ n = n2 ∨ n = n3) → ∃ p q : Nat → Option α, Runs (fun t => Sum.next ⟨d, t⟩) (Sum.new n)
        (fun t => opt3 (fun c l p => c - F64.fmin l p) (some (c' t)) (some (l' t)) (prev (fun t => some (c' t)) t)) N p ∧
      Runs (fun t => Sum.next ⟨d, t⟩) (Sum.new n) (fun t => opt3 (fun h l p => F64.fmax h p - F64.fmin l p) (some (h' t)) (some (l' t)) (prev (fun t => some (c' t)) t)) N q ∧
      StaysNear V (fun t => safeDiv (p t) (q t)) n (fun t => (win (buyingPressure l c) n t).sum / (win (trueSpread h l c) n t).sum) (6 * (S / m) + 2 * u) N ∧
      ∀ t, t < N → n ≤ t → |(win (buyingPressure l c) n t).sum / (win (trueSpread h l c) n t).sum| ≤ 1 := by
    intro n hn hor
    obtain ⟨p, p1, p2⟩ := sum_room A L d hn (show n + N + 1 ≤ k by omega) hM hr (by norm_num) (by norm_num) nb fun t ht hs => (bb t ht hs).1
    obtain ⟨q, q1, q2⟩ := sum_room A L d hn (show n + N + 1 ≤ k by omega) hM hr (by norm_num) (by norm_num) nt fun t ht hs => (bb t ht hs).2
    rw [show 1 + n - 1 = n by omega] at p2 q2
    have hle : (n : K) * (2 + 6 + 12 * N) * (u * M + η) ≤ S := by
      rw [← hS]
      have : (n : K) ≤ ((n1 + n2 + n3 : ℕ) : K) := by exact_mod_cast (by omega)
      have := mul_le_mul_of_nonneg_right (mul_le_mul_of_nonneg_right this (show (0 : K) ≤ 8 + 12 * N by linarith)) hδ
      linarith
    have a0 : ∀ t, 0 ≤ buyingPressure l c t := fun t => by
      have := (hw t).2.2.1; unfold buyingPressure; linarith [min_le_left (l t) (c (t - 1))]
    have a1 : ∀ t, buyingPressure l c t ≤ trueSpread h l c t := fun t => by
      have := (hw t).2.2.2; unfold buyingPressure trueSpread; linarith [le_max_left (h t) (c (t - 1))]
    refine ⟨p, q, p1, q1, fun t ht => ?_, fun t ht hnt => ?_⟩
    · unfold startAt
      by_cases hts : t < n
      · rw [if_pos hts]
        show safeDiv (p t) (q t) = none
        rw [stays_before p2 ht hts]; rfl
      · rw [if_neg hts]
        obtain ⟨e, e1, e2⟩ := stays_at p2 ht (by omega)
        obtain ⟨f, f1, f2⟩ := stays_at q2 ht (by omega)
        have hmt := spread t ht n hor (by omega)
        have b0 := sum_win_nonneg a0 n t
        have b1 := sum_win_le a1 n t
        have hT : |(win (trueSpread h l c) n t).sum| = (win (trueSpread h l c) n t).sum := abs_of_nonneg (b0.trans b1)
        have ne := near_feq_zero L f2 (by rw [hT]; have := f2.nonneg; linarith)
        refine ⟨e / f, by simp [safeDiv, e1, f1, opt2, ne], ((e2.mono hle).ratio A (f2.mono hle) hm (by rw [hT]; exact hmt) ?_ (G := 2 * S) (by linarith) (by linarith) (by linarith)).mono ?_⟩
        · rw [hT, abs_of_nonneg b0]; exact b1
        · rw [mul_div_assoc]; linarith
    · have b0 := sum_win_nonneg a0 n t
      have b1 := sum_win_le a1 n t
      have hmt := spread t ht n hor hnt
      rw [abs_div, abs_of_nonneg b0, abs_of_nonneg (b0.trans b1), div_le_one (by linarith)]
      exact b1
  obtain ⟨p1, q1, r1, s1, t1, u1⟩ := one n1 h1 (by simp)
  obtain ⟨p2, q2, r2, s2, t2, u2⟩ := one n2 h2 (by simp)
  obtain ⟨p3, q3, r3, s3, t3, u3⟩ := one n3 h3 (by simp)
  refine ⟨_, C53_ultimate_oscillator d b.high b.low b.close (fun t _ => rfl) (fun t _ => rfl) r1 s1 r2 s2 r3 s3, fun t ht => ?_⟩
  unfold startAt
  by_cases hts : t < max (max n1 n2) n3
  · rw [if_pos hts]
    show opt3 _ (safeDiv (p1 t) (q1 t)) (safeDiv (p2 t) (q2 t)) (safeDiv (p3 t) (q3 t)) = none
    have : t < n1 ∨ t < n2 ∨ t < n3 := by omega
    rcases this with hc | hc | hc
    · rw [stays_before t1 ht hc]; rfl
    · rw [stays_before t2 ht hc]; cases safeDiv (p1 t) (q1 t) <;> rfl
    · rw [stays_before t3 ht hc]; cases safeDiv (p1 t) (q1 t) <;> cases safeDiv (p2 t) (q2 t) <;> rfl
  · rw [if_neg hts]
    obtain ⟨e1, f1, g1⟩ := stays_at t1 ht (by omega)
    obtain ⟨e2, f2, g2⟩ := stays_at t2 ht (by omega)
    obtain ⟨e3, f3, g3⟩ := stays_at t3 ht (by omega)
    have hq : S / m ≤ 1 / 8 := by rw [div_le_div_iff₀ hm (by norm_num)]; linarith
    refine ⟨_, by rw [f1, f2, f3]; rfl, (near_weighted A L g1 g2 g3 (by linarith) (u1 t ht (by omega)) (u2 t ht (by omega)) (u3 t ht (by omega)) htop).mono ?_⟩
    have hS0 : 0 ≤ S / m := div_nonneg (by rw [← hS]; positivity) hm.le
    linarith

end
end Pace
