import Verif.Props.Accuracy
import Verif.Props.Content7
import Verif.Props.Order
import Verif.Props.Signals

/-!
# C92: indicators and signals in floats against exact ones

C68 bounds the rounding errors of an average whose inputs are read exactly.  Here the errors are carried through chains: from the bars
through price sources, averages of sources and averages of averages to indicator lines, and from there to the signals.
-/

set_option linter.unusedSectionVars false

namespace Pace
open Spec
variable {K : Type} [Field K] [LinearOrder K] [IsStrictOrderedRing K] [RootOps K] {R : Rounding K}
variable {α : Type} [F64 α]

/-- On the first `N` ticks: the floats `y` are missing before tick `s`, and from tick `s` on within `e` of the numbers `w`. -/
def Spec.StaysNear (V : Valued R α) (y : Nat → Option α) (s : Nat) (w : Nat → K) (e : K) (N : Nat) : Prop :=
  ∀ t, t < N → Within V (y t) (startAt s w t) e

/-- How many roundings, each of a result as large as the inputs, an average is off at most: for the simple average the number of bars
counts, for the others only the length. -/
def Spec.slack (kind : MaKind) (n N : Nat) : Nat :=
  match kind with
  | .sma => 4 * N + 5
  | .ema => 9 * (n + 1)
  | .rma => 18 * n
  | .swma => 9

/-- The arithmetic has room: numbers up to `M`, `k` times over, neither overflow nor are lost in rounding. -/
structure Spec.Room (u η top : K) (k : Nat) (M : K) : Prop where
  fine : 1000 * (k : K) * u ≤ 1
  wide : 1000 * (k : K) * (M + η) ≤ top
  small : k ≤ 2 ^ 50

section
variable {V : Valued R α} {u η top : K} (A : R.Accurate u η top) (L : R.Lawful)

theorem Spec.StaysNear.mono {y : Nat → Option α} {s : Nat} {w : Nat → K} {e f : K} {N : Nat} (h : StaysNear V y s w e N) (hf : e ≤ f) :
    StaysNear V y s w f N := by
  intro t ht
  have h1 := h t ht
  revert h1
  unfold Within
  cases startAt s w t with
  | none => exact id
  | some k => rintro ⟨a, h1, h2⟩; exact ⟨a, h1, h2.mono hf⟩

theorem Spec.StaysNear.congr {y : Nat → Option α} {s : Nat} {w w' : Nat → K} {e : K} {N : Nat} (h : StaysNear V y s w e N)
    (hw : ∀ t, t < N → s ≤ t → w t = w' t) : StaysNear V y s w' e N := by
  intro t ht
  have h1 := h t ht
  unfold startAt at h1 ⊢
  by_cases hts : t < s
  · rw [if_pos hts] at h1 ⊢; exact h1
  · rw [if_neg hts] at h1 ⊢; rw [← hw t ht (by omega)]; exact h1

theorem stays_at {y : Nat → Option α} {s : Nat} {w : Nat → K} {e : K} {N : Nat} (h : StaysNear V y s w e N) {t : Nat} (ht : t < N)
    (hs : s ≤ t) : ∃ a, y t = some a ∧ Near V a (w t) e := by
  have h1 := h t ht
  unfold startAt at h1
  rw [if_neg (by omega)] at h1
  exact h1

theorem stays_before {y : Nat → Option α} {s : Nat} {w : Nat → K} {e : K} {N : Nat} (h : StaysNear V y s w e N) {t : Nat} (ht : t < N)
    (hs : t < s) : y t = none := by
  have h1 := h t ht
  unfold startAt at h1
  rw [if_pos hs] at h1
  exact h1

/-- Differences of two lines. -/
theorem stays_sub {y z : Nat → Option α} {s r : Nat} {w v : Nat → K} {e f m : K} {N : Nat} (A : R.Accurate u η top)
    (h : StaysNear V y s w e N) (g : StaysNear V z r v f N) (hm : ∀ t, t < N → max s r ≤ t → |w t - v t| ≤ m) (ht : m + (e + f) ≤ top) :
    StaysNear V (fun t => opt2 (· - ·) (y t) (z t)) (max s r) (fun t => w t - v t) (e + f + u * (m + (e + f)) + η) N := by
  intro t htN
  unfold startAt
  by_cases h1 : t < s
  · rw [if_pos (by omega)]
    show opt2 _ (y t) (z t) = none
    rw [stays_before h htN h1]; rfl
  by_cases h2 : t < r
  · rw [if_pos (by omega)]
    show opt2 _ (y t) (z t) = none
    rw [stays_before g htN h2]
    cases y t <;> rfl
  rw [if_neg (by omega)]
  obtain ⟨a, a1, a2⟩ := stays_at h htN (by omega)
  obtain ⟨b, b1, b2⟩ := stays_at g htN (by omega)
  exact ⟨a - b, by show opt2 _ (y t) (z t) = _; rw [a1, b1]; rfl, a2.sub A b2 (hm t htN (by omega)) ht⟩

/-- Floats near some numbers have values of their own. -/
theorem stays_reads (L : R.Lawful) {x : Nat → Option α} {s : Nat} {w : Nat → K} {e : K} {N : Nat} (h : StaysNear V x s w e N) :
    ∃ (p : Nat → K) (x' : Nat → Option α), Reads V x' (startAt s p) ∧ (∀ t, t < N → x' t = x t) ∧
      (∀ t, t < N → s ≤ t → |p t - w t| ≤ e) ∧ ∀ t, N ≤ t → p t = 0 := by
  have key : ∀ t, ∃ p : K, t < N → s ≤ t → (∃ a, x t = some a ∧ V.val a = Fl.of R (.fin p)) ∧ |p - w t| ≤ e := by
    intro t
    by_cases ht : t < N ∧ s ≤ t
    · obtain ⟨a, h1, v, h2, h3⟩ := stays_at h ht.1 ht.2
      exact ⟨v, fun _ _ => ⟨⟨a, h1, h2⟩, h3⟩⟩
    · exact ⟨0, fun h1 h2 => absurd ⟨h1, h2⟩ ht⟩
  choose p hp using key
  refine ⟨fun t => if t < N then p t else 0, fun t => if t < N then x t else startAt s (fun _ => lit 0) t, fun t => ?_, fun t ht => if_pos ht,
    fun t ht hs => ?_, fun t ht => if_neg (by omega)⟩
  · dsimp only
    unfold startAt
    by_cases ht : t < N
    · rw [if_pos ht]
      by_cases hs : t < s
      · rw [stays_before h ht hs, if_pos hs]; rfl
      · obtain ⟨⟨a, h1, h2⟩, -⟩ := hp t ht (by omega)
        rw [if_neg hs, h1]
        simp only [Option.map_some, if_pos ht, h2]
    · rw [if_neg ht]
      by_cases hs : t < s
      · rw [if_pos hs, if_pos hs]; rfl
      · rw [if_neg hs, if_neg hs]
        simp only [Option.map_some, if_neg ht]
        rw [V.lit, lit_zero L]
  · dsimp only
    rw [if_pos ht]
    exact (hp t ht hs).2

include A L in
/-- Every kind of average of inputs that are read exactly. -/
theorem ma_near (d : DataProvider α) (kind : MaKind) {n k : Nat} (hn : 1 ≤ n) {N : Nat} (hk : n + N + 1 ≤ k) (hk53 : k ≤ 2 ^ 50)
    (hu : 12 * (k : K) * u ≤ 1) {x : Nat → Option α} {s : Nat} {p : Nat → K} (h : Reads V x (startAt s p)) {M : K}
    (hp : ∀ t, s ≤ t → |p t| ≤ M) (htop : 40 * (k : K) * (M + η) ≤ top) :
    ∃ y, Runs (fun t => Ma.next ⟨d, t⟩) (Ma.new kind n) x N y ∧
      StaysNear V y (s + maLength kind n - 1) (average kind n s p) (slack kind n N * (u * M + η)) N := by
  have hM : 0 ≤ M := (abs_nonneg _).trans (hp s (le_refl _))
  have hu0 := A.u_nonneg
  have hη := A.η_nonneg
  have hδ : 0 ≤ u * M + η := by positivity
  have c1 : (n : K) + N + 1 ≤ k := by exact_mod_cast hk
  have cn : (1 : K) ≤ n := by exact_mod_cast hn
  have cN : (0 : K) ≤ N := Nat.cast_nonneg _
  have hx : ∀ t k, startAt s p t = some k → |k| ≤ M := by
    intro t k hk
    unfold startAt at hk
    split at hk
    · simp at hk
    · next hts =>
      obtain rfl := Option.some.inj hk
      exact hp t (by omega)
  have hx0 : ∀ t, t < s → startAt s p t = none := fun t ht => if_pos ht
  have hMη : 0 ≤ M + η := by positivity
  have tn : 40 * (n : K) * (M + η) ≤ top := (mul_le_mul_of_nonneg_right (by linarith) hMη).trans htop
  have hm := C53_ma d n x N
  cases kind with
  | sma =>
    have hNs : ((2 * (N - s) : Nat) : K) ≤ 2 * N := by
      have : ((2 * (N - s) : Nat) : K) ≤ ((2 * N : Nat) : K) := by exact_mod_cast (by omega)
      push_cast at this ⊢
      exact this
    obtain ⟨y, h1, h2⟩ := C68_sma A L d hn (by omega) h hM hx hx0 (N := N) ((mul_le_mul_of_nonneg_right hNs hu0).trans (by nlinarith)) (by
      have := mul_le_mul_of_nonneg_right hNs hη
      have e1 : 0 ≤ (n : K) * η := by positivity
      have e2 : 0 ≤ (N : K) * M := by positivity
      have e3 := mul_le_mul_of_nonneg_right c1 hMη
      nlinarith)
    refine ⟨y, (hm.1.trans h1 :), fun t ht => ?_⟩
    have h3 := h2 t ht
    rw [fullWindow_startAt s p hn] at h3
    show Within V (y t) (startAt (s + n - 1) _ t) _
    unfold startAt
    by_cases hts : s + n ≤ t + 1
    · rw [if_pos hts] at h3
      rw [if_neg (show ¬ t < s + n - 1 by omega)]
      obtain ⟨a, a1, a2⟩ := h3
      refine ⟨a, a1, a2.mono (mul_le_mul_of_nonneg_right ?_ hδ)⟩
      have : ((t - s : Nat) : K) ≤ N := by exact_mod_cast (by omega)
      simp only [slack]
      push_cast
      linarith
    · rw [if_neg hts] at h3
      rw [if_pos (show t < s + n - 1 by omega)]
      exact h3
  | ema =>
    obtain ⟨y, h1, h2⟩ := C68_ema A L d hn (by omega) (by nlinarith) h hp tn N
    refine ⟨y, (hm.2.1.trans h1 :), fun t ht => ?_⟩
    have := h2 t ht
    simpa [slack, maLength] using this
  | rma =>
    obtain ⟨y, h1, h2⟩ := C68_rma A L d hn (by omega) (by nlinarith) h hp tn N
    refine ⟨y, (hm.2.2.1.trans h1 :), fun t ht => ?_⟩
    have := h2 t ht
    simpa [slack, maLength] using this
  | swma =>
    obtain ⟨y, h1, h2⟩ := C68_swma A L d h hM hx (by nlinarith) N
    refine ⟨y, (hm.2.2.2.trans h1 :), fun t ht => ?_⟩
    have h3 := h2 t ht
    rw [fullWindow_startAt s p (by omega)] at h3
    show Within V (y t) (startAt (s + 4 - 1) _ t) _
    unfold startAt
    by_cases hts : s + 4 ≤ t + 1
    · rw [if_pos hts] at h3
      rw [if_neg (by omega)]
      have e : ((win p 4 t).getD 0 0 + 2 * (win p 4 t).getD 1 0 + 2 * (win p 4 t).getD 2 0 + (win p 4 t).getD 3 0) / 6 = average .swma n s p t := by
        simp only [win, average, List.range_succ, List.range_zero]
        simp
        obtain ⟨r, rfl⟩ : ∃ r, t = r + 3 := ⟨t - 3, by omega⟩
        congr 4
      rw [Option.map_some, e] at h3
      simpa [slack] using h3
    · rw [if_neg hts] at h3
      rw [if_pos (by omega)]
      exact h3

/-- Averages of near series are as near. -/
theorem average_near (kind : MaKind) {n s t : Nat} (hn : 1 ≤ n) (ht : s + maLength kind n ≤ t + 1) {p w : Nat → K} {e : K}
    (h : ∀ k, s ≤ k → k ≤ t → |p k - w k| ≤ e) : |average kind n s p t - average kind n s w t| ≤ e := by
  have e1 : average kind n s p t - average kind n s w t = average kind n s (fun k => 1 * p k + (-1) * w k) t := by
    rw [average_linear]; ring
  rw [e1]
  refine abs_le.mpr ⟨average_ge kind hn ht fun k h1 h2 => ?_, average_le kind hn ht fun k h1 h2 => ?_⟩
  · have := (abs_le.mp (h k h1 h2)).1; linarith
  · have := (abs_le.mp (h k h1 h2)).2; linarith

theorem average_abs (kind : MaKind) {n s t : Nat} (hn : 1 ≤ n) (ht : s + maLength kind n ≤ t + 1) {w : Nat → K} {M : K}
    (h : ∀ k, s ≤ k → k ≤ t → |w k| ≤ M) : |average kind n s w t| ≤ M :=
  abs_le.mpr ⟨average_ge kind hn ht fun k h1 h2 => (abs_le.mp (h k h1 h2)).1, average_le kind hn ht fun k h1 h2 => (abs_le.mp (h k h1 h2)).2⟩

include A L in
/-- **C92.** Every kind of average of floats that are within `e` of the numbers `w` from tick `s` on, none beyond `M`: within `e` plus its
own rounding errors of the exact average of `w`. -/
theorem C92_average (d : DataProvider α) (kind : MaKind) {n k : Nat} (hn : 1 ≤ n) {N : Nat} (hk : n + N + 1 ≤ k) (hk50 : k ≤ 2 ^ 50)
    (hu : 12 * (k : K) * u ≤ 1) {x : Nat → Option α} {s : Nat} {w : Nat → K} {e : K} (h : StaysNear V x s w e N) {M : K} (hM : 0 ≤ M) (he : 0 ≤ e)
    (hw : ∀ t, t < N → s ≤ t → |w t| ≤ M) (htop : 40 * (k : K) * (M + e + η) ≤ top) :
    ∃ y, Runs (fun t => Ma.next ⟨d, t⟩) (Ma.new kind n) x N y ∧
      StaysNear V y (s + maLength kind n - 1) (average kind n s w) (e + slack kind n N * (u * (M + e) + η)) N := by
  obtain ⟨p, x', h1, h2, h3, h4⟩ := stays_reads L h
  have hp : ∀ t, s ≤ t → |p t| ≤ M + e := by
    intro t hs
    by_cases ht : t < N
    · have e1 := h3 t ht hs
      have e2 := hw t ht hs
      have := abs_add_le (p t - w t) (w t)
      rw [sub_add_cancel] at this
      linarith
    · rw [h4 t (by omega), abs_zero]; linarith
  obtain ⟨y, g1, g2⟩ := ma_near A L d kind hn hk hk50 hu h1 hp htop
  have hpos := maLength_pos kind hn
  refine ⟨y, g1.input_congr fun t ht => h2 t ht, fun t ht => ?_⟩
  have g3 := g2 t ht
  unfold startAt at g3 ⊢
  by_cases hts : t < s + maLength kind n - 1
  · rw [if_pos hts] at g3 ⊢; exact g3
  · rw [if_neg hts] at g3 ⊢
    obtain ⟨a, a1, v, a2, a3⟩ := g3
    refine ⟨a, a1, v, a2, ?_⟩
    have := average_near kind hn (show s + maLength kind n ≤ t + 1 by omega) fun k hk1 hk2 => h3 k (by omega) hk1
    have h5 := abs_add_le (v - average kind n s p t) (average kind n s p t - average kind n s w t)
    rw [sub_add_sub_cancel] at h5
    linarith

/-! ## From the bars to the lines -/

/-- The bars are finite floats with the values `o h l c v`, the four prices at most `M` in size. -/
structure Spec.PricedBars (V : Valued R α) (d : DataProvider α) (N : Nat) (o h l c v : Nat → K) (M : K) : Prop where
  bars : ∃ o' h' l' c' v' : Nat → α, Bars d N o' h' l' c' v' ∧ ∀ t, t < N → V.val (o' t) = Fl.of R (.fin (o t)) ∧
    V.val (h' t) = Fl.of R (.fin (h t)) ∧ V.val (l' t) = Fl.of R (.fin (l t)) ∧ V.val (c' t) = Fl.of R (.fin (c t)) ∧
    V.val (v' t) = Fl.of R (.fin (v t))
  bound : ∀ t, t < N → |o t| ≤ M ∧ |h t| ≤ M ∧ |l t| ≤ M ∧ |c t| ≤ M

theorem sourceValue_abs {o h l c v : Nat → K} {M : K} {t : Nat} (hM : |o t| ≤ M ∧ |h t| ≤ M ∧ |l t| ≤ M ∧ |c t| ≤ M) {k : SrcKind}
    (hk : k ≠ .volume) : |sourceValue k o h l c v t| ≤ M := by
  obtain ⟨h1, h2, h3, h4⟩ := hM
  rw [abs_le] at h1 h2 h3 h4
  cases k with
  | volume => exact absurd rfl hk
  | open_ => exact abs_le.mpr h1
  | high => exact abs_le.mpr h2
  | low => exact abs_le.mpr h3
  | close => exact abs_le.mpr h4
  | ohlc4 => exact abs_le.mpr ⟨by simp only [sourceValue]; linarith, by simp only [sourceValue]; linarith⟩
  | hlc3 => exact abs_le.mpr ⟨by simp only [sourceValue]; linarith, by simp only [sourceValue]; linarith⟩
  | hl2 => exact abs_le.mpr ⟨by simp only [sourceValue]; linarith, by simp only [sourceValue]; linarith⟩

include A L in
/-- **C92.** Every price source, read off bars that are finite floats: within `5 (u M + η)` of the exact combination. -/
theorem C92_source {d : DataProvider α} {N : Nat} {o h l c v : Nat → K} {M : K} (hb : PricedBars V d N o h l c v M) (hM : 0 ≤ M)
    (htop : 8 * (M + η) ≤ top) {k : SrcKind} (hk : k ≠ .volume) :
    ∃ x, (∀ t, t < N → Src.next ⟨d, t⟩ k = .ok (x t)) ∧ StaysNear V x 0 (sourceValue k o h l c v) (5 * (u * M + η)) N := by
  obtain ⟨o', h', l', c', v', b, hv⟩ := hb.bars
  have hu := A.u_nonneg
  have hus := A.u_small
  have hη := A.η_nonneg
  have hδ : 0 ≤ u * M + η := by positivity
  have huM : 0 ≤ u * M := by positivity
  have suM : u * (u * M) ≤ u * M / 1024 := by
    have := mul_le_mul_of_nonneg_right hus huM
    linarith
  have sη : u * η ≤ η / 1024 := by
    have := mul_le_mul_of_nonneg_right hus hη
    linarith
  have sM : u * M ≤ M / 1024 := by
    have := mul_le_mul_of_nonneg_right hus hM
    linarith
  have lit4 : V.val (lit (4 : ℚ)) = Fl.of R (.fin (4 : K)) := by
    have := val_lit_nat (V := V) L (n := 4) (by norm_num); exact_mod_cast this
  have lit3 : V.val (lit (3 : ℚ)) = Fl.of R (.fin (3 : K)) := by
    have := val_lit_nat (V := V) L (n := 3) (by norm_num); exact_mod_cast this
  have lit2 : V.val (lit (2 : ℚ)) = Fl.of R (.fin (2 : K)) := by
    have := val_lit_nat (V := V) L (n := 2) (by norm_num); exact_mod_cast this
  have nearAt : ∀ {a : α} {w : K}, V.val a = Fl.of R (.fin w) → Near V a w 0 := fun {a w} h => ⟨w, h, by simp⟩
  have key : ∀ t, ∃ x, t < N → Src.next ⟨d, t⟩ k = .ok (some x) ∧ Near V x (sourceValue k o h l c v t) (5 * (u * M + η)) := by
    intro t
    by_cases ht : t < N
    swap
    · exact ⟨lit 0, fun h => absurd h ht⟩
    have e1 := ctx_barOpen b.open_ ht
    have e2 := ctx_barHigh b.high ht
    have e3 := ctx_barLow b.low ht
    have e4 := ctx_barClose b.close ht
    obtain ⟨v1, v2, v3, v4, -⟩ := hv t ht
    obtain ⟨m1, m2, m3, m4⟩ := hb.bound t ht
    have n1 := nearAt v1
    have n2 := nearAt v2
    have n3 := nearAt v3
    have n4 := nearAt v4
    have h0 : 0 ≤ 5 * (u * M + η) := by positivity
    rw [abs_le] at m1 m2 m3 m4
    -- high + low
    have s2 : Near V (h' t + l' t) (h t + l t) (2 * (u * M) + η) := by
      refine (n2.add A n3 (m := 2 * M) (abs_le.mpr ⟨by linarith, by linarith⟩) (by linarith)).mono ?_
      linarith
    cases k with
    | volume => exact absurd rfl hk
    | open_ => exact ⟨o' t, fun _ => ⟨e1, n1.mono h0⟩⟩
    | high => exact ⟨h' t, fun _ => ⟨e2, n2.mono h0⟩⟩
    | low => exact ⟨l' t, fun _ => ⟨e3, n3.mono h0⟩⟩
    | close => exact ⟨c' t, fun _ => ⟨e4, n4.mono h0⟩⟩
    | hl2 =>
      refine ⟨Pace.hl2 (h' t) (l' t), fun _ => ⟨by simp [Src.next, e2, e3], ?_⟩⟩
      refine (Near.div A (by norm_num) s2 lit2 (m := M) (abs_le.mpr ⟨by linarith, by linarith⟩) (by linarith)).mono ?_
      rw [show u * (M + (2 * (u * M) + η) / 2) = u * M + u * (u * M) + u * η / 2 by ring]
      linarith
    | hlc3 =>
      refine ⟨Pace.hlc3 (h' t) (l' t) (c' t), fun _ => ⟨by simp [Src.next, e2, e3, e4], ?_⟩⟩
      have s3 : Near V (h' t + l' t + c' t) (h t + l t + c t) (6 * (u * M) + 3 * η) := by
        refine (s2.add A n4 (m := 3 * M) (abs_le.mpr ⟨by linarith, by linarith⟩) (by linarith)).mono ?_
        rw [show u * (3 * M + (2 * (u * M) + η + 0)) = 3 * (u * M) + 2 * (u * (u * M)) + u * η by ring]
        linarith
      refine (Near.div A (by norm_num) s3 lit3 (m := M) (abs_le.mpr ⟨by linarith, by linarith⟩) (by linarith)).mono ?_
      rw [show u * (M + (6 * (u * M) + 3 * η) / 3) = u * M + 2 * (u * (u * M)) + u * η by ring]
      linarith
    | ohlc4 =>
      refine ⟨Pace.ohlc4 (o' t) (h' t) (l' t) (c' t), fun _ => ⟨by simp [Src.next, e1, e2, e3, e4], ?_⟩⟩
      have s2 : Near V (o' t + h' t) (o t + h t) (2 * (u * M) + η) := by
        refine (n1.add A n2 (m := 2 * M) (abs_le.mpr ⟨by linarith, by linarith⟩) (by linarith)).mono ?_
        linarith
      have s3 : Near V (o' t + h' t + l' t) (o t + h t + l t) (6 * (u * M) + 3 * η) := by
        refine (s2.add A n3 (m := 3 * M) (abs_le.mpr ⟨by linarith, by linarith⟩) (by linarith)).mono ?_
        rw [show u * (3 * M + (2 * (u * M) + η + 0)) = 3 * (u * M) + 2 * (u * (u * M)) + u * η by ring]
        linarith
      have s4 : Near V (o' t + h' t + l' t + c' t) (o t + h t + l t + c t) (11 * (u * M) + 5 * η) := by
        refine (s3.add A n4 (m := 4 * M) (abs_le.mpr ⟨by linarith, by linarith⟩) (by linarith)).mono ?_
        rw [show u * (4 * M + (6 * (u * M) + 3 * η + 0)) = 4 * (u * M) + 6 * (u * (u * M)) + 3 * (u * η) by ring]
        linarith
      refine (Near.div A (by norm_num) s4 lit4 (m := M) (abs_le.mpr ⟨by linarith, by linarith⟩) (by linarith)).mono ?_
      rw [show u * (M + (11 * (u * M) + 5 * η) / 4) = u * M + 11 / 4 * (u * (u * M)) + 5 / 4 * (u * η) by ring]
      linarith
  choose x hx using key
  refine ⟨fun t => some (x t), fun t ht => (hx t ht).1, fun t ht => ?_⟩
  exact ⟨x t, rfl, (hx t ht).2⟩

theorem slack_le (kind : MaKind) {n N k : Nat} (h : n + N + 1 ≤ k) : slack kind n N ≤ 18 * k := by
  cases kind <;> simp only [slack] <;> omega

include A L in
/-- An average of a price source of the bars. -/
theorem source_average {d : DataProvider α} {N : Nat} {o h l c v : Nat → K} {M : K} (hb : PricedBars V d N o h l c v M) (hM : 0 ≤ M)
    {src : SrcKind} (hs : src ≠ .volume) (kind : MaKind) {n k : Nat} (hn : 1 ≤ n) (hk : n + N + 1 ≤ k) (hr : Room u η top k M) :
    ∃ x y, (∀ t, t < N → Src.next ⟨d, t⟩ src = .ok (x t)) ∧ Runs (fun t => Ma.next ⟨d, t⟩) (Ma.new kind n) x N y ∧
      StaysNear V y (maLength kind n - 1) (average kind n 0 (sourceValue src o h l c v)) ((5 + 2 * slack kind n N) * (u * M + η)) N := by
  have hu := A.u_nonneg
  have hus := A.u_small
  have hη := A.η_nonneg
  have hδ : 0 ≤ u * M + η := by positivity
  have hk1 : (1 : K) ≤ k := by exact_mod_cast (by omega : 1 ≤ k)
  have sM : u * M ≤ M / 1024 := by
    have := mul_le_mul_of_nonneg_right hus hM
    linarith
  have hkM : 0 ≤ (k : K) * M := by positivity
  have hkη : 0 ≤ (k : K) * η := by positivity
  have w := hr.wide
  obtain ⟨x, h1, h2⟩ := C92_source A L hb hM (by nlinarith) hs
  obtain ⟨y, h3, h4⟩ := C92_average A L d kind hn hk hr.small (by have := hr.fine; nlinarith) h2 hM (by positivity)
    (fun t ht _ => sourceValue_abs (hb.bound t ht) hs) (by
      have : 40 * (k : K) * (M + 5 * (u * M + η) + η) ≤ 40 * (k : K) * (2 * M + 6 * η) := mul_le_mul_of_nonneg_left (by linarith) (by positivity)
      nlinarith)
  refine ⟨x, y, h1, h3, ?_⟩
  rw [Nat.zero_add] at h4
  refine h4.mono ?_
  have h5 : u * (M + 5 * (u * M + η)) + η ≤ 2 * (u * M + η) := by
    have := mul_le_mul_of_nonneg_right hus hδ
    linarith
  have := mul_le_mul_of_nonneg_left h5 (Nat.cast_nonneg (α := K) (slack kind n N))
  linarith

/-- The arithmetic of errors along a difference of two averages. -/
theorem line_numbers {u η top M k sa sb : K} (hu : 0 ≤ u) (hη : 0 ≤ η) (hηu : η ≤ u * u) (htop : 1 ≤ top) (hM : 0 ≤ M)
    (hk1 : 1 ≤ k) (fine : 1000 * k * u ≤ 1) (w : 1000 * k * (M + η) ≤ top) (a0 : 0 ≤ sa) (b0 : 0 ≤ sb) (la : sa ≤ 18 * k) (lb : sb ≤ 18 * k) :
    2 * M + ((5 + 2 * sa) * (u * M + η) + (5 + 2 * sb) * (u * M + η)) ≤ top ∧
    (5 + 2 * sa) * (u * M + η) + (5 + 2 * sb) * (u * M + η) + u * (2 * M + ((5 + 2 * sa) * (u * M + η) + (5 + 2 * sb) * (u * M + η))) + η
      ≤ (16 + 2 * (sa + sb)) * (u * M + η) ∧
    40 * k * (2 * M + (16 + 2 * (sa + sb)) * (u * M + η) + η) ≤ top ∧
    u * (2 * M + (16 + 2 * (sa + sb)) * (u * M + η)) + η ≤ 3 * (u * M + η) := by
  have hδ : 0 ≤ u * M + η := by positivity
  have hk0 : 0 ≤ k := by linarith
  have hEk : (16 + 2 * (sa + sb)) * (u * M + η) ≤ 88 * k * (u * M + η) := mul_le_mul_of_nonneg_right (by linarith) hδ
  have hsum : (5 + 2 * sa) * (u * M + η) + (5 + 2 * sb) * (u * M + η) = (16 + 2 * (sa + sb)) * (u * M + η) - 6 * (u * M + η) := by ring
  rw [hsum]
  have hE0 : 0 ≤ (16 + 2 * (sa + sb)) * (u * M + η) := by positivity
  generalize (16 + 2 * (sa + sb)) * (u * M + η) = E at *
  have hkuM : k * (u * M) ≤ M / 1000 := by
    have := mul_le_mul_of_nonneg_right fine hM
    linarith
  have hEM : E ≤ M + 88 * (k * η) := by linarith
  have huE : u * E ≤ u * M + η := by
    have h1 := mul_le_mul_of_nonneg_left hEk hu
    have := mul_le_mul_of_nonneg_right (show 88 * k * u ≤ 1 by linarith [mul_nonneg hk0 hu]) hδ
    linarith
  have hkM : M ≤ k * M := by nlinarith
  have hkη : 0 ≤ k * η := by positivity
  have hud : 0 ≤ u * (u * M + η) := by positivity
  have hkη1 : k * (k * η) ≤ 1 / 1000000 := by
    have h1 : k * η ≤ k * (u * u) := mul_le_mul_of_nonneg_left hηu hk0
    have h2 : k * u ≤ 1 / 1000 := by linarith
    have h3 : k * u * (k * u) ≤ 1 / 1000 * (1 / 1000) := mul_le_mul h2 h2 (by positivity) (by norm_num)
    have h4 := mul_le_mul_of_nonneg_left h1 hk0
    linarith
  have hkE := mul_le_mul_of_nonneg_left hEM hk0
  refine ⟨by linarith, by linarith, by linarith, by linarith⟩

include A L in
/-- **C92.** MACD of any two averages of any price sources with any signal average: the line is within
`16 + 2 (slack short + slack long)` roundings of the exact line on every bar, the signal line within `3 slack signal` more of the exact
average of the exact line, each rounding being `u M + η`; and both begin on the same bar as the exact ones. -/
theorem C92_macd {d : DataProvider α} {N : Nat} {o h l c v : Nat → K} {M : K} (hb : PricedBars V d N o h l c v M) (hM : 0 ≤ M)
    {ss sl : SrcKind} (hss : ss ≠ .volume) (hsl : sl ≠ .volume) (ka kb kg : MaKind) {a b g k : Nat} (ha : 1 ≤ a) (hb' : 1 ≤ b) (hg : 1 ≤ g)
    (hk : a + b + g + N + 1 ≤ k) (hr : Room u η top k M) :
    let p := max (maLength ka a) (maLength kb b) - 1
    let line := fun t => average ka a 0 (sourceValue ss o h l c v) t - average kb b 0 (sourceValue sl o h l c v) t
    ∃ y z, Runs (noInput fun t => withSrc2 ss sl Macd.next ⟨d, t⟩)
        (do let s ← Ma.new ka a; let l ← Ma.new kb b; let g ← Ma.new kg g; return ⟨s, l, g⟩) unit N (fun t => (y t, z t)) ∧
      StaysNear V y p line ((16 + 2 * (slack ka a N + slack kb b N)) * (u * M + η)) N ∧
      StaysNear V z (p + maLength kg g - 1) (average kg g p line)
        ((16 + 2 * (slack ka a N + slack kb b N) + 3 * slack kg g N) * (u * M + η)) N := by
  intro p line
  have hδ : 0 ≤ u * M + η := add_nonneg (mul_nonneg A.u_nonneg hM) A.η_nonneg
  have hk1 : (1 : K) ≤ k := by exact_mod_cast (by omega : 1 ≤ k)
  have p1 := maLength_pos ka ha
  have p2 := maLength_pos kb hb'
  have p3 := maLength_pos kg hg
  obtain ⟨x1, y1, e1, r1, n1⟩ := source_average A L hb hM hss ka ha (show a + N + 1 ≤ k by omega) hr
  obtain ⟨x2, y2, e2, r2, n2⟩ := source_average A L hb hM hsl kb hb' (show b + N + 1 ≤ k by omega) hr
  have la : (slack ka a N : K) ≤ 18 * k := by exact_mod_cast slack_le ka (show a + N + 1 ≤ k by omega)
  have lb : (slack kb b N : K) ≤ 18 * k := by exact_mod_cast slack_le kb (show b + N + 1 ≤ k by omega)
  obtain ⟨w1, w2, w3, w4⟩ := line_numbers A.u_nonneg A.η_nonneg A.η_small A.top_ge hM hk1 hr.fine hr.wide (Nat.cast_nonneg _) (Nat.cast_nonneg _) la lb
  have hline : ∀ t, t < N → p ≤ t → |line t| ≤ 2 * M := by
    intro t ht hpt
    have h1 := average_abs ka ha (s := 0) (t := t) (w := sourceValue ss o h l c v) (M := M) (by omega) fun i _ hi =>
      sourceValue_abs (hb.bound i (by omega)) hss
    have h2 := average_abs kb hb' (s := 0) (t := t) (w := sourceValue sl o h l c v) (M := M) (by omega) fun i _ hi =>
      sourceValue_abs (hb.bound i (by omega)) hsl
    have := abs_sub (average ka a 0 (sourceValue ss o h l c v) t) (average kb b 0 (sourceValue sl o h l c v) t)
    show |_ - _| ≤ _
    linarith
  have hp : max (maLength ka a - 1) (maLength kb b - 1) = p := by omega
  have n3 := stays_sub A n1 n2 (m := 2 * M) (by rw [hp]; exact hline) w1
  rw [hp] at n3
  have n4 := n3.mono w2
  obtain ⟨z, r3, n5⟩ := C92_average A L d kg hg (show g + N + 1 ≤ k by omega) hr.small (by linarith [hr.fine, mul_nonneg (Nat.cast_nonneg (α := K) k) A.u_nonneg]) n4 (M := 2 * M) (by linarith)
    (mul_nonneg (by positivity) hδ) hline w3
  obtain ⟨q1, i1, -⟩ := r1.trace
  obtain ⟨q2, i2, -⟩ := r2.trace
  obtain ⟨q3, i3, -⟩ := r3.trace
  rw [i1] at r1; rw [i2] at r2; rw [i3] at r3
  refine ⟨_, z, withSrc2_runs e1 e2 ?_, n4, n5.mono ?_⟩
  · simp only [i1, i2, i3, Res.ok_bind, Res.pure_eq]
    exact C53_macd d r1 r2 r3
  · have := mul_le_mul_of_nonneg_left w4 (Nat.cast_nonneg (α := K) (slack kg g N))
    linarith

end
end Pace
