import Verif.Lemmas.TaExact2
import Verif.Lemmas.Real

/-!
# Properties of the moving averages and other window components of ta (C21–C30)

`flo x` is the series of exact numbers `x` read as floats; `fullWindow x len t` is the list of the last `len` inputs, if
there are `len` of them and none is missing.
-/

set_option linter.unusedSectionVars false

namespace Pace
open Spec

section exact
variable {K : Type} [Field K] [LinearOrder K] [IsStrictOrderedRing K] [RootOps K]

/-! ## C21, C22 -/

/-- **C21.** For every length, data and input series (with arbitrary gaps), `Sma` returns at tick `t` the mean of exactly the
last `len` inputs, and `None` if there are not `len` yet or one of them is missing. -/
theorem C21_sma (d : DataProvider (Ex K)) {len : Nat} (hlen : 1 ≤ len) (x : Nat → Option K) (N : Nat) :
    Runs (fun t => Sma.next ⟨d, t⟩) (Sma.new len) (flo x) N
      (fun t => (fullWindow x len t).map fun v => fin (mean v)) :=
  (sma_runs d hlen (flo x) N).congr fun t _ => sma0_exact hlen x t

/-- A gap in the middle: the result reappears as soon as the gap has left the window. -/
example : ∃ x : Nat → Option ℚ, fullWindow x 2 0 = none ∧ fullWindow x 2 1 = some [0, 2] ∧ fullWindow x 2 2 = none ∧
    fullWindow x 2 3 = none ∧ fullWindow x 2 4 = some [6, 8] :=
  ⟨fun t => if t = 2 then none else some (2 * t), by decide +kernel⟩

/-- **C22.** As C21, for `ta::Sum`. -/
theorem C22_sum (d : DataProvider (Ex K)) {len : Nat} (hlen : 1 ≤ len) (x : Nat → Option K) (N : Nat) :
    Runs (fun t => Sum.next ⟨d, t⟩) (Sum.new len) (flo x) N
      (fun t => (fullWindow x len t).map fun v => fin v.sum) :=
  (sum_runs d hlen (flo x) N).congr fun t _ => sum0_exact hlen x t

end exact

section float
variable {K : Type} [Field K] [LinearOrder K] (R : Rounding K)

theorem nan_add_left (a : Fl R) : Fl.of R .nan + a = Fl.of R .nan := rfl
theorem nan_add_right (a : Fl R) : a + Fl.of R .nan = Fl.of R .nan := by
  show Fl.add R a .nan = .nan
  cases a <;> rfl
theorem nan_sub_left (a : Fl R) : Fl.of R .nan - a = Fl.of R .nan := rfl

theorem acc0_nan {len : Nat} {x : Nat → Option (Fl R)} {k t : Nat} (hk : x k = some (Fl.of R .nan)) (h : k < t) :
    acc0 len x t = Fl.of R .nan := by
  induction t, h using Nat.le_induction with
  | base =>
    rw [acc0, hk]
    simp only [addOpt, nan_add_right]
    cases ago x (len - 1) k <;> rfl
  | succ t ht ih =>
    rw [acc0, ih]
    have h1 : addOpt (Fl.of R .nan) (x t) = Fl.of R .nan := by cases x t <;> rfl
    rw [h1]
    cases ago x (len - 1) t <;> rfl

theorem rawSum0_nan {len : Nat} {x : Nat → Option (Fl R)} {k t : Nat} (hk : x k = some (Fl.of R .nan)) (h : k ≤ t) :
    rawSum0 len x t = Fl.of R .nan := by
  rcases Nat.lt_or_ge k t with h' | h'
  · rw [rawSum0, acc0_nan R hk h']; cases x t <;> rfl
  · rw [rawSum0, show t = k by omega, hk]; exact nan_add_right R _

/-- **C21/C22**, limits of the exact statement: the running sum has no way to forget.  With float inputs, once a single
input was NaN every later `Some` output is NaN, even when the NaN has long left the window (length > 1). -/
theorem C21_nan_is_permanent (d : DataProvider (Fl R)) {len : Nat} (hlen : 2 ≤ len) (x : Nat → Option (Fl R)) (N k : Nat)
    (hk : x k = some (Fl.of R .nan)) :
    ∃ y, Runs (fun t => Sma.next ⟨d, t⟩) (Sma.new len) x N y ∧
      ∀ t, t < N → k ≤ t → ∀ v, y t = some v → v = Fl.of R .nan := by
  refine ⟨_, sma_runs d (by omega) x N, fun t _ hkt v hv => ?_⟩
  unfold sma0 at hv
  rw [if_neg (by omega)] at hv
  split at hv
  · rw [rawSum0_nan R hk hkt] at hv
    exact (Option.some.inj hv).symm
  · simp at hv

theorem C22_nan_is_permanent (d : DataProvider (Fl R)) {len : Nat} (hlen : 1 ≤ len) (x : Nat → Option (Fl R)) (N k : Nat)
    (hk : x k = some (Fl.of R .nan)) :
    ∃ y, Runs (fun t => Sum.next ⟨d, t⟩) (Sum.new len) x N y ∧
      ∀ t, t < N → k ≤ t → ∀ v, y t = some v → v = Fl.of R .nan := by
  refine ⟨_, sum_runs d hlen x N, fun t _ hkt v hv => ?_⟩
  unfold sum0 at hv
  split at hv
  · rw [rawSum0_nan R hk hkt] at hv
    exact (Option.some.inj hv).symm
  · simp at hv
end float

/-- The hypotheses are met with a window that no longer contains the NaN: at tick 3 the inputs 2 and 3 are numbers, the output NaN. -/
example : outputs (fun t => Sma.next ⟨DataProvider.ofSeries 4 unit' unit' unit' unit' unit', t⟩)
    (fun t => if t = 0 then some (Fl.of (Rounding.exact ℚ) .nan) else some (fin (1 : ℚ))) 4 (Sma.new 2)
    = .ok [none, some (Fl.of _ .nan), some (Fl.of _ .nan), some (Fl.of _ .nan)] := by decide +kernel

section exact
variable {K : Type} [Field K] [LinearOrder K] [IsStrictOrderedRing K] [RootOps K]

/-! ## C23 -/

/-- **C23.** `Ema(len >= 2, a)` before the first full window of inputs: `None` on every tick, whatever the inputs. -/
theorem C23_ema_unseeded (d : DataProvider (Ex K)) {len : Nat} (hlen : 2 ≤ len) (a : K) (x : Nat → Option K) (N : Nat)
    (h : ∀ t, t < N → fullWindow x len t = none) :
    Runs (fun t => Ema.next ⟨d, t⟩) (Ema.withAlpha len (fin a)) (flo x) N (fun _ => none) := by
  refine (ema_runs d (by omega) (fin a) (flo x) N (Or.inr fun t ht hs => ?_)).congr fun t ht =>
    ema0_exact_before hlen _ fun r hr => h r (by omega)
  obtain ⟨s, h1, h2, h3⟩ := hs
  have := h s (by omega)
  have h4 := (fullWindow_isSome (x := x)).mpr ⟨h2, windowPresent_flo.mp h3⟩
  rw [this] at h4; simp at h4

/-- **C23.** `Ema(len >= 2, a)`: if the first full window of inputs is at tick `s` and no input is missing after it, the
output is `None` before `s`, the mean of that window at `s`, and `n` ticks later the exponentially weighted sum
`(1-a)^n mean + Σ_{i<n} a (1-a)^(n-1-i) x(s+1+i)`. -/
theorem C23_ema (d : DataProvider (Ex K)) {len : Nat} (hlen : 2 ≤ len) (a : K) (x : Nat → Option K) (N s : Nat)
    (v : List K) (hs : FirstFull len x s) (hv : fullWindow x len s = some v) (u : Nat → K)
    (hu : ∀ i, s + 1 + i < N → x (s + 1 + i) = some (u i)) :
    Runs (fun t => Ema.next ⟨d, t⟩) (Ema.withAlpha len (fin a)) (flo x) N
      (fun t => if t < s then none else some (fin (smoothed a (mean v) u (t - s)))) := by
  refine (ema_runs d (by omega) (fin a) (flo x) N (Or.inr fun t ht hs' => ?_)).congr fun t ht => ?_
  · obtain ⟨r, h1, h2, h3⟩ := hs'
    have hr : s ≤ r := by
      by_contra hc
      have h4 := (fullWindow_isSome (x := x)).mpr ⟨h2, windowPresent_flo.mp h3⟩
      rw [hs.2 r (by omega)] at h4; simp at h4
    have := hu (t - s) (by omega)
    rw [show s + 1 + (t - s) = t + 1 by omega] at this
    simp [this]
  · by_cases hts : t < s
    · rw [if_pos hts]
      exact ema0_exact_before hlen _ fun r hr => hs.2 r (by omega)
    · rw [if_neg hts]
      have := ema0_exact hlen a hs hv u (t - s) fun i hi => hu i (by omega)
      rwa [show s + (t - s) = t by omega] at this

/-- The hypotheses of `C23_ema` are met by a series with a gap before the seed. -/
example : ∃ (x : Nat → Option ℚ) (u : Nat → ℚ), FirstFull 2 x 3 ∧ fullWindow x 2 3 = some [2, 3] ∧
    (∀ i, x (3 + 1 + i) = some (u i)) ∧ smoothed (1 / 2) (mean [2, 3]) u 2 = (1/2)*5 + (1/2)*((1/2)*4+(1/2)*(5/2)) :=
  ⟨fun t => if t = 1 then none else some (t : ℚ), fun i => ((4 + i : Nat) : ℚ),
   ⟨by decide +kernel, by
      intro r hr
      rcases r with _ | _ | _ | r
      · decide +kernel
      · decide +kernel
      · decide +kernel
      · omega⟩, by decide +kernel, by intro i; exact if_neg (by omega), by decide +kernel⟩

/-- **C23.** The closed form is the recurrence `out(t) = a x(t) + (1-a) out(t-1)` from the seed. -/
theorem C23_recurrence (a m : K) (u : Nat → K) (n : Nat) :
    smoothed a m u 0 = m ∧ smoothed a m u (n + 1) = a * u n + (1 - a) * smoothed a m u n :=
  ⟨smoothed_zero a m u, smoothed_succ a m u n⟩

/-- **C23.** The weights add up to 1: smoothing a constant gives that constant. -/
theorem C23_weights (a c : K) (n : Nat) : smoothed a c (fun _ => c) n = c := by
  induction n with
  | zero => exact smoothed_zero _ _ _
  | succ n ih => rw [smoothed_succ, ih]; ring

/-- **C23.** With a factor in [0,1] the output stays between any bounds of the inputs used. -/
theorem C23_between {a lo hi : K} (ha0 : 0 ≤ a) (ha1 : a ≤ 1) {v : List K} (hv : v ≠ []) {u : Nat → K} {n : Nat}
    (hb : ∀ w ∈ v, lo ≤ w ∧ w ≤ hi) (hu : ∀ i, i < n → lo ≤ u i ∧ u i ≤ hi) :
    lo ≤ smoothed a (mean v) u n ∧ smoothed a (mean v) u n ≤ hi :=
  smoothed_bounds ha0 ha1 (mean_bounds hv hb) hu

/-- **C23.** `Ema::new(len)` is `Ema` with factor `2/(len+1)`, `Rma(len)` smooths with `1/len`; both factors lie in (0,1]. -/
theorem C23_alpha {len : Nat} (hlen : 1 ≤ len) :
    (Ema.new len : Res (Ema (Ex K))) = Ema.withAlpha len (fin (2 / ((len : K) + 1))) ∧
    (∀ d x N (y : Nat → Option (Ex K)), Runs (fun t => Ema.next ⟨d, t⟩) (Ema.withAlpha len (fin (1 / (len : K)))) x N y →
      Runs (fun t => Rma.next ⟨d, t⟩) (Rma.new len) x N y) ∧
    (0 : K) < 2 / ((len : K) + 1) ∧ (2 : K) / ((len : K) + 1) ≤ 1 ∧ (0 : K) < 1 / (len : K) ∧ 1 / (len : K) ≤ 1 := by
  have h1 : (1 : K) ≤ len := by exact_mod_cast hlen
  refine ⟨?_, ?_, by positivity, ?_, by positivity, ?_⟩
  · unfold Ema.new
    have := emaAlpha_exact (K := K) (len := len)
    unfold emaAlpha at this
    rw [this]
  · intro d x N y h
    obtain ⟨s, Inv, hs, hI⟩ := h.impl
    have ha := rmaAlpha_exact (K := K) hlen
    unfold rmaAlpha at ha
    have hnew : Rma.new len = .ok (⟨len, s⟩ : Rma (Ex K)) := by
      simp only [Rma.new, hlen, decide_true, assert_true, Res.ok_bind, ha, hs, Res.pure_eq]
    rw [hnew]
    apply Impl.runs (Inv := fun t r => Inv t r.ema)
    refine ⟨hI.init, fun t r ht hr => ?_⟩
    obtain ⟨s', h1, h2⟩ := hI.step t r.ema ht hr
    exact ⟨{ r with ema := s' }, by simp only [Rma.next, h1, Res.ok_bind, Res.pure_eq], h2⟩
  · rw [div_le_one (by positivity)]; linarith
  · rw [div_le_one (by positivity)]; linarith
end exact

/-- **C23.** For length 1 the Ema is the input itself, missing values included (any floats). -/
theorem C23_ema_one {α : Type} [F64 α] (d : DataProvider α) (a : α) (x : Nat → Option α) (N : Nat) :
    Runs (fun t => Ema.next ⟨d, t⟩) (Ema.withAlpha 1 a) x N x := by
  refine (ema_runs d (le_refl 1) a x N (Or.inl rfl)).congr fun t _ => ?_
  cases t <;> simp [ema0, sma0]

/-- **C23.** The recurrence holds bit for bit in floating point: after an output `p` the next one is
`a * x + (1 - a) * p`, computed in that order. -/
theorem C23_float {α : Type} [F64 α] (d : DataProvider α) {len : Nat} (hlen : 2 ≤ len) (a : α) (x : Nat → Option α) (N : Nat)
    (hx : ∀ t, t + 1 < N → (∃ s, s ≤ t ∧ (fullWindow x len s).isSome) → (x (t + 1)).isSome) :
    ∃ y, Runs (fun t => Ema.next ⟨d, t⟩) (Ema.withAlpha len a) x N y ∧
      ∀ t, t + 1 < N → ∀ p, y t = some p → ∃ v, x (t + 1) = some v ∧ y (t + 1) = some (a * v + (lit 1 - a) * p) := by
  have hok : EmaOk len x N := Or.inr fun t ht ⟨s, h1, h2, h3⟩ => hx t ht ⟨s, h1, fullWindow_isSome.mpr ⟨h2, h3⟩⟩
  refine ⟨_, ema_runs d (by omega) a x N hok, fun t ht p hp => ?_⟩
  obtain ⟨v, hv⟩ := hok.input (alpha := a) (t := t + 1) (by omega) ht hp
  exact ⟨v, hv, by rw [ema0, if_neg (by omega), hp, hv]; rfl⟩

/-! ## C24 -/

section panic
variable {α : Type} [F64 α]

/-- A run and an invariant over a prefix can be followed together. -/
theorem Impl.follow {S I O : Type} {step : Nat → S → I → Res (O × S)} {s : S} {x : Nat → I} {N M : Nat} {y y' : Nat → O}
    {Inv Inv' : Nat → S → Prop} (h : Impl step s x N y Inv) (h' : Impl step s x M y' Inv') :
    ∀ t, t ≤ N → t ≤ M → ∃ s', Inv t s' ∧ Inv' t s' := by
  intro t
  induction t with
  | zero => intro _ _; exact ⟨s, h.init, h'.init⟩
  | succ t ih =>
    intro hN hM
    obtain ⟨s', h1, h2⟩ := ih (by omega) (by omega)
    obtain ⟨a, ha1, ha2⟩ := h.step t s' (by omega) h1
    obtain ⟨b, hb1, hb2⟩ := h'.step t s' (by omega) h2
    rw [ha1] at hb1
    have : a = b := by
      have := Except.ok.inj hb1
      exact (Prod.mk.inj this).2
    subst this
    exact ⟨a, ha2, hb2⟩

/-- **C24.** `Ema` of length >= 2 survives a run exactly if no input is missing on any tick after the
first full window: a single missing value later on panics. For any floats. -/
theorem C24_ema_panics_iff (d : DataProvider α) {len : Nat} (hlen : 2 ≤ len) (a : α) (x : Nat → Option α) (N : Nat) :
    (∃ y, Runs (fun t => Ema.next ⟨d, t⟩) (Ema.withAlpha len a) x N y) ↔
    ∀ t, t < N → (∃ s, s < t ∧ (fullWindow x len s).isSome) → (x t).isSome := by
  have hne : len ≠ 1 := by omega
  constructor
  · rintro ⟨y, hy⟩
    by_contra hcon
    have hex : ∃ t, t < N ∧ (∃ s, s < t ∧ (fullWindow x len s).isSome) ∧ ¬ (x t).isSome := by
      by_contra hc
      apply hcon
      intro t ht hs
      by_contra hx
      exact hc ⟨t, ht, hs, hx⟩
    classical
    obtain ⟨ht, ⟨s, hst, hsf⟩, hx⟩ := Nat.find_spec hex
    have hmin := fun m (hm : m < Nat.find hex) => Nat.find_min hex hm
    generalize Nat.find hex = T at ht hst hx hmin
    obtain ⟨t, rfl⟩ : ∃ t, T = t + 1 := ⟨T - 1, by omega⟩
    have hok : EmaOk len x (t + 1) := by
      refine Or.inr fun r hr ⟨s', h1, h2, h3⟩ => ?_
      by_contra hc
      exact hmin (r + 1) (by omega) ⟨by omega, ⟨s', by omega, fullWindow_isSome.mpr ⟨h2, h3⟩⟩, hc⟩
    obtain ⟨hs2, hs3⟩ := fullWindow_isSome.mp hsf
    obtain ⟨p, hp⟩ := Option.isSome_iff_exists.mp (ema0_seeded (a := a) hne hok ⟨s, by omega, hs2, hs3⟩)
    obtain ⟨s0, hs0, hI0⟩ := ema_init x a (show 1 ≤ len by omega)
    obtain ⟨s1, Inv, hs1, hI⟩ := hy.impl
    rw [hs0] at hs1
    cases hs1
    have hI' : Impl (fun t => Ema.next ⟨d, t⟩) s0 x (t + 1) (ema0 len a x) (EmaInv len a x) :=
      ⟨hI0, fun r s hr h => ema_step (by omega) hok hr h⟩
    obtain ⟨s', h1, h2⟩ := hI.follow hI' (t + 1) (by omega) (le_refl _)
    obtain ⟨s'', h3, _⟩ := hI.step (t + 1) s' ht h1
    obtain ⟨e1, e2, e3⟩ := h2
    obtain ⟨e4, _⟩ := e3 hne
    have e5 : s'.prevValue = some p := by rw [e4]; exact hp
    have hx' : x (t + 1) = none := by simpa using hx
    simp only [Ema.next, e1, hne, if_false, usub_of_le (show 1 ≤ len by omega), Res.ok_bind, Ctx.atLength,
      usub_of_le (show 1 ≤ len - 1 by omega), Res.pure_eq, show len - 1 - 1 ≤ t + 1 by omega, decide_true,
      Bool.not_true, Bool.false_eq_true, e5, hx', unwrap_none, Res.error_bind] at h3
    exact absurd h3 (by simp)
  · intro h
    refine ⟨_, ema_runs d (by omega) a x N (Or.inr fun t ht ⟨s, h1, h2, h3⟩ => ?_)⟩
    exact h (t + 1) ht ⟨s, by omega, fullWindow_isSome.mpr ⟨h2, h3⟩⟩

/-- **C24.** A run that panics: lengths 2, inputs 1, 2, None. -/
theorem C24_example_panic : outputs (fun t => Ema.next (α := Ex ℚ) ⟨DataProvider.ofSeries 3 unit' unit' unit' unit' unit', t⟩)
    (fun t => if t = 2 then none else some (fin (t : ℚ))) 3 (Ema.new 2) = .error .unwrapNone := by decide +kernel

/-- **C24.** the window components accept missing values on any tick. -/
theorem C24_window_components (d : DataProvider α) (x : Nat → Option α) (N : Nat) {len : Nat} (hlen : 1 ≤ len)
    (biased : Bool) :
    (∃ y, Runs (fun t => Sma.next ⟨d, t⟩) (Sma.new len) x N y) ∧
    (∃ y, Runs (fun t => Sum.next ⟨d, t⟩) (Sum.new len) x N y) ∧
    (∃ y, Runs (fun t => Wma.next ⟨d, t⟩) (Wma.new len) x N y) ∧
    (∃ y, Runs (fun t => Swma.next ⟨d, t⟩) Swma.new x N y) ∧
    (∃ y, Runs (fun t => Dev.next ⟨d, t⟩) (Dev.new len) x N y) ∧
    (∃ y, Runs (fun t => Stdev.next ⟨d, t⟩) (Stdev.new len biased) x N y) ∧
    (∃ y, Runs (fun _ => Change.next) (Change.new len) x N y) ∧
    (∃ y, Runs (fun _ => Roc.next) (Roc.new len) x N y) ∧
    (∃ y, Runs (fun t => Prank.next ⟨d, t⟩) (Prank.new len) x N y) ∧
    (∃ y, Runs (fun t => Highest.next ⟨d, t⟩) (Highest.new len) x N y) ∧
    (∃ y, Runs (fun t => Lowest.next ⟨d, t⟩) (Lowest.new len) x N y) :=
  ⟨⟨_, sma_runs d hlen x N⟩, ⟨_, sum_runs d hlen x N⟩, ⟨_, wma_runs d hlen x N⟩, ⟨_, swma_runs d x N⟩,
   ⟨_, dev_runs d hlen x N⟩, ⟨_, stdev_runs d hlen biased x N⟩, ⟨_, change_runs len hlen x N⟩,
   ⟨_, roc_runs len hlen x N⟩, ⟨_, prank_runs d hlen x N⟩, ⟨_, highest_runs d hlen x N⟩,
   ⟨_, lowest_runs d hlen x N⟩⟩
end panic

section exact
variable {K : Type} [Field K] [LinearOrder K] [IsStrictOrderedRing K] [RootOps K]

/-! ## C25 -/

/-- **C25.** `Wma(len)` is the linearly weighted mean of the last `len` inputs (newest weight `len`, oldest 1), `None` when one is
missing. -/
theorem C25_wma (d : DataProvider (Ex K)) {len : Nat} (hlen : 1 ≤ len) (x : Nat → Option K) (N : Nat) :
    Runs (fun t => Wma.next ⟨d, t⟩) (Wma.new len) (flo x) N
      (fun t => (fullWindow x len t).map fun v => fin (weightedMean v)) :=
  (wma_runs d hlen (flo x) N).congr fun t _ => wma0_exact hlen x t

/-- **C25.** `Swma` is `(x0 + 2 x1 + 2 x2 + x3) / 6` of the last four inputs. -/
theorem C25_swma (d : DataProvider (Ex K)) (x : Nat → Option K) (N : Nat) :
    Runs (fun t => Swma.next ⟨d, t⟩) Swma.new (flo x) N
      (fun t => (fullWindow x 4 t).map fun v =>
        fin ((v.getD 0 0 + 2 * v.getD 1 0 + 2 * v.getD 2 0 + v.getD 3 0) / 6)) :=
  (swma_runs d (flo x) N).congr fun t _ => swma0_exact x t

example : weightedMean [(1 : ℚ), 2, 4] = (1 * 1 + 2 * 2 + 3 * 4) / 6 := by decide +kernel

/-! ## C26 -/

/-- **C26.** `Dev(len >= 2)` is the mean absolute deviation of the last `len` inputs from their mean. -/
theorem C26_dev (d : DataProvider (Ex K)) {len : Nat} (hlen : 2 ≤ len) (x : Nat → Option K) (N : Nat) :
    Runs (fun t => Dev.next ⟨d, t⟩) (Dev.new len) (flo x) N
      (fun t => (fullWindow x len t).map fun v => fin (meanAbsDev v)) :=
  (dev_runs d (by omega) (flo x) N).congr fun t _ => dev0_exact hlen x t

/-- **C26.** `Stdev(len >= 2)` is the square root of the mean (or, unbiased, of 1/(len-1) times the sum) of the squared
deviations of the last `len` inputs from their mean, deviations below 1e-10 counting as 0. -/
theorem C26_stdev (d : DataProvider (Ex K)) {len : Nat} (hlen : 2 ≤ len) (biased : Bool) (x : Nat → Option K) (N : Nat) :
    Runs (fun t => Stdev.next ⟨d, t⟩) (Stdev.new len biased) (flo x) N
      (fun t => (fullWindow x len t).map fun v =>
        fin (RootOps.sqrt (cutSqDev v / (if biased then (len : K) else (len : K) - 1)))) :=
  (stdev_runs d (by omega) biased (flo x) N).congr fun t _ => stdev0_exact hlen biased x t

/-- **C26.** The cut costs at most `len * 1e-20` of the sum of squares and nothing when no deviation is smaller than 1e-10
without being 0. -/
theorem C26_cut (v : List K) :
    (0 ≤ cutSqDev v ∧ cutSqDev v ≤ sqDev v ∧ sqDev v ≤ cutSqDev v + (v.length : K) * (1 / 10000000000) ^ 2) ∧
    ((∀ w ∈ v, w = mean v ∨ 1 / 10000000000 ≤ |w - mean v|) → cutSqDev v = sqDev v) := by
  refine ⟨⟨cutSqDev_nonneg v, cutSqDev_bounds v⟩, fun h => ?_⟩
  unfold cutSqDev sqDev
  congr 1
  apply List.map_congr_left
  intro w hw
  unfold cutDev
  rcases h w hw with h | h
  · rw [h]; simp
  · rw [if_neg (not_lt.mpr h)]

/-- **C26.** Both are non-negative. -/
theorem C26_nonneg {K : Type} [Field K] [LinearOrder K] [IsStrictOrderedRing K] [LawfulRoots K] (v : List K) (c : K) :
    0 ≤ meanAbsDev v ∧ 0 ≤ RootOps.sqrt (cutSqDev v / c) := by
  refine ⟨div_nonneg (List.sum_nonneg ?_) (Nat.cast_nonneg _), LawfulRoots.sqrt_nonneg _⟩
  intro w hw
  obtain ⟨u, _, rfl⟩ := List.mem_map.mp hw
  positivity

end exact

/-- **C26**, length 1: the code does not look at its input — `Dev` and biased `Stdev` give 0 even for a missing input, unbiased
`Stdev` gives `None`. -/
theorem C26_length_one {α : Type} [F64 α] (d : DataProvider α) (x : Nat → Option α) (N : Nat) :
    Runs (fun t => Dev.next ⟨d, t⟩) (Dev.new 1) x N (fun _ => some (lit 0)) ∧
    Runs (fun t => Stdev.next ⟨d, t⟩) (Stdev.new 1 true) x N (fun _ => some (lit 0)) ∧
    Runs (fun t => Stdev.next ⟨d, t⟩) (Stdev.new 1 false) x N (fun _ => none) :=
  ⟨(dev_runs d (le_refl 1) x N).congr fun t _ => by simp [dev0],
   (stdev_runs d (le_refl 1) true x N).congr fun t _ => by simp [stdev0],
   (stdev_runs d (le_refl 1) false x N).congr fun t _ => by simp [stdev0]⟩

section exact
variable {K : Type} [Field K] [LinearOrder K] [IsStrictOrderedRing K] [RootOps K]

/-! ## C27, C28 -/

theorem lag0_exact (f : Ex K → Ex K → Ex K) (g : K → K → K) (hf : ∀ a b, a ≠ 0 → f (fin a) (fin b) = fin (g a b))
    (len : Nat) (x : Nat → Option K) (t : Nat) :
    lag0 f len (flo x) t = (opt2 (fun a b => (a, b)) (ago x len t) (x t)).bind fun p =>
      if p.1 = 0 then none else some (fin (g p.1 p.2)) := by
  unfold lag0
  rw [ago_map, show flo x t = (x t).map fin from rfl]
  cases ago x len t with
  | none => rfl
  | some a =>
    cases x t with
    | none => rfl
    | some b =>
      simp only [Option.map_some, opt2, Option.bind_some, fin_lit, fin_feq, Rat.cast_zero, decide_eq_true_eq]
      by_cases h : a = 0
      · simp [h]
      · simp [h, hf a b h]

/-- **C27.** the difference to the value `len` ticks ago when both are present, *except* that it is `None`
when the older value is 0. -/
theorem C27_change (len : Nat) (hlen : 1 ≤ len) (x : Nat → Option K) (N : Nat) :
    Runs (fun _ => Change.next) (Change.new len) (flo x) N (fun t =>
      (opt2 (fun old new => (old, new)) (ago x len t) (x t)).bind fun p =>
        if p.1 = 0 then none else some (fin (p.2 - p.1))) :=
  (change_runs len hlen (flo x) N).congr fun t _ => by
    rw [change0, lag0_exact _ (fun a b => b - a) (fun a b _ => fin_sub b a)]

/-- **C27.** Concretely the change from 0 to 5 is reported as `None`. -/
theorem C27_zero_is_missing : outputs (fun _ => Change.next) (fun t => some (fin (5 * t : ℚ) : Ex ℚ)) 3 (Change.new 1)
    = .ok [none, none, some (fin 5)] := by decide +kernel

/-- **C28.** `Roc(len)` is the percentage change to the value `len` ticks ago when both are present and the older is not 0. -/
theorem C28_roc (len : Nat) (hlen : 1 ≤ len) (x : Nat → Option K) (N : Nat) :
    Runs (fun _ => Roc.next) (Roc.new len) (flo x) N (fun t =>
      (opt2 (fun old new => (old, new)) (ago x len t) (x t)).bind fun p =>
        if p.1 = 0 then none else some (fin (100 * (p.2 - p.1) / p.1))) :=
  (roc_runs len hlen (flo x) N).congr fun t _ => by
    rw [roc0, lag0_exact _ (fun a b => 100 * (b - a) / a) (fun a b h => by simp [fin_div _ _ h])]

/-! ## C29 -/

/-- **C29.** `Prank(len)`: from tick `len` on, for a present input, the percentage of the `len` previous values that are
present and not above it. -/
theorem C29_prank (d : DataProvider (Ex K)) {len : Nat} (hlen : 1 ≤ len) (x : Nat → Option K) (N : Nat) :
    Runs (fun t => Prank.next ⟨d, t⟩) (Prank.new len) (flo x) N (fun t =>
      if len ≤ t then (x t).map fun last =>
        fin (100 * (((List.range len).countP fun i => (x (t - 1 - i)).any (· ≤ last) : Nat) : K) / (len : K))
      else none) := by
  refine (prank_runs d hlen (flo x) N).congr fun t _ => ?_
  unfold prank0
  by_cases ht : len ≤ t
  · rw [if_pos ht, if_pos ht]
    show ((x t).map fin).map _ = _
    cases x t with
    | none => rfl
    | some last =>
      simp only [Option.map_some, Option.some.injEq]
      have hc : countLe (fin last : Ex K) (win (flo x) len (t - 1))
          = (List.range len).countP fun i => (x (t - 1 - i)).any (· ≤ last) := by
        unfold countLe
        rw [← List.countP_eq_length_filter, ← List.countP_reverse, win, ← List.map_reverse, List.countP_map]
        have hr : (List.range len).reverse = (List.range len).map fun i => len - 1 - i := by
          apply List.ext_getElem?
          intro i
          by_cases hi : i < len
          · rw [List.getElem?_reverse (by simpa using hi), List.getElem?_map, List.getElem?_range hi]
            simp only [List.length_range, Option.map_some]
            rw [List.getElem?_range (by omega)]
          · rw [List.getElem?_eq_none (by simp; omega), List.getElem?_eq_none (by simp; omega)]
        rw [hr, List.countP_map]
        apply List.countP_congr
        intro i hi
        have hi := List.mem_range.mp hi
        simp only [Function.comp, show t - 1 + 1 - len + (len - 1 - i) = t - 1 - i by omega]
        rw [show flo x (t - 1 - i) = (x (t - 1 - i)).map fin from rfl]
        cases x (t - 1 - i) with
        | none => simp
        | some v => simp
      rw [hc, fin_lit_nat, fin_lit_nat, fin_lit, fin_div _ _ (by positivity), fin_mul]
      congr 1
      push_cast; ring
  · rw [if_neg ht, if_neg ht]

/-- **C29.** A percentage: between 0 and 100. -/
theorem C29_range {len : Nat} (hlen : 1 ≤ len) (p : Nat → Bool) :
    (0 : K) ≤ 100 * (((List.range len).countP p : Nat) : K) / (len : K) ∧
    100 * (((List.range len).countP p : Nat) : K) / (len : K) ≤ 100 := by
  have h1 : (0 : K) < len := by positivity
  have h2 : ((((List.range len).countP p : Nat)) : K) ≤ len := by
    have := List.countP_le_length (p := p) (l := List.range len)
    rw [List.length_range] at this
    exact_mod_cast this
  refine ⟨by positivity, ?_⟩
  rw [div_le_iff₀ h1]; linarith

/-! ## C30 -/

/-- **C30.** `Highest(len)` / `Lowest(len)` are the greatest / least of the present values among the last `len` inputs. -/
theorem C30_highest (d : DataProvider (Ex K)) {len : Nat} (hlen : 1 ≤ len) (x : Nat → Option K) (N : Nat) :
    Runs (fun t => Highest.next ⟨d, t⟩) (Highest.new len) (flo x) N (fun t => (Spec.highest x len t).map fin) :=
  (highest_runs d hlen (flo x) N).congr fun t _ => highest0_exact hlen x t

theorem C30_lowest (d : DataProvider (Ex K)) {len : Nat} (hlen : 1 ≤ len) (x : Nat → Option K) (N : Nat) :
    Runs (fun t => Lowest.next ⟨d, t⟩) (Lowest.new len) (flo x) N (fun t => (Spec.lowest x len t).map fin) :=
  (lowest_runs d hlen (flo x) N).congr fun t _ => lowest0_exact hlen x t

/-- **C30.** The list functions mean what their names say: attained in the window, and a bound of every present value in it. -/
theorem C30_bounds (x : Nat → Option K) {len t : Nat} (hl : len ≤ t + 1) (m : K) :
    (Spec.highest x len t = some m ↔
      (∃ k, t + 1 - len ≤ k ∧ k ≤ t ∧ x k = some m) ∧ ∀ k v, t + 1 - len ≤ k → k ≤ t → x k = some v → v ≤ m) ∧
    (Spec.lowest x len t = some m ↔
      (∃ k, t + 1 - len ≤ k ∧ k ≤ t ∧ x k = some m) ∧ ∀ k v, t + 1 - len ≤ k → k ≤ t → x k = some v → m ≤ v) := by
  constructor
  · refine ⟨spec_highest_some hl, fun ⟨⟨k, h1, h2, h3⟩, h4⟩ => ?_⟩
    obtain ⟨m', hm'⟩ := spec_highest_isSome (x := x) hl h1 h2 h3
    obtain ⟨⟨k', h1', h2', h3'⟩, h4'⟩ := spec_highest_some hl hm'
    rw [hm', le_antisymm (h4 k' m' h1' h2' h3') (h4' k m h1 h2 h3)]
  · refine ⟨spec_lowest_some hl, fun ⟨⟨k, h1, h2, h3⟩, h4⟩ => ?_⟩
    obtain ⟨m', hm'⟩ := spec_lowest_isSome (x := x) hl h1 h2 h3
    obtain ⟨⟨k', h1', h2', h3'⟩, h4'⟩ := spec_lowest_some hl hm'
    rw [hm', le_antisymm (h4' k m h1 h2 h3) (h4 k' m' h1' h2' h3')]
end exact

/-- **C30**, floats with any rounding, NaN-free inputs: the output is `None` before tick `len-1` or if the whole window is
missing, and otherwise one of the inputs of the window, not below (above) any of them. -/
theorem C30_float {K : Type} [Field K] [LinearOrder K] (R : Rounding K) (d : DataProvider (Fl R)) {len : Nat} (hlen : 1 ≤ len)
    (x : Nat → Option (Fl R)) (N : Nat) (hx : ∀ t, t < N → x t ≠ some (Fl.of R .nan)) :
    ∃ hi lo, Runs (fun t => Highest.next ⟨d, t⟩) (Highest.new len) x N hi ∧
      Runs (fun t => Lowest.next ⟨d, t⟩) (Lowest.new len) x N lo ∧
      ∀ t, t < N →
        (t + 1 < len → hi t = none ∧ lo t = none) ∧
        (len ≤ t + 1 → ((∀ k, t < k + len → k ≤ t → x k = none) ∧ hi t = none ∧ lo t = none) ∨
          ∃ h l, hi t = some h ∧ lo t = some l ∧
            (∃ k, t < k + len ∧ k ≤ t ∧ x k = some h) ∧ (∃ k, t < k + len ∧ k ≤ t ∧ x k = some l) ∧
            ∀ k v, t < k + len → k ≤ t → x k = some v → F64.le v h = true ∧ F64.le l v = true) := by
  refine ⟨_, _, highest_runs d hlen x N, lowest_runs d hlen x N, fun t ht => ⟨fun h => ?_, fun h => ?_⟩⟩
  · simp [highest0, lowest0, show ¬ len ≤ t + 1 by omega]
  · have hP : ∀ v, some v ∈ win x len t → v ≠ Fl.of R .nan := by
      intro v hv hn
      obtain ⟨k, h1, h2, h3⟩ := (mem_win h).mp hv
      exact hx k (by omega) (by rw [h3, hn])
    simp only [highest0, lowest0, if_pos h]
    rcases pick_spec maxB (maxLaw R) (win_ne_nil x (t := t) hlen) hP with ⟨h1, h2⟩ | ⟨m, h1, h2, h3⟩
    · rcases pick_spec minB (minLaw R) (win_ne_nil x (t := t) hlen) hP with ⟨h1', h2'⟩ | ⟨m', h1', h2', h3'⟩
      · exact Or.inl ⟨fun k hk1 hk2 => h2 _ ((mem_win h).mpr ⟨k, by omega, hk2, rfl⟩), h1, h1'⟩
      · exact absurd (h2 _ h2') (by simp)
    · rcases pick_spec minB (minLaw R) (win_ne_nil x (t := t) hlen) hP with ⟨h1', h2'⟩ | ⟨m', h1', h2', h3'⟩
      · exact absurd (h2' _ h2) (by simp)
      · refine Or.inr ⟨m, m', h1, h1', ?_, ?_, fun k v hk1 hk2 hk3 => ?_⟩
        · obtain ⟨k, a, b, c⟩ := (mem_win h).mp h2; exact ⟨k, by omega, b, c⟩
        · obtain ⟨k, a, b, c⟩ := (mem_win h).mp h2'; exact ⟨k, by omega, b, c⟩
        · have hm : some v ∈ win x len t := (mem_win h).mpr ⟨k, by omega, hk2, hk3⟩
          exact ⟨fl_le_of_not_lt v m (hP v hm) (hP m h2) (h3 v hm),
            fl_le_of_not_lt m' v (hP m' h2') (hP v hm) (h3' v hm)⟩

example : ∃ x : Nat → Option (Ex ℚ), (∀ t, t < 3 → x t ≠ some (Fl.of _ .nan)) ∧
    outputs (fun t => Highest.next ⟨DataProvider.ofSeries 3 unit' unit' unit' unit' unit', t⟩) x 3 (Highest.new 2)
      = .ok [none, some (fin 4), some (fin 3)] :=
  ⟨fun t => if t = 1 then none else some (fin (4 - t / 2 : ℚ)), by decide +kernel, by decide +kernel⟩

end Pace
