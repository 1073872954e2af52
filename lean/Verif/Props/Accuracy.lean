import Verif.Float.Error
import Verif.Lemmas.Real
import Verif.Lemmas.Wilder
import Verif.Props.Ta2
import Verif.Props.Warmup
import Verif.Props.Ieee
import Verif.Spec.Average

/-!
# C68: how far float results are from the exact ones

The identities "SMA is the mean", "EMA is the recurrence" hold in exact arithmetic.  Here: how far the floats the code computes can be
from those, for every rounding with relative error `u` and underflow error `η`, in particular IEEE binary64.
-/

set_option linter.unusedSectionVars false

namespace Pace
open Spec
variable {K : Type} [Field K] [LinearOrder K] [IsStrictOrderedRing K] [RootOps K] {R : Rounding K}
variable {α : Type} [F64 α]

/-- The floats `x` are finite and have the values `xs`; a missing value is missing in both. -/
def Spec.Reads (V : Valued R α) (x : Nat → Option α) (xs : Nat → Option K) : Prop :=
  ∀ t, (x t).map V.val = (xs t).map fun k => Fl.of R (.fin k)

/-- `o` is a float within `e` of `k` if `k` is a number, and missing if `k` is missing. -/
def Spec.Within (V : Valued R α) (o : Option α) (k : Option K) (e : K) : Prop :=
  match k with
  | none => o = none
  | some k => ∃ a, o = some a ∧ Near V a k e

/-! ## The running sum -/

/-- The exact running sum. -/
def wsum (len : Nat) (xs : Nat → Option K) (t : Nat) : K := ((hist (fun k => (xs k).getD 0) t).drop (t - (len - 1))).sum

theorem wsum_step (len : Nat) (xs : Nat → Option K) (t : Nat) :
    wsum len xs (t + 1) = wsum len xs t + (xs t).getD 0 - (ago xs (len - 1) t).getD 0 := by
  have h1 := acc0_exact len xs (t + 1)
  have h2 := acc0_exact len xs t
  have hadd : ∀ (s : K) (o : Option K), addOpt (fin s : Ex K) (o.map fin) = fin (s + o.getD 0) := by
    intro s o; cases o <;> simp [addOpt]
  have hsub : ∀ (s : K) (o : Option K), subOpt (fin s : Ex K) (o.map fin) = fin (s - o.getD 0) := by
    intro s o; cases o <;> simp [subOpt]
  rw [acc0, h2, ago_map, hadd, hsub, fin_inj] at h1
  exact h1.symm

theorem abs_sum_le {l : List K} {M : K} (h : ∀ v ∈ l, |v| ≤ M) : |l.sum| ≤ l.length * M := by
  induction l with
  | nil => simp
  | cons a l ih =>
    rw [List.sum_cons, List.length_cons]
    have h1 := h a (by simp)
    have h2 := ih fun v hv => h v (by simp [hv])
    have := abs_add_le a l.sum
    push_cast
    linarith

theorem wsum_bound {len : Nat} (hlen : 1 ≤ len) {xs : Nat → Option K} {M : K} (hM : 0 ≤ M) (hx : ∀ t k, xs t = some k → |k| ≤ M) (t : Nat) :
    |wsum len xs t| ≤ len * M ∧ |wsum len xs t + (xs t).getD 0| ≤ len * M := by
  have hv : ∀ k, |(xs k).getD 0| ≤ M := by
    intro k
    cases h : xs k with
    | none => simpa using hM
    | some v => exact hx k v h
  have h1 : |wsum len xs t| ≤ (len - 1 : Nat) * M := by
    refine (abs_sum_le (M := M) ?_).trans ?_
    · intro v hv'
      obtain ⟨k, _, rfl⟩ := List.mem_map.mp (List.mem_of_mem_drop hv')
      exact hv k
    · refine mul_le_mul_of_nonneg_right ?_ hM
      rw [List.length_drop, hist, List.length_map, List.length_range]
      exact_mod_cast (by omega)
  have h2 : ((len - 1 : Nat) : K) = len - 1 := by
    rw [Nat.cast_sub hlen]; simp
  rw [h2] at h1
  have := abs_add_le (wsum len xs t) ((xs t).getD 0)
  have := hv t
  constructor <;> linarith

theorem rawSum_wsum {len t : Nat} (h1 : 1 ≤ len) {xs : Nat → Option K} {w : List K} (h : fullWindow xs len t = some w) :
    wsum len xs t + (xs t).getD 0 = w.sum := by
  have h2 := rawSum0_exact h1 h
  have hadd : ∀ (s : K) (o : Option K), addOpt (fin s : Ex K) (o.map fin) = fin (s + o.getD 0) := by
    intro s o; cases o <;> simp [addOpt]
  rw [rawSum0, acc0_exact] at h2
  change addOpt _ ((xs t).map fin) = _ at h2
  rw [hadd, fin_inj] at h2
  exact h2

section
variable {V : Valued R α} {u η top : K} (A : R.Accurate u η top) (L : R.Lawful)

theorem reads_some {x : Nat → Option α} {xs : Nat → Option K} (h : Reads V x xs) {t : Nat} {k : K} (hk : xs t = some k) :
    ∃ a, x t = some a ∧ Near V a k 0 := by
  have := h t
  rw [hk] at this
  cases hx : x t with
  | none => simp [hx] at this
  | some a => exact ⟨a, rfl, k, by simpa [hx] using this, by simp⟩

theorem reads_none {x : Nat → Option α} {xs : Nat → Option K} (h : Reads V x xs) {t : Nat} (hk : xs t = none) : x t = none := by
  have := h t
  rw [hk] at this
  cases hx : x t with
  | none => rfl
  | some a => simp [hx] at this

theorem reads_ago {x : Nat → Option α} {xs : Nat → Option K} (h : Reads V x xs) (i : Nat) : Reads V (ago x i) (ago xs i) := by
  intro t
  unfold ago
  split
  · exact h _
  · rfl

theorem reads_isSome {x : Nat → Option α} {xs : Nat → Option K} (h : Reads V x xs) (t : Nat) : (x t).isSome = (xs t).isSome := by
  have := congrArg Option.isSome (h t)
  simpa using this

theorem reads_window {x : Nat → Option α} {xs : Nat → Option K} (h : Reads V x xs) (len t : Nat) :
    WindowPresent x len t ↔ WindowPresent xs len t := by
  unfold WindowPresent
  simp only [reads_isSome h]

include A in
theorem near_addOpt {x : Nat → Option α} {xs : Nat → Option K} (h : Reads V x xs) {t k : Nat} {a : α} {s m : K}
    (ha : Near V a s (drift u (u * m + η) k)) (hm : |s + (xs t).getD 0| ≤ m) (hs : 0 ≤ m) (ht : m + drift u (u * m + η) k ≤ top) :
    Near V (addOpt a (x t)) (s + (xs t).getD 0) (drift u (u * m + η) (k + 1)) := by
  have hd : 0 ≤ u * m + η := add_nonneg (mul_nonneg A.u_nonneg hs) A.η_nonneg
  cases hx : xs t with
  | none =>
    rw [reads_none h hx]
    simp only [Option.getD_none, add_zero, addOpt]
    exact ha.mono (drift_mono A.u_nonneg hd k)
  | some v =>
    obtain ⟨b, hb, hb'⟩ := reads_some h hx
    rw [hb]
    rw [hx] at hm
    simp only [Option.getD_some, addOpt] at hm ⊢
    refine (ha.add A hb' hm (by rw [add_zero]; exact ht)).mono (le_of_eq ?_)
    show _ = (1 + u) * drift u (u * m + η) k + (u * m + η)
    ring

include A in
theorem near_subOpt {x : Nat → Option α} {xs : Nat → Option K} (h : Reads V x xs) {t k : Nat} {a : α} {s m : K}
    (ha : Near V a s (drift u (u * m + η) k)) (hm : |s - (xs t).getD 0| ≤ m) (hs : 0 ≤ m) (ht : m + drift u (u * m + η) k ≤ top) :
    Near V (subOpt a (x t)) (s - (xs t).getD 0) (drift u (u * m + η) (k + 1)) := by
  have hd : 0 ≤ u * m + η := add_nonneg (mul_nonneg A.u_nonneg hs) A.η_nonneg
  cases hx : xs t with
  | none =>
    rw [reads_none h hx]
    simp only [Option.getD_none, sub_zero, subOpt]
    exact ha.mono (drift_mono A.u_nonneg hd k)
  | some v =>
    obtain ⟨b, hb, hb'⟩ := reads_some h hx
    rw [hb]
    rw [hx] at hm
    simp only [Option.getD_some, subOpt] at hm ⊢
    refine (ha.sub A hb' hm (by rw [add_zero]; exact ht)).mono (le_of_eq ?_)
    show _ = (1 + u) * drift u (u * m + η) k + (u * m + η)
    ring

include A L in
/-- The running sum before tick `t` (inputs missing before tick `s`) is within `2 (t - s)` roundings of the exact one. -/
theorem acc_near {len : Nat} (hlen : 1 ≤ len) {x : Nat → Option α} {xs : Nat → Option K} (h : Reads V x xs) {M : K} (hM : 0 ≤ M)
    (hx : ∀ t k, xs t = some k → |k| ≤ M) {s : Nat} (hs : ∀ t, t < s → xs t = none) :
    ∀ t, ((2 * (t - s) : Nat) : K) * u ≤ 1 → 3 * (len * M) + 2 * ((2 * (t - s) : Nat) : K) * η ≤ top →
      Near V (acc0 len x t) (wsum len xs t) (drift u (u * (len * M) + η) (2 * (t - s))) := by
  have hm0 : (0 : K) ≤ len * M := mul_nonneg (Nat.cast_nonneg _) hM
  have hd : 0 ≤ u * (len * M) + η := add_nonneg (mul_nonneg A.u_nonneg hm0) A.η_nonneg
  have cap : ∀ k : Nat, (k : K) * u ≤ 1 → 3 * (len * M) + 2 * (k : K) * η ≤ top →
      len * M + drift u (u * (len * M) + η) k ≤ top := by
    intro k h1 h2
    have h3 := drift_le A.u_nonneg hd h1
    have h4 := mul_le_mul_of_nonneg_right h1 hm0
    have : 2 * (k : K) * (u * (len * M) + η) = 2 * (k * u * (len * M)) + 2 * k * η := by ring
    linarith
  intro t
  induction t with
  | zero =>
    intro _ _
    refine ⟨0, by rw [acc0, V.lit]; exact lit_zero L, ?_⟩
    simp [wsum, hist, drift]
  | succ t ih =>
    intro h1 h2
    by_cases hts : t < s
    · have e1 : t + 1 - s = 0 := by omega
      have e2 : t - s = 0 := by omega
      rw [e1] at h1 h2 ⊢
      rw [e2] at ih
      have hn : xs t = none := hs t hts
      have hn' : ago xs (len - 1) t = none := by
        unfold ago
        split
        · exact hs _ (by omega)
        · rfl
      rw [acc0, reads_none h hn, reads_none (reads_ago h (len - 1)) hn', wsum_step, hn, hn']
      simp only [addOpt, subOpt, Option.getD_none, add_zero, sub_zero]
      exact ih h1 h2
    · have e1 : 2 * (t + 1 - s) = 2 * (t - s) + 1 + 1 := by omega
      rw [e1] at h1 h2 ⊢
      have m1 : ((2 * (t - s) : Nat) : K) ≤ ((2 * (t - s) + 1 : Nat) : K) := by exact_mod_cast (by omega)
      have m2 : ((2 * (t - s) + 1 : Nat) : K) ≤ ((2 * (t - s) + 1 + 1 : Nat) : K) := by exact_mod_cast (by omega)
      have mu : ∀ {a b : K}, a ≤ b → a * u ≤ b * u := fun hab => mul_le_mul_of_nonneg_right hab A.u_nonneg
      have mη : ∀ {a b : K}, a ≤ b → 2 * a * η ≤ 2 * b * η := fun hab =>
        mul_le_mul_of_nonneg_right (by linarith) A.η_nonneg
      have g1 := (mu m2).trans h1
      have g2 : 3 * (len * M) + 2 * ((2 * (t - s) + 1 : Nat) : K) * η ≤ top := by have := mη m2; linarith
      have f1 := (mu m1).trans g1
      have f2 : 3 * (len * M) + 2 * ((2 * (t - s) : Nat) : K) * η ≤ top := by have := mη m1; linarith
      have hb := wsum_bound hlen hM hx t
      have hb' := (wsum_bound hlen hM hx (t + 1)).1
      have n1 := near_addOpt A h (ih f1 f2) hb.2 hm0 (cap _ f1 f2)
      rw [wsum_step] at hb' ⊢
      exact near_subOpt A (reads_ago h (len - 1)) n1 hb' hm0 (cap _ g1 g2)

include A L in
/-- The float sum of a full window, `t - s` ticks after the first input. -/
theorem rawSum_near {len : Nat} (hlen : 1 ≤ len) {x : Nat → Option α} {xs : Nat → Option K} (h : Reads V x xs) {M : K}
    (hM : 0 ≤ M) (hx : ∀ t k, xs t = some k → |k| ≤ M) {s : Nat} (hs : ∀ t, t < s → xs t = none) {t : Nat} {w : List K}
    (hw : fullWindow xs len t = some w) (hN : ((2 * (t + 1 - s) : Nat) : K) * u ≤ 1)
    (htop : 3 * (len * M) + 2 * ((2 * (t + 1 - s) : Nat) : K) * η ≤ top) :
    s ≤ t ∧ Near V (rawSum0 len x t) w.sum ((4 * (t - s : Nat) + 2) * (u * (len * M) + η)) := by
  have hm0 : (0 : K) ≤ len * M := mul_nonneg (Nat.cast_nonneg _) hM
  have hd : 0 ≤ u * (len * M) + η := add_nonneg (mul_nonneg A.u_nonneg hm0) A.η_nonneg
  have hp := fullWindow_isSome.mp (show (fullWindow xs len t).isSome by rw [hw]; rfl)
  have hst : s ≤ t := by
    by_contra hc
    have := hp.2 t (le_refl _) (by omega)
    rw [hs t (by omega)] at this
    simp at this
  refine ⟨hst, ?_⟩
  have hk : ((2 * (t - s) + 1 : Nat) : K) ≤ ((2 * (t + 1 - s) : Nat) : K) := by exact_mod_cast (by omega)
  have hk' : ((2 * (t - s) : Nat) : K) ≤ ((2 * (t + 1 - s) : Nat) : K) := by exact_mod_cast (by omega)
  have i1 := (mul_le_mul_of_nonneg_right hk A.u_nonneg).trans hN
  have i2 := (mul_le_mul_of_nonneg_right hk' A.u_nonneg).trans hN
  have i3 : 3 * (len * M) + 2 * ((2 * (t - s) : Nat) : K) * η ≤ top := by
    have := mul_le_mul_of_nonneg_right hk' A.η_nonneg
    linarith
  have n0 := acc_near A L hlen h hM hx hs t i2 i3
  have n1 := near_addOpt A h n0 (wsum_bound hlen hM hx t).2 hm0 (by
    have h3 := drift_le A.u_nonneg hd i2
    have h4 := mul_le_mul_of_nonneg_right i2 hm0
    have : 2 * ((2 * (t - s) : Nat) : K) * (u * (len * M) + η)
      = 2 * (((2 * (t - s) : Nat) : K) * u * (len * M)) + 2 * ((2 * (t - s) : Nat) : K) * η := by ring
    linarith)
  rw [rawSum_wsum hlen hw] at n1
  refine n1.mono ((drift_le A.u_nonneg hd i1).trans (le_of_eq ?_))
  push_cast
  ring

include A in
theorem drift_room_mono {n m : Nat} (hnm : n ≤ m) {c : K} (hN : ((2 * m : Nat) : K) * u ≤ 1)
    (htop : c + 2 * ((2 * m : Nat) : K) * η ≤ top) :
    ((2 * n : Nat) : K) * u ≤ 1 ∧ c + 2 * ((2 * n : Nat) : K) * η ≤ top := by
  have hk : ((2 * n : Nat) : K) ≤ ((2 * m : Nat) : K) := by exact_mod_cast (by omega)
  refine ⟨(mul_le_mul_of_nonneg_right hk A.u_nonneg).trans hN, ?_⟩
  have := mul_le_mul_of_nonneg_right hk A.η_nonneg
  linarith

include A L in
/-- **C68.** The float sum of the last `len` inputs, `n` ticks after the first input, is within `(4n + 2) (u len M + η)` of the exact sum
if no input exceeds `M`: the error grows at most linearly with the number of bars. -/
theorem C68_sum (d : DataProvider α) {len : Nat} (hlen : 1 ≤ len) {x : Nat → Option α} {xs : Nat → Option K} (h : Reads V x xs) {M : K}
    (hM : 0 ≤ M) (hx : ∀ t k, xs t = some k → |k| ≤ M) {s : Nat} (hs : ∀ t, t < s → xs t = none) {N : Nat}
    (hN : ((2 * (N - s) : Nat) : K) * u ≤ 1) (htop : 3 * (len * M) + 2 * ((2 * (N - s) : Nat) : K) * η ≤ top) :
    ∃ y, Runs (fun t => Sum.next ⟨d, t⟩) (Sum.new len) x N y ∧ ∀ t, t < N →
      Within V (y t) ((fullWindow xs len t).map List.sum) ((4 * (t - s : Nat) + 2) * (u * (len * M) + η)) := by
  refine ⟨_, sum_runs d hlen x N, fun t ht => ?_⟩
  unfold sum0
  simp only [reads_window h]
  by_cases hp : len ≤ t + 1 ∧ WindowPresent xs len t
  · rw [if_pos hp]
    obtain ⟨w, hw⟩ := Option.isSome_iff_exists.mp (fullWindow_isSome.mpr hp)
    rw [hw]
    obtain ⟨j1, j2⟩ := drift_room_mono A (show t + 1 - s ≤ N - s by omega) hN htop
    exact ⟨_, rfl, (rawSum_near A L hlen h hM hx hs hw j1 j2).2⟩
  · rw [if_neg hp, fullWindow_isNone hp]
    rfl

/-! ## The simple moving average -/

include L in
theorem val_lit_nat {n : Nat} (hn : n ≤ 2 ^ 53) : V.val (lit (n : ℚ)) = Fl.of R (.fin (n : K)) := by
  rw [V.lit]
  have h := L.int (n : ℤ) (by rw [abs_of_nonneg (by positivity)]; exact_mod_cast hn)
  have e : (((n : ℤ) : K)) = (((n : ℚ)) : K) := by push_cast; rfl
  rw [e] at h
  refine (h : R.rnd (((n : ℚ)) : K) = _).trans ?_
  push_cast
  rfl

include A L in
theorem sma_near {len : Nat} (hlen : 2 ≤ len) (h53 : len ≤ 2 ^ 53) {x : Nat → Option α} {xs : Nat → Option K} (h : Reads V x xs) {M : K}
    (hM : 0 ≤ M) (hx : ∀ t k, xs t = some k → |k| ≤ M) {s : Nat} (hs : ∀ t, t < s → xs t = none) {t : Nat} {w : List K}
    (hw : fullWindow xs len t = some w) (hN : ((2 * (t + 1 - s) : Nat) : K) * u ≤ 1)
    (htop : 3 * (len * M) + 2 * ((2 * (t + 1 - s) : Nat) : K) * η ≤ top) :
    ∃ a, sma0 len x t = some a ∧ Near V a (mean w) ((4 * (t - s : Nat) + 5) * (u * M + η)) := by
  obtain ⟨hst, n1⟩ := rawSum_near A L (by omega) h hM hx hs hw hN htop
  have hp := fullWindow_isSome.mp (show (fullWindow xs len t).isSome by rw [hw]; rfl)
  refine ⟨_, by rw [sma0, if_neg (by omega), if_pos ⟨hp.1, (reads_window h len t).mpr hp.2⟩], ?_⟩
  have hwl := (fullWindow_length hw).1
  have hl : (2 : K) ≤ len := by exact_mod_cast hlen
  have hl0 : (0 : K) < len := by linarith
  have hu := A.u_nonneg
  have hη := A.η_nonneg
  have hmean : mean w = w.sum / (len : K) := by rw [mean, hwl]
  have hb : |w.sum / (len : K)| ≤ M := by
    rw [abs_div, abs_of_pos hl0, div_le_iff₀ hl0, mul_comm M]
    have := abs_sum_le (l := w) (M := M) fun v hv => by
      have h1 := fullWindow_eq_win hw
      have h2 : some v ∈ win xs len t := by rw [h1]; exact List.mem_map_of_mem hv
      obtain ⟨k, _, hk⟩ := List.mem_map.mp (by simpa only [win] using h2)
      exact hx _ _ hk
    rwa [hwl] at this
  set n : K := ((t - s : Nat) : K) with hn
  have hn0 : 0 ≤ n := by rw [hn]; exact Nat.cast_nonneg _
  have e1 : ((2 * (t + 1 - s) : Nat) : K) = 2 * n + 2 := by
    rw [show 2 * (t + 1 - s) = 2 * (t - s) + 2 by omega]; push_cast; rw [hn]
  rw [e1] at hN htop
  have hδ : 0 ≤ u * M + η := by positivity
  have hE : (4 * n + 2) * (u * (len * M) + η) / len ≤ (4 * n + 2) * (u * M + η) := by
    rw [div_le_iff₀ hl0]
    have : (4 * n + 2) * (u * M + η) * len - (4 * n + 2) * (u * (len * M) + η) = (4 * n + 2) * η * (len - 1) := by ring
    have : 0 ≤ (4 * n + 2) * η * (len - 1) := mul_nonneg (by positivity) (by linarith)
    linarith
  have hEu : u * ((4 * n + 2) * (u * M + η)) ≤ 2 * (u * M + η) := by
    have : (4 * n + 2) * u ≤ 2 := by nlinarith
    have := mul_le_mul_of_nonneg_right this hδ
    linarith
  have htop' : M + (4 * n + 2) * (u * M + η) ≤ top := by
    have h1 : (4 * n + 2) * u * M ≤ 2 * M := mul_le_mul_of_nonneg_right (by nlinarith) hM
    have h2 : 2 * M ≤ len * M := mul_le_mul_of_nonneg_right hl hM
    have h3 : (4 * n + 2) * η ≤ 2 * (2 * n + 2) * η := mul_le_mul_of_nonneg_right (by linarith) hη
    nlinarith
  rw [hmean]
  refine (Near.div A hl0 n1 (val_lit_nat L h53) hb (by linarith)).mono ?_
  have := mul_le_mul_of_nonneg_left hE hu
  nlinarith

include A L in
/-- **C68.** The float simple moving average, `n` ticks after the first input, is within `(4n + 5) (u M + η)` of the exact mean of the
window if no input exceeds `M`. -/
theorem C68_sma (d : DataProvider α) {len : Nat} (hlen : 1 ≤ len) (h53 : len ≤ 2 ^ 53) {x : Nat → Option α} {xs : Nat → Option K}
    (h : Reads V x xs) {M : K} (hM : 0 ≤ M) (hx : ∀ t k, xs t = some k → |k| ≤ M) {s : Nat} (hs : ∀ t, t < s → xs t = none) {N : Nat}
    (hN : ((2 * (N - s) : Nat) : K) * u ≤ 1) (htop : 3 * (len * M) + 2 * ((2 * (N - s) : Nat) : K) * η ≤ top) :
    ∃ y, Runs (fun t => Sma.next ⟨d, t⟩) (Sma.new len) x N y ∧ ∀ t, t < N →
      Within V (y t) ((fullWindow xs len t).map mean) ((4 * (t - s : Nat) + 5) * (u * M + η)) := by
  refine ⟨_, sma_runs d hlen x N, fun t ht => ?_⟩
  by_cases h1 : len = 1
  · subst h1
    have e : fullWindow xs 1 t = (xs t).map fun k => [k] := by
      unfold fullWindow
      rw [if_pos (by omega)]
      cases hxt : xs t <;> simp [win, allSome, hxt]
    rw [e, sma0, if_pos rfl]
    cases hxt : xs t with
    | none => exact reads_none h hxt
    | some k =>
      obtain ⟨a, h1, h2⟩ := reads_some h hxt
      refine ⟨a, h1, ?_⟩
      have : mean [k] = k := by simp [mean]
      rw [this]
      have := A.u_nonneg
      have := A.η_nonneg
      exact h2.mono (by positivity)
  by_cases hp : len ≤ t + 1 ∧ WindowPresent xs len t
  · obtain ⟨w, hw⟩ := Option.isSome_iff_exists.mp (fullWindow_isSome.mpr hp)
    rw [hw]
    obtain ⟨j1, j2⟩ := drift_room_mono A (show t + 1 - s ≤ N - s by omega) hN htop
    exact sma_near A L (by omega) h53 h hM hx hs hw j1 j2
  · rw [fullWindow_isNone hp, sma0, if_neg h1, if_neg (by rw [reads_window h]; exact hp)]
    rfl

/-! ## Exponential smoothing -/

include A L in
/-- One step of smoothing: what was wrong before shrinks by `1 - α / 2`; a few roundings are added. -/
theorem smooth_near {a p v : α} {c e k E M : K} (hc0 : 0 < c) (hc1 : c ≤ 1) (hcu : 12 * u ≤ c) (ha : Near V a c (u * c))
    (hp : Near V p e E) (hv : Near V v k 0) (he : |e| ≤ M) (hk : |k| ≤ M) (htop : 2 * (M + E) + 8 * η ≤ top) :
    Near V (a * v + (lit 1 - a) * p) (c * k + (1 - c) * e) ((1 - c / 2) * E + 9 * (u * M + η)) := by
  have hu := A.u_nonneg
  have hus := A.u_small
  have hη := A.η_nonneg
  have hηu : η ≤ u := A.η_small.trans (by nlinarith)
  have hE := hp.nonneg
  have hM : 0 ≤ M := (abs_nonneg _).trans he
  have h1 : Near V (lit 1 : α) 1 0 := ⟨1, by rw [V.lit]; exact lit_one L, by simp⟩
  have huc : u * c ≤ u := mul_le_of_le_one_right hu hc1
  have huc0 : 0 ≤ u * c := mul_nonneg hu hc0.le
  have huM : 0 ≤ u * M := mul_nonneg hu hM
  have huE : 0 ≤ u * E := mul_nonneg hu hE
  have small : ∀ {z : K}, 0 ≤ z → u * z ≤ z / 1024 := fun hz => by
    have := mul_le_mul_of_nonneg_right hus hz
    linarith
  have sM := small hM
  have sE := small hE
  have suM := small huM
  have suE := small huE
  have sη := small hη
  have hcE : 0 ≤ c * E := mul_nonneg hc0.le hE
  have hcE' : 12 * (u * E) ≤ c * E := by
    have := mul_le_mul_of_nonneg_right hcu hE
    linarith
  have h1c : |1 - c| = 1 - c := abs_of_nonneg (by linarith)
  -- 1 - a
  have hb : Near V (lit 1 - a) (1 - c) (3 * u) := by
    have h2 : u * c ≤ c := mul_le_of_le_one_left hc0.le (by linarith)
    refine (h1.sub A ha (m := 1 - c) h1c.le (by have := A.top_ge; linarith)).mono ?_
    have : u * (1 - c + (0 + u * c)) ≤ u * 1 := mul_le_mul_of_nonneg_left (by linarith) hu
    linarith
  -- (1 - a) p
  have hE1 : (1 - c) * E + |e| * (3 * u) + 3 * u * E ≤ E - c * E + 3 * (u * M) + 3 * (u * E) := by
    have := mul_le_mul_of_nonneg_right he (show 0 ≤ 3 * u by linarith)
    nlinarith
  have hE1u : u * (E - c * E + 3 * (u * M) + 3 * (u * E)) ≤ u * E + 3 * (u * M / 1024) + 3 * (u * E / 1024) := by
    have := mul_nonneg hu hcE
    nlinarith
  have hbp : Near V ((lit 1 - a) * p) ((1 - c) * e) (E - c * E + 17 / 4 * (u * M) + 17 / 4 * (u * E) + η) := by
    refine (hb.mul A hp (m := M) ?_ ?_).mono ?_
    · rw [abs_mul, h1c]
      have := mul_le_mul_of_nonneg_left he (show 0 ≤ 1 - c by linarith)
      have := mul_nonneg hc0.le hM
      linarith
    · rw [h1c]; linarith
    · rw [h1c]
      have := mul_le_mul_of_nonneg_left hE1 hu
      have e1 : u * (M + ((1 - c) * E + |e| * (3 * u) + 3 * u * E)) = u * M + u * ((1 - c) * E + |e| * (3 * u) + 3 * u * E) := by ring
      rw [e1]
      linarith
  -- a v
  have hav : Near V (a * v) (c * k) (9 / 4 * (u * M) + η) := by
    have h2 : |k| * (u * c) ≤ u * M := by
      have := mul_le_mul hk huc huc0 hM
      linarith
    have h3 := mul_nonneg (abs_nonneg k) huc0
    refine (ha.mul A hv (m := M) ?_ ?_).mono ?_
    · rw [abs_mul, abs_of_pos hc0]
      have := mul_le_mul_of_nonneg_left hk hc0.le
      have := mul_le_of_le_one_left hM hc1
      linarith
    · simp only [mul_zero, zero_add, add_zero]; linarith
    · simp only [mul_zero, zero_add, add_zero]
      have := mul_le_mul_of_nonneg_left h2 hu
      have e1 : u * (M + |k| * (u * c)) = u * M + u * (|k| * (u * c)) := by ring
      rw [e1]
      linarith
  have hF : u * (9 / 4 * (u * M) + η + (E - c * E + 17 / 4 * (u * M) + 17 / 4 * (u * E) + η)) ≤ u * E + 8 * (u * M / 1024) + 5 * (u * E / 1024) + 2 * (η / 1024) := by
    have := mul_nonneg hu hcE
    nlinarith
  refine (hav.add A hbp (m := M) ?_ ?_).mono ?_
  · refine (abs_add_le _ _).trans ?_
    rw [abs_mul, abs_mul, h1c, abs_of_pos hc0]
    have := mul_le_mul_of_nonneg_left he (show 0 ≤ 1 - c by linarith)
    have := mul_le_mul_of_nonneg_left hk hc0.le
    linarith
  · linarith
  · have e1 : u * (M + (9 / 4 * (u * M) + η + (E - c * E + 17 / 4 * (u * M) + 17 / 4 * (u * E) + η)))
      = u * M + u * (9 / 4 * (u * M) + η + (E - c * E + 17 / 4 * (u * M) + 17 / 4 * (u * E) + η)) := by ring
    rw [e1]
    linarith

include A L in
/-- Smoothing with a factor `c` known up to a relative error `u`: the error does not grow with the number of ticks. -/
theorem ema_near {len : Nat} (hlen : 2 ≤ len) (h53 : len ≤ 2 ^ 53) {x : Nat → Option α} {s : Nat} {p : Nat → K}
    (h : Reads V x (startAt s p)) {M : K} (hp : ∀ t, s ≤ t → |p t| ≤ M) {a : α} {c : K} (hc0 : 0 < c) (hc1 : c ≤ 1) (hcu : 12 * u ≤ c)
    (hcl : 2 * len * u ≤ 1) (hcl' : c * len ≤ 2) (hcl1 : 1 ≤ c * len) (ha : Near V a c (u * c)) (htop : 40 * len * (M + η) ≤ top) :
    (∀ t, t + 1 < s + len → ema0 len a x t = none) ∧
    ∀ n, ∃ b, ema0 len a x (s + len - 1 + n) = some b ∧
      Near V b (smoothed c (mean (win p len (s + len - 1))) (fun i => p (s + len + i)) n) (18 * (u * M + η) / c) := by
  have hu := A.u_nonneg
  have hη := A.η_nonneg
  have hM : 0 ≤ M := (abs_nonneg _).trans (hp s (le_refl _))
  have hl : (2 : K) ≤ len := by exact_mod_cast hlen
  have hδ : 0 ≤ u * M + η := by positivity
  have hx : ∀ t k, startAt s p t = some k → |k| ≤ M := by
    intro t k hk
    unfold startAt at hk
    split at hk
    · simp at hk
    · next hts =>
      obtain rfl := Option.some.inj hk
      exact hp t (by omega)
  have hx0 : ∀ t, t < s → startAt s p t = none := fun t ht => if_pos ht
  have hnone : ∀ t, t + 1 < s + len → sma0 len x t = none := by
    intro t ht
    have hw : fullWindow (startAt s p) len t = none := by rw [fullWindow_startAt s p (by omega), if_neg (by omega)]
    rw [sma0, if_neg (by omega), if_neg]
    rw [reads_window h, ← fullWindow_isSome, hw]
    simp
  have hbefore : ∀ t, t + 1 < s + len → ema0 len a x t = none := fun t ht =>
    ema0_before (by omega) fun r hr => hnone r (by omega)
  refine ⟨hbefore, fun n => ?_⟩
  have hE : (4 * len + 1) * (u * M + η) ≤ 18 * (u * M + η) / c := by
    rw [le_div_iff₀ hc0]
    have : (4 * len + 1) * c ≤ 9 := by nlinarith
    nlinarith [mul_le_mul_of_nonneg_right this hδ]
  induction n with
  | zero =>
    have hw : fullWindow (startAt s p) len (s + len - 1) = some (win p len (s + len - 1)) := by
      rw [fullWindow_startAt s p (by omega), if_pos (by omega)]
    have e1 : s + len - 1 + 1 - s = len := by omega
    have e2 : s + len - 1 - s = len - 1 := by omega
    obtain ⟨b, h1, h2⟩ := sma_near A L hlen h53 h hM hx hx0 hw (by rw [e1]; push_cast; linarith) (by
      rw [e1]; push_cast
      have := mul_nonneg (Nat.cast_nonneg (α := K) len) hM
      have := mul_nonneg (Nat.cast_nonneg (α := K) len) hη
      nlinarith)
    refine ⟨b, ?_, ?_⟩
    · rw [Nat.add_zero]
      rcases Nat.eq_zero_or_pos (s + len - 1) with hz | hz
      · omega
      · obtain ⟨m, hm⟩ : ∃ m, s + len - 1 = m + 1 := ⟨s + len - 2, by omega⟩
        rw [hm] at h1 ⊢
        rw [ema0, if_neg (by omega), hbefore m (by omega), h1]
    · rw [smoothed_zero]
      rw [e2, Nat.cast_sub (by omega)] at h2
      refine h2.mono (le_trans (le_of_eq ?_) hE)
      push_cast
      ring
  | succ n ih =>
    obtain ⟨b, h1, h2⟩ := ih
    have hxn : startAt s p (s + len - 1 + n + 1) = some (p (s + len + n)) := by
      rw [startAt, if_neg (by omega)]
      congr 2
      omega
    obtain ⟨v, hv1, hv2⟩ := reads_some h hxn
    refine ⟨a * v + (lit 1 - a) * b, ?_, ?_⟩
    · rw [← Nat.add_assoc, ema0, if_neg (by omega), h1, hv1]
      rfl
    · rw [smoothed_succ]
      have hbd := smoothed_bounds (a := c) (m := mean (win p len (s + len - 1))) (u := fun i => p (s + len + i)) (n := n) (lo := -M) (hi := M)
        hc0.le hc1 (mean_bounds (by rw [← List.length_pos_iff]; simp [win]; omega) fun w hw => by
          obtain ⟨k, hk, rfl⟩ := List.mem_map.mp (by simpa only [win] using hw)
          exact abs_le.mp (hp _ (by have := List.mem_range.mp hk; omega))) fun i _ => abs_le.mp (hp _ (by omega))
      have hEt : 18 * (u * M + η) / c ≤ 3 / 2 * M + 18 * (len * η) := by
        rw [div_le_iff₀ hc0]
        have := mul_le_mul_of_nonneg_right hcu hM
        have := mul_le_mul_of_nonneg_right hcl1 hη
        nlinarith
      have hlM := mul_le_mul_of_nonneg_right hl hM
      have hlη := mul_le_mul_of_nonneg_right hl hη
      have := smooth_near A L hc0 hc1 hcu ha h2 hv2 (abs_le.mpr hbd) (hp _ (by omega)) (by nlinarith)
      refine this.mono (le_of_eq ?_)
      field_simp
      ring

include A in
theorem near_ratio {a b : α} {m n : K} (hm : V.val a = Fl.of R (.fin m)) (hn : V.val b = Fl.of R (.fin n)) (hm0 : 0 < m) (hn0 : 0 < n)
    (hmn : m ≤ n) (hu : 12 * u ≤ m / n) : Near V (a / b) (m / n) (u * (m / n)) := by
  have h0 : 0 < m / n := div_pos hm0 hn0
  have h1 : m / n ≤ 1 := (div_le_one hn0).mpr hmn
  obtain ⟨v, h2, h3⟩ := A.err (m / n) (by rw [abs_of_pos h0]; exact h1.trans A.top_ge)
  have hb0 : V.val b ≠ Fl.of R (.fin 0) := by
    rw [hn]; intro hc
    have : (Ext.fin n : Ext K) = .fin 0 := hc
    have := Ext.fin.inj this
    linarith
  refine ⟨v, ?_, h3.trans (max_le (by rw [abs_of_pos h0]) (A.η_small.trans (mul_le_mul_of_nonneg_left ?_ A.u_nonneg)))⟩
  · rw [V.div _ _ hb0, hm, hn]
    exact (if_neg hn0.ne' : (if n = 0 then Fl.signInf m else R.rnd (m / n)) = R.rnd (m / n)).trans h2
  · have := A.u_nonneg
    linarith

include A L in
theorem near_emaAlpha {len : Nat} (hlen : 1 ≤ len) (h53 : len + 1 ≤ 2 ^ 53) (hu : 6 * ((len : K) + 1) * u ≤ 1) :
    Near V (emaAlpha len) (2 / ((len : K) + 1)) (u * (2 / ((len : K) + 1))) := by
  have hl : (1 : K) ≤ len := by exact_mod_cast hlen
  have e1 : V.val (lit (len : ℚ) + lit 1) = Fl.of R (.fin ((len : K) + 1)) := by
    have h1 : V.val (lit (1 : ℚ)) = Fl.of R (.fin (1 : K)) := by rw [V.lit]; exact lit_one L
    rw [V.add, val_lit_nat L (show len ≤ 2 ^ 53 by omega), h1]
    have h := L.int ((len + 1 : Nat) : ℤ) (by rw [abs_of_nonneg (by positivity)]; exact_mod_cast h53)
    push_cast at h
    exact h
  have e2 : V.val (lit (2 : ℚ)) = Fl.of R (.fin (2 : K)) := by
    have := val_lit_nat (V := V) L (n := 2) (by norm_num)
    exact_mod_cast this
  refine near_ratio A e2 e1 (by norm_num) (by positivity) (by linarith) ?_
  rw [le_div_iff₀ (by positivity)]
  linarith

include A L in
theorem near_rmaAlpha {len : Nat} (hlen : 1 ≤ len) (h53 : len ≤ 2 ^ 53) (hu : 12 * (len : K) * u ≤ 1) :
    Near V (rmaAlpha len) (1 / (len : K)) (u * (1 / (len : K))) := by
  have hl : (1 : K) ≤ len := by exact_mod_cast hlen
  have e2 : V.val (lit (1 : ℚ)) = Fl.of R (.fin (1 : K)) := by rw [V.lit]; exact lit_one L
  refine near_ratio A e2 (val_lit_nat L h53) (by norm_num) (by positivity) hl ?_
  rw [le_div_iff₀ (by positivity)]
  linarith

theorem smoothed_one (m : K) (p : Nat → K) (n : Nat) : smoothed 1 m p (n + 1) = p n := by
  rw [smoothed_succ]; simp

theorem within_one {x : Nat → Option α} {s : Nat} {p : Nat → K} (h : Reads V x (startAt s p)) {e : K} (he : 0 ≤ e) (t : Nat) :
    Within V (x t) (startAt s p t) e := by
  cases hx : startAt s p t with
  | none => exact reads_none h hx
  | some k =>
    obtain ⟨a, h1, h2⟩ := reads_some h hx
    exact ⟨a, h1, h2.mono he⟩

theorem average_one {kind : MaKind} (hk : kind = .ema ∨ kind = .rma) {s t : Nat} (hst : s ≤ t) (p : Nat → K) : average kind 1 s p t = p t := by
  rcases hk with rfl | rfl
  · show smoothed (2 / (((1 : Nat) : K) + 1)) _ _ _ = _
    have e : (2 / (((1 : Nat) : K) + 1)) = 1 := by push_cast; norm_num
    rw [e]
    obtain ⟨n, rfl⟩ := Nat.exists_eq_add_of_le hst
    cases n with
    | zero => rw [show s + 0 + 1 - (s + 1) = 0 by omega, smoothed_zero]; simp [win, mean]
    | succ n => rw [show s + (n + 1) + 1 - (s + 1) = n + 1 by omega, smoothed_one]; congr 1; omega
  · show runningMean 1 s p _ = _
    rw [runningMean_one]
    congr 1
    omega

include A L in
/-- **C68.** The float exponential moving average is, at every tick, within `9 (len + 1) (u M + η)` of the exact one if no input exceeds
`M`: its error does not grow with the number of bars. -/
theorem C68_ema (d : DataProvider α) {len : Nat} (hlen : 1 ≤ len) (h53 : len + 1 ≤ 2 ^ 53) (hu : 6 * ((len : K) + 1) * u ≤ 1)
    {x : Nat → Option α} {s : Nat} {p : Nat → K} (h : Reads V x (startAt s p)) {M : K} (hp : ∀ t, s ≤ t → |p t| ≤ M)
    (htop : 40 * len * (M + η) ≤ top) (N : Nat) :
    ∃ y, Runs (fun t => Ema.next ⟨d, t⟩) (Ema.new len) x N y ∧ ∀ t, t < N →
      Within V (y t) (startAt (s + len - 1) (average .ema len s p) t) (9 * (len + 1) * (u * M + η)) := by
  have hM : 0 ≤ M := (abs_nonneg _).trans (hp s (le_refl _))
  have hu0 := A.u_nonneg
  have hη := A.η_nonneg
  have hsx : StartsAt s x := fun t => by
    rw [reads_isSome h, startAt]
    split <;> simp <;> omega
  refine ⟨_, ema_runs d hlen (emaAlpha len) x N (hsx.stays.emaOk _ _ hlen), fun t _ => ?_⟩
  rcases Nat.lt_or_ge len 2 with h1 | h1
  · obtain rfl : len = 1 := by omega
    have e1 : ema0 1 (emaAlpha 1) x t = x t := by cases t <;> simp [ema0, sma0]
    rw [e1]
    have := within_one h (e := 9 * (((1 : Nat) : K) + 1) * (u * M + η)) (by positivity) t
    convert this using 1
    unfold startAt
    rw [Nat.add_sub_cancel]
    by_cases hts : t < s
    · rw [if_pos hts, if_pos hts]
    · rw [if_neg hts, if_neg hts, average_one (Or.inl rfl) (by omega)]
  · have hl : (2 : K) ≤ len := by exact_mod_cast h1
    obtain ⟨h2, h3⟩ := ema_near A L h1 (by omega) h hp (c := 2 / ((len : K) + 1)) (by positivity)
      ((div_le_one (by positivity)).mpr (by linarith)) (by rw [le_div_iff₀ (by positivity)]; linarith) (by nlinarith)
      (by rw [div_mul_eq_mul_div, div_le_iff₀ (by positivity)]; linarith)
      (by rw [div_mul_eq_mul_div, le_div_iff₀ (by positivity)]; linarith) (near_emaAlpha A L hlen h53 hu) htop
    by_cases hts : t < s + len - 1
    · rw [startAt, if_pos hts]
      exact h2 t (by omega)
    · rw [startAt, if_neg hts]
      obtain ⟨b, h4, h5⟩ := h3 (t + 1 - (s + len))
      rw [show s + len - 1 + (t + 1 - (s + len)) = t by omega] at h4
      refine ⟨b, h4, h5.mono (le_of_eq ?_)⟩
      field_simp
      ring

include A L in
/-- **C68.** Wilder's running mean in floats is, at every tick, within `18 len (u M + η)` of the exact one if no input exceeds `M`. -/
theorem C68_rma (d : DataProvider α) {len : Nat} (hlen : 1 ≤ len) (h53 : len ≤ 2 ^ 53) (hu : 12 * (len : K) * u ≤ 1)
    {x : Nat → Option α} {s : Nat} {p : Nat → K} (h : Reads V x (startAt s p)) {M : K} (hp : ∀ t, s ≤ t → |p t| ≤ M)
    (htop : 40 * len * (M + η) ≤ top) (N : Nat) :
    ∃ y, Runs (fun t => Rma.next ⟨d, t⟩) (Rma.new len) x N y ∧ ∀ t, t < N →
      Within V (y t) (startAt (s + len - 1) (average .rma len s p) t) (18 * len * (u * M + η)) := by
  have hM : 0 ≤ M := (abs_nonneg _).trans (hp s (le_refl _))
  have hu0 := A.u_nonneg
  have hη := A.η_nonneg
  have hsx : StartsAt s x := fun t => by
    rw [reads_isSome h, startAt]
    split <;> simp <;> omega
  refine ⟨_, rma_runs d hlen x N (hsx.stays.emaOk _ _ hlen), fun t _ => ?_⟩
  rcases Nat.lt_or_ge len 2 with h1 | h1
  · obtain rfl : len = 1 := by omega
    have e1 : rma0 1 x t = x t := by cases t <;> simp [rma0, ema0, sma0]
    rw [e1]
    have := within_one h (e := 18 * ((1 : Nat) : K) * (u * M + η)) (by positivity) t
    convert this using 1
    unfold startAt
    rw [Nat.add_sub_cancel]
    by_cases hts : t < s
    · rw [if_pos hts, if_pos hts]
    · rw [if_neg hts, if_neg hts, average_one (Or.inr rfl) (by omega)]
  · have hl : (2 : K) ≤ len := by exact_mod_cast h1
    have hl0 : (len : K) ≠ 0 := by positivity
    obtain ⟨h2, h3⟩ := ema_near A L h1 (by omega) h hp (c := 1 / (len : K)) (by positivity)
      ((div_le_one (by positivity)).mpr (by linarith)) (by rw [le_div_iff₀ (by positivity)]; linarith) (by nlinarith)
      (by rw [one_div, inv_mul_cancel₀ hl0]; norm_num)
      (by rw [one_div, inv_mul_cancel₀ hl0]) (near_rmaAlpha A L hlen h53 hu) htop
    by_cases hts : t < s + len - 1
    · rw [startAt, if_pos hts]
      exact h2 t (by omega)
    · rw [startAt, if_neg hts]
      obtain ⟨b, h4, h5⟩ := h3 (t + 1 - (s + len))
      rw [show s + len - 1 + (t + 1 - (s + len)) = t by omega] at h4
      refine ⟨b, h4, ?_⟩
      have e : ∀ n, smoothed (1 / (len : K)) (mean (win p len (s + len - 1))) (fun i => p (s + len + i)) n = runningMean len s p n := by
        intro n
        induction n with
        | zero =>
          rw [smoothed_zero, runningMean, mean]
          congr 1
          · unfold win
            refine congrArg List.sum (List.map_congr_left fun i hi => ?_)
            congr 1
            have := List.mem_range.mp hi
            omega
          · simp [win]
        | succ n ih => rw [smoothed_succ, runningMean, ih]; ring
      rw [e] at h5
      refine h5.mono (le_of_eq ?_)
      field_simp

/-! ## The weighted averages -/

include A L in
theorem wma_fold_near (len : Nat) {M : K} (hM : 0 ≤ M) {T : Nat} (hT : T ≤ 2 ^ 53) {l : List α} {lk : List K}
    (h : List.Forall₂ (fun a k => Near V a k 0 ∧ |k| ≤ M) l lk) :
    ∀ (i j b : Nat) (S W : α) (a : K), Near V S a (drift u (u * (T * M) + η) j) → |a| ≤ b * M → V.val W = Fl.of R (.fin (b : K)) →
      b + ((List.range' i l.length).map fun i => (len - i) * len).sum ≤ T → ((j + 2 * l.length : Nat) : K) * u ≤ 1 →
      4 * (T * M) + 2 * ((j + 2 * l.length : Nat) : K) * η ≤ top →
      ∃ S' W', ((List.range' i l.length).zip l).foldl (fun acc iv =>
          let weight : α := lit (((len - iv.1) * len : Nat) : ℚ)
          (acc.1 + iv.2 * weight, acc.2 + weight)) (S, W) = (S', W') ∧
        Near V S' (a + ((List.range' i l.length).zipWith (fun (i : Nat) w => w * (((len - i) * len : Nat) : K)) lk).sum)
          (drift u (u * (T * M) + η) (j + 2 * l.length)) ∧
        V.val W' = Fl.of R (.fin ((b + ((List.range' i l.length).map fun i => (len - i) * len).sum : Nat) : K)) := by
  have hu := A.u_nonneg
  have hη := A.η_nonneg
  have hTM : (0 : K) ≤ T * M := mul_nonneg (Nat.cast_nonneg _) hM
  have hd : 0 ≤ u * (T * M) + η := add_nonneg (mul_nonneg hu hTM) hη
  induction h with
  | nil =>
    intro i j b S W a h1 h2 h3 h4 h5 h6
    exact ⟨S, W, rfl, by simpa using h1, by simpa using h3⟩
  | @cons v k l lk hvk hl ih =>
    intro i j b S W a h1 h2 h3 h4 h5 h6
    obtain ⟨hv, hk⟩ := hvk
    simp only [List.length_cons, List.range'_succ, List.map_cons, List.zip_cons_cons, List.foldl_cons,
      List.zipWith_cons_cons, List.sum_cons] at h4 h5 h6 ⊢
    set w : Nat := (len - i) * len with hw
    have hwT : b + w ≤ T := by omega
    have hbw : ((b : K) + w) * M ≤ T * M := mul_le_mul_of_nonneg_right (by exact_mod_cast hwT) hM
    have hwl := val_lit_nat (V := V) L (n := w) (by omega)
    have hwn : Near V (lit (w : ℚ) : α) (w : K) 0 := ⟨w, hwl, by simp⟩
    have hw0 : (0 : K) ≤ w := Nat.cast_nonneg _
    have hkw : |k * w| ≤ w * M := by
      rw [abs_mul, abs_of_nonneg hw0, mul_comm]
      exact mul_le_mul_of_nonneg_left hk hw0
    have hb0 : (0 : K) ≤ b * M := mul_nonneg (Nat.cast_nonneg _) hM
    have hju : (j : K) * u ≤ 1 := by
      refine (mul_le_mul_of_nonneg_right ?_ hu).trans h5
      exact_mod_cast (by omega)
    have hjη : 2 * (j : K) * η + 4 * η ≤ 2 * ((j + 2 * (l.length + 1) : Nat) : K) * η := by
      have : (j : K) + 2 ≤ ((j + 2 * (l.length + 1) : Nat) : K) := by exact_mod_cast (by omega)
      have := mul_le_mul_of_nonneg_right this hη
      linarith
    have hj0 : 0 ≤ (j : K) * η := mul_nonneg (Nat.cast_nonneg j) hη
    have hdr := drift_le hu hd hju
    have hdr' : 2 * (j : K) * (u * (T * M) + η) ≤ 2 * (T * M) + 2 * j * η := by
      have := mul_le_mul_of_nonneg_right hju hTM
      linarith
    have hus : u * (T * M) ≤ T * M / 1024 := by
      have := mul_le_mul_of_nonneg_right A.u_small hTM
      linarith
    have hwM : w * M ≤ T * M := by linarith [hbw]
    have hprod : Near V (v * lit (w : ℚ)) (k * w) (u * (T * M) + η) := by
      refine (hv.mul A hwn (m := w * M) hkw (by simp; linarith)).mono ?_
      simp only [mul_zero, add_zero, zero_add]
      have := mul_le_mul_of_nonneg_left hwM hu
      linarith
    have hab : |a + k * w| ≤ T * M := (abs_add_le _ _).trans (by linarith)
    have hadd : Near V (S + v * lit (w : ℚ)) (a + k * w) (drift u (u * (T * M) + η) (j + 2)) := by
      refine (h1.add A hprod (m := T * M) hab (by linarith)).mono ?_
      show _ ≤ (1 + u) * ((1 + u) * drift u (u * (T * M) + η) j + (u * (T * M) + η)) + (u * (T * M) + η)
      have h0 := drift_nonneg hu hd j
      have := mul_nonneg hu h0
      have := mul_nonneg hu this
      linarith
    have hWW : V.val (W + lit (w : ℚ)) = Fl.of R (.fin ((b + w : Nat) : K)) := by
      rw [V.add, h3, hwl]
      have h := L.int ((b + w : Nat) : ℤ) (by
        rw [abs_of_nonneg (by positivity)]
        exact_mod_cast (show b + w ≤ 2 ^ 53 by omega))
      push_cast at h ⊢
      exact h
    obtain ⟨S', W', g1, g2, g3⟩ := ih (i + 1) (j + 2) (b + w) _ _ (a + k * w) hadd (by
        push_cast
        refine (abs_add_le _ _).trans ?_
        linarith) hWW (by omega) (by rw [show j + 2 + 2 * l.length = j + 2 * (l.length + 1) by omega]; exact h5)
      (by rw [show j + 2 + 2 * l.length = j + 2 * (l.length + 1) by omega]; exact h6)
    refine ⟨S', W', g1, ?_, ?_⟩
    · rw [show j + 2 * (l.length + 1) = j + 2 + 2 * l.length by omega, ← add_assoc]
      exact g2
    · rw [show b + (w + (List.map (fun i => (len - i) * len) (List.range' (i + 1) l.length)).sum)
        = b + w + (List.map (fun i => (len - i) * len) (List.range' (i + 1) l.length)).sum by omega]
      exact g3

theorem reads_forall {x : Nat → Option α} {xs : Nat → Option K} (h : Reads V x xs) {M : K} (hx : ∀ t k, xs t = some k → |k| ≤ M)
    {len t : Nat} {w : List K} (hw : fullWindow xs len t = some w) :
    ∃ v, fullWindow x len t = some v ∧ v.length = len ∧ List.Forall₂ (fun a k => Near V a k 0 ∧ |k| ≤ M) v w := by
  have hp := fullWindow_isSome.mp (show (fullWindow xs len t).isSome by rw [hw]; rfl)
  obtain ⟨v, hv⟩ := Option.isSome_iff_exists.mp (fullWindow_isSome.mpr ⟨hp.1, (reads_window h len t).mpr hp.2⟩)
  have hvl := (fullWindow_length hv).1
  have hwl := (fullWindow_length hw).1
  refine ⟨v, hv, hvl, List.forall₂_iff_get.mpr ⟨by omega, fun i h1 h2 => ?_⟩⟩
  have e1 := fullWindow_eq_win hv
  have e2 := fullWindow_eq_win hw
  have f1 : x (t + 1 - len + i) = some (v.get ⟨i, h1⟩) := by
    have := congrArg (·[i]?) e1
    simpa [win, show i < len by omega, h1] using this
  have f2 : xs (t + 1 - len + i) = some (w.get ⟨i, h2⟩) := by
    have := congrArg (·[i]?) e2
    simpa [win, show i < len by omega, h2] using this
  obtain ⟨a, g1, g2⟩ := reads_some h f2
  rw [f1] at g1
  obtain rfl := Option.some.inj g1
  exact ⟨g2, hx _ _ f2⟩

theorem weightedMean_abs {w : List K} (hw : 1 ≤ w.length) {M : K} (h : ∀ k ∈ w, |k| ≤ M) : |weightedMean w| ≤ M := by
  have hz : ∀ (l : List K) (k : Nat), (∀ a ∈ l, |a| ≤ M) →
      |((List.range' k l.length).zipWith (fun (i : Nat) w => ((i : K) + 1) * w) l).sum|
        ≤ M * ((List.range' k l.length).map fun i : Nat => (i : K) + 1).sum := by
    intro l
    induction l with
    | nil => intro k _; simp
    | cons a l ih =>
      intro k hl
      simp only [List.length_cons, List.range'_succ, List.zipWith_cons_cons, List.sum_cons, List.map_cons]
      have h1 := ih (k + 1) fun b hb => hl b (by simp [hb])
      have h2 := hl a (by simp)
      refine (abs_add_le _ _).trans ?_
      have hk : (0 : K) ≤ (k : K) + 1 := by positivity
      rw [abs_mul, abs_of_nonneg hk]
      have := mul_le_mul_of_nonneg_left h2 hk
      linarith
  have hs : ∀ n : Nat, ((List.range n).map fun i : Nat => (i : K) + 1).sum = n * (n + 1) / 2 := by
    intro n
    induction n with
    | zero => simp
    | succ n ih =>
      rw [List.range_succ, List.map_append, List.sum_append, ih]
      simp
      ring
  have h1 := hz w 0 h
  rw [← List.range_eq_range', hs] at h1
  have hl : (1 : K) ≤ w.length := by exact_mod_cast hw
  have hn : (0 : K) < w.length * (w.length + 1) / 2 := by positivity
  rw [weightedMean, abs_div, abs_of_pos hn, div_le_iff₀ hn]
  exact h1

include A L in
/-- **C68.** The float linearly weighted average is at every tick within `(4 len + 3) (u M + η)` of the exact one. -/
theorem C68_wma (d : DataProvider α) {len : Nat} (hlen : 1 ≤ len) (h53 : len * len * (len + 1) / 2 ≤ 2 ^ 53) (hu : 2 * (len : K) * u ≤ 1)
    {x : Nat → Option α} {xs : Nat → Option K} (h : Reads V x xs) {M : K} (hM : 0 ≤ M) (hx : ∀ t k, xs t = some k → |k| ≤ M)
    (htop : 4 * (len * len * (len + 1) / 2 : K) * M + 4 * len * η ≤ top) (N : Nat) :
    ∃ y, Runs (fun t => Wma.next ⟨d, t⟩) (Wma.new len) x N y ∧ ∀ t, t < N →
      Within V (y t) ((fullWindow xs len t).map weightedMean) ((4 * len + 3) * (u * M + η)) := by
  refine ⟨_, wma_runs d hlen x N, fun t _ => ?_⟩
  have hu0 := A.u_nonneg
  have hη := A.η_nonneg
  have he : wma0 len x t = (fullWindow x len t).map fun v => (wmaFold len v.reverse).1 / (wmaFold len v.reverse).2 := by
    unfold wma0 fullWindow; split <;> rfl
  by_cases hp : len ≤ t + 1 ∧ WindowPresent xs len t
  · obtain ⟨w, hw⟩ := Option.isSome_iff_exists.mp (fullWindow_isSome.mpr hp)
    obtain ⟨v, hv, hvl, hf⟩ := reads_forall h hx hw
    have hwl := (fullWindow_length hw).1
    have hl : (1 : K) ≤ len := by exact_mod_cast hlen
    -- the total weight
    have hcast : ∀ (F : Type) [Field F] [LinearOrder F] [IsStrictOrderedRing F] [RootOps F],
        ((((List.range' 0 len).map fun i => (len - i) * len).sum : Nat) : F) = len * len * (len + 1) / 2 := by
      intro F _ _ _ _
      rw [← List.range_eq_range', Nat.cast_list_sum, List.map_map]
      have := weights_sum (K := F) len
      rw [show ((Nat.cast : Nat → F) ∘ fun i => (len - i) * len) = fun i => (((len - i) * len : Nat) : F) from rfl, this]
      ring
    have hT2 := hcast K
    have hTn := hcast ℚ
    set T : Nat := ((List.range' 0 len).map fun i => (len - i) * len).sum with hT
    have hT53 : T ≤ 2 ^ 53 := by
      have h2 : 2 * T = len * len * (len + 1) := by
        have : (2 : ℚ) * T = len * len * (len + 1) := by rw [hTn]; ring
        exact_mod_cast this
      omega
    have hT0 : (0 : K) < T := by rw [hT2]; positivity
    have hTl : (1 : K) ≤ T := by
      rw [hT2, le_div_iff₀ (by norm_num)]
      nlinarith
    obtain ⟨S, W, g1, g2, g3⟩ := wma_fold_near A L len hM hT53 (List.rel_reverse hf) 0 0 0 (lit 0) (lit 0) 0
      ⟨0, by rw [V.lit]; exact lit_zero L, by simp [drift]⟩ (by simp) (by rw [V.lit]; simpa using lit_zero L)
      (by rw [List.length_reverse, hvl]; omega) (by rw [List.length_reverse, hvl]; push_cast; linarith)
      (by rw [List.length_reverse, hvl]; push_cast; rw [hT2]; linarith)
    have hfold : wmaFold len v.reverse = (S, W) := by
      unfold wmaFold indexed
      rw [List.range_eq_range']
      exact g1
    rw [List.length_reverse, hvl] at g2 g3
    simp only [zero_add] at g2 g3
    rw [← hT] at g3
    have hz := zipWith_reverse_range w
    rw [List.range_eq_range', hwl] at hz
    rw [hz] at g2
    rw [he, hv, hw]
    refine ⟨S / W, by rw [Option.map_some, hfold], ?_⟩
    have hwm : weightedMean w = (len : K) * (List.zipWith (fun (i : Nat) w => ((i : K) + 1) * w) (List.range' 0 len) w).sum / T := by
      rw [hT2, weightedMean, hwl, List.range_eq_range']
      field_simp
    have hb : |weightedMean w| ≤ M := by
      refine weightedMean_abs (by omega) fun k hk => ?_
      have h1 := fullWindow_eq_win hw
      have h2 : some k ∈ win xs len t := by rw [h1]; exact List.mem_map_of_mem hk
      obtain ⟨j, _, hj⟩ := List.mem_map.mp (by simpa only [win] using h2)
      exact hx _ _ hj
    rw [hwm] at hb ⊢
    have hδ : 0 ≤ u * M + η := by positivity
    have hTM : (0 : K) ≤ T * M := by positivity
    have hd : 0 ≤ u * (T * M) + η := by positivity
    have hdr := drift_le hu0 hd (show ((2 * len : Nat) : K) * u ≤ 1 by push_cast; linarith)
    have hE : drift u (u * (T * M) + η) (2 * len) / T ≤ 4 * len * (u * M + η) := by
      rw [div_le_iff₀ hT0]
      refine hdr.trans ?_
      push_cast
      have : 0 ≤ 4 * (len : K) * η * (T - 1) := mul_nonneg (by positivity) (by linarith)
      linarith
    have hEu : u * (4 * len * (u * M + η)) ≤ 2 * (u * M + η) := by
      have := mul_le_mul_of_nonneg_right hu hδ
      linarith
    refine (Near.div A hT0 g2 g3 hb ?_).mono ?_
    · have h1 : 2 * (len : K) * u * M ≤ M := mul_le_of_le_one_left hM hu
      have h2 : M ≤ T * M := le_mul_of_one_le_left hM hTl
      rw [hT2] at h2
      linarith
    · have := mul_le_mul_of_nonneg_left hE hu0
      linarith
  · rw [he, fullWindow_isNone hp, fullWindow_isNone (by rw [reads_window h]; exact hp)]
    rfl

include A L in
/-- **C68.** The float symmetrically weighted average is at every tick within `9 (u M + η)` of the exact one. -/
theorem C68_swma (d : DataProvider α) {x : Nat → Option α} {xs : Nat → Option K} (h : Reads V x xs) {M : K} (hM : 0 ≤ M)
    (hx : ∀ t k, xs t = some k → |k| ≤ M) (htop : 2 * M + 16 * η ≤ top) (N : Nat) :
    ∃ y, Runs (fun t => Swma.next ⟨d, t⟩) Swma.new x N y ∧ ∀ t, t < N →
      Within V (y t) ((fullWindow xs 4 t).map fun w => (w.getD 0 0 + 2 * w.getD 1 0 + 2 * w.getD 2 0 + w.getD 3 0) / 6) (9 * (u * M + η)) := by
  refine ⟨_, swma_runs d x N, fun t _ => ?_⟩
  have hu := A.u_nonneg
  have hus := A.u_small
  have hη := A.η_nonneg
  have huM : 0 ≤ u * M := mul_nonneg hu hM
  by_cases hp : 4 ≤ t + 1 ∧ WindowPresent xs 4 t
  · obtain ⟨w, hw⟩ := Option.isSome_iff_exists.mp (fullWindow_isSome.mpr hp)
    obtain ⟨v, hv, hvl, hf⟩ := reads_forall h hx hw
    rw [hw]
    match v, w, hvl, hf with
    | [a, b, c, e], [ka, kb, kc, ke], _, hf =>
      simp only [List.forall₂_cons, List.forall₂_nil_left_iff, and_true] at hf
      obtain ⟨⟨ha, ma⟩, ⟨hb, mb⟩, ⟨hc, mc⟩, he, me⟩ := hf
      have e6 : V.val (lit (6 : ℚ)) = Fl.of R (.fin (6 : K)) := by
        have := val_lit_nat (V := V) L (n := 6) (by norm_num); exact_mod_cast this
      have e2 : V.val (lit (2 : ℚ)) = Fl.of R (.fin (2 : K)) := by
        have := val_lit_nat (V := V) L (n := 2) (by norm_num); exact_mod_cast this
      have e1 : V.val (lit (1 : ℚ)) = Fl.of R (.fin (1 : K)) := by rw [V.lit]; exact lit_one L
      have w1 := near_ratio A e1 e6 (by norm_num) (by norm_num) (by norm_num) (by linarith)
      have w2 := near_ratio A e2 e6 (by norm_num) (by norm_num) (by norm_num) (by linarith)
      have suM : u * (u * M) ≤ u * M / 1024 := by
        have := mul_le_mul_of_nonneg_right hus huM
        linarith
      have sη : u * η ≤ η / 1024 := by
        have := mul_le_mul_of_nonneg_right hus hη
        linarith
      have sM : u * M ≤ M / 1024 := by
        have := mul_le_mul_of_nonneg_right hus hM
        linarith
      -- a weighted input
      have prod : ∀ {z f : α} {k q : K}, Near V z k 0 → |k| ≤ M → 0 ≤ q → q ≤ 1 → Near V f q (u * q) →
          Near V (z * f) (k * q) (3 * (u * M) * q + η) := by
        intro z f k q hz hk hq0 hq1 hq
        have h1 : |k| * (u * q) ≤ u * M * q := by
          have := mul_le_mul_of_nonneg_right hk (mul_nonneg hu hq0)
          linarith
        have h0 : u * M * q ≤ u * M := mul_le_of_le_one_right huM hq1
        have h2 : M * q ≤ M := mul_le_of_le_one_right hM hq1
        refine (hz.mul A hq (m := M * q) ?_ ?_).mono ?_
        · rw [abs_mul, abs_of_nonneg hq0]; exact mul_le_mul_of_nonneg_right hk hq0
        · simp only [mul_zero, zero_mul, add_zero]; linarith
        · simp only [mul_zero, zero_mul, add_zero]
          have h3 := mul_le_mul_of_nonneg_left h1 hu
          have h4 : u * (u * M * q) ≤ u * M * q := mul_le_of_le_one_left (mul_nonneg huM hq0) (by linarith)
          rw [mul_add]
          linarith
      have pa := prod ha ma (by norm_num) (by norm_num) w1
      have pb := prod hb mb (by norm_num) (by norm_num) w2
      have pc := prod hc mc (by norm_num) (by norm_num) w2
      have pe := prod he me (by norm_num) (by norm_num) w1
      have z0 : Near V (lit 0 : α) 0 0 := ⟨0, by rw [V.lit]; exact lit_zero L, by simp⟩
      obtain ⟨a1, a2⟩ := abs_le.mp ma
      obtain ⟨b1, b2⟩ := abs_le.mp mb
      obtain ⟨c1, c2⟩ := abs_le.mp mc
      obtain ⟨d1, d2⟩ := abs_le.mp me
      have q1 := (z0.add A pa (m := M / 6) (abs_le.mpr ⟨by linarith, by linarith⟩) (by linarith)).mono
        (show _ ≤ u * M + 17 / 8 * η by
          rw [show u * (M / 6 + (0 + (3 * (u * M) * (1 / 6) + η))) = u * M / 6 + u * (u * M) / 2 + u * η by ring]
          linarith)
      have q2 := (q1.add A pb (m := M / 2) (abs_le.mpr ⟨by linarith, by linarith⟩) (by linarith)).mono
        (show _ ≤ 3 * (u * M) + 34 / 8 * η by
          rw [show u * (M / 2 + (u * M + 17 / 8 * η + (3 * (u * M) * (2 / 6) + η))) = u * M / 2 + 2 * (u * (u * M)) + 25 / 8 * (u * η) by ring]
          linarith)
      have q3 := (q2.add A pc (m := 5 * M / 6) (abs_le.mpr ⟨by linarith, by linarith⟩) (by linarith)).mono
        (show _ ≤ 5 * (u * M) + 51 / 8 * η by
          rw [show u * (5 * M / 6 + (3 * (u * M) + 34 / 8 * η + (3 * (u * M) * (2 / 6) + η)))
            = 5 * (u * M) / 6 + 4 * (u * (u * M)) + 42 / 8 * (u * η) by ring]
          linarith)
      have q4 := (q3.add A pe (m := M) (abs_le.mpr ⟨by linarith, by linarith⟩) (by linarith)).mono
        (show _ ≤ 9 * (u * M + η) by
          rw [show u * (M + (5 * (u * M) + 51 / 8 * η + (3 * (u * M) * (1 / 6) + η)))
            = u * M + 11 / 2 * (u * (u * M)) + 59 / 8 * (u * η) by ring]
          linarith)
      refine ⟨lit 0 + a * (lit 1 / lit 6) + b * (lit 2 / lit 6) + c * (lit 2 / lit 6) + e * (lit 1 / lit 6), ?_, ?_⟩
      · have : allSome (win x 4 t) = some [a, b, c, e] := by
          unfold fullWindow at hv
          rwa [if_pos hp.1] at hv
        unfold swma0
        rw [if_pos hp.1, this]
      · convert q4 using 1
        simp
        ring
  · rw [fullWindow_isNone hp]
    have hx' := fullWindow_isNone (x := x) (by rw [reads_window h]; exact hp)
    unfold swma0
    unfold fullWindow at hx'
    split
    · next h4 =>
      rw [if_pos h4] at hx'
      rw [hx']
      rfl
    · rfl

end

/-! ## Binary64 -/

section binary64

/-- The unit roundoff of binary64 and half its smallest positive float. -/
noncomputable def Spec.b64u : ℝ := (2 : ℝ) ^ (-53 : ℤ)
noncomputable def Spec.b64η : ℝ := (2 : ℝ) ^ (-1075 : ℤ)

theorem b64_room {n : Nat} (hn : n ≤ 2 ^ 40) {M : ℝ} (hM0 : 0 ≤ M) (hM : M ≤ (2 : ℝ) ^ (900 : ℤ)) :
    (n : ℝ) * b64u ≤ 1 / 64 ∧ (n : ℝ) * M ≤ (2 : ℝ) ^ (1023 : ℤ) / 1024 ∧ (n : ℝ) * b64η ≤ (2 : ℝ) ^ (1023 : ℤ) / 1024 := by
  have hn' : (n : ℝ) ≤ (2 : ℝ) ^ (40 : ℤ) := by exact_mod_cast hn
  unfold b64u b64η
  have hn0 : (0 : ℝ) ≤ n := Nat.cast_nonneg _
  have e : (2 : ℝ) ^ (1023 : ℤ) / 1024 = (2 : ℝ) ^ (1013 : ℤ) := by
    have : (1024 : ℝ) = (2 : ℝ) ^ (10 : ℤ) := by norm_num
    rw [this, ← zpow_sub₀ (by norm_num : (2 : ℝ) ≠ 0)]
    norm_num
  have e2 : (1 / 64 : ℝ) = (2 : ℝ) ^ (-6 : ℤ) := by norm_num
  rw [e, e2]
  have two : (2 : ℝ) ≠ 0 := by norm_num
  refine ⟨?_, ?_, ?_⟩
  · refine (mul_le_mul_of_nonneg_right hn' (Binary64.two_zpow_pos _).le).trans ?_
    rw [← zpow_add₀ two]
    exact Binary64.two_zpow_mono (by norm_num)
  · refine (mul_le_mul hn' hM hM0 (Binary64.two_zpow_pos _).le).trans ?_
    rw [← zpow_add₀ two]
    exact Binary64.two_zpow_mono (by norm_num)
  · refine (mul_le_mul_of_nonneg_right hn' (Binary64.two_zpow_pos _).le).trans ?_
    rw [← zpow_add₀ two]
    exact Binary64.two_zpow_mono (by norm_num)

/-- **C68.** In binary64, for lengths and runs up to `2^40` and inputs up to `2^900`: the simple moving average `n` bars after the first
input is within `(4n + 5)(2^-53 M + 2^-1075)` of the exact mean, the exponential one always within `9(len + 1)(2^-53 M + 2^-1075)` and
Wilder's within `18 len (2^-53 M + 2^-1075)`, where `M` bounds the inputs. -/
theorem C68_averages_binary64 (d : DataProvider B64) {len N : Nat} (hlen : 1 ≤ len) (hl : len + 1 ≤ 2 ^ 40) (hN : 2 * N ≤ 2 ^ 40)
    {x : Nat → Option B64} {s : Nat} {p : Nat → ℝ} (h : Reads (Sf.valued _) x (startAt s p)) {M : ℝ} (hp : ∀ t, s ≤ t → |p t| ≤ M)
    (hM : M ≤ (2 : ℝ) ^ (900 : ℤ)) :
    (∃ y, Runs (fun t => Sma.next ⟨d, t⟩) (Sma.new len) x N y ∧ ∀ t, t < N → Within (Sf.valued _) (y t)
      (startAt (s + len - 1) (average .sma len s p) t) ((4 * (t - s : Nat) + 5) * (b64u * M + b64η))) ∧
    (∃ y, Runs (fun t => Ema.next ⟨d, t⟩) (Ema.new len) x N y ∧ ∀ t, t < N → Within (Sf.valued _) (y t)
      (startAt (s + len - 1) (average .ema len s p) t) (9 * (len + 1) * (b64u * M + b64η))) ∧
    ∃ y, Runs (fun t => Rma.next ⟨d, t⟩) (Rma.new len) x N y ∧ ∀ t, t < N → Within (Sf.valued _) (y t)
      (startAt (s + len - 1) (average .rma len s p) t) (18 * len * (b64u * M + b64η)) := by
  have A : (Rounding.binary64 ℝ).Accurate b64u b64η ((2 : ℝ) ^ (1023 : ℤ)) := binary64_accurate ℝ
  have L := binary64_lawful ℝ
  have hM0 : 0 ≤ M := (abs_nonneg _).trans (hp s (le_refl _))
  obtain ⟨a1, a2, a3⟩ := b64_room (show len ≤ 2 ^ 40 by omega) hM0 hM
  obtain ⟨b1, b2, b3⟩ := b64_room hl hM0 hM
  push_cast at b1 b2 b3
  have h53 : len + 1 ≤ 2 ^ 53 := hl.trans (by norm_num)
  have hx0 : ∀ t, t < s → startAt s p t = none := fun t ht => if_pos ht
  have hx : ∀ t k, startAt s p t = some k → |k| ≤ M := by
    intro t k hk
    unfold startAt at hk
    split at hk
    · simp at hk
    · next hts =>
      obtain rfl := Option.some.inj hk
      exact hp t (by omega)
  have hη : 0 ≤ b64η := (Binary64.two_zpow_pos _).le
  have hu : 0 ≤ b64u := (Binary64.two_zpow_pos _).le
  have htop : 40 * (len : ℝ) * (M + b64η) ≤ (2 : ℝ) ^ (1023 : ℤ) := by
    have h0 : (0 : ℝ) < (2 : ℝ) ^ (1023 : ℤ) := Binary64.two_zpow_pos _
    generalize (2 : ℝ) ^ (1023 : ℤ) = T at *
    nlinarith
  refine ⟨?_, C68_ema A L d hlen h53 (by linarith) h hp htop N, C68_rma A L d hlen (by omega) (by linarith) h hp htop N⟩
  obtain ⟨c1, c2, c3⟩ := b64_room (show 2 * (N - s) ≤ 2 ^ 40 by omega) hM0 hM
  obtain ⟨y, h1, h2⟩ := C68_sma A L d hlen (by omega) h hM0 hx hx0 (N := N) (by linarith) (by
    have h0 : (0 : ℝ) < (2 : ℝ) ^ (1023 : ℤ) := Binary64.two_zpow_pos _
    generalize (2 : ℝ) ^ (1023 : ℤ) = T at *
    nlinarith)
  refine ⟨y, h1, fun t ht => ?_⟩
  have h3 := h2 t ht
  rw [fullWindow_startAt s p hlen] at h3
  unfold startAt
  by_cases hts : s + len ≤ t + 1
  · rw [if_pos hts] at h3
    rw [if_neg (by omega)]
    exact h3
  · rw [if_neg hts] at h3
    rw [if_pos (by omega)]
    exact h3

/-- **C68.** In binary64, for inputs up to `M <= 2^900` (missing ones anywhere): the linearly weighted average of length up to 2^16 is
within `(4 len + 3)(2^-53 M + 2^-1075)` and the symmetrically weighted one within `9 (2^-53 M + 2^-1075)` of the exact one, at every tick. -/
theorem C68_weighted_binary64 (d : DataProvider B64) {len : Nat} (hlen : 1 ≤ len) (hl : len ≤ 2 ^ 16) (N : Nat) {x : Nat → Option B64}
    {xs : Nat → Option ℝ} (h : Reads (Sf.valued _) x xs) {M : ℝ} (hM0 : 0 ≤ M) (hx : ∀ t k, xs t = some k → |k| ≤ M)
    (hM : M ≤ (2 : ℝ) ^ (900 : ℤ)) :
    (∃ y, Runs (fun t => Wma.next ⟨d, t⟩) (Wma.new len) x N y ∧ ∀ t, t < N → Within (Sf.valued _) (y t)
      ((fullWindow xs len t).map weightedMean) ((4 * len + 3) * (b64u * M + b64η))) ∧
    ∃ y, Runs (fun t => Swma.next ⟨d, t⟩) Swma.new x N y ∧ ∀ t, t < N → Within (Sf.valued _) (y t)
      ((fullWindow xs 4 t).map fun w => (w.getD 0 0 + 2 * w.getD 1 0 + 2 * w.getD 2 0 + w.getD 3 0) / 6) (9 * (b64u * M + b64η)) := by
  have A : (Rounding.binary64 ℝ).Accurate b64u b64η ((2 : ℝ) ^ (1023 : ℤ)) := binary64_accurate ℝ
  have L := binary64_lawful ℝ
  obtain ⟨a1, a2, a3⟩ := b64_room (show len ≤ 2 ^ 40 by omega) hM0 hM
  obtain ⟨b1, b2, b3⟩ := b64_room (show 16 ≤ 2 ^ 40 by norm_num) hM0 hM
  have hη : 0 ≤ b64η := (Binary64.two_zpow_pos _).le
  have h0 : (0 : ℝ) < (2 : ℝ) ^ (1023 : ℤ) := Binary64.two_zpow_pos _
  have hcube : len * len * (len + 1) ≤ 2 ^ 16 * 2 ^ 16 * (2 ^ 16 + 1) := Nat.mul_le_mul (Nat.mul_le_mul hl hl) (by omega)
  have hbig : (len * len * (len + 1) / 2 : ℝ) * M ≤ (2 : ℝ) ^ (1023 : ℤ) / 1024 := by
    have h1 : (len * len * (len + 1) / 2 : ℝ) ≤ (2 : ℝ) ^ (48 : ℤ) := by
      have : ((len * len * (len + 1) : Nat) : ℝ) ≤ ((2 ^ 16 * 2 ^ 16 * (2 ^ 16 + 1) : Nat) : ℝ) := by exact_mod_cast hcube
      push_cast at this
      have e : (2 : ℝ) ^ (48 : ℤ) = 2 ^ 48 := by norm_cast
      rw [e]
      linarith
    have e : (2 : ℝ) ^ (1023 : ℤ) / 1024 = (2 : ℝ) ^ (1013 : ℤ) := by
      have : (1024 : ℝ) = (2 : ℝ) ^ (10 : ℤ) := by norm_num
      rw [this, ← zpow_sub₀ (by norm_num : (2 : ℝ) ≠ 0)]
      norm_num
    rw [e]
    refine (mul_le_mul h1 hM hM0 (Binary64.two_zpow_pos _).le).trans ?_
    rw [← zpow_add₀ (by norm_num : (2 : ℝ) ≠ 0)]
    exact Binary64.two_zpow_mono (by norm_num)
  push_cast at b1 b2 b3
  generalize (2 : ℝ) ^ (1023 : ℤ) = T at *
  exact ⟨C68_wma A L d hlen (by omega) (by linarith) h hM0 hx (by linarith) N, C68_swma A L d h hM0 hx (by linarith) N⟩

/-- A concrete input of the theorem: 0, 1, 2, 0, 1, 2, ... in binary64, from tick 3 on. -/
example : Reads (Sf.valued (Rounding.binary64 ℝ)) (startAt 3 fun t => lit ((t % 3 : Nat) : ℚ)) (startAt 3 fun t => ((t % 3 : Nat) : ℝ)) ∧
    ∀ t, 3 ≤ t → |((t % 3 : Nat) : ℝ)| ≤ 2 := by
  refine ⟨fun t => ?_, fun t _ => ?_⟩
  · unfold startAt
    split
    · rfl
    · simp only [Option.map_some]
      rw [val_lit_nat (V := Sf.valued _) (binary64_lawful ℝ) (by have := Nat.mod_lt t (show 3 > 0 by omega); omega)]
  · rw [abs_of_nonneg (by positivity)]
    exact_mod_cast (by have := Nat.mod_lt t (show 3 > 0 by omega); omega)

/-- The error of the simple moving average really stays: in binary64, of 10^16, 1, 1, 1 with length 2 the last two outputs are 0.5 and
0.5, while the mean of each of the last two windows is 1 (10^16 + 1 rounds to 10^16). -/
example : (outputs (fun t => Sma.next ⟨DataProvider.ofSeries 4 unit' unit' unit' unit' unit', t⟩)
    (fun t => ([some (lit 10000000000000000), some (lit 1), some (lit 1), some (lit 1)] :
      List (Option (Sf (Rounding.binary64 ℚ)))).getD t none) 4 (Sma.new 2)).toOption.map (List.map (Option.map Sf.val))
    = some [none, some (Fl.of _ (.fin 5000000000000000)), some (Fl.of _ (.fin (1 / 2))), some (Fl.of _ (.fin (1 / 2)))] := by
  decide +kernel

end binary64
end Pace
