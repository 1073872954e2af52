import Verif.Props.Content3
import Verif.Props.Common
import Verif.Lemmas.Wilder

/-!
# Directional movement index (C53, C54, C56), exact arithmetic on well-formed bars
-/

set_option linter.unusedSectionVars false

namespace Pace
open Spec
variable {K : Type} [Field K] [LinearOrder K] [IsStrictOrderedRing K] [RootOps K]
variable {d : DataProvider (Ex K)} {N : Nat} {o h l c v : Nat → K}

/-- Positive directional movement of bar `t >= 1`: the rise of the high if it exceeds the fall of the low and 0, otherwise 0. -/
def Spec.plusMove (h l : Nat → K) (t : Nat) : K :=
  if l (t - 1) - l t < h t - h (t - 1) ∧ 0 < h t - h (t - 1) then h t - h (t - 1) else 0

/-- Negative directional movement of bar `t >= 1`: the fall of the low if it exceeds the rise of the high and 0, otherwise 0. -/
def Spec.minusMove (h l : Nat → K) (t : Nat) : K :=
  if h t - h (t - 1) < l (t - 1) - l t ∧ 0 < l (t - 1) - l t then l (t - 1) - l t else 0

/-- Smoothed ranges and movements at tick `t >= len`. -/
def Spec.smoothRange (len : Nat) (h l c : Nat → K) (t : Nat) : K := runningMean len 1 (barRange h l c) (t - len)
def Spec.smoothPlus (len : Nat) (h l : Nat → K) (t : Nat) : K := runningMean len 1 (plusMove h l) (t - len)
def Spec.smoothMinus (len : Nat) (h l : Nat → K) (t : Nat) : K := runningMean len 1 (minusMove h l) (t - len)

theorem plusMove_bounds (hw : WellFormed o h l c) {t : Nat} (ht : 1 ≤ t) : 0 ≤ plusMove h l t ∧ plusMove h l t ≤ barRange h l c t := by
  obtain ⟨t, rfl⟩ : ∃ s, t = s + 1 := ⟨t - 1, by omega⟩
  have h1 := (hw t).2.2.2
  have h2 : |h (t + 1) - c t| ≤ barRange h l c (t + 1) := (le_max_right _ _).trans (le_max_left _ _)
  have h3 := le_abs_self (h (t + 1) - c t)
  have h4 : 0 ≤ barRange h l c (t + 1) := (abs_nonneg _).trans h2
  unfold plusMove
  simp only [Nat.add_sub_cancel]
  split
  · rename_i hh; exact ⟨hh.2.le, by linarith⟩
  · exact ⟨le_refl _, h4⟩

theorem minusMove_bounds (hw : WellFormed o h l c) {t : Nat} (ht : 1 ≤ t) : 0 ≤ minusMove h l t ∧ minusMove h l t ≤ barRange h l c t := by
  obtain ⟨t, rfl⟩ : ∃ s, t = s + 1 := ⟨t - 1, by omega⟩
  have h1 := (hw t).2.2.1
  have h2 : |l (t + 1) - c t| ≤ barRange h l c (t + 1) := le_max_right _ _
  have h3 := neg_abs_le (l (t + 1) - c t)
  have h4 : 0 ≤ barRange h l c (t + 1) := (abs_nonneg _).trans h2
  unfold minusMove
  simp only [Nat.add_sub_cancel]
  split
  · rename_i hh; exact ⟨hh.2.le, by linarith⟩
  · exact ⟨le_refl _, h4⟩

theorem smooth_bounds (hw : WellFormed o h l c) {len : Nat} (hlen : 1 ≤ len) {t : Nat} :
    0 ≤ smoothPlus len h l t ∧ smoothPlus len h l t ≤ smoothRange len h l c t ∧
    0 ≤ smoothMinus len h l t ∧ smoothMinus len h l t ≤ smoothRange len h l c t :=
  ⟨runningMean_nonneg hlen (fun _ hk => (plusMove_bounds hw hk).1) _, runningMean_mono hlen (fun _ hk => (plusMove_bounds hw hk).2) _,
    runningMean_nonneg hlen (fun _ hk => (minusMove_bounds hw hk).1) _, runningMean_mono hlen (fun _ hk => (minusMove_bounds hw hk).2) _⟩

/-- A quotient in [0, 100]. -/
theorem percent_bounds {p r : K} (hp : 0 ≤ p) (hpr : p ≤ r) (hr : r ≠ 0) : 0 ≤ p / r * 100 ∧ p / r * 100 ≤ 100 := by
  have hpos : 0 < r := lt_of_le_of_ne (hp.trans hpr) (Ne.symm hr)
  have h1 : 0 ≤ p / r := div_nonneg hp hpos.le
  have h2 : p / r ≤ 1 := by rw [div_le_one hpos]; exact hpr
  constructor <;> linarith

/-- The latest tick in `[len, t]` with a positive smoothed range. -/
theorem latest_quot {len : Nat} (q : Nat → Option (Ex K)) (T P : Nat → K)
    (hq : ∀ t, q t = if t < len then none else if T t = 0 then none else some (fin (P t / T t * 100))) {t : Nat}
    {y : Option (Ex K)} (hy : IsLatest q t y) :
    (y = none ∧ ∀ k, len ≤ k → k ≤ t → T k = 0) ∨
    ∃ k, len ≤ k ∧ k ≤ t ∧ T k ≠ 0 ∧ (∀ j, k < j → j ≤ t → T j = 0) ∧ y = some (fin (P k / T k * 100)) := by
  rcases hy with ⟨h1, h2⟩ | ⟨k, w, h1, h2, h3, h4⟩
  · left
    refine ⟨h1, fun k hk1 hk2 => ?_⟩
    have := h2 k hk2
    rw [hq, if_neg (by omega)] at this
    by_contra hne
    rw [if_neg hne] at this; simp at this
  · right
    rw [hq] at h2
    split at h2
    · simp at h2
    · split at h2
      · simp at h2
      · rename_i hk hT
        refine ⟨k, by omega, h1, hT, fun j hj1 hj2 => ?_, by rw [h3]; exact h2.symm ▸ rfl⟩
        have := h4 j hj1 hj2
        rw [hq, if_neg (by omega)] at this
        by_contra hne
        rw [if_neg hne] at this; simp at this

/-- Both directional lines were 0 on a tick that matters to the ADX of tick `t`: any tick up to `t`, but only `t` itself if the ADX
is not smoothed (`sig = 1`). -/
def Spec.BothZero (sig : Nat) (y : Nat → DmiData (Ex K)) (t : Nat) : Prop :=
  ∃ s, s ≤ t ∧ (sig = 1 → s = t) ∧ (y s).plus = some (fin 0) ∧ (y s).minus = some (fin 0)

theorem dmi_main (hb : ExBars d N o h l c v) (hw : WellFormed o h l c) {len sig : Nat} (hlen : 1 ≤ len) (hsig : 1 ≤ sig) :
    ∃ y : Nat → DmiData (Ex K), Runs (noInput fun t => Dmi.next ⟨d, t⟩) (Dmi.new len sig) unit N y ∧
      (∀ t, t < N →
        ((y t).plus = none ∧ (y t).minus = none ∧ ∀ k, len ≤ k → k ≤ t → smoothRange len h l c k = 0) ∨
        ∃ k, len ≤ k ∧ k ≤ t ∧ smoothRange len h l c k ≠ 0 ∧ (∀ j, k < j → j ≤ t → smoothRange len h l c j = 0) ∧
          (y t).plus = some (fin (smoothPlus len h l k / smoothRange len h l c k * 100)) ∧
          (y t).minus = some (fin (smoothMinus len h l k / smoothRange len h l c k * 100))) ∧
      (∀ t, t < N →
        ((y t).adx = none ∧ (t + 1 < sig ∨ (y (t + 1 - sig)).plus = none)) ∨
        (sig ≤ t + 1 ∧ (y (t + 1 - sig)).plus ≠ none ∧
          (((y t).adx = some (Ext.nan : Ext K) ∧ BothZero sig y t) ∨
          ∃ a, (y t).adx = some (fin a) ∧ 0 ≤ a ∧ a ≤ 100 ∧ ¬ BothZero sig y t))) := by
  have htr : ∀ t, t < N → Tr.next ⟨d, t⟩ false = .ok (flo (startAt 1 (barRange h l c)) t) := fun t ht => tr_exact_false hb ht
  have hrt := rma_startAt d hlen 1 (barRange h l c) N
  have hrp := rma_startAt d hlen 1 (plusMove h l) N
  have hrm := rma_startAt d hlen 1 (minusMove h l) N
  set up : Nat → Option (Ex K) := flo (startAt 1 fun t => h t - h (t - 1)) with hupd
  set down : Nat → Option (Ex K) := flo (startAt 1 fun t => l (t - 1) - l t) with hdownd
  have hup : ∀ t, t < N → up t = opt2 (· - ·) ((fun t => some (fin (h t) : Ex K)) t) (prev (fun t => some (fin (h t))) t) :=
    fun t _ => (opt2_prev _ _ fin_sub h h t).symm
  have hdown : ∀ t, t < N → down t = opt2 (· - ·) (prev (fun t => some (fin (l t) : Ex K)) t) ((fun t => some (fin (l t))) t) := by
    intro t _
    cases t with
    | zero => rfl
    | succ t => simp [hdownd, prev, opt2, startAt]
  have ep : (fun t => opt2 (fun u w => if fgt u w && fgt u (lit 0) then u else lit 0) (up t) (down t)) = flo (startAt 1 (plusMove h l)) := by
    funext t
    cases t with
    | zero => rfl
    | succ t =>
      simp only [hupd, hdownd, flo, startAt, if_neg (show ¬ t + 1 < 1 by omega), Option.map_some, opt2, fin_fgt, fin_lit, plusMove,
        Rat.cast_zero, Bool.and_eq_true, decide_eq_true_eq]
      split <;> rfl
  have em : (fun t => opt2 (fun u w => if fgt w u && fgt w (lit 0) then w else lit 0) (up t) (down t)) = flo (startAt 1 (minusMove h l)) := by
    funext t
    cases t with
    | zero => rfl
    | succ t =>
      simp only [hupd, hdownd, flo, startAt, if_neg (show ¬ t + 1 < 1 by omega), Option.map_some, opt2, fin_fgt, fin_lit, minusMove,
        Rat.cast_zero, Bool.and_eq_true, decide_eq_true_eq]
      split <;> rfl
  set T := smoothRange len h l c with hT
  set P := smoothPlus len h l with hP
  set M := smoothMinus len h l with hM
  have quot : ∀ (u : Nat → K) (t : Nat),
      (safeDiv (if t + 1 < 1 + len then none else some (fin (runningMean len 1 u (t + 1 - (1 + len)))) : Option (Ex K))
        (if t + 1 < 1 + len then none else some (fin (runningMean len 1 (barRange h l c) (t + 1 - (1 + len)))))).map (· * lit 100)
      = if t < len then none else if T t = 0 then none else some (fin (runningMean len 1 u (t - len) / T t * 100)) := by
    intro u t
    by_cases h1 : t < len
    · rw [if_pos (by omega), if_pos (by omega), if_pos h1]; rfl
    · rw [if_neg (by omega), if_neg (by omega), if_neg h1, safeDiv_fin, show t + 1 - (1 + len) = t - len by omega]
      rw [show runningMean len 1 (barRange h l c) (t - len) = T t from rfl]
      split
      · rfl
      · simp
  obtain ⟨p, hp, hp'⟩ := C05_fixnan (fun t => (safeDiv (if t + 1 < 1 + len then none else
      some (fin (runningMean len 1 (plusMove h l) (t + 1 - (1 + len)))) : Option (Ex K))
        (if t + 1 < 1 + len then none else some (fin (runningMean len 1 (barRange h l c) (t + 1 - (1 + len)))))).map (· * lit 100)) N
  obtain ⟨m, hm, hm'⟩ := C05_fixnan (fun t => (safeDiv (if t + 1 < 1 + len then none else
      some (fin (runningMean len 1 (minusMove h l) (t + 1 - (1 + len)))) : Option (Ex K))
        (if t + 1 < 1 + len then none else some (fin (runningMean len 1 (barRange h l c) (t + 1 - (1 + len)))))).map (· * lit 100)) N
  -- both lines together
  have both : ∀ t, t < N → (p t = none ∧ m t = none ∧ ∀ k, len ≤ k → k ≤ t → T k = 0) ∨
      ∃ k, len ≤ k ∧ k ≤ t ∧ T k ≠ 0 ∧ (∀ j, k < j → j ≤ t → T j = 0) ∧ p t = some (fin (P k / T k * 100)) ∧
        m t = some (fin (M k / T k * 100)) := by
    intro t ht
    rcases latest_quot _ T P (fun t => quot (plusMove h l) t) (hp' t ht) with ⟨h1, h2⟩ | ⟨k, h1, h2, h3, h4, h5⟩ <;>
      rcases latest_quot _ T M (fun t => quot (minusMove h l) t) (hm' t ht) with ⟨g1, g2⟩ | ⟨k', g1, g2, g3, g4, g5⟩
    · exact Or.inl ⟨h1, g1, h2⟩
    · exact absurd (h2 k' g1 g2) g3
    · exact absurd (g2 k h1 h2) h3
    · have : k = k' := by
        rcases Nat.lt_trichotomy k k' with hk | hk | hk
        · exact absurd (h4 k' hk g2) g3
        · exact hk
        · exact absurd (g4 k hk h2) h3
      subst this
      exact Or.inr ⟨k, h1, h2, h3, h4, h5, g5⟩
  have vals : ∀ t, ∃ a b : K, 0 ≤ a ∧ 0 ≤ b ∧
      (t < N → (p t = none ∧ m t = none) ∨ (p t = some (fin a) ∧ m t = some (fin b))) := by
    intro t
    by_cases ht : t < N
    · rcases both t ht with ⟨h1, h2, _⟩ | ⟨k, h1, h2, h3, _, h5, h6⟩
      · exact ⟨0, 0, le_refl _, le_refl _, fun _ => Or.inl ⟨h1, h2⟩⟩
      · obtain ⟨b1, b2, b3, b4⟩ := smooth_bounds hw hlen (t := k)
        exact ⟨_, _, (percent_bounds b1 b2 h3).1, (percent_bounds b3 b4 h3).1, fun _ => Or.inr ⟨h5, h6⟩⟩
    · exact ⟨0, 0, le_refl _, le_refl _, fun h => absurd h ht⟩
  choose pv mv hpv hmv hpm using vals
  have mono : ∀ s t, s ≤ t → t < N → p t = none → p s = none := by
    intro s t hst ht hpt
    rcases both t ht with ⟨_, _, h3⟩ | ⟨k, _, _, _, _, h5, _⟩
    · rcases both s (by omega) with ⟨h1, _, _⟩ | ⟨k, g1, g2, g3, _⟩
      · exact h1
      · exact absurd (h3 k g1 (by omega)) g3
    · rw [h5] at hpt; simp at hpt
  classical
  have hex : ∃ t, N ≤ t ∨ p t ≠ none := ⟨N, Or.inl (le_refl _)⟩
  set S := Nat.find hex with hS
  have hSmin : ∀ t, t < S → p t = none := by
    intro t ht
    have := Nat.find_min hex ht
    push Not at this
    exact this.2
  have hSafter : ∀ t, S ≤ t → t < N → p t ≠ none := by
    intro t h1 h2 h3
    rcases Nat.find_spec hex with h4 | h4
    · omega
    · exact h4 (mono _ _ h1 h2 h3)
  set bad : Nat → Bool := fun k => decide (pv k = 0 ∧ mv k = 0) with hbad
  set dxv : Nat → K := fun k => |pv k - mv k| / (pv k + mv k) with hdxv
  have hdxb : ∀ k, 0 ≤ dxv k ∧ dxv k ≤ 1 := by
    intro k
    have h1 := hpv k
    have h2 := hmv k
    refine ⟨div_nonneg (abs_nonneg _) (by linarith), ?_⟩
    apply div_le_one_of_le₀ _ (by linarith)
    rw [abs_le]; constructor <;> linarith
  have hdx : ∀ t, t < N → startAt S (fun k => nf (bad k) (dxv k)) t
      = opt2 (fun p m => F64.abs (p - m) / (if F64.feq p (-m) then lit 0 else p + m)) (p t) (m t) := by
    intro t ht
    unfold startAt
    by_cases hs : t < S
    · rw [if_pos hs, hSmin t hs]; rfl
    · rw [if_neg hs]
      rcases hpm t ht with ⟨h1, _⟩ | ⟨h1, h2⟩
      · exact absurd h1 (hSafter t (by omega) ht)
      · rw [h1, h2]
        simp only [opt2, fin_sub, fin_abs, fin_neg, fin_feq, fin_lit, fin_add, decide_eq_true_eq, Rat.cast_zero, hbad, hdxv]
        have g1 := hpv t
        have g2 := hmv t
        by_cases hz : pv t = 0 ∧ mv t = 0
        · rw [if_pos (by rw [hz.1, hz.2]; simp), fin_div_zero]
          simp [hz, Fl.signInf]
        · have hne : pv t + mv t ≠ 0 := fun he => hz ⟨by linarith, by linarith⟩
          rw [if_neg (fun he => hne (by rw [he]; ring)), fin_div _ _ hne]
          simp [hz]
  have ha := (rma_startAt_any d hsig S bad dxv N).input_congr hdx
  have hmain := C53_dmi d (len := len) (sig := sig) hb.high hb.low htr hup hdown hrt (by rw [ep]; exact hrp) (by rw [em]; exact hrm) hp hm ha
  refine ⟨_, hmain, fun t ht => both t ht, fun t ht => ?_⟩
  have hzero : ∀ s, s < N → ((p s = some (fin 0) ∧ m s = some (fin 0)) ↔ S ≤ s ∧ bad s = true) := by
    intro s hs
    simp only [hbad, decide_eq_true_eq]
    constructor
    · rintro ⟨h1, h2⟩
      refine ⟨?_, ?_⟩
      · by_contra hlt; rw [hSmin s (by omega)] at h1; simp at h1
      · rcases hpm s hs with ⟨g1, _⟩ | ⟨g1, g2⟩
        · rw [g1] at h1; simp at h1
        · rw [h1] at g1; rw [h2] at g2
          simp only [Option.some.injEq, fin_inj] at g1 g2
          exact ⟨g1.symm, g2.symm⟩
    · rintro ⟨h1, h2, h3⟩
      rcases hpm s hs with ⟨g1, _⟩ | ⟨g1, g2⟩
      · exact absurd g1 (hSafter s h1 hs)
      · rw [g1, g2, h2, h3]; exact ⟨rfl, rfl⟩
  by_cases h1 : t + 1 < S + sig
  · left
    refine ⟨by simp only [if_pos h1, Option.map_none], ?_⟩
    rcases Nat.lt_or_ge (t + 1) sig with h2 | h2
    · exact Or.inl h2
    · exact Or.inr (hSmin _ (by omega))
  · right
    refine ⟨by omega, hSafter _ (by omega) (by omega), ?_⟩
    simp only [if_neg h1, Option.map_some, fin_lit]
    rw [nf_mul_right]
    have hB : ∀ y : Nat → DmiData (Ex K), (∀ s, (y s).plus = p s ∧ (y s).minus = m s) →
        ((if sig = 1 then bad t else anyBad bad S t) = true ↔ BothZero sig y t) := by
      intro y hy
      have hzero' : ∀ s, s < N → (((y s).plus = some (fin 0) ∧ (y s).minus = some (fin 0)) ↔ S ≤ s ∧ bad s = true) := by
        intro s hs; rw [(hy s).1, (hy s).2]; exact hzero s hs
      clear hzero
      rename' hzero' => hzero
      unfold BothZero
      by_cases hs1 : sig = 1
      · rw [if_pos hs1]
        constructor
        · intro hb; exact ⟨t, le_refl _, fun _ => rfl, (hzero t ht).mpr ⟨by omega, hb⟩⟩
        · rintro ⟨s, _, g2, g3⟩
          obtain rfl := g2 hs1
          exact ((hzero s ht).mp g3).2
      · rw [if_neg hs1, anyBad_iff]
        constructor
        · rintro ⟨k, g1, g2, g3⟩
          exact ⟨k, g2, fun h => absurd h hs1, (hzero k (by omega)).mpr ⟨g1, g3⟩⟩
        · rintro ⟨s, g1, _, g3⟩
          obtain ⟨g4, g5⟩ := (hzero s (by omega)).mp g3
          exact ⟨s, g4, g1, g5⟩
    cases hb' : (if sig = 1 then bad t else anyBad bad S t) with
    | true => exact Or.inl ⟨rfl, (hB _ fun _ => ⟨rfl, rfl⟩).mp hb'⟩
    | false =>
      right
      have := runningMean_bounds hsig (s := S) (fun k _ => hdxb k) (t + 1 - (S + sig))
      refine ⟨_, rfl, ?_, ?_, fun hc => ?_⟩
      · push_cast; linarith
      · push_cast; linarith
      · rw [(hB _ fun _ => ⟨rfl, rfl⟩).mpr hc] at hb'; simp at hb'

/-- **C53.** DMI on well-formed complete bars, exact arithmetic.  With `smoothRange`, `smoothPlus`, `smoothMinus` Wilder's running
means (length `len`, from bar 1) of the true ranges and directional movements: `+DI` and `-DI` are `100 * smoothed movement /
smoothed range` of the latest tick `>= len` whose smoothed range is not 0, and missing if there is none yet. -/
theorem C53_dmi_exact (hb : ExBars d N o h l c v) (hw : WellFormed o h l c) {len sig : Nat} (hlen : 1 ≤ len) (hsig : 1 ≤ sig) :
    ∃ y : Nat → DmiData (Ex K), Runs (noInput fun t => Dmi.next ⟨d, t⟩) (Dmi.new len sig) unit N y ∧
      ∀ t, t < N →
        ((y t).plus = none ∧ (y t).minus = none ∧ ∀ k, len ≤ k → k ≤ t → smoothRange len h l c k = 0) ∨
        ∃ k, len ≤ k ∧ k ≤ t ∧ smoothRange len h l c k ≠ 0 ∧ (∀ j, k < j → j ≤ t → smoothRange len h l c j = 0) ∧
          (y t).plus = some (fin (smoothPlus len h l k / smoothRange len h l c k * 100)) ∧
          (y t).minus = some (fin (smoothMinus len h l k / smoothRange len h l c k * 100)) := by
  obtain ⟨y, h1, h2, _⟩ := dmi_main hb hw hlen hsig
  exact ⟨y, h1, h2⟩

/-- **C54.** On well-formed bars both directional lines are in [0, 100] and are present on the same ticks. -/
theorem C54_dmi (hb : ExBars d N o h l c v) (hw : WellFormed o h l c) {len sig : Nat} (hlen : 1 ≤ len) (hsig : 1 ≤ sig) :
    ∃ y : Nat → DmiData (Ex K), Runs (noInput fun t => Dmi.next ⟨d, t⟩) (Dmi.new len sig) unit N y ∧
      ∀ t, t < N → ((y t).plus = none ∧ (y t).minus = none) ∨
        ∃ p m, (y t).plus = some (fin p) ∧ (y t).minus = some (fin m) ∧ 0 ≤ p ∧ p ≤ 100 ∧ 0 ≤ m ∧ m ≤ 100 := by
  obtain ⟨y, h1, h2, _⟩ := dmi_main hb hw hlen hsig
  refine ⟨y, h1, fun t ht => ?_⟩
  rcases h2 t ht with ⟨g1, g2, _⟩ | ⟨k, _, _, g3, _, g5, g6⟩
  · exact Or.inl ⟨g1, g2⟩
  · obtain ⟨b1, b2, b3, b4⟩ := smooth_bounds hw hlen (t := k)
    have c1 := percent_bounds b1 b2 g3
    have c2 := percent_bounds b3 b4 g3
    exact Or.inr ⟨_, _, g5, g6, c1.1, c1.2, c2.1, c2.2⟩

/-- **C56.** On well-formed bars the ADX is missing exactly until the directional lines have been present for `sig` ticks; from then
on it is NaN exactly if on some earlier (or this) tick both directional lines were 0 (with `sig = 1`: on this tick), and otherwise a
number in [0, 100]. -/
theorem C56_adx (hb : ExBars d N o h l c v) (hw : WellFormed o h l c) {len sig : Nat} (hlen : 1 ≤ len) (hsig : 1 ≤ sig) :
    ∃ y : Nat → DmiData (Ex K), Runs (noInput fun t => Dmi.next ⟨d, t⟩) (Dmi.new len sig) unit N y ∧
      ∀ t, t < N →
        ((y t).adx = none ∧ (t + 1 < sig ∨ (y (t + 1 - sig)).plus = none)) ∨
        (sig ≤ t + 1 ∧ (y (t + 1 - sig)).plus ≠ none ∧
          (((y t).adx = some (Ext.nan : Ext K) ∧ BothZero sig y t) ∨
          ∃ a, (y t).adx = some (fin a) ∧ 0 ≤ a ∧ a ≤ 100 ∧ ¬ BothZero sig y t)) := by
  obtain ⟨y, h1, _, h2⟩ := dmi_main hb hw hlen hsig
  exact ⟨y, h1, h2⟩

/-- **C56.** NaN is permanent: with `sig >= 2`, once both directional lines have been 0 on a tick, every later ADX that is present
is NaN. -/
theorem C56_nan_forever (hb : ExBars d N o h l c v) (hw : WellFormed o h l c) {len sig : Nat} (hlen : 1 ≤ len) (hsig : 2 ≤ sig) :
    ∃ y : Nat → DmiData (Ex K), Runs (noInput fun t => Dmi.next ⟨d, t⟩) (Dmi.new len sig) unit N y ∧
      ∀ s t, s ≤ t → t < N → (y s).plus = some (fin 0) → (y s).minus = some (fin 0) →
        (y t).adx = none ∨ (y t).adx = some (Ext.nan : Ext K) := by
  obtain ⟨y, h1, _, h2⟩ := dmi_main hb hw hlen (by omega : 1 ≤ sig)
  refine ⟨y, h1, fun s t hst ht hp hm => ?_⟩
  rcases h2 t ht with ⟨g1, _⟩ | ⟨_, _, ⟨g1, _⟩ | ⟨a, _, _, _, g4⟩⟩
  · exact Or.inl g1
  · exact Or.inr g1
  · exact absurd ⟨s, hst, fun h => by omega, hp, hm⟩ g4

/-- **C56.** If one of the bars 1 to `len` (`len >= 2`) has a directional movement, the ADX is missing before tick `len + sig - 1` and
a number in [0, 100] from then on. -/
theorem C56_number (hb : ExBars d N o h l c v) (hw : WellFormed o h l c) {len sig : Nat} (hlen : 2 ≤ len) (hsig : 1 ≤ sig)
    (hmove : ∃ k, 1 ≤ k ∧ k ≤ len ∧ (plusMove h l k ≠ 0 ∨ minusMove h l k ≠ 0)) :
    ∃ y : Nat → DmiData (Ex K), Runs (noInput fun t => Dmi.next ⟨d, t⟩) (Dmi.new len sig) unit N y ∧
      ∀ t, t < N → (t + 1 < len + sig → (y t).adx = none) ∧
        (len + sig ≤ t + 1 → ∃ a, (y t).adx = some (fin a) ∧ 0 ≤ a ∧ a ≤ 100) := by
  have hlen1 : 1 ≤ len := by omega
  obtain ⟨y, h1, h2, h3⟩ := dmi_main hb hw hlen1 hsig
  have hpos : ∀ t, 0 < smoothPlus len h l t + smoothMinus len h l t ∧ smoothRange len h l c t ≠ 0 := by
    intro t
    obtain ⟨b1, b2, b3, b4⟩ := smooth_bounds hw hlen1 (t := t)
    obtain ⟨k, k1, k2, hk⟩ := hmove
    have : 0 < smoothPlus len h l t ∨ 0 < smoothMinus len h l t := by
      rcases hk with hk | hk
      · left
        refine runningMean_pos hlen (fun _ hj => (plusMove_bounds hw hj).1) (i := k - 1) (by omega) ?_ _
        rw [show 1 + (k - 1) = k by omega]
        exact lt_of_le_of_ne (plusMove_bounds hw k1).1 (Ne.symm hk)
      · right
        refine runningMean_pos hlen (fun _ hj => (minusMove_bounds hw hj).1) (i := k - 1) (by omega) ?_ _
        rw [show 1 + (k - 1) = k by omega]
        exact lt_of_le_of_ne (minusMove_bounds hw k1).1 (Ne.symm hk)
    constructor
    · rcases this with g | g <;> linarith
    · intro he
      rcases this with g | g <;> linarith
  have hnz : ∀ t, t < N → ¬ BothZero sig y t := by
    rintro t ht ⟨s, hs, _, g1, g2⟩
    rcases h2 s (by omega) with ⟨g3, _⟩ | ⟨k, _, _, k3, _, k5, k6⟩
    · rw [g3] at g1; simp at g1
    · rw [g1] at k5; rw [g2] at k6
      simp only [Option.some.injEq, fin_inj] at k5 k6
      have := (hpos k).1
      have e1 : smoothPlus len h l k = 0 := by
        rcases mul_eq_zero.mp k5.symm with h | h
        · exact (div_eq_zero_iff.mp h).resolve_right k3
        · norm_num at h
      have e2 : smoothMinus len h l k = 0 := by
        rcases mul_eq_zero.mp k6.symm with h | h
        · exact (div_eq_zero_iff.mp h).resolve_right k3
        · norm_num at h
      rw [e1, e2] at this; simp at this
  have hplus : ∀ t, t < N → ((y t).plus = none ↔ t < len) := by
    intro t ht
    rcases h2 t ht with ⟨g1, _, g3⟩ | ⟨k, k1, k2, _, _, k5, _⟩
    · refine ⟨fun _ => ?_, fun _ => g1⟩
      by_contra hc
      exact (hpos t).2 (g3 t (by omega) (le_refl _))
    · refine ⟨fun hn => ?_, fun hl => by omega⟩
      rw [k5] at hn; simp at hn
  refine ⟨y, h1, fun t ht => ⟨fun hl => ?_, fun hl => ?_⟩⟩
  · rcases h3 t ht with ⟨g1, _⟩ | ⟨g1, g2, _⟩
    · exact g1
    · exact absurd ((hplus _ (by omega)).mpr (by omega)) g2
  · rcases h3 t ht with ⟨_, g2⟩ | ⟨_, _, ⟨_, g3⟩ | ⟨a, g3, g4, g5, _⟩⟩
    · rcases g2 with g2 | g2
      · omega
      · have := (hplus _ (by omega)).mp g2; omega
    · exact absurd g3 (hnz t ht)
    · exact ⟨a, g3, g4, g5⟩

/-- Two inside bars, then a steady rise: both lines are 0 on tick 2, and the ADX is NaN on all later ticks although the lines
recover. -/
example : outputs (noInput fun t => Dmi.next ⟨DataProvider.ofSeries 6 unit' (fun t => some (fin (([10, 9, 8, 12, 14, 16] : List ℚ).getD t 0)))
      (fun t => some (fin (([1, 2, 3, 3, 4, 5] : List ℚ).getD t 0))) (fun t => some (fin (([5, 5, 5, 11, 13, 15] : List ℚ).getD t 0)))
      unit', t⟩) unit 6 (Dmi.new 2 2)
    = .ok [⟨none, none, none⟩, ⟨none, none, none⟩, ⟨some (fin 0), some (fin 0), none⟩,
        ⟨some (fin (800 / 30)), some (fin 0), some (Ext.nan : Ext ℚ)⟩, ⟨some (fin (1600 / 70)), some (fin 0), some (Ext.nan : Ext ℚ)⟩,
        ⟨some (fin (3200 / 158)), some (fin 0), some (Ext.nan : Ext ℚ)⟩] := by decide +kernel

end Pace
