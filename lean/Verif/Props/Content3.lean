import Verif.Props.Content2
import Verif.Lemmas.NonNeg

/-!
# Ranges of the oscillators (C54), exact arithmetic on well-formed bars
-/

set_option linter.unusedSectionVars false

namespace Pace
open Spec
variable {K : Type} [Field K] [LinearOrder K] [IsStrictOrderedRing K] [RootOps K]
variable {d : DataProvider (Ex K)} {N : Nat} {o h l c v : Nat → K}

theorem Spec.WellFormed.range (hw : WellFormed o h l c) (t : Nat) : l t ≤ h t := (hw t).2.2.1.trans (hw t).2.2.2

theorem highest_complete {x : Nat → K} {len t : Nat} (hlen : 1 ≤ len) (hl : len ≤ t + 1) :
    ∃ m, Spec.highest (fun t => some (x t)) len t = some m ∧ ∀ k, t + 1 - len ≤ k → k ≤ t → x k ≤ m := by
  obtain ⟨m, hm⟩ := spec_highest_isSome (x := fun t => some (x t)) (k := t) hl (by omega) (le_refl _) rfl
  exact ⟨m, hm, fun k h1 h2 => (spec_highest_some hl hm).2 k (x k) h1 h2 rfl⟩

theorem lowest_complete {x : Nat → K} {len t : Nat} (hlen : 1 ≤ len) (hl : len ≤ t + 1) :
    ∃ m, Spec.lowest (fun t => some (x t)) len t = some m ∧ ∀ k, t + 1 - len ≤ k → k ≤ t → m ≤ x k := by
  obtain ⟨m, hm⟩ := spec_lowest_isSome (x := fun t => some (x t)) (k := t) hl (by omega) (le_refl _) rfl
  exact ⟨m, hm, fun k h1 h2 => (spec_lowest_some hl hm).2 k (x k) h1 h2 rfl⟩

theorem sum_win_le {f g : Nat → K} (hfg : ∀ t, f t ≤ g t) (n t : Nat) : (win f n t).sum ≤ (win g n t).sum := by
  unfold win
  exact List.sum_le_sum fun i _ => hfg _

theorem sum_win_nonneg {f : Nat → K} (hf : ∀ t, 0 ≤ f t) (n t : Nat) : 0 ≤ (win f n t).sum := by
  unfold win
  apply List.sum_nonneg
  intro a ha
  obtain ⟨i, _, rfl⟩ := List.mem_map.mp ha
  exact hf _

/-- **C54.** Donchian: from tick `len - 1` on all three are numbers with `lower ≤ basis ≤ upper`, and the bar lies between lower and
upper. -/
theorem C54_donchian (hb : ExBars d N o h l c v) (hw : WellFormed o h l c) {len : Nat} (hlen : 1 ≤ len) :
    ∃ y, Runs (noInput fun t => DonchianChannels.next ⟨d, t⟩) (DonchianChannels.new len) unit N y ∧ ∀ t, t < N → len ≤ t + 1 →
      ∃ u b w, y t = ⟨some (fin u), some (fin b), some (fin w)⟩ ∧ w ≤ b ∧ b ≤ u ∧ w ≤ l t ∧ h t ≤ u := by
  refine ⟨_, C53_donchian_exact hb hlen, fun t _ hl => ?_⟩
  obtain ⟨u, hu, hu'⟩ := highest_complete (x := h) hlen hl
  obtain ⟨w, hw1, hw'⟩ := lowest_complete (x := l) hlen hl
  have h1 := hu' t (by omega) (le_refl _)
  have h2 := hw' t (by omega) (le_refl _)
  have h3 := hw.range t
  refine ⟨u, (u + w) / 2, w, by rw [hu, hw1]; rfl, by linarith, by linarith, h2, h1⟩

/-- **C54.** Williams %R of the closes is in [-100, 0]. -/
theorem C54_williams (hb : ExBars d N o h l c v) (hw : WellFormed o h l c) {len : Nat} (hlen : 1 ≤ len) :
    ∃ y, Runs (fun t => WilliamsPercentRank.next ⟨d, t⟩) (WilliamsPercentRank.new len) (fun t => some (fin (c t))) N y ∧
      ∀ t, t < N → ∀ z, y t = some z → ∃ k, z = fin k ∧ -100 ≤ k ∧ k ≤ 0 := by
  refine ⟨_, C53_williams_exact hb hlen (fun t => some (c t)), fun t _ z hz => ?_⟩
  by_cases hl : len ≤ t + 1
  · obtain ⟨u, hu, hu'⟩ := highest_complete (x := h) hlen hl
    obtain ⟨w, hw1, hw'⟩ := lowest_complete (x := l) hlen hl
    have h1 := hu' t (by omega) (le_refl _)
    have h2 := hw' t (by omega) (le_refl _)
    have h3 := (hw t).2.2
    simp only [hu, hw1, opt3, Option.join_some] at hz
    split at hz
    · simp at hz
    · rename_i hne
      have hpos : 0 < u - w := by
        rcases lt_or_eq_of_le (show w ≤ u by linarith) with h | h
        · linarith
        · exact absurd h.symm hne
      refine ⟨_, (Option.some.inj hz).symm, ?_, ?_⟩
      · have : -1 ≤ (c t - u) / (u - w) := by rw [le_div_iff₀ hpos]; linarith
        linarith
      · have : (c t - u) / (u - w) ≤ 0 := div_nonpos_of_nonpos_of_nonneg (by linarith) hpos.le
        linarith
  · simp [Spec.highest, hl, opt3] at hz

/-- **C54.** Chande momentum oscillator of any source is in [-100, 100]. -/
theorem C54_cmo {len : Nat} (hlen : 2 ≤ len) (x : Nat → K) :
    ∃ y, Runs (fun t => ChandeMomentumOscillator.next ⟨d, t⟩) (ChandeMomentumOscillator.new len) (fun t => some (fin (x t))) N y ∧
      ∀ t, t < N → ∀ z, y t = some z → ∃ k, z = fin k ∧ -100 ≤ k ∧ k ≤ 100 := by
  refine ⟨_, C53_cmo_exact hlen x, fun t _ z hz => ?_⟩
  have hG := sum_win_nonneg (f := gain x) (fun t => le_max_right _ _) len t
  have hL := sum_win_nonneg (f := loss x) (fun t => le_max_right _ _) len t
  dsimp only at hz
  generalize (win (gain x) len t).sum = G at *
  generalize (win (loss x) len t).sum = L at *
  split at hz
  · simp at hz
  · split at hz
    · simp at hz
    · rename_i _ hne
      have hpos : 0 < G + L := lt_of_le_of_ne (by linarith) (Ne.symm hne)
      refine ⟨_, (Option.some.inj hz).symm, ?_, ?_⟩
      · rw [le_div_iff₀ hpos]; linarith
      · rw [div_le_iff₀ hpos]; linarith

/-- **C54.** Chaikin money flow is in [-1, 1] for non-negative volume. -/
theorem C54_cmf (hb : ExBars d N o h l c v) (hw : WellFormed o h l c) (hv : ∀ t, 0 ≤ v t) {len : Nat} (hlen : 1 ≤ len) :
    ∃ y, Runs (noInput fun t => ChaikinMoneyFlow.next ⟨d, t⟩) (ChaikinMoneyFlow.new len) unit N y ∧
      ∀ t, t < N → ∀ z, y t = some z → ∃ k, z = fin k ∧ -1 ≤ k ∧ k ≤ 1 := by
  refine ⟨_, C53_cmf_exact hb hlen, fun t _ z hz => ?_⟩
  have hq : ∀ t, -v t ≤ flowVolume h l c v t ∧ flowVolume h l c v t ≤ v t := by
    intro t
    unfold flowVolume
    have h0 := hv t
    split
    · exact ⟨by linarith, h0⟩
    · rename_i hne
      have hpos : 0 < h t - l t := by
        rcases lt_or_eq_of_le (hw.range t) with h | h
        · linarith
        · exact absurd h.symm hne
      have h1 := (hw t).2.2
      have a1 : -1 ≤ (2 * c t - l t - h t) / (h t - l t) := by rw [le_div_iff₀ hpos]; linarith
      have a2 : (2 * c t - l t - h t) / (h t - l t) ≤ 1 := by rw [div_le_iff₀ hpos]; linarith
      constructor <;> nlinarith
  have h1 := sum_win_le (fun t => (hq t).2) len t
  have h2 := sum_win_le (fun t => (hq t).1) len t
  have h3 : (win (fun t => -v t) len t).sum = -(win v len t).sum := by
    unfold win; induction List.range len with
    | nil => simp
    | cons a r ih => simp only [List.map_cons, List.sum_cons, ih]; ring
  have h4 := sum_win_nonneg hv len t
  rw [h3] at h2
  generalize (win (flowVolume h l c v) len t).sum = F at *
  generalize (win v len t).sum = V at *
  split at hz
  · simp at hz
  · split at hz
    · simp at hz
    · rename_i _ hne
      have hpos : 0 < V := lt_of_le_of_ne h4 (Ne.symm hne)
      refine ⟨_, (Option.some.inj hz).symm, ?_, ?_⟩
      · rw [le_div_iff₀ hpos]; linarith
      · rw [div_le_iff₀ hpos]; linarith

theorem sym4_le {x y : Nat → K} (h : ∀ t, x t ≤ y t) (t : Nat) : sym4 x t ≤ sym4 y t := by
  unfold sym4
  have h1 := h (t - 3); have h2 := h (t - 2); have h3 := h (t - 1); have h4 := h t
  rw [div_le_div_iff_of_pos_right (by norm_num)]
  linarith

theorem sum_win_neg (f : Nat → K) (n t : Nat) : (win (fun t => -f t) n t).sum = -(win f n t).sum := by
  unfold win; induction List.range n with
  | nil => simp
  | cons a r ih => simp only [List.map_cons, List.sum_cons, ih]; ring

/-- **C54.** Relative vigor index: both the line and its signal are in [-1, 1]. -/
theorem C54_relative_vigor (hb : ExBars d N o h l c v) (hw : WellFormed o h l c) {len : Nat} (hlen : 1 ≤ len) :
    ∃ y z : Nat → Option K, Runs (noInput fun t => RelativeVigorIndex.next ⟨d, t⟩) (RelativeVigorIndex.new len) unit N
        (fun t => (flo y t, flo z t)) ∧
      (∀ t k, y t = some k → -1 ≤ k ∧ k ≤ 1) ∧ ∀ t k, z t = some k → -1 ≤ k ∧ k ≤ 1 := by
  have hy : ∀ t k, vigor o h l c len t = some k → -1 ≤ k ∧ k ≤ 1 := by
    intro t k hk
    unfold vigor at hk
    split at hk
    · cases hk
    · rename_i hne
      rw [not_or] at hne
      cases hk
      have h1 := sum_win_le (sym4_le (x := fun t => c t - o t) (y := fun t => h t - l t) fun t => by
        have := hw t; show c t - o t ≤ h t - l t; linarith) len t
      have h2 := sum_win_le (sym4_le (x := fun t => -(h t - l t)) (y := fun t => c t - o t) fun t => by
        have := hw t; show -(h t - l t) ≤ c t - o t; linarith) len t
      have e : sym4 (fun t => -(h t - l t)) = fun t => -sym4 (fun t => h t - l t) t := by
        funext t; unfold sym4; ring
      rw [e, sum_win_neg] at h2
      have h3 := hne.2
      generalize (win (sym4 fun t => c t - o t) len t).sum = A at *
      generalize (win (sym4 fun t => h t - l t) len t).sum = B at *
      have hB : 0 < B := lt_of_le_of_ne (by linarith) (Ne.symm h3)
      exact ⟨by rw [le_div_iff₀ hB]; linarith, by rw [div_le_iff₀ hB]; linarith⟩
  refine ⟨_, fun t => (fullWindow (vigor o h l c len) 4 t).map fun w =>
    (w.getD 0 0 + 2 * w.getD 1 0 + 2 * w.getD 2 0 + w.getD 3 0) / 6, (C53_relative_vigor_exact hb hlen).congr fun t _ => ?_, hy,
    fun t k hk => ?_⟩
  · simp [flo, Function.comp_def]
  · obtain ⟨w, hw1, hw2⟩ := Option.map_eq_some_iff.mp hk
    unfold fullWindow at hw1
    split at hw1
    · rename_i h4
      rw [allSome_eq_some] at hw1
      have hr : ∀ a ∈ w, -1 ≤ a ∧ a ≤ 1 := by
        intro a ha
        have : some a ∈ win (vigor o h l c len) 4 t := by rw [hw1]; exact List.mem_map_of_mem ha
        obtain ⟨i, _, hi⟩ := List.mem_map.mp this
        exact hy _ _ hi
      have hl4 : w.length = 4 := by
        have := congrArg List.length hw1
        simpa [win] using this.symm
      obtain ⟨a, b, e, f, rfl⟩ : ∃ a b e f, w = [a, b, e, f] := by
        match w, hl4 with
        | [a, b, e, f], _ => exact ⟨a, b, e, f, rfl⟩
      have g1 := hr a (by simp); have g2 := hr b (by simp); have g3 := hr e (by simp); have g4 := hr f (by simp)
      rw [← hw2]
      simp only [List.getD_cons_zero, List.getD_cons_succ]
      exact ⟨by rw [le_div_iff₀ (by norm_num)]; linarith, by rw [div_le_iff₀ (by norm_num)]; linarith⟩
    · cases hw1

/-- **C54.** Balance of power is in [-1, 1]. -/
theorem C54_balance_of_power (hb : ExBars d N o h l c v) (hw : WellFormed o h l c) {t : Nat} (ht : t < N) :
    BalanceOfPower.next ⟨d, t⟩ = .ok (if h t = l t then none else some (fin ((c t - o t) / (h t - l t)))) ∧
    (h t ≠ l t → -1 ≤ (c t - o t) / (h t - l t) ∧ (c t - o t) / (h t - l t) ≤ 1) := by
  constructor
  · rw [C53_balance_of_power d hb.open_ hb.high hb.low hb.close ht]
    congr 1
    simp only [opt4, fin_feq, fin_sub, Option.join_some, decide_eq_true_eq]
    split
    · rfl
    · rename_i hne; rw [fin_div _ _ (sub_ne_zero.mpr hne)]
  · intro hne
    obtain ⟨h1, h2, h3, h4⟩ := hw t
    have hpos : 0 < h t - l t := by
      rcases lt_or_eq_of_le (hw.range t) with h | h
      · linarith
      · exact absurd h.symm hne
    constructor
    · rw [le_div_iff₀ hpos]; linarith
    · rw [div_le_iff₀ hpos]; linarith

/-- **C54.** Ultimate oscillator is in [0, 100]. -/
theorem C54_ultimate_oscillator (hb : ExBars d N o h l c v) (hw : WellFormed o h l c) {n1 n2 n3 : Nat} (h1 : 1 ≤ n1) (h2 : 1 ≤ n2)
    (h3 : 1 ≤ n3) :
    ∃ y, Runs (noInput fun t => UltimateOscillator.next ⟨d, t⟩) (UltimateOscillator.new n1 n2 n3) unit N y ∧
      ∀ t, t < N → ∀ z, y t = some z → ∃ k, z = fin k ∧ 0 ≤ k ∧ k ≤ 100 := by
  refine ⟨_, C53_ultimate_oscillator_exact hb h1 h2 h3, fun t _ z hz => ?_⟩
  dsimp only at hz
  split at hz
  · simp at hz
  · rename_i hne
    push Not at hne
    have key : ∀ n, (win (trueSpread h l c) n t).sum ≠ 0 →
        0 ≤ (win (buyingPressure l c) n t).sum / (win (trueSpread h l c) n t).sum ∧
        (win (buyingPressure l c) n t).sum / (win (trueSpread h l c) n t).sum ≤ 1 := by
      intro n hn
      have a0 : ∀ t, 0 ≤ buyingPressure l c t := fun t => by
        have := (hw t).2.2.1; unfold buyingPressure; linarith [min_le_left (l t) (c (t - 1))]
      have a1 : ∀ t, buyingPressure l c t ≤ trueSpread h l c t := fun t => by
        have := (hw t).2.2.2; unfold buyingPressure trueSpread; linarith [le_max_left (h t) (c (t - 1))]
      have b0 := sum_win_nonneg a0 n t
      have b1 := sum_win_le a1 n t
      have hpos : 0 < (win (trueSpread h l c) n t).sum := lt_of_le_of_ne (b0.trans b1) (Ne.symm hn)
      exact ⟨div_nonneg b0 hpos.le, by rw [div_le_one hpos]; exact b1⟩
    have k1 := key n1 hne.2.2.2.1
    have k2 := key n2 hne.2.2.2.2.1
    have k3 := key n3 hne.2.2.2.2.2
    refine ⟨_, (Option.some.inj hz).symm, ?_, ?_⟩
    · apply div_nonneg _ (by norm_num); linarith
    · rw [div_le_iff₀ (by norm_num)]; linarith

/-- **C54.** Both vortex lines are non-negative. -/
theorem C54_vortex (hb : ExBars d N o h l c v) (hw : WellFormed o h l c) {len : Nat} (hlen : 1 ≤ len) :
    ∃ y, Runs (noInput fun t => Vortex.next ⟨d, t⟩) (Vortex.new len) unit N y ∧
      ∀ t, t < N → ∀ z, ((y t).1 = some z ∨ (y t).2 = some z) → ∃ k, z = fin k ∧ 0 ≤ k := by
  refine ⟨_, C53_vortex_exact hb hlen, fun t _ z hz => ?_⟩
  have hr : ∀ t, 0 ≤ barRange h l c t := by
    intro t
    cases t with
    | zero => simp only [barRange]; linarith [hw.range 0]
    | succ t => exact (abs_nonneg _).trans (le_max_right _ _)
  have h0 := sum_win_nonneg hr len t
  have h1 := sum_win_nonneg (f := fun t => |h t - l (t - 1)|) (fun t => abs_nonneg _) len t
  have h2 := sum_win_nonneg (f := fun t => |l t - h (t - 1)|) (fun t => abs_nonneg _) len t
  split at hz
  · simp at hz
  · rcases hz with hz | hz
    · exact ⟨_, (Option.some.inj hz).symm, div_nonneg h1 h0⟩
    · exact ⟨_, (Option.some.inj hz).symm, div_nonneg h2 h0⟩

/-- **C54.** Aroon: from tick `len - 1` on both lines are numbers in [100/len, 100]; the up line is 100 exactly when the current
high exceeds all other highs of the window. -/
theorem C54_aroon (hb : ExBars d N o h l c v) {len : Nat} (hlen : 1 ≤ len) :
    ∃ y, Runs (noInput fun t => Aroon.next ⟨d, t⟩) (Aroon.new len) unit N y ∧ ∀ t, t < N →
      (t + 1 < len → y t = (none, none)) ∧ (len ≤ t + 1 → ∃ u w, y t = (some (fin u), some (fin w)) ∧
        100 / (len : K) ≤ u ∧ u ≤ 100 ∧ 100 / (len : K) ≤ w ∧ w ≤ 100 ∧
        (u = 100 ↔ ∀ j, 0 < j → j < len → h (t - j) < h t) ∧
        (w = 100 ↔ ∀ j, 0 < j → j < len → l t < l (t - j))) := by
  obtain ⟨yh, hh, hh'⟩ := C31_highest_bars _ d hlen hb.high (by intro t _ e; exact fin_ne_nan (h t) (Option.some.inj e))
  obtain ⟨yl, hl, hl'⟩ := C31_lowest_bars _ d hlen hb.low (by intro t _ e; exact fin_ne_nan (l t) (Option.some.inj e))
  refine ⟨_, C53_aroon d hlen hb.high hb.low hh hl, fun t ht => ⟨fun h1 => ?_, fun h1 => ?_⟩⟩
  · rw [(hh' t ht).1 h1, (hl' t ht).1 h1]; rfl
  · obtain ⟨a, ha, ea, sa⟩ := (hh' t ht).2 h1
    obtain ⟨b, hb', eb, sb⟩ := (hl' t ht).2 h1
    rcases sa with ⟨_, sa⟩ | ⟨m, sa, sa'⟩
    · exact absurd (sa 0 (by omega)) (by simp)
    rcases sb with ⟨_, sb⟩ | ⟨m', sb, sb'⟩
    · exact absurd (sb 0 (by omega)) (by simp)
    have hl0 : (0 : K) < len := by exact_mod_cast (by omega : 0 < len)
    have val : ∀ q : Nat, q < len → (lit ((-(q : Int) : Int) : ℚ) + lit (len : ℚ)) / lit (len : ℚ) * lit 100
        = (fin (100 * ((len : K) - q) / len) : Ex K) := by
      intro q hq
      simp only [fin_lit, fin_add]
      push_cast
      rw [fin_div _ _ hl0.ne', fin_mul]
      congr 1
      field_simp
      ring
    have rng : ∀ q : Nat, q < len → 100 / (len : K) ≤ 100 * ((len : K) - q) / len ∧ 100 * ((len : K) - q) / len ≤ 100 ∧
        (100 * ((len : K) - q) / len = 100 ↔ q = 0) := by
      intro q hq
      have h1 : ((q : K) + 1) ≤ len := by exact_mod_cast hq
      have h2 : (0 : K) ≤ q := Nat.cast_nonneg q
      refine ⟨?_, ?_, ?_⟩
      · exact div_le_div_of_nonneg_right (by linarith) hl0.le
      · rw [div_le_iff₀ hl0]; linarith
      · rw [div_eq_iff hl0.ne']
        constructor
        · intro e; have : (q : K) = 0 := by linarith
          exact_mod_cast this
        · rintro rfl; simp
    cases sa; cases sb
    refine ⟨100 * ((len : K) - a) / len, 100 * ((len : K) - b) / len, ?_, (rng a ha).1, (rng a ha).2.1, (rng b hb').1,
      (rng b hb').2.1, (rng a ha).2.2.trans ?_, (rng b hb').2.2.trans ?_⟩
    · rw [ea, eb]; exact Prod.ext (congrArg some (val a ha)) (congrArg some (val b hb'))
    · constructor
      · rintro rfl j hj1 hj2
        have := (sa' j _ hj2 rfl).2 hj1
        simpa using this
      · intro hall
        by_contra hne
        have h2 := (sa' 0 _ (by omega) rfl).1
        have h3 := hall a (by omega) ha
        simp at h2
        exact absurd h2 (not_le.mpr h3)
    · constructor
      · rintro rfl j hj1 hj2
        have := (sb' j _ hj2 rfl).2 hj1
        simpa using this
      · intro hall
        by_contra hne
        have h2 := (sb' 0 _ (by omega) rfl).1
        have h3 := hall b (by omega) hb'
        simp at h2
        exact absurd h2 (not_le.mpr h3)

end Pace
