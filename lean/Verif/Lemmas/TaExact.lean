import Verif.Lemmas.TaRuns2
import Verif.Lemmas.Stats
import Verif.Spec.Ta
import Mathlib.Algebra.BigOperators.Ring.List

/-!
# Exact arithmetic: the series of the ta components are the textbook ones
-/

set_option linter.unusedSectionVars false

namespace Pace
open Spec
variable {K : Type} [Field K] [LinearOrder K] [IsStrictOrderedRing K] [RootOps K]

theorem ago_map {β γ : Type} (f : β → γ) (x : Nat → Option β) (n t : Nat) :
    ago (fun t => (x t).map f) n t = (ago x n t).map f := by
  unfold ago; split <;> rfl

theorem fullWindow_length {β : Type} {x : Nat → Option β} {len t : Nat} {v : List β}
    (h : fullWindow x len t = some v) : v.length = len ∧ len ≤ t + 1 := by
  unfold fullWindow at h
  split at h
  · rename_i hl
    have := congrArg List.length (allSome_eq_some.mp h)
    simp at this
    exact ⟨this.symm, hl⟩
  · simp at h

theorem fullWindow_isSome {β : Type} {x : Nat → Option β} {len t : Nat} :
    (fullWindow x len t).isSome ↔ len ≤ t + 1 ∧ WindowPresent x len t := by
  unfold fullWindow
  by_cases h : len ≤ t + 1
  · rw [if_pos h, allSome_isSome, and_iff_right h]
    constructor
    · intro hw k hk1 hk2
      exact hw _ ((mem_win h).mpr ⟨k, by omega, hk1, rfl⟩)
    · intro hw o ho
      obtain ⟨k, h1, h2, rfl⟩ := (mem_win h).mp ho
      exact hw k h2 (by omega)
  · simp [h]

theorem fullWindow_map {β γ : Type} (f : β → γ) (x : Nat → Option β) (len t : Nat) :
    fullWindow (fun t => (x t).map f) len t = (fullWindow x len t).map (List.map f) := by
  unfold fullWindow
  split
  · rw [← win_map, allSome_map]
  · rfl

theorem fullWindow_eq_win {β : Type} {x : Nat → Option β} {len t : Nat} {v : List β}
    (h : fullWindow x len t = some v) : win x len t = v.map some := by
  unfold fullWindow at h
  split at h
  · exact allSome_eq_some.mp h
  · simp at h

/-- The running sum in exact arithmetic: the sum of the present values among the last `len - 1` before tick `t`. -/
theorem acc0_exact (len : Nat) (x : Nat → Option K) (t : Nat) :
    acc0 len (flo x) t = fin ((hist (fun k => (x k).getD 0) t).drop (t - (len - 1))).sum := by
  induction t with
  | zero => simp [acc0]
  | succ t ih =>
    rw [acc0, ih, ago_map]
    have hadd : ∀ (s : K) (o : Option K), addOpt (fin s : Ex K) (o.map fin) = fin (s + o.getD 0) := by
      intro s o; cases o <;> simp [addOpt]
    have hsub : ∀ (s : K) (o : Option K), subOpt (fin s : Ex K) (o.map fin) = fin (s - o.getD 0) := by
      intro s o; cases o <;> simp [subOpt]
    rw [hadd, hsub, hist_succ']
    congr 1
    by_cases hl : len - 1 ≤ t
    · have e1 : t + 1 - (len - 1) = (t - (len - 1)) + 1 := by omega
      rw [e1]
      have hlen : (hist (fun k => (x k).getD 0) t ++ [(x t).getD 0]).length = t + 1 := by simp
      have h2 := List.drop_eq_getElem_cons (l := hist (fun k => (x k).getD 0) t ++ [(x t).getD 0])
        (i := t - (len - 1)) (by rw [hlen]; omega)
      have h3 : (hist (fun k => (x k).getD 0) t ++ [(x t).getD 0])[t - (len - 1)]'(by rw [hlen]; omega)
          = (x (t - (len - 1))).getD 0 := by
        have := hist_getElem? (fun k => (x k).getD 0) (t + 1) (t - (len - 1))
        rw [if_pos (by omega), hist_succ'] at this
        exact (List.getElem?_eq_some_iff.mp this).2
      rw [h3] at h2
      have h4 := congrArg List.sum h2
      rw [List.drop_append_of_le_length (by simp), List.sum_append, List.sum_singleton, List.sum_cons] at h4
      rw [show ago x (len - 1) t = x (t - (len - 1)) by simp [ago, hl]]
      rw [h4]; ring
    · rw [show t - (len - 1) = 0 by omega, show t + 1 - (len - 1) = 0 by omega]
      simp [ago, hl]

theorem rawSum0_exact {len t : Nat} (h1 : 1 ≤ len) {x : Nat → Option K} {v : List K}
    (h : fullWindow x len t = some v) : rawSum0 len (flo x) t = fin v.sum := by
  obtain ⟨hv, hl⟩ := fullWindow_length h
  have hw := fullWindow_eq_win h
  have hw' : win (fun k => (x k).getD 0) len t = v := by
    rw [← win_map (fun o : Option K => o.getD 0), hw]; simp
  have hx : addOpt (acc0 len (flo x) t) (flo x t)
      = fin (((hist (fun k => (x k).getD 0) t).drop (t - (len - 1))).sum + (x t).getD 0) := by
    rw [acc0_exact]
    show addOpt _ ((x t).map fin) = _
    cases x t <;> simp [addOpt]
  rw [rawSum0, hx]
  congr 1
  rw [← hw', win_eq_drop _ hl, hist_succ', List.drop_append_of_le_length (by simp; omega), List.sum_append]
  rw [show t + 1 - len = t - (len - 1) by omega]; simp

theorem fullWindow_isNone {β : Type} {x : Nat → Option β} {len t : Nat}
    (h : ¬ (len ≤ t + 1 ∧ WindowPresent x len t)) : fullWindow x len t = none := by
  rw [← fullWindow_isSome] at h
  simpa using h

theorem windowPresent_flo {x : Nat → Option K} {len t : Nat} :
    WindowPresent (flo x) len t ↔ WindowPresent x len t := by
  unfold WindowPresent
  constructor
  · intro h k h1 h2
    have := h k h1 h2
    cases hx : x k with
    | none => simp [flo, hx] at this
    | some _ => rfl
  · intro h k h1 h2; simp [h k h1 h2]

theorem sma0_exact {len : Nat} (h1 : 1 ≤ len) (x : Nat → Option K) (t : Nat) :
    sma0 len (flo x) t = (fullWindow x len t).map fun v => fin (mean v) := by
  unfold sma0
  by_cases hl : len = 1
  · subst hl
    simp only [if_true]
    cases hx : x t with
    | none => simp [fullWindow, win, hx]
    | some v => simp [fullWindow, win, hx, mean]
  · rw [if_neg hl]
    by_cases hp : len ≤ t + 1 ∧ WindowPresent x len t
    · rw [if_pos (by rw [windowPresent_flo]; exact hp)]
      obtain ⟨v, hv⟩ := Option.isSome_iff_exists.mp (fullWindow_isSome.mpr hp)
      obtain ⟨hvl, _⟩ := fullWindow_length hv
      rw [hv, rawSum0_exact h1 hv, fin_lit_nat, fin_div _ _ (by positivity)]
      simp [mean, hvl]
    · rw [if_neg (by rw [windowPresent_flo]; exact hp), fullWindow_isNone hp]; rfl

theorem sum0_exact {len : Nat} (h1 : 1 ≤ len) (x : Nat → Option K) (t : Nat) :
    sum0 len (flo x) t = (fullWindow x len t).map fun v => fin v.sum := by
  unfold sum0
  by_cases hp : len ≤ t + 1 ∧ WindowPresent x len t
  · rw [if_pos (by rw [windowPresent_flo]; exact hp)]
    obtain ⟨v, hv⟩ := Option.isSome_iff_exists.mp (fullWindow_isSome.mpr hp)
    rw [hv, rawSum0_exact h1 hv]; rfl
  · rw [if_neg (by rw [windowPresent_flo]; exact hp), fullWindow_isNone hp]; rfl

/-! ## Ema -/

theorem smoothed_zero (a m : K) (u : Nat → K) : smoothed a m u 0 = m := by simp [smoothed]

theorem smoothed_succ (a m : K) (u : Nat → K) (n : Nat) :
    smoothed a m u (n + 1) = a * u n + (1 - a) * smoothed a m u n := by
  unfold smoothed
  rw [List.range_succ, List.map_append, List.sum_append]
  have : (List.map (fun i => a * (1 - a) ^ (n + 1 - 1 - i) * u i) (List.range n)).sum
      = (1 - a) * (List.map (fun i => a * (1 - a) ^ (n - 1 - i) * u i) (List.range n)).sum := by
    rw [← List.sum_map_mul_left]
    congr 1
    apply List.map_congr_left
    intro i hi
    have hi := List.mem_range.mp hi
    rw [show n + 1 - 1 - i = (n - 1 - i) + 1 by omega]; ring
  rw [this]
  simp
  ring

theorem ema0_before {α : Type} [F64 α] {len : Nat} (h1 : len ≠ 1) {alpha : α} {x : Nat → Option α} {t : Nat}
    (h : ∀ r, r ≤ t → sma0 len x r = none) : ema0 len alpha x t = none := by
  induction t with
  | zero => exact h 0 (le_refl _)
  | succ t ih =>
    rw [ema0, if_neg h1, ih (fun r hr => h r (by omega))]
    exact h (t + 1) (le_refl _)

/-- The Ema in closed form, counted from the seed tick. -/
theorem ema0_exact {len : Nat} (h1 : 2 ≤ len) (a : K) {x : Nat → Option K} {s : Nat} {v : List K}
    (hs : FirstFull len x s) (hv : fullWindow x len s = some v) (u : Nat → K) (n : Nat)
    (hu : ∀ i, i < n → x (s + 1 + i) = some (u i)) :
    ema0 len (fin a) (flo x) (s + n) = some (fin (smoothed a (mean v) u n)) := by
  have hne : len ≠ 1 := by omega
  induction n with
  | zero =>
    rw [smoothed_zero, Nat.add_zero]
    have hsm : sma0 len (flo x) s = some (fin (mean v)) := by rw [sma0_exact (by omega), hv]; rfl
    cases s with
    | zero => exact hsm
    | succ s =>
      rw [ema0, if_neg hne, ema0_before hne (fun r hr => by
        rw [sma0_exact (by omega), hs.2 r (by omega)]; rfl)]
      exact hsm
  | succ n ih =>
    rw [← Nat.add_assoc, ema0, if_neg hne, ih (fun i hi => hu i (by omega)), smoothed_succ]
    have := hu n (by omega)
    rw [show s + 1 + n = s + n + 1 by omega] at this
    show ((x (s + n + 1)).map fin).map _ = _
    rw [this]
    simp

theorem ema0_exact_before {len : Nat} (h1 : 2 ≤ len) (a : Ex K) {x : Nat → Option K} {t : Nat}
    (h : ∀ r, r ≤ t → fullWindow x len r = none) : ema0 len a (flo x) t = none :=
  ema0_before (by omega) fun r hr => by rw [sma0_exact (by omega), h r hr]; rfl

/-- Smoothing with a factor in [0,1] stays between bounds of its inputs. -/
theorem smoothed_bounds {a m lo hi : K} {u : Nat → K} {n : Nat} (ha0 : 0 ≤ a) (ha1 : a ≤ 1)
    (hm : lo ≤ m ∧ m ≤ hi) (hu : ∀ i, i < n → lo ≤ u i ∧ u i ≤ hi) :
    lo ≤ smoothed a m u n ∧ smoothed a m u n ≤ hi := by
  induction n with
  | zero => rw [smoothed_zero]; exact hm
  | succ n ih =>
    obtain ⟨h1, h2⟩ := ih (fun i hi => hu i (by omega))
    obtain ⟨h3, h4⟩ := hu n (by omega)
    rw [smoothed_succ]
    have hb : 0 ≤ 1 - a := by linarith
    constructor
    · nlinarith [mul_le_mul_of_nonneg_left h3 ha0, mul_le_mul_of_nonneg_left h1 hb]
    · nlinarith [mul_le_mul_of_nonneg_left h4 ha0, mul_le_mul_of_nonneg_left h2 hb]

theorem emaAlpha_exact {len : Nat} : (emaAlpha len : Ex K) = fin (2 / ((len : K) + 1)) := by
  have h : ((len : K) + 1) ≠ 0 := by positivity
  rw [emaAlpha, fin_lit_nat, fin_lit, fin_lit, fin_add, Rat.cast_one, Rat.cast_ofNat, fin_div _ _ h]
theorem rmaAlpha_exact {len : Nat} (h : 1 ≤ len) : (rmaAlpha len : Ex K) = fin (1 / (len : K)) := by
  rw [rmaAlpha, fin_lit_nat, fin_lit, Rat.cast_one, fin_div _ _ (by positivity)]

theorem mean_bounds {v : List K} (hv : v ≠ []) {lo hi : K} (h : ∀ w ∈ v, lo ≤ w ∧ w ≤ hi) :
    lo ≤ mean v ∧ mean v ≤ hi := by
  have hl : (0 : K) < v.length := by
    have := List.length_pos_iff.mpr hv; exact_mod_cast this
  have h1 : ∀ l : List K, (∀ w ∈ l, lo ≤ w ∧ w ≤ hi) → lo * l.length ≤ l.sum ∧ l.sum ≤ hi * l.length := by
    intro l
    induction l with
    | nil => simp
    | cons a l ih =>
      intro h
      obtain ⟨i1, i2⟩ := ih (fun w hw => h w (List.mem_cons_of_mem _ hw))
      obtain ⟨j1, j2⟩ := h a (List.mem_cons_self ..)
      simp only [List.sum_cons, List.length_cons]; push_cast
      constructor <;> linarith
  obtain ⟨i1, i2⟩ := h1 v h
  unfold mean
  exact ⟨(le_div_iff₀ hl).mpr i1, (div_le_iff₀ hl).mpr i2⟩

end Pace
