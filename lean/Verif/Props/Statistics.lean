import Verif.Lemmas.Stats
import Verif.Lemmas.FindMax
import Verif.Lemmas.Real

/-!
# Properties of statistics (C13–C20)
-/

set_option linter.unusedSectionVars false

namespace Pace
open Spec

section exact
variable {K : Type} [Field K] [LinearOrder K] [IsStrictOrderedRing K] [RootOps K]

/-! ## C13 -/

/-- **C13.** For every input series, the output of `Mean` at tick `t` is the arithmetic mean of all inputs so far. -/
theorem C13_mean (x : Nat → K) (N : Nat) :
    Runs (total Mean.next) (.ok (Mean.new : Mean (Ex K))) (fun t => fin (x t)) N
      (fun t => fin ((hist x (t + 1)).sum / ((t : K) + 1))) := by
  apply Impl.runs (Inv := MeanInv x)
  refine ⟨⟨by simp [Mean.new], rfl⟩, fun t s _ h => ?_⟩
  obtain ⟨s', h1, h2⟩ := mean_step x t s h
  refine ⟨s', ?_, h2⟩
  simp only [total, h1, mean, hist_length]; push_cast; rfl

/-! ## C14 -/

private def VarInv (x : Nat → K) (t : Nat) (s : Var (Ex K)) : Prop :=
  s.fast = false ∧ s.inputCache.values = (hist x t).map fin ∧ MeanInv x t s.mean

private theorem var_step (x : Nat → K) (t : Nat) (s : Var (Ex K)) (h : VarInv x t s) :
    ∃ s', s.next (fin (x t)) = (fin (popVar (hist x (t + 1))), s') ∧ VarInv x (t + 1) s' := by
  obtain ⟨h1, h2, h3⟩ := h
  obtain ⟨m', hm1, hm2⟩ := mean_step x t s.mean h3
  have hne : hist x (t + 1) ≠ [] := by
    intro hc; have := congrArg List.length hc; simp at this
  have hc : s.inputCache.values ++ [fin (x t)] = (hist x (t + 1)).map fin := by
    rw [h2, hist_succ']; simp
  refine ⟨{ s with inputCache := ⟨(hist x (t + 1)).map fin⟩, mean := m' }, ?_, h1, rfl, hm2⟩
  simp only [Var.next, h1, Bool.false_eq_true, if_false, hm1, IncrementalCache.next, hc,
    IncrementalCache.all, varFromMean_fin hne]
  rfl

/-- **C14.** For every input series, `Var` in its default mode returns the population variance of the whole history. -/
theorem C14_var (x : Nat → K) (N : Nat) :
    Runs (total Var.next) (.ok (Var.build false : Var (Ex K))) (fun t => fin (x t)) N
      (fun t => fin (popVar (hist x (t + 1)))) := by
  apply Impl.runs (Inv := VarInv x)
  refine ⟨⟨rfl, rfl, by simp [Var.build, Mean.new], rfl⟩, fun t s _ h => ?_⟩
  obtain ⟨s', h1, h2⟩ := var_step x t s h
  exact ⟨s', by simp only [total, h1], h2⟩

/-- **C14.** ... and `Stdev` its square root. -/
theorem C14_stdev (x : Nat → K) (N : Nat) :
    Runs (total StatStdev.next) (.ok (StatStdev.build false : StatStdev (Ex K))) (fun t => fin (x t)) N
      (fun t => fin (RootOps.sqrt (popVar (hist x (t + 1))))) := by
  apply Impl.runs (Inv := fun t s => VarInv x t s.variance)
  refine ⟨⟨rfl, rfl, by simp [StatStdev.build, Var.build, Mean.new], rfl⟩, fun t s _ h => ?_⟩
  obtain ⟨s', h1, h2⟩ := var_step x t s.variance h
  refine ⟨⟨s'⟩, ?_, h2⟩
  simp only [total, StatStdev.next, h1, Stats.stdevFromVar, fin_sqrt _ (popVar_nonneg _)]

/-- **C14.** The whole-list functions agree with the definitions: mean, population variance, its square root (of a
non-empty list). -/
theorem C14_list_functions (l : List K) (h : l ≠ []) :
    Stats.mean (l.map (fin : K → Ex K)) = fin (mean l) ∧
    Stats.var (l.map (fin : K → Ex K)) = fin (popVar l) ∧
    Stats.stdev (l.map (fin : K → Ex K)) = fin (RootOps.sqrt (popVar l)) := by
  have hm : Stats.mean (l.map (fin : K → Ex K)) = fin (mean l) := by
    rw [Stats.mean, fsum_fin, List.length_map, fin_lit_nat, fin_div _ _ (length_ne_zero h)]; rfl
  have hv : Stats.var (l.map (fin : K → Ex K)) = fin (popVar l) := by
    rw [Stats.var, hm, varFromMean_fin h]; rfl
  refine ⟨hm, hv, ?_⟩
  rw [Stats.stdev, hv, Stats.stdevFromVar, fin_sqrt _ (popVar_nonneg _)]

/-- **C14.** The population variance is non-negative; it is zero exactly if all values equal the mean. -/
theorem C14_nonneg (l : List K) : 0 ≤ popVar l ∧ (popVar l = 0 ↔ ∀ v ∈ l, v = mean l) := by
  refine ⟨popVar_nonneg l, ?_⟩
  constructor
  · intro h v hv
    have hne : l ≠ [] := List.ne_nil_of_mem hv
    have h0 : sqDev l = 0 := by
      rcases div_eq_zero_iff.mp h with h | h
      · exact h
      · exact absurd h (length_ne_zero hne)
    have hall := List.all_zero_of_le_zero_le_of_sum_eq_zero (l := l.map fun v => (v - mean l) ^ 2)
      (by intro w hw; obtain ⟨u, _, rfl⟩ := List.mem_map.mp hw; positivity) h0
      (List.mem_map.mpr ⟨v, hv, rfl⟩)
    have := pow_eq_zero_iff (n := 2) (by norm_num) |>.mp hall
    linarith
  · intro h
    unfold popVar sqDev
    have : (l.map fun v => (v - mean l) ^ 2) = l.map fun _ => (0 : K) :=
      List.map_congr_left fun v hv => by rw [← h v hv]; simp
    rw [this]; simp

/-! ## C15 -/

/-- **C15.** For every input series, Welford's one-pass variance is 0 at the first tick and then exactly the two-pass
sample variance of all inputs so far. -/
theorem C15_welford (x : Nat → K) (N : Nat) :
    Runs (total WelfordsVar.next) (.ok (WelfordsVar.new : WelfordsVar (Ex K))) (fun t => fin (x t)) N
      (fun t => fin (if t = 0 then 0 else sampleVar (hist x (t + 1)))) := by
  apply Impl.runs (Inv := WelfordInv x)
  refine ⟨⟨rfl, 0, by simp [WelfordsVar.new], by simp, by simp [WelfordsVar.new]⟩, fun t s _ h => ?_⟩
  obtain ⟨s', h1, h2⟩ := welford_step x t s h
  exact ⟨s', by simp only [total, h1]; rfl, h2⟩

theorem sampleVar_nonneg (x : Nat → K) (t : Nat) : 0 ≤ sampleVar (hist x (t + 1)) := by
  apply div_nonneg (sqDev_nonneg _)
  rw [hist_length]; push_cast; linarith [Nat.cast_nonneg (α := K) t]

/-- **C15.** The standard deviation variant is its square root. -/
theorem C15_welford_stdev (x : Nat → K) (N : Nat) :
    Runs (total WelfordsStdev.next) (.ok (WelfordsStdev.new : WelfordsStdev (Ex K))) (fun t => fin (x t)) N
      (fun t => fin (RootOps.sqrt (if t = 0 then 0 else sampleVar (hist x (t + 1))))) := by
  apply Impl.runs (Inv := fun t s => WelfordInv x t s.variance)
  refine ⟨⟨rfl, 0, by simp [WelfordsStdev.new, WelfordsVar.new], by simp,
    by simp [WelfordsStdev.new, WelfordsVar.new]⟩, fun t s _ h => ?_⟩
  obtain ⟨s', h1, h2⟩ := welford_step x t s.variance h
  refine ⟨⟨s'⟩, ?_, h2⟩
  have hnn : 0 ≤ welfordOut x t := by
    unfold welfordOut; split
    · exact le_refl _
    · exact sampleVar_nonneg x t
  simp only [total, WelfordsStdev.next, h1, Stats.stdevFromVar, fin_sqrt _ hnn]
  rfl

/-! ## C16 -/

/-- `Var::fast` is Welford's algorithm. -/
theorem C16_fast_is_sample_variance (x : Nat → K) (N : Nat) :
    Runs (total Var.next) (.ok (Var.build true : Var (Ex K))) (fun t => fin (x t)) N
      (fun t => fin (if t = 0 then 0 else sampleVar (hist x (t + 1)))) := by
  apply Impl.runs (Inv := fun t s => s.fast = true ∧ WelfordInv x t s.welfordsVar)
  refine ⟨⟨rfl, rfl, 0, by simp [Var.build, WelfordsVar.new], by simp,
    by simp [Var.build, WelfordsVar.new]⟩, fun t s _ h => ?_⟩
  obtain ⟨s', h1, h2⟩ := welford_step x t s.welfordsVar h.2
  refine ⟨{ s with welfordsVar := s' }, ?_, h.1, h2⟩
  simp only [total, Var.next, h.1, if_true, h1]
  rfl

/-- **C16, the exact relation.** From the second tick on, (n-1)·fast = n·default: the two modes agree exactly if the
variance is zero. -/
theorem C16_relation (x : Nat → K) (t : Nat) (ht : 0 < t) :
    (t : K) * sampleVar (hist x (t + 1)) = ((t : K) + 1) * popVar (hist x (t + 1)) ∧
    (sampleVar (hist x (t + 1)) = popVar (hist x (t + 1)) ↔ popVar (hist x (t + 1)) = 0) := by
  have ht' : (t : K) ≠ 0 := Nat.cast_ne_zero.mpr ht.ne'
  have hn := natCast_succ_ne (K := K) t
  have rel : (t : K) * sampleVar (hist x (t + 1)) = ((t : K) + 1) * popVar (hist x (t + 1)) := by
    unfold sampleVar popVar
    rw [hist_length]; push_cast
    rw [add_sub_cancel_right, mul_div_cancel₀ _ ht', mul_div_cancel₀ _ hn]
  refine ⟨rel, ?_, ?_⟩
  · intro h
    rw [h] at rel
    linarith
  · intro h
    rw [h, mul_zero] at rel
    rcases mul_eq_zero.mp rel with h' | h'
    · exact absurd h' ht'
    · rw [h', h]
end exact

/-- **C16**, the modes differ: on the inputs 0, 2 the default mode gives 1 and the fast mode 2. -/
theorem C16_modes_differ :
    ∃ x : Nat → ℚ,
      outputs (total Var.next) (fun t => (fin (x t) : Ex ℚ)) 2 (.ok (Var.build false)) =
        .ok [fin 0, fin 1] ∧
      outputs (total Var.next) (fun t => (fin (x t) : Ex ℚ)) 2 (.ok (Var.build true)) =
        .ok [fin 0, fin 2] := by
  refine ⟨fun t => if t = 0 then 0 else 2, ?_, ?_⟩
  · rw [show outputs _ _ 2 _ = _ from C14_var _ 2]
    simp [List.range_succ, popVar, sqDev, mean, hist]; norm_num
  · rw [show outputs _ _ 2 _ = _ from C16_fast_is_sample_variance _ 2]
    simp [List.range_succ, sampleVar, sqDev, mean, hist]; norm_num

/-- With lawful square roots the standard deviation squared is the variance. -/
theorem C14_stdev_sq {K : Type} [Field K] [LinearOrder K] [IsStrictOrderedRing K] [LawfulRoots K]
    (l : List K) : RootOps.sqrt (popVar l) * RootOps.sqrt (popVar l) = popVar l ∧
      0 ≤ RootOps.sqrt (popVar l) :=
  ⟨LawfulRoots.sqrt_mul_self _ (popVar_nonneg l), LawfulRoots.sqrt_nonneg _⟩

/-- Such fields exist: the real numbers. -/
noncomputable example : LawfulRoots ℝ := inferInstance

/-! ## C17 -/

section find
variable {α : Type} [F64 α]

/-- **C17**, any float comparison: an empty array panics; otherwise the result is an index of the array, of a present
value if there is one, and the last index if there is none. -/
theorem C17_total (arr : List (Option α)) :
    (arr = [] → findMaxIndex arr = .error .assertFailed ∧ findMinIndex arr = .error .assertFailed) ∧
    (arr ≠ [] → ∃ i j, findMaxIndex arr = .ok i ∧ findMinIndex arr = .ok j ∧
      i < arr.length ∧ j < arr.length ∧
      ((∃ o ∈ arr, o ≠ none) → (∃ m, arr[i]? = some (some m)) ∧ (∃ m, arr[j]? = some (some m))) ∧
      ((∀ o ∈ arr, o = none) → i = arr.length - 1 ∧ j = arr.length - 1)) := by
  refine ⟨by rintro rfl; exact ⟨rfl, rfl⟩, ?_⟩
  intro h
  rw [findMaxIndex_eq, findMinIndex_eq]
  obtain ⟨i, hi1, hi2, hi3⟩ := findBest_ok (fun v m => F64.lt m v) h
  obtain ⟨j, hj1, hj2, hj3⟩ := findBest_ok (fun v m => F64.lt v m) h
  refine ⟨i, j, hi1, hj1, hi2, hj2, ?_, ?_⟩
  · rintro ⟨o, ho, hne⟩
    constructor
    · rcases hi3 with h' | ⟨h', _⟩
      · exact h'
      · exact absurd (h' o ho) hne
    · rcases hj3 with h' | ⟨h', _⟩
      · exact h'
      · exact absurd (h' o ho) hne
  · intro hall
    have key : ∀ k : Nat, (∃ m, arr[k]? = some (some m)) → False := by
      rintro k ⟨m, hm⟩
      have := hall _ (List.mem_of_getElem? hm); simp at this
    constructor
    · rcases hi3 with h' | ⟨_, h'⟩
      · exact (key _ h').elim
      · exact h'
    · rcases hj3 with h' | ⟨_, h'⟩
      · exact (key _ h').elim
      · exact h'
end find

section findFl
variable {K : Type} [Field K] [LinearOrder K]

/-- **C17**, floats with any rounding, NaN excluded (infinities included): the value at the index returned by
`find_max_index` is `>=` every present value and strictly greater than every earlier one. -/
theorem C17_max (R : Rounding K) (arr : List (Option (Fl R))) (hnan : some (Fl.of R .nan) ∉ arr)
    (i : Nat) (m : Fl R) (hi : findMaxIndex arr = .ok i) (hm : arr[i]? = some (some m)) :
    ∀ (j : Nat) (v : Fl R), arr[j]? = some (some v) →
      F64.le v m = true ∧ (j < i → F64.lt v m = true) := by
  rw [findMaxIndex_eq] at hi
  have hP : ∀ v, some v ∈ arr → v ≠ Fl.of R .nan := by rintro v hv rfl; exact hnan hv
  intro j v hj
  obtain ⟨h1, h2⟩ := findBest_best _ (maxLaw R) hP hi hm j v hj
  exact ⟨fl_le_of_not_lt v m (hP v (List.mem_of_getElem? hj)) (hP m (List.mem_of_getElem? hm)) h1, h2⟩

/-- **C17**, dually for `find_min_index`. -/
theorem C17_min (R : Rounding K) (arr : List (Option (Fl R))) (hnan : some (Fl.of R .nan) ∉ arr)
    (i : Nat) (m : Fl R) (hi : findMinIndex arr = .ok i) (hm : arr[i]? = some (some m)) :
    ∀ (j : Nat) (v : Fl R), arr[j]? = some (some v) →
      F64.le m v = true ∧ (j < i → F64.lt m v = true) := by
  rw [findMinIndex_eq] at hi
  have hP : ∀ v, some v ∈ arr → v ≠ Fl.of R .nan := by rintro v hv rfl; exact hnan hv
  intro j v hj
  obtain ⟨h1, h2⟩ := findBest_best _ (minLaw R) hP hi hm j v hj
  exact ⟨fl_le_of_not_lt m v (hP m (List.mem_of_getElem? hm)) (hP v (List.mem_of_getElem? hj)) h1, h2⟩
end findFl

/-- An array with gaps and a tie: the first maximum is at index 1, the first minimum at index 3. -/
example : findMaxIndex [none, some (fin 5 : Ex ℚ), some (fin 5), some (fin 2), none] = .ok 1 ∧
    findMinIndex [none, some (fin 5 : Ex ℚ), some (fin 5), some (fin 2), none] = .ok 3 := by
  decide +kernel

/-! ## C18 -/

section clip
variable {K : Type} [Field K] [LinearOrder K] (R : Rounding K)

/-- **C18**, floats with any rounding, bounds `min <= max`: the clipped value lies in `[min, max]` — also for an infinite
or NaN value. -/
theorem C18_range (v mn mx : Fl R) (h : F64.le mn mx = true) :
    F64.le mn (clipValue v mn mx) = true ∧ F64.le (clipValue v mn mx) mx = true := by
  revert h
  show Ext.le _ _ = true → Ext.le _ (Fl.fmin (Fl.fmax _ _) _) = true ∧ Ext.le (Fl.fmin (Fl.fmax _ _) _) _ = true
  match v, mn, mx with
  | .nan, .nan, _ => intro h; simp [Ext.le] at h
  | v, .nan, mx => intro h; simp [Ext.le] at h
  | v, .pinf, .nan => intro h; simp [Ext.le] at h
  | v, .ninf, .nan => intro h; simp [Ext.le] at h
  | v, .fin _, .nan => intro h; simp [Ext.le] at h
  | v, .pinf, .pinf => cases v <;> simp [Fl.fmin, Fl.fmax, Ext.le]
  | v, .pinf, .ninf => intro h; simp [Ext.le] at h
  | v, .pinf, .fin b => intro h; simp [Ext.le] at h
  | v, .ninf, .pinf => cases v <;> simp [Fl.fmin, Fl.fmax, Ext.le]
  | v, .ninf, .ninf => cases v <;> simp [Fl.fmin, Fl.fmax, Ext.le]
  | v, .ninf, .fin b =>
    cases v <;> simp [Fl.fmin, Fl.fmax, Ext.le]
    rename_i k
    by_cases hk : k ≤ b <;> simp [hk, Ext.le]
  | v, .fin a, .pinf =>
    cases v <;> simp [Fl.fmin, Fl.fmax, Ext.le]
    rename_i k
    by_cases hk : k ≤ a <;> simp [hk, Ext.le]
    exact le_of_not_ge hk
  | v, .fin a, .ninf => intro h; simp [Ext.le] at h
  | v, .fin a, .fin b =>
    intro h
    simp only [Ext.le, decide_eq_true_eq] at h
    cases v <;> simp [Fl.fmin, Fl.fmax, Ext.le, h]
    rename_i k
    by_cases hk : k ≤ a
    · simp [hk, h, Ext.le]
    · by_cases hk2 : k ≤ b <;> simp [hk, hk2, h, Ext.le, le_of_not_ge hk]

/-- **C18.** A value inside the bounds is unchanged (up to float equality), one below becomes `min`, one above `max`, NaN becomes
`min`. -/
theorem C18_cases (v mn mx : Fl R) (h : F64.le mn mx = true) :
    (F64.le mn v = true → F64.le v mx = true → clipValue v mn mx = v) ∧
    (F64.lt v mn = true → clipValue v mn mx = mn) ∧
    (F64.lt mx v = true → clipValue v mn mx = mx) ∧
    (clipValue (Fl.of R .nan) mn mx = mn) := by
  revert h
  show Ext.le mn mx = true → (Ext.le mn v = true → Ext.le v mx = true → Fl.fmin (Fl.fmax v mn) mx = v) ∧
    (Ext.lt v mn = true → Fl.fmin (Fl.fmax v mn) mx = mn) ∧
    (Ext.lt mx v = true → Fl.fmin (Fl.fmax v mn) mx = mx) ∧ Fl.fmin (Fl.fmax .nan mn) mx = mn
  intro h
  refine ⟨?_, ?_, ?_, ?_⟩
  · intro h1 h2
    rcases v with _ | _ | _ | v <;> rcases mn with _ | _ | _ | a <;> rcases mx with _ | _ | _ | b <;>
      simp_all [Fl.fmin, Fl.fmax, Ext.le]
    · by_cases h3 : v ≤ a
      · simp [h3, le_antisymm h1 h3]
      · simp [h3]
    · rcases eq_or_lt_of_le h1 with rfl | h1
      · simp [h]
      · simp [not_le.mpr h1, h2]
  · intro h1
    rcases v with _ | _ | _ | v <;> rcases mn with _ | _ | _ | a <;> rcases mx with _ | _ | _ | b <;>
      simp_all [Fl.fmin, Fl.fmax, Ext.le, Ext.lt]
    · simp [h1.le]
    · simp [h1.le, h]
  · intro h1
    rcases v with _ | _ | _ | v <;> rcases mn with _ | _ | _ | a <;> rcases mx with _ | _ | _ | b <;>
      simp_all [Fl.fmin, Fl.fmax, Ext.le, Ext.lt]
    simp [not_le.mpr (lt_of_le_of_lt h h1), not_le.mpr h1]
  · rcases mn with _ | _ | _ | a <;> rcases mx with _ | _ | _ | b <;>
      simp_all [Fl.fmin, Fl.fmax, Ext.le]

/-- **C18.** Clipping is idempotent. -/
theorem C18_idempotent (v mn mx : Fl R) (h : F64.le mn mx = true) :
    clipValue (clipValue v mn mx) mn mx = clipValue v mn mx := by
  obtain ⟨h1, h2⟩ := C18_range R v mn mx h
  exact (C18_cases R _ mn mx h).1 h1 h2

/-- **C18.** Clipping is monotone. -/
theorem C18_monotone (v w mn mx : Fl R) (h : F64.le mn mx = true) (hvw : F64.le v w = true) :
    F64.le (clipValue v mn mx) (clipValue w mn mx) = true := by
  obtain ⟨r1, r2⟩ := C18_range R v mn mx h
  obtain ⟨r3, r4⟩ := C18_range R w mn mx h
  obtain ⟨a1, a2, a3, _⟩ := C18_cases R v mn mx h
  obtain ⟨b1, b2, b3, _⟩ := C18_cases R w mn mx h
  have tot : ∀ x y : Fl R, x ≠ Fl.of R .nan → y ≠ Fl.of R .nan → F64.le x y = false → F64.lt y x = true := by
    intro x y hx hy hxy
    by_contra hc
    have hc' : F64.lt y x = false := by simpa using hc
    have := fl_le_of_not_lt x y hx hy hc'
    rw [show Ext.le x y = false from hxy] at this; simp at this
  have nn : ∀ x y : Fl R, F64.le x y = true → x ≠ Fl.of R .nan ∧ y ≠ Fl.of R .nan := by
    intro x y hxy
    constructor
    · rintro rfl; have : (false = true) := hxy; simp at this
    · rintro rfl
      have : Ext.le x .nan = true := hxy
      cases x <;> simp [Ext.le] at this
  obtain ⟨nv, nw⟩ := nn v w hvw
  obtain ⟨nmn, nmx⟩ := nn mn mx h
  cases hv1 : F64.le mn v with
  | false => rw [a2 (tot _ _ nmn nv hv1)]; exact r3
  | true =>
    cases hw2 : F64.le w mx with
    | false => rw [b3 (tot _ _ nw nmx hw2)]; exact r2
    | true =>
      cases hv2 : F64.le v mx with
      | true =>
        cases hw1 : F64.le mn w with
        | true => rw [a1 hv1 hv2, b1 hw1 hw2]; exact hvw
        | false =>
          exfalso
          have h1 := tot _ _ nmn nw hw1
          have : Ext.le mn w = true := by
            have t1 : Ext.le mn v = true := hv1
            have t2 : Ext.le v w = true := hvw
            revert t1 t2
            rcases mn with _ | _ | _ | a <;> rcases v with _ | _ | _ | v <;> rcases w with _ | _ | _ | w <;>
              simp [Ext.le]
            exact le_trans
          rw [show Ext.le mn w = false from hw1] at this; simp at this
      | false =>
        exfalso
        have : Ext.le v mx = true := by
          have t1 : Ext.le v w = true := hvw
          have t2 : Ext.le w mx = true := hw2
          revert t1 t2
          rcases v with _ | _ | _ | v <;> rcases w with _ | _ | _ | w <;> rcases mx with _ | _ | _ | mx <;>
            simp [Ext.le]
          exact le_trans
        rw [show Ext.le v mx = false from hv2] at this; simp at this

/-- The hypothesis is met by `[0, 1]` and a value outside. -/
example : F64.le (fin 0 : Ex ℚ) (fin 1) = true ∧ clipValue (fin 3 : Ex ℚ) (fin 0) (fin 1) = fin 1 := by
  decide +kernel

/-! ## C19 -/

/-- **C19**, floats with any rounding fixing 0 and 1, *every* argument (also infinite or NaN): the three strengths lie
in [0,1]. -/
theorem C19_range (h0 : R.rnd 0 = .fin 0) (h1 : R.rnd 1 = .fin 1) (hz : (0 : K) ≤ 1) (v a b c : Fl R) :
    (F64.le (lit 0) (scaleValueUp v a b) = true ∧ F64.le (scaleValueUp v a b) (lit 1) = true) ∧
    (F64.le (lit 0) (scaleValueDown v a b) = true ∧ F64.le (scaleValueDown v a b) (lit 1) = true) ∧
    (F64.le (lit 0) (scaleValueCentered v a b c) = true ∧
      F64.le (scaleValueCentered v a b c) (lit 1) = true) := by
  have e0 : (lit 0 : Fl R) = Fl.of R (.fin 0) := by
    show R.rnd ((0 : ℚ) : K) = Ext.fin 0; simpa using h0
  have e1 : (lit 1 : Fl R) = Fl.of R (.fin 1) := by
    show R.rnd ((1 : ℚ) : K) = Ext.fin 1; simpa using h1
  have h01 : F64.le (lit 0 : Fl R) (lit 1) = true := by
    rw [e0, e1]; show decide ((0 : K) ≤ 1) = true; simpa using hz
  have h00 : F64.le (lit 0 : Fl R) (lit 0) = true := by
    rw [e0]; show decide ((0 : K) ≤ 0) = true; simp
  refine ⟨?_, ?_, ?_⟩
  · unfold scaleValueUp
    split
    · exact ⟨h00, h01⟩
    · exact C18_range R _ _ _ h01
  · unfold scaleValueDown
    split
    · exact ⟨h00, h01⟩
    · exact C18_range R _ _ _ h01
  · exact C18_range R _ _ _ h01
end clip

section scale
variable {K : Type} [Field K] [LinearOrder K] [IsStrictOrderedRing K] [RootOps K]

/-- **C19.** `scale_value_up` in exact arithmetic: the clamped linear ramp from the threshold (0) to the maximum (1). -/
theorem C19_up (v th mx : K) (h : th < mx) :
    scaleValueUp (fin v : Ex K) (fin th) (fin mx) = fin (min (max ((v - th) / (mx - th)) 0) 1) := by
  have hpos : 0 < mx - th := sub_pos.mpr h
  unfold scaleValueUp clipValue
  by_cases hv : v ≤ th
  · have : (v - th) / (mx - th) ≤ 0 := div_nonpos_of_nonpos_of_nonneg (by linarith) hpos.le
    simp [hv, this]
  · simp [hv, fin_div _ _ hpos.ne']

/-- **C19.** Hence 0 up to the threshold, 1 from the maximum on, and monotone. -/
theorem C19_up_cases (v w th mx : K) (h : th < mx) :
    (v ≤ th → scaleValueUp (fin v : Ex K) (fin th) (fin mx) = fin 0) ∧
    (mx ≤ v → scaleValueUp (fin v : Ex K) (fin th) (fin mx) = fin 1) ∧
    (v ≤ w → F64.le (scaleValueUp (fin v : Ex K) (fin th) (fin mx))
      (scaleValueUp (fin w : Ex K) (fin th) (fin mx)) = true) := by
  have hpos : 0 < mx - th := sub_pos.mpr h
  simp only [C19_up _ _ _ h]
  refine ⟨fun hv => ?_, fun hv => ?_, fun hv => ?_⟩
  · have : (v - th) / (mx - th) ≤ 0 := div_nonpos_of_nonpos_of_nonneg (by linarith) hpos.le
    simp [this]
  · have : 1 ≤ (v - th) / (mx - th) := by rw [le_div_iff₀ hpos]; linarith
    simp [this]
  · have : (v - th) / (mx - th) ≤ (w - th) / (mx - th) :=
      div_le_div_of_nonneg_right (by linarith) hpos.le
    simp only [fin_le, decide_eq_true_eq]
    exact min_le_min_right _ (max_le_max_right _ this)

/-- **C19.** `scale_value_down` mirrors it: 1 at or below the minimum, 0 from the threshold on, antitone. -/
theorem C19_down (v w th mn : K) (h : mn < th) :
    scaleValueDown (fin v : Ex K) (fin th) (fin mn) = fin (min (max ((th - v) / (th - mn)) 0) 1) ∧
    scaleValueDown (fin v : Ex K) (fin th) (fin mn) =
      scaleValueUp (fin (-v) : Ex K) (fin (-th)) (fin (-mn)) ∧
    (v ≤ w → F64.le (scaleValueDown (fin w : Ex K) (fin th) (fin mn))
      (scaleValueDown (fin v : Ex K) (fin th) (fin mn)) = true) := by
  have e : ∀ v : K, scaleValueDown (fin v : Ex K) (fin th) (fin mn) =
      fin (min (max ((th - v) / (th - mn)) 0) 1) := by
    intro v
    have hneg : mn - th < 0 := sub_neg.mpr h
    have hq : (v - th) / (mn - th) = (th - v) / (th - mn) := by
      rw [← neg_sub th v, ← neg_sub th mn, neg_div_neg_eq]
    unfold scaleValueDown clipValue
    by_cases hv : th ≤ v
    · have : (th - v) / (th - mn) ≤ 0 := div_nonpos_of_nonpos_of_nonneg (by linarith) (by linarith)
      simp [hv, this]
    · simp [hv, fin_div _ _ hneg.ne, hq]
  refine ⟨e v, ?_, ?_⟩
  · rw [e, C19_up _ _ _ (neg_lt_neg h)]
    congr 3
    congr 1 <;> ring
  · intro hvw
    rw [e, e]
    have : (th - w) / (th - mn) ≤ (th - v) / (th - mn) :=
      div_le_div_of_nonneg_right (by linarith) (by linarith)
    simp only [fin_le, decide_eq_true_eq]
    exact min_le_min_right _ (max_le_max_right _ this)

/-- **C19.** `scale_value_centered`: 1 at the mean, falling linearly with the distance, 0 from distance `(max-min)/2` on. -/
theorem C19_centered (v mean mn mx : K) (h : mn < mx) :
    scaleValueCentered (fin v : Ex K) (fin mean) (fin mn) (fin mx) =
      fin (max (1 - |v - mean| / ((mx - mn) / 2)) 0) ∧
    (v = mean → scaleValueCentered (fin v : Ex K) (fin mean) (fin mn) (fin mx) = fin 1) ∧
    ((mx - mn) / 2 ≤ |v - mean| →
      scaleValueCentered (fin v : Ex K) (fin mean) (fin mn) (fin mx) = fin 0) := by
  have hd : 0 < (mx - mn) / 2 := by linarith
  have e : scaleValueCentered (fin v : Ex K) (fin mean) (fin mn) (fin mx) =
      fin (max (1 - |v - mean| / ((mx - mn) / 2)) 0) := by
    unfold scaleValueCentered clipValue
    have hle : 1 - |v - mean| / ((mx - mn) / 2) ≤ 1 := by
      have : 0 ≤ |v - mean| / ((mx - mn) / 2) := div_nonneg (abs_nonneg _) hd.le
      linarith
    simp only [fin_sub, fin_lit, Rat.cast_ofNat]
    rw [fin_div _ _ (show (2 : K) ≠ 0 by norm_num)]
    simp only [fin_abs]
    rw [fin_div _ _ hd.ne']
    simp [hle]
  refine ⟨e, ?_, ?_⟩
  · rintro rfl; rw [e]; simp
  · intro hv
    rw [e]
    have : 1 ≤ |v - mean| / ((mx - mn) / 2) := by rw [le_div_iff₀ hd]; linarith
    rw [max_eq_right (by linarith)]

/-! ## C20 -/

/-- **C20**, the true half: for `min <= 0`, `scale_value_min_max` maps `[min,max]` linearly onto `[-1,1]`. -/
theorem C20_nonpos_min (v mn mx : K) (h0 : mn ≤ 0) (h : mn < mx) :
    scaleValueMinMax (fin v : Ex K) (fin mn) (fin mx) = fin (2 * (v - mn) / (mx - mn) - 1) := by
  have hne : mx - mn ≠ 0 := (sub_pos.mpr h).ne'
  unfold scaleValueMinMax scaleValueAroundMean
  by_cases hneg : mn < 0
  · have habs : |mn| = -mn := abs_of_neg hneg
    have hne' : mx + -mn ≠ 0 := by rwa [← sub_eq_add_neg]
    simp only [fin_lit, Rat.cast_zero, fin_lt, hneg, decide_true, if_true, fin_abs, habs, fin_add,
      fin_sub, Rat.cast_ofNat, fin_mul, sub_zero]
    rw [fin_div _ _ hne']
    congr 1
    rw [← sub_eq_add_neg, ← sub_eq_add_neg]
    field_simp
  · have : mn = 0 := le_antisymm h0 (not_lt.mp hneg)
    subst this
    simp only [sub_zero] at hne ⊢
    simp only [fin_lit, Rat.cast_zero, fin_lt, lt_irrefl, decide_false, Bool.false_eq_true, if_false,
      fin_sub, Rat.cast_ofNat, fin_mul, sub_zero]
    rw [fin_div _ _ hne]
    congr 1
    field_simp

/-- **C20**, exact behaviour for `min > 0`: the minimum is not subtracted from the value. -/
theorem C20_pos_min (v mn mx : K) (h0 : 0 < mn) (h : mn < mx) :
    scaleValueMinMax (fin v : Ex K) (fin mn) (fin mx) = fin (2 * v / (mx - mn) - 1) := by
  have hne : mx - mn ≠ 0 := (sub_pos.mpr h).ne'
  unfold scaleValueMinMax scaleValueAroundMean
  simp only [fin_lit, Rat.cast_zero, fin_lt, not_lt.mpr h0.le, decide_false, Bool.false_eq_true, if_false,
    fin_sub, Rat.cast_ofNat, fin_mul]
  rw [fin_div _ _ hne]
  congr 1
  field_simp

/-- **C20**, hence for every `min > 0`: the minimum is mapped strictly above -1 and the maximum strictly
above 1. -/
theorem C20_pos_min_overshoots (mn mx : K) (h0 : 0 < mn) (h : mn < mx) :
    F64.lt (fin (-1) : Ex K) (scaleValueMinMax (fin mn : Ex K) (fin mn) (fin mx)) = true ∧
    F64.lt (fin 1 : Ex K) (scaleValueMinMax (fin mx : Ex K) (fin mn) (fin mx)) = true := by
  have hpos : 0 < mx - mn := sub_pos.mpr h
  rw [C20_pos_min _ _ _ h0 h, C20_pos_min _ _ _ h0 h]
  simp only [fin_lt, decide_eq_true_eq]
  constructor
  · have : 0 < 2 * mn / (mx - mn) := by positivity
    linarith
  · have : 2 < 2 * mx / (mx - mn) := by rw [lt_div_iff₀ hpos]; linarith
    linarith
end scale

/-- Concretely: on [10, 20] the minimum 10 is mapped to 1 and the maximum 20 to 3. -/
example : scaleValueMinMax (fin 10 : Ex ℚ) (fin 10) (fin 20) = fin 1 ∧
    scaleValueMinMax (fin 20 : Ex ℚ) (fin 10) (fin 20) = fin 3 := by decide +kernel

end Pace
