import Verif.Lemmas.TaExact
import Mathlib.Data.List.MinMax
import Mathlib.Algebra.Order.BigOperators.Group.List

/-! # Exact arithmetic, continued -/

set_option linter.unusedSectionVars false

namespace Pace
open Spec
variable {K : Type} [Field K] [LinearOrder K] [IsStrictOrderedRing K] [RootOps K]

/-! ## Wma, Swma -/

theorem wmaFold_fin_aux (len : Nat) (l : List K) (k : Nat) (a b : K) :
    (((List.range' k l.length).zip (l.map (fin : K → Ex K))).foldl (fun acc iv =>
      let weight : Ex K := lit (((len - iv.1) * len : Nat) : ℚ)
      (acc.1 + iv.2 * weight, acc.2 + weight)) ((fin a : Ex K), (fin b : Ex K)))
    = (fin (a + ((List.range' k l.length).zipWith (fun (i : Nat) w => w * (((len - i) * len : Nat) : K)) l).sum),
       fin (b + ((List.range' k l.length).map fun i => (((len - i) * len : Nat) : K)).sum)) := by
  induction l generalizing k a b with
  | nil => simp
  | cons w l ih =>
    simp only [List.length_cons, List.range'_succ, List.map_cons, List.zip_cons_cons, List.foldl_cons,
      List.zipWith_cons_cons, List.sum_cons]
    rw [fin_lit_nat, fin_mul, fin_add, fin_add, ih]
    simp only [add_assoc]

theorem weights_sum (n : Nat) :
    ((List.range n).map fun i => (((n - i) * n : Nat) : K)).sum = (n : K) * ((n : K) * (n + 1) / 2) := by
  have h : ∀ m, m ≤ n → ((List.range m).map fun i => (((n - i) * n : Nat) : K)).sum
      = (n : K) * ((m : K) * n - (m : K) * (m - 1) / 2) := by
    intro m
    induction m with
    | zero => simp
    | succ m ih =>
      intro hm
      rw [List.range_succ, List.map_append, List.sum_append, ih (by omega)]
      simp only [List.map_cons, List.map_nil, List.sum_cons, List.sum_nil]
      push_cast [Nat.cast_sub (show m ≤ n by omega)]
      ring
  rw [h n (le_refl _)]; ring

theorem zipWith_reverse_range (v : List K) :
    ((List.range v.length).zipWith (fun (i : Nat) w => w * (((v.length - i) * v.length : Nat) : K)) v.reverse).sum
      = (v.length : K) * ((List.range v.length).zipWith (fun (i : Nat) w => ((i : K) + 1) * w) v).sum := by
  rw [← List.sum_reverse, List.reverse_zipWith (by simp), List.reverse_reverse]
  have hr : (List.range v.length).reverse = (List.range v.length).map fun i => v.length - 1 - i := by
    apply List.ext_getElem?
    intro i
    by_cases hi : i < v.length
    · rw [List.getElem?_reverse (by simpa using hi)]
      rw [List.getElem?_map, List.getElem?_range hi]
      simp only [List.length_range, Option.map_some]
      rw [List.getElem?_range (by omega)]
    · rw [List.getElem?_eq_none (by simp; omega), List.getElem?_eq_none (by simp; omega)]
  rw [hr, List.zipWith_map_left]
  have : ∀ (l : List K) (k : Nat), (∀ i, i < l.length → k + i < v.length) →
      (List.zipWith (fun (i : Nat) w => w * (((v.length - (v.length - 1 - i)) * v.length : Nat) : K))
        (List.range' k l.length) l).sum
      = (v.length : K) * (List.zipWith (fun (i : Nat) w => ((i : K) + 1) * w) (List.range' k l.length) l).sum := by
    intro l
    induction l with
    | nil => simp
    | cons w l ih =>
      intro k hk
      have h0 := hk 0 (by simp)
      simp only [List.length_cons, List.range'_succ, List.zipWith_cons_cons, List.sum_cons]
      rw [ih (k + 1) (fun i hi => by have := hk (i + 1) (by simpa using hi); omega),
        show v.length - (v.length - 1 - k) = k + 1 by omega]
      push_cast; ring
  rw [List.range_eq_range']
  exact this v 0 (fun i hi => by omega)

theorem wma0_exact {len : Nat} (h1 : 1 ≤ len) (x : Nat → Option K) (t : Nat) :
    wma0 len (flo x) t = (fullWindow x len t).map fun v => fin (weightedMean v) := by
  have he : wma0 len (flo x) t = (fullWindow (flo x) len t).map fun v =>
      (wmaFold len v.reverse).1 / (wmaFold len v.reverse).2 := by
    unfold wma0 fullWindow; split <;> rfl
  rw [he, fullWindow_map]
  cases hv : fullWindow x len t with
  | none => rfl
  | some v =>
    obtain ⟨hl, _⟩ := fullWindow_length hv
    simp only [Option.map_some, Option.some.injEq]
    have hf := wmaFold_fin_aux len v.reverse 0 0 0
    have : wmaFold len ((v.map (fin : K → Ex K)).reverse) =
        (fin (0 + ((List.range' 0 v.reverse.length).zipWith (fun (i : Nat) w => w * (((len - i) * len : Nat) : K)) v.reverse).sum),
         fin (0 + ((List.range' 0 v.reverse.length).map fun i => (((len - i) * len : Nat) : K)).sum)) := by
      rw [← hf, ← List.map_reverse]
      unfold wmaFold indexed
      rw [List.length_map, List.range_eq_range', fin_lit, Rat.cast_zero]
    rw [this]
    have hn : (len : K) ≠ 0 := by positivity
    have hw : ((List.range' 0 v.reverse.length).map fun i => (((len - i) * len : Nat) : K)).sum
        = (len : K) * ((len : K) * (len + 1) / 2) := by
      rw [List.length_reverse, hl, ← List.range_eq_range']; exact weights_sum len
    have hz := zipWith_reverse_range v
    rw [List.range_eq_range'] at hz
    rw [hl] at hz
    rw [List.length_reverse, hl] at hw ⊢
    simp only [zero_add]
    rw [hw, hz, fin_div _ _ (by positivity)]
    congr 1
    rw [weightedMean, hl, mul_div_mul_left _ _ hn, List.range_eq_range']

theorem swma0_exact (x : Nat → Option K) (t : Nat) :
    swma0 (flo x) t = (fullWindow x 4 t).map fun v =>
      fin ((v.getD 0 0 + 2 * v.getD 1 0 + 2 * v.getD 2 0 + v.getD 3 0) / 6) := by
  unfold swma0 fullWindow
  by_cases ht : 4 ≤ t + 1
  · rw [if_pos ht, if_pos ht]
    have hw : allSome (win (flo x) 4 t) = (allSome (win x 4 t)).map (List.map fin) := by
      rw [← allSome_map, win_map]
    rw [hw]
    cases hv : allSome (win x 4 t) with
    | none => rfl
    | some v =>
      have hl := congrArg List.length (allSome_eq_some.mp hv)
      simp only [win_length, List.length_map] at hl
      match v, hl with
      | [a, b, c, e], _ =>
        have h6 : ((6 : ℚ) : K) ≠ 0 := by norm_num
        simp only [Option.map_some, List.map_cons, List.map_nil, fin_lit, fin_div _ _ h6, fin_mul, fin_add]
        simp only [Option.some.injEq, fin_inj]
        simp
        ring
  · rw [if_neg ht, if_neg ht]; rfl

/-! ## Dev, Stdev -/

theorem dev0_exact {len : Nat} (h1 : 2 ≤ len) (x : Nat → Option K) (t : Nat) :
    dev0 len (flo x) t = (fullWindow x len t).map fun v => fin (meanAbsDev v) := by
  unfold dev0
  rw [if_neg (by omega), sma0_exact (by omega)]
  cases hv : fullWindow x len t with
  | none => rfl
  | some v =>
    obtain ⟨hl, _⟩ := fullWindow_length hv
    simp only [Option.map_some, Option.some.injEq]
    have hwf : win (flo x) len t = (v.map some).map fun o : Option K => o.map fin := by
      rw [← fullWindow_eq_win hv, win_map]
    rw [hwf]
    have : (List.map (fun v_1 : Option (Ex K) => F64.abs (v_1.getD (fin (mean v)) - fin (mean v)))
        (List.map (fun o : Option K => o.map fin) (v.map some))) = (v.map fun w => |w - mean v|).map fin := by
      simp
    rw [this, fsum_fin, fin_lit_nat, fin_div _ _ (by positivity), meanAbsDev, hl]

theorem computeSum_exact (w m : K) : Stdev.computeSum (fin w : Ex K) (-(fin m)) = fin (cutDev (w - m)) := by
  unfold Stdev.computeSum compareWithPrecision cutDev
  simp only [fin_neg, fin_add, fin_lit, fin_sub, fin_abs, fin_lt, Rat.cast_zero, sub_zero, decide_eq_true_eq,
    ← sub_eq_add_neg]
  have : ((1 / 10000000000 : ℚ) : K) = 1 / 10000000000 := by push_cast; rfl
  rw [this]
  split <;> rfl

theorem cutSqDev_nonneg (v : List K) : 0 ≤ cutSqDev v := by
  apply List.sum_nonneg
  intro w hw
  obtain ⟨u, _, rfl⟩ := List.mem_map.mp hw
  positivity

theorem stdev0_exact {len : Nat} (h1 : 2 ≤ len) (biased : Bool) (x : Nat → Option K) (t : Nat) :
    stdev0 len biased (flo x) t = (fullWindow x len t).map fun v =>
      fin (RootOps.sqrt (cutSqDev v / (if biased then (len : K) else (len : K) - 1))) := by
  unfold stdev0
  rw [if_neg (by omega), sma0_exact (by omega)]
  cases hv : fullWindow x len t with
  | none => rfl
  | some v =>
    obtain ⟨hl, _⟩ := fullWindow_length hv
    simp only [Option.map_some, Option.some.injEq]
    have hwf : win (flo x) len t = (v.map some).map fun o : Option K => o.map fin := by
      rw [← fullWindow_eq_win hv, win_map]
    rw [hwf]
    simp only [List.map_map, Function.comp_def, Option.map_some, computeSum_exact, fin_sq]
    have : (v.map fun w => (fin (cutDev (w - mean v) * cutDev (w - mean v)) : Ex K))
        = (v.map fun w => cutDev (w - mean v) ^ 2).map fin := by simp [pow_two]
    rw [this, fsum_fin, show (v.map fun w => cutDev (w - mean v) ^ 2).sum = cutSqDev v from rfl]
    have hp : 0 < (len : K) := by positivity
    have hp' : 0 < (len : K) - 1 := by
      have : (2 : K) ≤ len := by exact_mod_cast h1
      linarith
    cases biased with
    | true =>
      simp only [if_true]
      rw [fin_lit_nat, fin_div _ _ hp.ne', fin_sqrt _ (div_nonneg (cutSqDev_nonneg v) hp.le)]
    | false =>
      simp only [Bool.false_eq_true, if_false]
      rw [fin_lit_nat, Nat.cast_sub (by omega), Nat.cast_one, fin_div _ _ hp'.ne',
        fin_sqrt _ (div_nonneg (cutSqDev_nonneg v) hp'.le)]

/-- Cutting small deviations loses less than `n * 1e-20`. -/
theorem cutSqDev_bounds (v : List K) :
    cutSqDev v ≤ sqDev v ∧ sqDev v ≤ cutSqDev v + (v.length : K) * (1 / 10000000000) ^ 2 := by
  unfold cutSqDev sqDev
  have h : ∀ (l : List K) (m : K), (l.map fun w => cutDev (w - m) ^ 2).sum ≤ (l.map fun w => (w - m) ^ 2).sum ∧
      (l.map fun w => (w - m) ^ 2).sum ≤ (l.map fun w => cutDev (w - m) ^ 2).sum
        + (l.length : K) * (1 / 10000000000) ^ 2 := by
    intro l m
    induction l with
    | nil => simp
    | cons w l ih =>
      have hw : cutDev (w - m) ^ 2 ≤ (w - m) ^ 2 ∧
          (w - m) ^ 2 ≤ cutDev (w - m) ^ 2 + (1 / 10000000000) ^ 2 := by
        unfold cutDev
        split
        · rename_i hc
          refine ⟨by rw [zero_pow two_ne_zero]; positivity, ?_⟩
          rw [← sq_abs (w - m)]
          have := pow_le_pow_left₀ (abs_nonneg (w - m)) hc.le 2
          linarith
        · exact ⟨le_refl _, by have : (0 : K) ≤ (1 / 10000000000) ^ 2 := by positivity
                               linarith⟩
      simp only [List.map_cons, List.sum_cons, List.length_cons]; push_cast
      constructor <;> linarith [ih.1, ih.2, hw.1, hw.2]
  exact h v (mean v)

/-! ## Highest, Lowest -/

theorem mem_reduceOption {β : Type} {l : List (Option β)} {b : β} : b ∈ l.reduceOption ↔ some b ∈ l :=
  List.reduceOption_mem_iff

theorem fin_ne_nan (a : K) : (fin a : Ex K) ≠ Fl.of _ .nan := by
  intro h
  have h' : (Ext.fin a : Ext K) = Ext.nan := h
  cases h'

theorem pick_spec {α : Type} [F64 α] (better : α → α → Bool) {P : α → Prop} (law : BetterLaw better P)
    {l : List (Option α)} (h : l ≠ []) (hP : ∀ v, some v ∈ l → P v) :
    (pick better l = none ∧ ∀ o ∈ l, o = none) ∨
    (∃ m, pick better l = some m ∧ some m ∈ l ∧ ∀ v, some v ∈ l → better v m = false) := by
  obtain ⟨i, h1, h2, h3⟩ := findBest_ok better h
  rcases h3 with ⟨m, hm⟩ | ⟨h3, _⟩
  · right
    refine ⟨m, by simp [pick, h1, hm], List.mem_of_getElem? hm, fun v hv => ?_⟩
    obtain ⟨j, hj⟩ := List.mem_iff_getElem?.mp hv
    exact (findBest_best better law hP h1 hm j v hj).1
  · left
    refine ⟨?_, h3⟩
    have := h3 l[i] (List.getElem_mem h2)
    simp [pick, h1, h2, this]

theorem pick_max_exact {l : List (Option K)} (h : l ≠ []) :
    pick maxB (l.map fun o => o.map (fin : K → Ex K)) = l.reduceOption.max?.map fin := by
  have hP : ∀ v : Ex K, some v ∈ (l.map fun o => o.map (fin : K → Ex K)) → v ≠ Fl.of _ .nan := by
    intro v hv
    obtain ⟨o, _, ho⟩ := List.mem_map.mp hv
    cases o with
    | none => simp at ho
    | some k => simp at ho; rw [← ho]; exact fin_ne_nan k
  rcases pick_spec maxB (maxLaw (Rounding.exact K)) (by simpa using h) hP with ⟨h1, h2⟩ | ⟨m, h1, h2, h3⟩
  · rw [h1]
    have : l.reduceOption = [] := by
      rw [List.eq_nil_iff_forall_not_mem]
      intro b hb
      have := h2 _ (List.mem_map_of_mem (mem_reduceOption.mp hb))
      simp at this
    rw [this]; rfl
  · rw [h1]
    obtain ⟨o, ho1, ho2⟩ := List.mem_map.mp h2
    cases o with
    | none => simp at ho2
    | some k =>
      simp only [Option.map_some, Option.some.injEq] at ho2
      have hk : l.reduceOption.max? = some k := by
        rw [List.max?_eq_some_iff]
        refine ⟨mem_reduceOption.mpr ho1, fun b hb => ?_⟩
        have := h3 (fin b) (List.mem_map.mpr ⟨some b, mem_reduceOption.mp hb, rfl⟩)
        rw [← ho2] at this
        simpa [maxB] using this
      rw [hk, ← ho2]; rfl

theorem pick_min_exact {l : List (Option K)} (h : l ≠ []) :
    pick minB (l.map fun o => o.map (fin : K → Ex K)) = l.reduceOption.min?.map fin := by
  have hP : ∀ v : Ex K, some v ∈ (l.map fun o => o.map (fin : K → Ex K)) → v ≠ Fl.of _ .nan := by
    intro v hv
    obtain ⟨o, _, ho⟩ := List.mem_map.mp hv
    cases o with
    | none => simp at ho
    | some k => simp at ho; rw [← ho]; exact fin_ne_nan k
  rcases pick_spec minB (minLaw (Rounding.exact K)) (by simpa using h) hP with ⟨h1, h2⟩ | ⟨m, h1, h2, h3⟩
  · rw [h1]
    have : l.reduceOption = [] := by
      rw [List.eq_nil_iff_forall_not_mem]
      intro b hb
      have := h2 _ (List.mem_map_of_mem (mem_reduceOption.mp hb))
      simp at this
    rw [this]; rfl
  · rw [h1]
    obtain ⟨o, ho1, ho2⟩ := List.mem_map.mp h2
    cases o with
    | none => simp at ho2
    | some k =>
      simp only [Option.map_some, Option.some.injEq] at ho2
      have hk : l.reduceOption.min? = some k := by
        rw [List.min?_eq_some_iff]
        refine ⟨mem_reduceOption.mpr ho1, fun b hb => ?_⟩
        have := h3 (fin b) (List.mem_map.mpr ⟨some b, mem_reduceOption.mp hb, rfl⟩)
        rw [← ho2] at this
        simpa [minB] using this
      rw [hk, ← ho2]; rfl

theorem highest0_exact {len : Nat} (h1 : 1 ≤ len) (x : Nat → Option K) (t : Nat) :
    highest0 len (flo x) t = (Spec.highest x len t).map fin := by
  unfold highest0 Spec.highest
  split
  · rw [← win_map (fun o : Option K => o.map fin), pick_max_exact (win_ne_nil x h1)]
  · rfl
theorem lowest0_exact {len : Nat} (h1 : 1 ≤ len) (x : Nat → Option K) (t : Nat) :
    lowest0 len (flo x) t = (Spec.lowest x len t).map fin := by
  unfold lowest0 Spec.lowest
  split
  · rw [← win_map (fun o : Option K => o.map fin), pick_min_exact (win_ne_nil x h1)]
  · rfl

theorem spec_highest_some {x : Nat → Option K} {len t : Nat} (hl : len ≤ t + 1) {m : K}
    (h : Spec.highest x len t = some m) :
    (∃ k, t + 1 - len ≤ k ∧ k ≤ t ∧ x k = some m) ∧
    ∀ k v, t + 1 - len ≤ k → k ≤ t → x k = some v → v ≤ m := by
  unfold Spec.highest at h
  rw [if_pos hl, List.max?_eq_some_iff] at h
  refine ⟨(mem_win hl).mp (mem_reduceOption.mp h.1), fun k v h1 h2 h3 => ?_⟩
  exact h.2 v (mem_reduceOption.mpr ((mem_win hl).mpr ⟨k, h1, h2, h3⟩))
theorem spec_lowest_some {x : Nat → Option K} {len t : Nat} (hl : len ≤ t + 1) {m : K}
    (h : Spec.lowest x len t = some m) :
    (∃ k, t + 1 - len ≤ k ∧ k ≤ t ∧ x k = some m) ∧
    ∀ k v, t + 1 - len ≤ k → k ≤ t → x k = some v → m ≤ v := by
  unfold Spec.lowest at h
  rw [if_pos hl, List.min?_eq_some_iff] at h
  refine ⟨(mem_win hl).mp (mem_reduceOption.mp h.1), fun k v h1 h2 h3 => ?_⟩
  exact h.2 v (mem_reduceOption.mpr ((mem_win hl).mpr ⟨k, h1, h2, h3⟩))
theorem spec_highest_isSome {x : Nat → Option K} {len t k : Nat} (hl : len ≤ t + 1) (h1 : t + 1 - len ≤ k)
    (h2 : k ≤ t) {v : K} (hv : x k = some v) : ∃ m, Spec.highest x len t = some m := by
  unfold Spec.highest
  rw [if_pos hl]
  apply Option.isSome_iff_exists.mp
  cases hm : (win x len t).reduceOption.max? with
  | some _ => rfl
  | none =>
    rw [List.max?_eq_none_iff] at hm
    have := mem_reduceOption.mpr ((mem_win (x := x) hl).mpr ⟨k, h1, h2, hv⟩)
    rw [hm] at this; simp at this
theorem spec_lowest_isSome {x : Nat → Option K} {len t k : Nat} (hl : len ≤ t + 1) (h1 : t + 1 - len ≤ k)
    (h2 : k ≤ t) {v : K} (hv : x k = some v) : ∃ m, Spec.lowest x len t = some m := by
  unfold Spec.lowest
  rw [if_pos hl]
  apply Option.isSome_iff_exists.mp
  cases hm : (win x len t).reduceOption.min? with
  | some _ => rfl
  | none =>
    rw [List.min?_eq_none_iff] at hm
    have := mem_reduceOption.mpr ((mem_win (x := x) hl).mpr ⟨k, h1, h2, hv⟩)
    rw [hm] at this; simp at this

end Pace
