import Verif.Lemmas.ContentExact

/-! # Lemmas: smoothing of series that begin at some tick, with numbers that may be NaN -/

set_option linter.unusedSectionVars false

namespace Pace
open Spec

section
variable {K : Type} [Field K] [LinearOrder K] [IsStrictOrderedRing K] [RootOps K]

/-- NaN if `b`, otherwise the number `u`. -/
def nf (b : Bool) (u : K) : Ex K := if b then (Ext.nan : Ext K) else fin u

@[simp] theorem nf_true (u : K) : nf true u = (Ext.nan : Ext K) := rfl
@[simp] theorem nf_false (u : K) : nf false u = fin u := rfl
theorem nf_add (b b' : Bool) (u u' : K) : nf b u + nf b' u' = nf (b || b') (u + u') := by
  cases b <;> cases b' <;> rfl
theorem nf_mul (b : Bool) (a u : K) : fin a * nf b u = nf b (a * u) := by
  cases b <;> rfl
theorem nf_div (b : Bool) (u c : K) (hc : c ≠ 0) : nf b u / fin c = nf b (u / c) := by
  cases b
  · exact fin_div u c hc
  · rfl
theorem nf_mul_right (b : Bool) (a u : K) : nf b u * fin a = nf b (u * a) := by
  cases b <;> rfl

/-- Some value from tick `s` to tick `t` is NaN. -/
def anyBad (b : Nat → Bool) (s t : Nat) : Bool := (List.range (t + 1)).any fun k => decide (s ≤ k) && b k

theorem anyBad_iff {b : Nat → Bool} {s t : Nat} : anyBad b s t = true ↔ ∃ k, s ≤ k ∧ k ≤ t ∧ b k = true := by
  simp only [anyBad, List.any_eq_true, List.mem_range, Bool.and_eq_true, decide_eq_true_eq]
  exact ⟨fun ⟨k, h1, h2, h3⟩ => ⟨k, h2, by omega, h3⟩, fun ⟨k, h1, h2, h3⟩ => ⟨k, by omega, h1, h3⟩⟩

theorem anyBad_succ {b : Nat → Bool} {s t : Nat} (h : s ≤ t + 1) : anyBad b s (t + 1) = (anyBad b s t || b (t + 1)) := by
  unfold anyBad
  rw [List.range_succ, List.any_append]
  simp [h]

theorem anyBad_false {s t : Nat} : anyBad (fun _ => false) s t = false := by simp [anyBad]

theorem sum_range_shift (u : Nat → K) (s n : Nat) :
    ((List.range (s + n)).map fun k => if k < s then 0 else u k).sum = ((List.range n).map fun i => u (s + i)).sum := by
  induction n with
  | zero =>
    rw [Nat.add_zero]
    have : ((List.range s).map fun k => if k < s then 0 else u k) = (List.range s).map fun _ => (0 : K) :=
      List.map_congr_left fun k hk => if_pos (List.mem_range.mp hk)
    rw [this]; simp
  | succ n ih =>
    rw [← Nat.add_assoc, List.range_succ, List.range_succ, List.map_append, List.map_append, List.sum_append, List.sum_append, ih]
    simp

theorem acc0_startAt {n : Nat} (hn : 1 ≤ n) (s : Nat) (b : Nat → Bool) (u : Nat → K) :
    ∀ t, t < s + n → acc0 n (startAt s fun k => nf (b k) (u k)) t
      = nf ((List.range t).any fun k => decide (s ≤ k) && b k) (((List.range t).map fun k => if k < s then 0 else u k).sum) := by
  intro t
  induction t with
  | zero => intro _; simp [acc0]
  | succ t ih =>
    intro ht
    have h2 : ago (startAt s fun k => nf (b k) (u k)) (n - 1) t = none := by
      unfold ago
      split
      · rw [startAt, if_pos (by omega)]
      · rfl
    rw [acc0, h2, ih (by omega), List.range_succ, List.any_append, List.map_append, List.sum_append]
    show addOpt _ (startAt s _ t) = _
    unfold startAt
    by_cases hs : t < s
    · simp [hs, addOpt, not_le.mpr hs]
    · simp [hs, addOpt, nf_add, not_lt.mp hs]

theorem rawSum0_startAt {n : Nat} (hn : 1 ≤ n) (s : Nat) (b : Nat → Bool) (u : Nat → K) :
    rawSum0 n (startAt s fun k => nf (b k) (u k)) (s + n - 1)
      = nf (anyBad b s (s + n - 1)) (((List.range n).map fun i => u (s + i)).sum) := by
  rw [rawSum0, acc0_startAt hn s b u _ (by omega), ← sum_range_shift]
  obtain ⟨m, rfl⟩ : ∃ m, n = m + 1 := ⟨n - 1, by omega⟩
  rw [show s + (m + 1) - 1 = s + m by omega, startAt, if_neg (by omega), ← Nat.add_assoc, List.range_succ, List.map_append,
    List.sum_append, anyBad, List.range_succ, List.any_append]
  simp [addOpt, nf_add]

theorem sma0_startAt {n : Nat} (hn : 2 ≤ n) (s : Nat) (b : Nat → Bool) (u : Nat → K) :
    (∀ t, t + 1 < s + n → sma0 n (startAt s fun k => nf (b k) (u k)) t = none) ∧
    sma0 n (startAt s fun k => nf (b k) (u k)) (s + n - 1)
      = some (nf (anyBad b s (s + n - 1)) (((List.range n).map fun i => u (s + i)).sum / n)) := by
  constructor
  · intro t ht
    rw [sma0, if_neg (by omega), if_neg]
    rintro ⟨h1, h2⟩
    have := h2 (t + 1 - n) (by omega) (by omega)
    rw [startAt, if_pos (by omega)] at this
    simp at this
  · rw [sma0, if_neg (by omega), if_pos, rawSum0_startAt (by omega), fin_lit_nat, nf_div _ _ _ (by positivity)]
    refine ⟨by omega, fun k h1 h2 => ?_⟩
    rw [startAt, if_neg (by omega)]; rfl

theorem rma0_startAt {n : Nat} (hn : 1 ≤ n) (s : Nat) (b : Nat → Bool) (u : Nat → K) :
    (∀ t, t + 1 < s + n → rma0 n (startAt s fun k => nf (b k) (u k)) t = none) ∧
    ∀ k, n ≠ 1 → rma0 n (startAt s fun k => nf (b k) (u k)) (s + n - 1 + k) = some (nf (anyBad b s (s + n - 1 + k)) (runningMean n s u k)) := by
  rcases Nat.lt_or_ge n 2 with h1 | h1
  · obtain rfl : n = 1 := by omega
    refine ⟨fun t ht => ?_, fun k hk => absurd rfl hk⟩
    have : startAt s (fun k => nf (b k) (u k)) t = none := by rw [startAt, if_pos (by omega)]
    cases t <;> simp [rma0, ema0, sma0, this]
  · have hne : n ≠ 1 := by omega
    obtain ⟨hs1, hs2⟩ := sma0_startAt h1 s b u
    have hbef : ∀ t, t + 1 < s + n → rma0 n (startAt s fun k => nf (b k) (u k)) t = none :=
      fun t ht => ema0_before hne fun r hr => hs1 r (by omega)
    refine ⟨hbef, fun k _ => ?_⟩
    induction k with
    | zero =>
      rw [Nat.add_zero, runningMean, ← hs2]
      obtain ⟨m, hm⟩ : ∃ m, s + n - 1 = m + 1 := ⟨s + n - 2, by omega⟩
      have := hbef m (by omega)
      rw [rma0] at this ⊢
      rw [hm, ema0, if_neg hne, this]
    | succ k ih =>
      rw [rma0] at ih ⊢
      rw [← Nat.add_assoc, ema0, if_neg hne, ih, startAt, if_neg (by omega), rmaAlpha_exact hn, anyBad_succ (by omega)]
      simp only [Option.map_some]
      have e : (lit 1 - fin (1 / (n : K)) : Ex K) = fin (1 - 1 / (n : K)) := by simp
      rw [e, nf_mul, nf_mul, nf_add, Bool.or_comm, runningMean, show s + n + k = s + n - 1 + k + 1 by omega]
      congr 2
      ring

/-- With length 1 the running mean is the newest value. -/
theorem runningMean_one (s : Nat) (u : Nat → K) (k : Nat) : runningMean 1 s u k = u (s + k) := by
  cases k with
  | zero => simp [runningMean]
  | succ k => simp [runningMean, show s + 1 + k = s + (k + 1) by omega]

/-- `Rma(n >= 2)` of a series that begins at tick `s`, without gaps. -/
theorem rma_startAt_nf (d : DataProvider (Ex K)) {n : Nat} (hn : 2 ≤ n) (s : Nat) (b : Nat → Bool) (u : Nat → K) (N : Nat) :
    Runs (fun t => Rma.next ⟨d, t⟩) (Rma.new n) (startAt s fun k => nf (b k) (u k)) N
      (fun t => if t + 1 < s + n then none else some (nf (anyBad b s t) (runningMean n s u (t + 1 - (s + n))))) := by
  obtain ⟨h1, h2⟩ := rma0_startAt (by omega : 1 ≤ n) s b u
  refine (rma_runs d (by omega) _ N (Or.inr fun t ht hs => ?_)).congr fun t _ => ?_
  · obtain ⟨r, g1, g2, g3⟩ := hs
    have := g3 r (le_refl _) (by omega)
    rw [startAt] at this ⊢
    split at this
    · simp at this
    · rw [if_neg (by omega)]; rfl
  · split
    · rename_i h; exact h1 t h
    · have := h2 (t + 1 - (s + n)) (by omega)
      rwa [show s + n - 1 + (t + 1 - (s + n)) = t by omega] at this

theorem rma_one (d : DataProvider (Ex K)) (x : Nat → Option (Ex K)) (N : Nat) :
    Runs (fun t => Rma.next ⟨d, t⟩) (Rma.new 1) x N x :=
  (rma_runs d (le_refl 1) x N (Or.inl rfl)).congr fun t _ => by cases t <;> simp [rma0, ema0, sma0]

/-- `Rma(n)` of a series that begins at tick `s`, without gaps; with `n = 1` an earlier NaN does not matter. -/
theorem rma_startAt_any (d : DataProvider (Ex K)) {n : Nat} (hn : 1 ≤ n) (s : Nat) (b : Nat → Bool) (u : Nat → K) (N : Nat) :
    Runs (fun t => Rma.next ⟨d, t⟩) (Rma.new n) (startAt s fun k => nf (b k) (u k)) N
      (fun t => if t + 1 < s + n then none else
        some (nf (if n = 1 then b t else anyBad b s t) (runningMean n s u (t + 1 - (s + n))))) := by
  rcases Nat.lt_or_ge n 2 with h1 | h1
  · obtain rfl : n = 1 := by omega
    refine (rma_one d _ N).congr fun t _ => ?_
    unfold startAt
    by_cases h : t < s
    · simp [h]
    · rw [if_neg h, if_neg (by omega), runningMean_one, show s + (t + 1 - (s + 1)) = t by omega]; rfl
  · exact (rma_startAt_nf d h1 s b u N).congr fun t _ => by rw [if_neg (show ¬ n = 1 by omega)]

theorem flo_startAt (s : Nat) (u : Nat → K) : flo (startAt s u) = startAt s fun k => nf ((fun _ => false) k) (u k) := by
  funext k; unfold startAt flo; dsimp only; split <;> rfl

/-- `Rma(n)` of numbers that begin at tick `s`. -/
theorem rma_startAt (d : DataProvider (Ex K)) {n : Nat} (hn : 1 ≤ n) (s : Nat) (u : Nat → K) (N : Nat) :
    Runs (fun t => Rma.next ⟨d, t⟩) (Rma.new n) (flo (startAt s u)) N
      (fun t => if t + 1 < s + n then none else some (fin (runningMean n s u (t + 1 - (s + n))))) := by
  rcases Nat.lt_or_ge n 2 with h1 | h1
  · obtain rfl : n = 1 := by omega
    refine (rma_one d _ N).congr fun t _ => ?_
    unfold flo startAt
    by_cases h : t < s
    · simp [h]
    · rw [if_neg h, if_neg (by omega), runningMean_one, show s + (t + 1 - (s + 1)) = t by omega]; rfl
  · rw [flo_startAt]
    exact (rma_startAt_nf d h1 s _ u N).congr fun t _ => by rw [anyBad_false]; rfl

theorem runningMean_mono {n s : Nat} (hn : 1 ≤ n) {u w : Nat → K} (h : ∀ k, s ≤ k → u k ≤ w k) : ∀ k, runningMean n s u k ≤ runningMean n s w k := by
  have hn' : (1 : K) ≤ n := by exact_mod_cast hn
  have hp : (0 : K) < n := by linarith
  intro k
  induction k with
  | zero =>
    simp only [runningMean]
    exact div_le_div_of_nonneg_right (List.sum_le_sum fun i _ => h _ (by omega)) hp.le
  | succ k ih =>
    simp only [runningMean]
    have h1 := h (s + n + k) (by omega)
    have e : ∀ a b : K, a + (b - a) / n = b / n + (1 - 1 / n) * a := fun a b => by ring
    rw [e, e]
    have h2 : (0 : K) ≤ 1 - 1 / n := by rw [sub_nonneg, div_le_one hp]; exact hn'
    have h3 := div_le_div_of_nonneg_right h1 hp.le
    have h4 := mul_le_mul_of_nonneg_left ih h2
    linarith

theorem runningMean_const {n s : Nat} (hn : 1 ≤ n) (a : K) : ∀ k, runningMean n s (fun _ => a) k = a := by
  have hp : (n : K) ≠ 0 := by positivity
  intro k
  induction k with
  | zero => simp [runningMean, hp]
  | succ k ih => simp [runningMean, ih]

theorem runningMean_nonneg {n s : Nat} (hn : 1 ≤ n) {u : Nat → K} (h : ∀ k, s ≤ k → 0 ≤ u k) (k : Nat) : 0 ≤ runningMean n s u k := by
  have h1 := runningMean_mono hn (u := fun _ => 0) (w := u) h k
  rwa [runningMean_const hn] at h1

/-- With `n >= 2` a positive value among the first `n` keeps the running mean of non-negative values positive for ever. -/
theorem runningMean_pos {n s : Nat} (hn : 2 ≤ n) {u : Nat → K} (h : ∀ k, s ≤ k → 0 ≤ u k) {i : Nat} (hi : i < n) (hp : 0 < u (s + i))
    (k : Nat) : 0 < runningMean n s u k := by
  have hn' : (1 : K) < n := by exact_mod_cast (by omega : 1 < n)
  have hn0 : (0 : K) < n := by linarith
  induction k with
  | zero =>
    simp only [runningMean]
    refine div_pos ?_ hn0
    have hmem : u (s + i) ∈ (List.range n).map fun i => u (s + i) := List.mem_map.mpr ⟨i, List.mem_range.mpr hi, rfl⟩
    have := List.single_le_sum (l := (List.range n).map fun i => u (s + i)) (by
      intro x hx
      obtain ⟨j, _, rfl⟩ := List.mem_map.mp hx
      exact h _ (by omega)) _ hmem
    linarith
  | succ k ih =>
    simp only [runningMean]
    have h1 := div_nonneg (h (s + n + k) (by omega)) hn0.le
    have h2 : 0 < (1 - 1 / (n : K)) := by rw [sub_pos, div_lt_one hn0]; exact hn'
    have h3 := mul_pos h2 ih
    have e : runningMean n s u k + (u (s + n + k) - runningMean n s u k) / n
      = u (s + n + k) / n + (1 - 1 / (n : K)) * runningMean n s u k := by ring
    rw [e]; linarith

theorem runningMean_bounds {n s : Nat} (hn : 1 ≤ n) {u : Nat → K} {lo hi : K} (h : ∀ k, s ≤ k → lo ≤ u k ∧ u k ≤ hi) (k : Nat) :
    lo ≤ runningMean n s u k ∧ runningMean n s u k ≤ hi := by
  have h1 := runningMean_mono hn (u := fun _ => lo) (w := u) (fun k hk => (h k hk).1) k
  have h2 := runningMean_mono hn (u := u) (w := fun _ => hi) (fun k hk => (h k hk).2) k
  rw [runningMean_const hn] at h1 h2
  exact ⟨h1, h2⟩

end
end Pace
