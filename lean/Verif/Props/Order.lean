import Verif.Props.Content8
import Verif.Props.FloatRange
import Verif.Props.Memory

/-!
# C86: averages are linear and keep the order of their inputs
-/

set_option linter.unusedSectionVars false

namespace Pace
open Spec

/-! ## Exact arithmetic -/

section exact
variable {K : Type} [Field K] [LinearOrder K] [IsStrictOrderedRing K] [RootOps K]

private theorem sum_linear (p q : K) (l : List Nat) (f g : Nat → K) :
    (l.map fun i => p * f i + q * g i).sum = p * (l.map f).sum + q * (l.map g).sum := by
  induction l with
  | nil => simp
  | cons a l ih => simp only [List.map_cons, List.sum_cons, ih]; ring

private theorem mean_linear (p q : K) (u w : Nat → K) (n t : Nat) :
    mean (win (fun k => p * u k + q * w k) n t) = p * mean (win u n t) + q * mean (win w n t) := by
  simp only [mean, win, List.length_map]
  rw [sum_linear p q (List.range n) (fun i => u (t + 1 - n + i)) (fun i => w (t + 1 - n + i))]
  ring

private theorem smoothed_linear (p q a m m' : K) (u w : Nat → K) (n : Nat) :
    smoothed a (p * m + q * m') (fun i => p * u i + q * w i) n = p * smoothed a m u n + q * smoothed a m' w n := by
  induction n with
  | zero => simp [smoothed_zero]
  | succ n ih => rw [smoothed_succ, smoothed_succ, smoothed_succ, ih]; ring

private theorem runningMean_linear (p q : K) (n s : Nat) (u w : Nat → K) (k : Nat) :
    runningMean n s (fun i => p * u i + q * w i) k = p * runningMean n s u k + q * runningMean n s w k := by
  induction k with
  | zero =>
    simp only [runningMean]
    rw [sum_linear p q (List.range n) (fun i => u (s + i)) (fun i => w (s + i))]
    ring
  | succ k ih => rw [runningMean, runningMean, runningMean, ih]; ring

theorem average_linear (kind : MaKind) (p q : K) (n s : Nat) (u w : Nat → K) (t : Nat) :
    average kind n s (fun k => p * u k + q * w k) t = p * average kind n s u t + q * average kind n s w t := by
  cases kind with
  | sma => exact mean_linear p q u w n t
  | ema =>
    show smoothed _ (mean _) _ _ = _ * smoothed _ (mean _) _ _ + _ * smoothed _ (mean _) _ _
    rw [mean_linear, smoothed_linear p q]
  | rma => exact runningMean_linear p q n s u w _
  | swma => show (_ + 2 * _ + 2 * _ + _) / 6 = _ * ((_ + 2 * _ + 2 * _ + _) / 6) + _ * ((_ + 2 * _ + 2 * _ + _) / 6); ring

theorem average_mono (kind : MaKind) {n s t : Nat} (hn : 1 ≤ n) (ht : s + maLength kind n ≤ t + 1) {u w : Nat → K}
    (h : ∀ k, s ≤ k → k ≤ t → u k ≤ w k) : average kind n s u t ≤ average kind n s w t := by
  have h1 := average_ge kind hn ht (u := fun k => 1 * w k + (-1) * u k) (lo := 0) fun k h2 h3 => by
    have := h k h2 h3
    linarith
  rw [average_linear] at h1
  linarith

private theorem sum_zipWith_linear (p q : K) (l : List Nat) (f g : Nat → K) : ∀ m : List Nat,
    (l.zipWith (fun (i : Nat) w => ((i : K) + 1) * w) (m.map fun i => p * f i + q * g i)).sum =
      p * (l.zipWith (fun (i : Nat) w => ((i : K) + 1) * w) (m.map f)).sum +
      q * (l.zipWith (fun (i : Nat) w => ((i : K) + 1) * w) (m.map g)).sum := by
  induction l with
  | nil => simp
  | cons a l ih =>
    intro m
    cases m with
    | nil => simp
    | cons b m => simp only [List.map_cons, List.zipWith_cons_cons, List.sum_cons, ih]; ring

theorem weightedMean_linear (p q : K) (u w : Nat → K) (n t : Nat) :
    weightedMean (win (fun k => p * u k + q * w k) n t) = p * weightedMean (win u n t) + q * weightedMean (win w n t) := by
  simp only [weightedMean, win, List.length_map]
  rw [sum_zipWith_linear p q _ (fun i => u (t + 1 - n + i)) (fun i => w (t + 1 - n + i))]
  ring

theorem weightedMean_nonneg {v : List K} (h : ∀ a ∈ v, 0 ≤ a) : 0 ≤ weightedMean v := by
  unfold weightedMean
  refine div_nonneg (List.sum_nonneg fun x hx => ?_) (by positivity)
  obtain ⟨i, hi, rfl⟩ := List.mem_iff_getElem.mp hx
  rw [List.getElem_zipWith]
  exact mul_nonneg (by positivity) (h _ (List.getElem_mem _))

theorem weightedMean_mono {n s t : Nat} (ht : s + n ≤ t + 1) {u w : Nat → K} (h : ∀ k, s ≤ k → k ≤ t → u k ≤ w k) :
    weightedMean (win u n t) ≤ weightedMean (win w n t) := by
  have h1 : 0 ≤ weightedMean (win (fun k => 1 * w k + (-1) * u k) n t) := weightedMean_nonneg <|
    win_ge ht fun k h2 h3 => by
      have := h k h2 h3
      linarith
  rw [weightedMean_linear] at h1
  linarith

theorem wma_startAt (d : DataProvider (Ex K)) {n : Nat} (hn : 1 ≤ n) (s : Nat) (u : Nat → K) (N : Nat) :
    Runs (fun t => Wma.next ⟨d, t⟩) (Wma.new n) (flo (startAt s u)) N (flo (startAt (s + n - 1) fun t => weightedMean (win u n t))) :=
  (C25_wma d hn (startAt s u) N).congr fun t _ => by
    rw [fullWindow_startAt s u hn]
    show _ = Option.map fin (if _ then _ else _)
    by_cases h : t < s + n - 1
    · rw [if_neg (by omega), if_pos h]; rfl
    · rw [if_pos (by omega), if_neg h]; rfl

/-- **C86.** Averages are linear: an average of `p·u + q·w` is `p` times the average of `u` plus `q` times the average of `w`, at every
tick, for all four kinds of moving average and the linearly weighted one, whatever the lengths, and wherever the two series begin. -/
theorem C86_linear (d : DataProvider (Ex K)) (kind : MaKind) {n : Nat} (hn : 1 ≤ n) (p q : K) (s : Nat) (u w : Nat → K) (N : Nat) :
    (∃ z a b, Runs (fun t => Ma.next ⟨d, t⟩) (Ma.new kind n) (flo (startAt s u)) N (flo (startAt z a)) ∧
      Runs (fun t => Ma.next ⟨d, t⟩) (Ma.new kind n) (flo (startAt s w)) N (flo (startAt z b)) ∧
      Runs (fun t => Ma.next ⟨d, t⟩) (Ma.new kind n) (flo (startAt s fun t => p * u t + q * w t)) N
        (flo (startAt z fun t => p * a t + q * b t))) ∧
    (∃ z a b, Runs (fun t => Wma.next ⟨d, t⟩) (Wma.new n) (flo (startAt s u)) N (flo (startAt z a)) ∧
      Runs (fun t => Wma.next ⟨d, t⟩) (Wma.new n) (flo (startAt s w)) N (flo (startAt z b)) ∧
      Runs (fun t => Wma.next ⟨d, t⟩) (Wma.new n) (flo (startAt s fun t => p * u t + q * w t)) N
        (flo (startAt z fun t => p * a t + q * b t))) := by
  refine ⟨⟨_, _, _, ma_exact d kind hn s u N, ma_exact d kind hn s w N, (ma_exact d kind hn s _ N).congr fun t _ => ?_⟩,
    ⟨_, _, _, wma_startAt d hn s u N, wma_startAt d hn s w N, (wma_startAt d hn s _ N).congr fun t _ => ?_⟩⟩
  · have : average kind n s (fun k => p * u k + q * w k) = fun t => p * average kind n s u t + q * average kind n s w t :=
      funext (average_linear kind p q n s u w)
    rw [this]
  · have : (fun t => weightedMean (win (fun k => p * u k + q * w k) n t)) =
        fun t => p * weightedMean (win u n t) + q * weightedMean (win w n t) := funext (weightedMean_linear p q u w n)
    rw [this]

/-- **C86.** Averages keep the order: if at every tick up to `t` the first series is at most the second, then so is its average at `t`. -/
theorem C86_monotone (d : DataProvider (Ex K)) (kind : MaKind) {n : Nat} (hn : 1 ≤ n) (s : Nat) (u w : Nat → K) (N : Nat) :
    (∃ z a b, Runs (fun t => Ma.next ⟨d, t⟩) (Ma.new kind n) (flo (startAt s u)) N (flo (startAt z a)) ∧
      Runs (fun t => Ma.next ⟨d, t⟩) (Ma.new kind n) (flo (startAt s w)) N (flo (startAt z b)) ∧
      ∀ t, z ≤ t → (∀ k, s ≤ k → k ≤ t → u k ≤ w k) → a t ≤ b t) ∧
    (∃ z a b, Runs (fun t => Wma.next ⟨d, t⟩) (Wma.new n) (flo (startAt s u)) N (flo (startAt z a)) ∧
      Runs (fun t => Wma.next ⟨d, t⟩) (Wma.new n) (flo (startAt s w)) N (flo (startAt z b)) ∧
      ∀ t, z ≤ t → (∀ k, s ≤ k → k ≤ t → u k ≤ w k) → a t ≤ b t) := by
  have hm := maLength_pos kind hn
  exact ⟨⟨_, _, _, ma_exact d kind hn s u N, ma_exact d kind hn s w N, fun t ht h => average_mono kind hn (by omega) h⟩,
    ⟨_, _, _, wma_startAt d hn s u N, wma_startAt d hn s w N, fun t ht h => weightedMean_mono (by omega) h⟩⟩

/-- On well-formed bars every price source lies between low and high. -/
theorem sourceValue_between {o h l c v : Nat → K} (hw : WellFormed o h l c) {src : SrcKind} (hs : src ≠ .volume) (t : Nat) :
    l t ≤ sourceValue src o h l c v t ∧ sourceValue src o h l c v t ≤ h t := by
  obtain ⟨h1, h2, h3, h4⟩ := hw t
  have h5 : l t ≤ h t := h1.trans h2
  cases src with
  | open_ => exact ⟨h1, h2⟩
  | high => exact ⟨h5, le_refl _⟩
  | low => exact ⟨le_refl _, h5⟩
  | close => exact ⟨h3, h4⟩
  | volume => exact absurd rfl hs
  | ohlc4 =>
    simp only [sourceValue]
    constructor
    · rw [le_div_iff₀ (by norm_num)]; linarith
    · rw [div_le_iff₀ (by norm_num)]; linarith
  | hlc3 =>
    simp only [sourceValue]
    constructor
    · rw [le_div_iff₀ (by norm_num)]; linarith
    · rw [div_le_iff₀ (by norm_num)]; linarith
  | hl2 =>
    simp only [sourceValue]
    constructor
    · rw [le_div_iff₀ (by norm_num)]; linarith
    · rw [div_le_iff₀ (by norm_num)]; linarith

/-- **C86.** On well-formed bars an average of any price source lies between the same average of the lows and that of the highs. -/
theorem C86_envelope {d : DataProvider (Ex K)} {N : Nat} {o h l c v : Nat → K} (hb : ExBars d N o h l c v) (hw : WellFormed o h l c)
    {src : SrcKind} (hs : src ≠ .volume) (kind : MaKind) {n : Nat} (hn : 1 ≤ n) :
    ∃ z a b e, Runs (noInput fun t => withSrc .low Ma.next ⟨d, t⟩) (Ma.new kind n) unit N (flo (startAt z a)) ∧
      Runs (noInput fun t => withSrc src Ma.next ⟨d, t⟩) (Ma.new kind n) unit N (flo (startAt z b)) ∧
      Runs (noInput fun t => withSrc .high Ma.next ⟨d, t⟩) (Ma.new kind n) unit N (flo (startAt z e)) ∧
      ∀ t, z ≤ t → a t ≤ b t ∧ b t ≤ e t := by
  have hm := maLength_pos kind hn
  have hr : ∀ k : SrcKind, Runs (noInput fun t => withSrc k Ma.next ⟨d, t⟩) (Ma.new kind n) unit N
      (flo (startAt (0 + maLength kind n - 1) (average kind n 0 (sourceValue k o h l c v)))) := fun k =>
    withSrc_runs (src_exact hb k) (ma_exact d kind hn 0 _ N)
  exact ⟨_, _, _, _, hr .low, hr src, hr .high, fun t ht =>
    ⟨average_mono kind hn (by omega) fun k _ _ => (sourceValue_between hw hs k).1,
      average_mono kind hn (by omega) fun k _ _ => (sourceValue_between hw hs k).2⟩⟩

end exact

/-! ## Floats -/

section floats
variable {K : Type} [Field K] [LinearOrder K] [IsStrictOrderedRing K] {R : Rounding K}

/-- The floats `a` and `b` are both missing, or both present and `b` does not compare less than `a` (so `a ≤ b`, or one is NaN). -/
def Spec.NotLess {α : Type} [F64 α] : Option α → Option α → Prop
  | none, none => True
  | some a, some b => F64.lt b a = false
  | _, _ => False

private theorem not_lt_of_le (a b : Ext K) (h : a.le b = true) : b.lt a = false := by
  rcases a with _ | _ | _ | a <;> rcases b with _ | _ | _ | b <;> simp_all [Ext.le, Ext.lt]

private theorem lt_nan' (e : Ext K) : e.lt .nan = false := by rcases e with _ | _ | _ | e <;> rfl
private theorem lt_ninf' (e : Ext K) : e.lt .ninf = false := by rcases e with _ | _ | _ | e <;> rfl
private theorem pinf_lt' (e : Ext K) : Ext.lt .pinf e = false := by rcases e with _ | _ | _ | e <;> rfl

private theorem not_lt_of_le_float {α : Type} [F64 α] (V : Valued R α) {a b : α} (h : F64.le a b = true) : F64.lt b a = false := by
  rw [V.le] at h
  rw [V.lt]
  exact not_lt_of_le _ _ h

/-- at least 1, or infinite -/
private def Big (m : Fl R) : Prop := m = Fl.of R .pinf ∨ ∃ k : K, 1 ≤ k ∧ m = Fl.of R (.fin k)

variable (L : R.Lawful)
include L

private theorem lax_rnd {a b : K} (h : a ≤ b) : (R.rnd b).lt (R.rnd a) = false := not_lt_of_le _ _ (L.mono a b h)

private theorem lax_add {a b c e : Fl R} (h1 : F64.lt b a = false) (h2 : F64.lt e c = false) : F64.lt (b + e) (a + c) = false := by
  have key : ∀ a b c e : Ext K, b.lt a = false → e.lt c = false → (Fl.add R b e).lt (Fl.add R a c) = false := by
    intro a b c e h1 h2
    rcases a with _ | _ | _ | a <;> rcases b with _ | _ | _ | b <;> (try simp [Ext.lt] at h1) <;> rcases c with _ | _ | _ | c <;>
      rcases e with _ | _ | _ | e <;> (try simp [Ext.lt] at h2)
    all_goals first
      | rfl
      | exact lt_nan' _
      | exact lt_ninf' _
      | exact pinf_lt' _
      | exact lax_rnd L (add_le_add h1 h2)
  exact key a b c e h1 h2

private theorem signInf_lax {k : K} (hk : 0 ≤ k) (e : Ext K) : (Fl.signInf k).lt e = false := by
  unfold Fl.signInf
  by_cases h : 0 < k
  · rw [if_pos h]; rcases e with _ | _ | _ | e <;> rfl
  · rw [if_neg h, if_neg (not_lt.mpr hk)]; rfl

private theorem lax_signInf {k : K} (hk : 0 ≤ k) (e : Ext K) : e.lt (Fl.signInf k).neg = false := by
  unfold Fl.signInf
  by_cases h : 0 < k
  · rw [if_pos h]; rcases e with _ | _ | _ | e <;> rfl
  · rw [if_neg h, if_neg (not_lt.mpr hk)]; rcases e with _ | _ | _ | e <;> rfl

private theorem lax_mul {m a b : Fl R} (hm : NN m) (h : F64.lt b a = false) : F64.lt (m * b) (m * a) = false := by
  have key : ∀ a b : Ext K, b.lt a = false → ∀ k : K, 0 ≤ k → (Fl.mul R (.fin k) b).lt (Fl.mul R (.fin k) a) = false := by
    intro a b h k hk
    rcases b with _ | _ | _ | b
    · rfl
    · exact signInf_lax L hk _
    · rcases a with _ | _ | _ | a
      · exact lt_nan' _
      · simp [Ext.lt] at h
      · exact lax_signInf L hk _
      · simp [Ext.lt] at h
    · rcases a with _ | _ | _ | a
      · exact lt_nan' _
      · simp [Ext.lt] at h
      · exact lax_signInf L hk _
      · simp [Ext.lt] at h
        exact lax_rnd L (mul_le_mul_of_nonneg_left h hk)
  have key' : ∀ a b : Ext K, b.lt a = false → (Fl.mul R .pinf b).lt (Fl.mul R .pinf a) = false := by
    intro a b h
    have key'' : ∀ a b : K, a ≤ b → (Fl.signInf b).lt (Fl.signInf a) = false := by
      intro a b h
      unfold Fl.signInf
      by_cases h1 : 0 < b <;> by_cases h2 : b < 0 <;> by_cases h3 : 0 < a <;> by_cases h4 : a < 0 <;> simp [h1, h2, h3, h4, Ext.lt]
      all_goals linarith
    rcases b with _ | _ | _ | b
    · rfl
    · rcases hc : Fl.mul R .pinf a with _ | _ | _ | c <;> rfl
    · rcases a with _ | _ | _ | a
      · rfl
      · simp [Ext.lt] at h
      · rfl
      · simp [Ext.lt] at h
    · rcases a with _ | _ | _ | a
      · exact lt_nan' _
      · simp [Ext.lt] at h
      · exact lt_ninf' _
      · simp [Ext.lt] at h
        exact key'' _ _ h
  rcases hm.cases with rfl | rfl | ⟨k, hk, rfl⟩
  · rfl
  · exact key' a b h
  · exact key a b h k hk

private theorem mul_comm_fl (a b : Fl R) : a * b = b * a := by
  have : ∀ a b : Ext K, Fl.mul R a b = Fl.mul R b a := by
    intro a b
    rcases a with _ | _ | _ | a <;> rcases b with _ | _ | _ | b <;> simp [Fl.mul, mul_comm]
  exact this a b

private theorem lax_div {m a b : Fl R} (hm : Big m) (h : F64.lt b a = false) : F64.lt (b / m) (a / m) = false := by
  have key : ∀ a b : Ext K, b.lt a = false → (Fl.div R b .pinf).lt (Fl.div R a .pinf) = false := by
    intro a b h
    rcases a with _ | _ | _ | a <;> rcases b with _ | _ | _ | b <;> simp [Fl.div, Ext.lt]
  have key' : ∀ a b : Ext K, b.lt a = false → ∀ k : K, 1 ≤ k → (Fl.div R b (.fin k)).lt (Fl.div R a (.fin k)) = false := by
    intro a b h k hk
    have h0 : (0 : K) < k := by linarith
    have h1 : ¬ k < 0 := by linarith
    rcases a with _ | _ | _ | a <;> rcases b with _ | _ | _ | b <;> (try simp [Ext.lt] at h) <;> simp only [Fl.div, h0.ne', h1, if_false]
    all_goals first
      | rfl
      | exact lax_rnd L (by gcongr)
      | (generalize R.rnd _ = g; rcases g with _ | _ | _ | g <;> rfl)
  rcases hm with rfl | ⟨k, hk, rfl⟩
  · exact key a b h
  · exact key' a b h k hk

private theorem big_lit {n : Nat} (h : 1 ≤ n) : Big (lit (n : ℚ) : Fl R) := lit_nat_ge_one L h

private theorem big_add {a b : Fl R} (ha : NN a) (hna : a ≠ Fl.of R .nan) (hb : Big b) : Big (a + b) := by
  have key : ∀ x : K, 1 ≤ x → Big (Fl.of R (R.rnd x)) := by
    intro x hx
    have hm := L.mono 1 x hx
    rw [rnd_one L] at hm
    have hn := L.ne_nan x
    generalize R.rnd x = g at hm hn
    rcases g with _ | _ | _ | g
    · exact absurd rfl hn
    · exact .inl rfl
    · exact Bool.noConfusion hm
    · exact .inr ⟨g, of_decide_eq_true hm, rfl⟩
  rcases ha.cases with rfl | rfl | ⟨x, hx, rfl⟩
  · exact absurd rfl hna
  · rcases hb with rfl | ⟨k, hk, rfl⟩ <;> exact .inl rfl
  · rcases hb with rfl | ⟨k, hk, rfl⟩
    · exact .inl rfl
    · exact key (x + k) (by linarith)

omit L in
private theorem Big.nn {a : Fl R} (h : Big a) : NN a ∧ a ≠ Fl.of R .nan := by
  rcases h with rfl | ⟨k, hk, rfl⟩
  · exact ⟨nn_pinf, fun h => by cases (h : (Ext.pinf : Ext K) = .nan)⟩
  · exact ⟨nn_fin.mpr (by linarith), fun h => by cases (h : (Ext.fin k : Ext K) = .nan)⟩

variable {α : Type} [F64 α] (V : Valued R α)
include V

private theorem lax_add' {a b c e : α} (h1 : F64.lt b a = false) (h2 : F64.lt e c = false) : F64.lt (b + e) (a + c) = false := by
  rw [V.lt] at *
  rw [V.add, V.add]
  exact lax_add L h1 h2

private theorem lax_mul' {m a b : α} (hm : NN (V.val m)) (h : F64.lt b a = false) :
    F64.lt (m * b) (m * a) = false ∧ F64.lt (b * m) (a * m) = false := by
  rw [V.lt] at *
  rw [V.lt, V.mul, V.mul, V.mul, V.mul, mul_comm_fl L (V.val b), mul_comm_fl L (V.val a)]
  exact ⟨lax_mul L hm h, lax_mul L hm h⟩

private theorem lax_div' {m a b : α} (hm : Big (V.val m)) (h : F64.lt b a = false) : F64.lt (b / m) (a / m) = false := by
  rw [V.lt] at *
  have h0 : V.val m ≠ Fl.of R (.fin 0) := by
    rcases hm with e | ⟨k, hk, e⟩ <;> rw [e]
    · intro h; cases (h : (Ext.pinf : Ext K) = .fin 0)
    · exact of_fin_ne (by linarith)
  rw [V.div _ _ h0, V.div _ _ h0]
  exact lax_div L hm h

private theorem big_lit' {n : Nat} (h : 1 ≤ n) : Big (V.val (lit (n : ℚ))) := by rw [V.lit]; exact big_lit L h

omit L V in
private theorem Spec.NotLess.none_iff {a b : Option α} (h : NotLess a b) : a = none ↔ b = none := by
  rcases a with _ | a <;> rcases b with _ | b <;> simp_all [NotLess]

/-! ### The averages -/

private theorem acc_lax {len s N : Nat} {u u' : Nat → α} (h : ∀ t, t < N → s ≤ t → F64.lt (u' t) (u t) = false) :
    ∀ t, t < N → t + 1 ≤ s + len → F64.lt (acc0 len (startAt s u') t) (acc0 len (startAt s u) t) = false ∧
      F64.lt (rawSum0 len (startAt s u') t) (rawSum0 len (startAt s u) t) = false := by
  have h00 : F64.lt (lit 0 : α) (lit 0) = false := by
    rw [V.lt, V.lit, lit_zero L]
    show decide ((0 : K) < 0) = false
    simp
  have raw : ∀ t, t < N → F64.lt (acc0 len (startAt s u') t) (acc0 len (startAt s u) t) = false →
      F64.lt (rawSum0 len (startAt s u') t) (rawSum0 len (startAt s u) t) = false := by
    intro t ht hacc
    unfold rawSum0
    by_cases hc : t < s
    · rw [startAt, if_pos hc, startAt, if_pos hc]; exact hacc
    · rw [startAt, if_neg hc, startAt, if_neg hc]
      exact lax_add' L V hacc (h t ht (by omega))
  intro t
  induction t with
  | zero => intro ht _; exact ⟨h00, raw 0 ht h00⟩
  | succ t ih =>
    intro ht hs
    have e : ∀ w : Nat → α, ago (startAt s w) (len - 1) t = none := by
      intro w
      unfold ago
      split
      · rw [startAt, if_pos (by omega)]
      · rfl
    have e' : F64.lt (acc0 len (startAt s u') (t + 1)) (acc0 len (startAt s u) (t + 1)) = false := by
      rw [acc0, acc0, e, e]
      exact (ih (by omega) (by omega)).2
    exact ⟨e', raw _ ht e'⟩

omit L V in
private theorem present_iff {len s t : Nat} (hl : 1 ≤ len) (u : Nat → α) : (len ≤ t + 1 ∧ WindowPresent (startAt s u) len t) ↔ s + len ≤ t + 1 := by
  constructor
  · rintro ⟨h1, h2⟩
    have := h2 (t + 1 - len) (by omega) (by omega)
    by_contra hc
    rw [startAt, if_pos (by omega)] at this
    simp at this
  · intro h
    exact ⟨by omega, fun k h1 h2 => by rw [startAt, if_neg (by omega)]; rfl⟩

private theorem sma_lax {len s N : Nat} (hl : 1 ≤ len) {u u' : Nat → α} (h : ∀ t, t < N → s ≤ t → F64.lt (u' t) (u t) = false) {t : Nat}
    (ht : t < N) (hs : len = 1 ∨ t + 1 ≤ s + len) : NotLess (sma0 len (startAt s u) t) (sma0 len (startAt s u') t) := by
  unfold sma0
  by_cases h1 : len = 1
  · rw [if_pos h1, if_pos h1]
    by_cases hc : t < s
    · rw [startAt, if_pos hc, startAt, if_pos hc]; trivial
    · rw [startAt, if_neg hc, startAt, if_neg hc]; exact h t ht (by omega)
  · rw [if_neg h1, if_neg h1]
    by_cases hc : s + len ≤ t + 1
    · rw [if_pos ((present_iff hl u).mpr hc), if_pos ((present_iff hl u').mpr hc)]
      exact lax_div' L V (big_lit' L V hl) (acc_lax L V h t ht (by omega)).2
    · rw [if_neg (fun h => hc ((present_iff hl u).mp h)), if_neg (fun h => hc ((present_iff hl u').mp h))]; trivial

omit L V in
private theorem ema_isSome {len s : Nat} (hl : 1 ≤ len) (a : α) (u : Nat → α) (t : Nat) :
    (ema0 len a (startAt s u) t).isSome ↔ s + len ≤ t + 1 := by
  have hs : ∀ t, (sma0 len (startAt s u) t).isSome ↔ s + len ≤ t + 1 := by
    intro t
    unfold sma0
    by_cases h1 : len = 1
    · rw [if_pos h1, startAt]
      by_cases hc : t < s
      · rw [if_pos hc]; simp; omega
      · rw [if_neg hc]; simp; omega
    · rw [if_neg h1, ← present_iff hl u]
      split <;> simp_all
  induction t with
  | zero => exact hs 0
  | succ t ih =>
    rw [ema0]
    by_cases h1 : len = 1
    · have := hs (t + 1)
      rw [sma0, if_pos h1] at this
      rw [if_pos h1]
      exact this
    · rw [if_neg h1]
      rcases he : ema0 len a (startAt s u) t with _ | p
      · exact hs (t + 1)
      · rw [he] at ih
        have : s + len ≤ t + 1 := ih.mp rfl
        show (Option.map _ (startAt s u (t + 1))).isSome ↔ _
        rw [startAt, if_neg (by omega)]
        simp; omega

private theorem ema_lax {len s N : Nat} (hl : 1 ≤ len) {a : α} (ha : NN (V.val a)) (ha1 : NN (V.val (lit 1 - a))) {u u' : Nat → α}
    (h : ∀ t, t < N → s ≤ t → F64.lt (u' t) (u t) = false) {t : Nat} (ht : t < N) :
    NotLess (ema0 len a (startAt s u) t) (ema0 len a (startAt s u') t) := by
  induction t with
  | zero => exact sma_lax L V hl h ht (by omega)
  | succ t ih =>
    have ih := ih (by omega)
    rw [ema0, ema0]
    by_cases h1 : len = 1
    · have := sma_lax L V hl h ht (.inl h1)
      rw [sma0, sma0, if_pos h1, if_pos h1] at this
      rw [if_pos h1, if_pos h1]
      exact this
    · rw [if_neg h1, if_neg h1]
      have hi := ema_isSome hl a u (s := s) t
      rcases he : ema0 len a (startAt s u) t with _ | p <;> rcases he' : ema0 len a (startAt s u') t with _ | p' <;> rw [he, he'] at ih
      · refine sma_lax L V hl h ht (.inr ?_)
        rw [he] at hi
        by_contra hc
        exact absurd (hi.mpr (by omega)) (by simp)
      · exact ih.elim
      · exact ih.elim
      · have hs : s + len ≤ t + 1 := hi.mp (by rw [he]; rfl)
        show NotLess (Option.map _ (startAt s u (t + 1))) (Option.map _ (startAt s u' (t + 1)))
        rw [startAt, startAt, if_neg (by omega), if_neg (by omega)]
        exact lax_add' L V (lax_mul' L V ha (h _ ht (by omega))).1 (lax_mul' L V ha1 ih).1

/-- one step of the loop of `Wma` -/
private def wstep (len : Nat) (acc : α × α) (iv : Nat × α) : α × α :=
  (acc.1 + iv.2 * lit (((len - iv.1) * len : Nat) : ℚ), acc.2 + lit (((len - iv.1) * len : Nat) : ℚ))

private theorem nn_lit' (n : Nat) : NN (V.val (lit (n : ℚ))) := by rw [V.lit]; exact nn_lit_nat L n

private theorem wfold_lax (len : Nat) {l l' : List α} (h : List.Forall₂ (fun a b => F64.lt b a = false) l l') :
    ∀ (i : Nat) (S S' W : α), F64.lt S' S = false →
      F64.lt (((List.range' i l'.length).zip l').foldl (wstep len) (S', W)).1 (((List.range' i l.length).zip l).foldl (wstep len) (S, W)).1 = false ∧
      (((List.range' i l'.length).zip l').foldl (wstep len) (S', W)).2 = (((List.range' i l.length).zip l).foldl (wstep len) (S, W)).2 := by
  induction h with
  | nil => intro i S S' W h; exact ⟨h, rfl⟩
  | cons hab _ ih =>
    intro i S S' W h
    simp only [List.length_cons, List.range'_succ, List.zip_cons_cons, List.foldl_cons]
    exact ih (i + 1) _ _ _ (lax_add' L V h (lax_mul' L V (nn_lit' L V _) hab).2)

private theorem wfold_big (len : Nat) (l : List α) : ∀ (i : Nat) (S W : α), i + l.length ≤ len →
    (NN (V.val W) ∧ V.val W ≠ Fl.of R .nan) → (l ≠ [] ∨ Big (V.val W)) →
      Big (V.val (((List.range' i l.length).zip l).foldl (wstep len) (S, W)).2) := by
  induction l with
  | nil => intro i S W _ _ h; exact h.resolve_left (fun h => h rfl)
  | cons a l ih =>
    intro i S W hi hW _
    simp only [List.length_cons, List.range'_succ, List.zip_cons_cons, List.foldl_cons] at hi ⊢
    have hb : Big (V.val (W + lit (((len - i) * len : Nat) : ℚ))) := by
      rw [V.add]
      exact big_add L hW.1 hW.2 (big_lit' L V (Nat.mul_pos (by omega) (by omega)))
    exact ih (i + 1) _ _ (by omega) hb.nn (.inr hb)

omit L V in
private theorem wmaFold_eq (len : Nat) (v : List α) : wmaFold len v = ((List.range' 0 v.length).zip v).foldl (wstep len) (lit 0, lit 0) := by
  unfold wmaFold indexed
  rw [List.range_eq_range']
  rfl

private theorem zero_lax : F64.lt (lit 0 : α) (lit 0) = false := by
  rw [V.lt, V.lit, lit_zero L]
  show decide ((0 : K) < 0) = false
  simp

private theorem win_forall {n s t N : Nat} (hs : s + n ≤ t + 1) (ht : t < N) {u u' : Nat → α}
    (h : ∀ t, t < N → s ≤ t → F64.lt (u' t) (u t) = false) :
    List.Forall₂ (fun a b => F64.lt b a = false) (win u n t) (win u' n t) := by
  unfold win
  rw [List.forall₂_map_left_iff, List.forall₂_map_right_iff, List.forall₂_same]
  intro i hi
  have := List.mem_range.mp hi
  exact h _ (by omega) (by omega)

private theorem wma_lax {len s N : Nat} (hl : 1 ≤ len) {u u' : Nat → α} (h : ∀ t, t < N → s ≤ t → F64.lt (u' t) (u t) = false) {t : Nat}
    (ht : t < N) : NotLess (wma0 len (startAt s u) t) (wma0 len (startAt s u') t) := by
  have e : ∀ w : Nat → α, wma0 len (startAt s w) t = if s + len ≤ t + 1 then
      some ((wmaFold len (win w len t).reverse).1 / (wmaFold len (win w len t).reverse).2) else none := by
    intro w
    have : wma0 len (startAt s w) t = (fullWindow (startAt s w) len t).map fun v => (wmaFold len v.reverse).1 / (wmaFold len v.reverse).2 := by
      unfold wma0 fullWindow; split <;> rfl
    rw [this, fullWindow_startAt s w hl]
    split <;> rfl
  rw [e, e]
  by_cases hc : s + len ≤ t + 1
  · rw [if_pos hc, if_pos hc]
    have hf := wfold_lax L V len (List.rel_reverse (win_forall L V hc ht h)) 0 (lit 0) (lit 0) (lit 0) (zero_lax L V)
    have hlen : (win u len t).reverse.length = len := by simp [win]
    have hb := wfold_big L V len (win u len t).reverse 0 (lit 0) (lit 0) (by omega)
      (by rw [V.lit, lit_zero L]; exact ⟨nn_fin.mpr (le_refl _), fun h => by cases (h : (Ext.fin 0 : Ext K) = .nan)⟩)
      (.inl (by rw [← List.length_pos_iff]; omega))
    rw [← wmaFold_eq, ← wmaFold_eq] at hf
    rw [← wmaFold_eq] at hb
    show F64.lt (_ / _) (_ / _) = false
    rw [hf.2]
    exact lax_div' L V hb hf.1
  · rw [if_neg hc, if_neg hc]; trivial

private theorem swma_lax {s N : Nat} {u u' : Nat → α} (h : ∀ t, t < N → s ≤ t → F64.lt (u' t) (u t) = false) {t : Nat}
    (ht : t < N) : NotLess (swma0 (startAt s u) t) (swma0 (startAt s u') t) := by
  have e : ∀ w : Nat → α, swma0 (startAt s w) t = if s + 4 ≤ t + 1 then
      some (lit 0 + w (t - 3) * (lit 1 / lit 6) + w (t - 2) * (lit 2 / lit 6) + w (t - 1) * (lit 2 / lit 6) + w t * (lit 1 / lit 6))
      else none := by
    intro w
    have h2 := fullWindow_startAt s w (show 1 ≤ 4 by omega) (t := t)
    unfold fullWindow at h2
    unfold swma0
    by_cases h4 : 4 ≤ t + 1
    · rw [if_pos h4] at h2 ⊢
      rw [h2]
      by_cases hc : s + 4 ≤ t + 1
      · rw [if_pos hc, if_pos hc]
        have : win w 4 t = [w (t - 3), w (t - 2), w (t - 1), w t] := by
          obtain ⟨r, rfl⟩ : ∃ r, t = r + 3 := ⟨t - 3, by omega⟩
          simp [win, List.range_succ]
        rw [this]
      · rw [if_neg hc, if_neg hc]
    · rw [if_neg h4, if_neg (by omega)]
  rw [e, e]
  have h6 : NN (V.val (lit 1 / lit 6)) ∧ NN (V.val (lit 2 / lit 6 : α)) := by
    have b6 : Big (V.val (lit 6)) := big_lit' L V (n := 6) (by omega)
    have h0 : V.val (lit 6) ≠ Fl.of R (.fin 0) := by
      rcases b6 with e | ⟨k, hk, e⟩ <;> rw [e]
      · intro h; cases (h : (Ext.pinf : Ext K) = .fin 0)
      · exact of_fin_ne (by linarith)
    rw [V.div _ _ h0, V.div _ _ h0]
    exact ⟨NN.div L (nn_lit' L V 1) b6.nn.1, NN.div L (nn_lit' L V 2) b6.nn.1⟩
  by_cases hc : s + 4 ≤ t + 1
  · rw [if_pos hc, if_pos hc]
    have m := fun {a b : α} {c : α} (hc : NN (V.val c)) (h : F64.lt b a = false) => (lax_mul' L V hc h).2
    exact lax_add' L V (lax_add' L V (lax_add' L V (lax_add' L V (zero_lax L V) (m h6.1 (h _ (by omega) (by omega))))
      (m h6.2 (h _ (by omega) (by omega)))) (m h6.2 (h _ (by omega) (by omega)))) (m h6.1 (h _ ht (by omega)))
  · rw [if_neg hc, if_neg hc]; trivial

private theorem emaAlpha_nn' {n : Nat} (hn : 1 ≤ n) : NN (V.val (lit 2 / (lit (n : ℚ) + lit 1))) ∧
    NN (V.val (lit 1 - lit 2 / (lit (n : ℚ) + lit 1))) := by
  have h2 : (lit 2 : Fl R) = Fl.of R (.fin 2) := by
    show R.rnd ((2 : ℚ) : K) = .fin 2
    have := L.int 2 (by norm_num)
    simpa using this
  -- the divisor is at least 2
  have hd : (lit (n : ℚ) + lit 1 : Fl R) = Fl.of R .pinf ∨ ∃ k : K, 2 ≤ k ∧ (lit (n : ℚ) + lit 1 : Fl R) = Fl.of R (.fin k) := by
    rw [lit_one L]
    rcases lit_nat_ge_one L hn with e | ⟨k, hk, e⟩ <;> rw [e]
    · exact .inl rfl
    · have hm := L.mono 2 (k + 1) (by linarith)
      have hn := L.ne_nan (k + 1)
      have e2 : R.rnd 2 = .fin 2 := by have := L.int 2 (by norm_num); simpa using this
      rw [e2] at hm
      show R.rnd (k + 1) = .pinf ∨ ∃ j : K, 2 ≤ j ∧ R.rnd (k + 1) = .fin j
      generalize R.rnd (k + 1) = g at hm hn
      rcases g with _ | _ | _ | g
      · exact absurd rfl hn
      · exact .inl rfl
      · exact Bool.noConfusion hm
      · exact .inr ⟨g, of_decide_eq_true hm, rfl⟩
  have hd0 : V.val (lit (n : ℚ) + lit 1) ≠ Fl.of R (.fin 0) := by
    rw [V.add, V.lit, V.lit]
    rcases hd with e | ⟨k, hk, e⟩ <;> rw [e]
    · intro h; cases (h : (Ext.pinf : Ext K) = .fin 0)
    · exact of_fin_ne (by linarith)
  rw [V.sub, V.lit, V.div _ _ hd0, V.add, V.lit, V.lit, V.lit, h2]
  have hq : NN (Fl.of R (.fin 2) / (lit (n : ℚ) + lit 1)) := by
    rcases hd with e | ⟨k, hk, e⟩ <;> rw [e]
    · exact NN.div L (nn_fin.mpr (by norm_num)) nn_pinf
    · exact NN.div L (nn_fin.mpr (by norm_num)) (nn_fin.mpr (by linarith))
  refine ⟨hq, nn_one_sub L hq (.inr ?_)⟩
  rcases hd with e | ⟨k, hk, e⟩ <;> rw [e]
  · exact decide_eq_true (zero_le_one : (0 : K) ≤ 1)
  · have hne : k ≠ 0 := by rintro rfl; linarith
    have e : Fl.of R (.fin 2) / Fl.of R (.fin k) = Fl.of R (R.rnd (2 / k)) :=
      (if_neg hne : (if k = 0 then Fl.signInf 2 else R.rnd (2 / k)) = R.rnd (2 / k))
    rw [e]
    have hle : 2 / k ≤ ((1 : ℤ) : K) := by
      rw [Int.cast_one, div_le_one (by linarith)]; exact hk
    have := rnd_le_int L (n := 1) (by norm_num) hle
    rwa [Int.cast_one] at this

private theorem rmaAlpha_nn' {n : Nat} (hn : 1 ≤ n) : NN (V.val (rmaAlpha n : α)) ∧ NN (V.val (lit 1 - rmaAlpha n : α)) := by
  have hb := big_lit' L V hn
  have h0 : V.val (lit (n : ℚ)) ≠ Fl.of R (.fin 0) := by
    rcases hb with e | ⟨k, hk, e⟩ <;> rw [e]
    · intro h; cases (h : (Ext.pinf : Ext K) = .fin 0)
    · exact of_fin_ne (by linarith)
  have e : V.val (rmaAlpha n : α) = rmaAlpha n := by
    unfold rmaAlpha
    rw [V.div _ _ h0, V.lit, V.lit]
  rw [V.sub, V.lit, e]
  exact rmaAlpha_nn L hn

omit L V in
/-- The component, started afresh and fed `x` and `x'`, gets through both series, and the second output never compares less than the first
(both are missing at the same ticks). -/
def Spec.KeepsOrder {S : Type} (next : Nat → S → Option α → Res (Option α × S)) (new : Res S) (x x' : Nat → Option α) (N : Nat) : Prop :=
  ∃ y y', Runs next new x N y ∧ Runs next new x' N y' ∧ ∀ t, t < N → NotLess (y t) (y' t)

/-- **C86**, IEEE floats (any rounding that keeps the order, two zeros, infinities and NaN included): the exponential average with the
default factor or any factor between 0 and 1, Wilder's, the linearly weighted and the symmetrically weighted average keep the order of
their inputs *exactly*, without any tolerance: if no value of the second series compares less than that of the first, no average does. -/
theorem C86_float (d : DataProvider α) {n s N : Nat} (hn : 1 ≤ n) {u u' : Nat → α} (h : ∀ t, t < N → s ≤ t → F64.lt (u' t) (u t) = false)
    {a : α} (ha : F64.le (lit 0) a = true) (ha1 : F64.le a (lit 1) = true) :
    KeepsOrder (fun t => Ema.next ⟨d, t⟩) (Ema.withAlpha n a) (startAt s u) (startAt s u') N ∧
    KeepsOrder (fun t => Ema.next ⟨d, t⟩) (Ema.new n) (startAt s u) (startAt s u') N ∧
    KeepsOrder (fun t => Rma.next ⟨d, t⟩) (Rma.new n) (startAt s u) (startAt s u') N ∧
    KeepsOrder (fun t => Wma.next ⟨d, t⟩) (Wma.new n) (startAt s u) (startAt s u') N ∧
    KeepsOrder (fun t => Swma.next ⟨d, t⟩) Swma.new (startAt s u) (startAt s u') N ∧
    ∀ kind : MaKind, kind ≠ .sma → KeepsOrder (fun t => Ma.next ⟨d, t⟩) (Ma.new kind n) (startAt s u) (startAt s u') N := by
  have hok : ∀ w : Nat → α, EmaOk n (startAt s w) N := fun w => .inr fun t _ ⟨r, h1, h2, h3⟩ => by
    have := h3 (r + 1 - n) (by omega) (by omega)
    have hs : s ≤ r + 1 - n := by
      by_contra hc
      rw [startAt, if_pos (by omega)] at this
      simp at this
    rw [startAt, if_neg (by omega)]; rfl
  have na : NN (V.val a) := by
    right; rw [V.le, V.lit, lit_zero L] at ha; exact ha
  have na1 : NN (V.val (lit 1 - a)) := by
    rw [V.le, V.lit, lit_one L] at ha1
    rw [V.sub, V.lit]
    exact nn_one_sub L na (.inr ha1)
  have k1 : KeepsOrder (fun t => Ema.next ⟨d, t⟩) (Ema.new n) (startAt s u) (startAt s u') N :=
    ⟨_, _, ema_runs d hn _ _ N (hok u), ema_runs d hn _ _ N (hok u'), fun t ht =>
      ema_lax L V hn (emaAlpha_nn' L V hn).1 (emaAlpha_nn' L V hn).2 h ht⟩
  have k2 : KeepsOrder (fun t => Rma.next ⟨d, t⟩) (Rma.new n) (startAt s u) (startAt s u') N :=
    ⟨_, _, rma_runs d hn _ N (hok u), rma_runs d hn _ N (hok u'), fun t ht =>
      ema_lax L V hn (rmaAlpha_nn' L V hn).1 (rmaAlpha_nn' L V hn).2 h ht⟩
  have k3 : KeepsOrder (fun t => Swma.next ⟨d, t⟩) Swma.new (startAt s u) (startAt s u') N :=
    ⟨_, _, swma_runs d _ N, swma_runs d _ N, fun t ht => swma_lax L V h ht⟩
  refine ⟨⟨_, _, ema_runs d hn a _ N (hok u), ema_runs d hn a _ N (hok u'), fun t ht => ema_lax L V hn na na1 h ht⟩, k1, k2,
    ⟨_, _, wma_runs d hn _ N, wma_runs d hn _ N, fun t ht => wma_lax L V hn h ht⟩, k3, fun kind hk => ?_⟩
  have m1 := C53_ma d n (startAt s u) N
  have m2 := C53_ma d n (startAt s u') N
  cases kind with
  | sma => exact absurd rfl hk
  | ema =>
    obtain ⟨y, y', r, r', hy⟩ := k1
    exact ⟨y, y', m1.2.1.trans r, m2.2.1.trans r', hy⟩
  | rma =>
    obtain ⟨y, y', r, r', hy⟩ := k2
    exact ⟨y, y', m1.2.2.1.trans r, m2.2.2.1.trans r', hy⟩
  | swma =>
    obtain ⟨y, y', r, r', hy⟩ := k3
    exact ⟨y, y', m1.2.2.2.trans r, m2.2.2.2.trans r', hy⟩

omit L in
/-- **C86**, IEEE floats: so do the highest and the lowest value of a window, missing values allowed; the inputs must not be NaN. -/
theorem C86_extremes (d : DataProvider α) {n N : Nat} (hn : 1 ≤ n) {x x' : Nat → Option α}
    (h : ∀ t, t < N → (x t = none ∧ x' t = none) ∨ ∃ a b, x t = some a ∧ x' t = some b ∧ F64.le a b = true) :
    KeepsOrder (fun t => Highest.next ⟨d, t⟩) (Highest.new n) x x' N ∧ KeepsOrder (fun t => Lowest.next ⟨d, t⟩) (Lowest.new n) x x' N := by
  have hnan : ∀ t a b, t < N → F64.le a b = true → V.val a ≠ Fl.of R .nan ∧ V.val b ≠ Fl.of R .nan := fun t a b _ hab => by
    rw [V.le] at hab
    exact fl_le_notNan hab
  have hx : ∀ t v, t < N → x t = some v → V.val v ≠ Fl.of R .nan := fun t v ht hv => by
    rcases h t ht with ⟨e, _⟩ | ⟨a, b, e, _, hab⟩ <;> rw [hv] at e
    · cases e
    · cases e; exact (hnan t _ _ ht hab).1
  have hx' : ∀ t v, t < N → x' t = some v → V.val v ≠ Fl.of R .nan := fun t v ht hv => by
    rcases h t ht with ⟨_, e⟩ | ⟨a, b, _, e, hab⟩ <;> rw [hv] at e
    · cases e
    · cases e; exact (hnan t _ _ ht hab).2
  obtain ⟨hi, lo, r1, r2, hy⟩ := C30_ieee V d hn x N hx
  obtain ⟨hi', lo', r1', r2', hy'⟩ := C30_ieee V d hn x' N hx'
  have tr : ∀ {a b c : α}, F64.le a b = true → F64.le b c = true → F64.le a c = true := fun h1 h2 => by
    rw [V.le] at *
    exact fl_le_trans h1 h2
  have key : ∀ t, t < N → NotLess (hi t) (hi' t) ∧ NotLess (lo t) (lo' t) := by
    intro t ht
    by_cases hc : n ≤ t + 1
    · rcases (hy t ht).2 hc with ⟨e, e1, e2⟩ | ⟨p, q, e1, e2, ⟨i, i1, i2, i3⟩, ⟨j, j1, j2, j3⟩, e3⟩ <;>
        rcases (hy' t ht).2 hc with ⟨e', e1', e2'⟩ | ⟨p', q', e1', e2', ⟨i', i1', i2', i3'⟩, ⟨j', j1', j2', j3'⟩, e3'⟩
      · rw [e1, e2, e1', e2']; exact ⟨trivial, trivial⟩
      · exfalso
        rcases h i' (by omega) with ⟨_, f⟩ | ⟨a, b, f, _, _⟩
        · rw [i3'] at f; cases f
        · rw [e i' i1' i2'] at f; cases f
      · exfalso
        rcases h i (by omega) with ⟨f, _⟩ | ⟨a, b, _, f, _⟩
        · rw [i3] at f; cases f
        · rw [e' i i1 i2] at f; cases f
      · rw [e1, e2, e1', e2']
        constructor
        · rcases h i (by omega) with ⟨f, _⟩ | ⟨a, b, f, g, hab⟩
          · rw [i3] at f; cases f
          · rw [i3] at f; cases f
            exact not_lt_of_le_float V (tr hab (e3' i b i1 i2 g).1)
        · rcases h j' (by omega) with ⟨_, f⟩ | ⟨a, b, f, g, hab⟩
          · rw [j3'] at f; cases f
          · rw [j3'] at g; cases g
            exact not_lt_of_le_float V (tr (e3 j' a j1' j2' f).2 hab)
    · have a1 := (hy t ht).1 (by omega)
      have a2 := (hy' t ht).1 (by omega)
      rw [a1.1, a1.2, a2.1, a2.2]; exact ⟨trivial, trivial⟩
  exact ⟨⟨_, _, r1, r1', fun t ht => (key t ht).1⟩, ⟨_, _, r2, r2', fun t ht => (key t ht).2⟩⟩

end floats

/-! ## The simple moving average does not, in binary64 -/

section ieee
variable {K : Type} [Field K] [LinearOrder K] [IsStrictOrderedRing K] [FloorRing K] [LawfulRoots K]

/-- A simple moving average of length 2 of ones is 1. -/
theorem sma_ones {α : Type} [F64 α] (V : Valued (Rounding.binary64 K) α) (d : DataProvider α) {one : α}
    (hone : V.val one = Fl.of _ (.fin 1)) (N : Nat) :
    ∃ y, Runs (fun t => Sma.next ⟨d, t⟩) (Sma.new 2) (fun _ => some one) N y ∧
      ∀ t, 2 ≤ t → t < N → ∃ v, y t = some v ∧ V.val v = Fl.of _ (.fin 1) := by
  have hlit : ∀ m : Nat, m ≤ 2 → V.val (lit (m : ℚ)) = Fl.of _ (.fin (m : K)) := by
    intro m hm
    rw [V.lit]
    show Binary64.round (((m : ℚ)) : K) = _
    rw [show (((m : ℚ)) : K) = ((m : ℤ) : K) by push_cast; rfl, Binary64.round_int m (by rw [Nat.abs_cast]; norm_cast; omega)]
    push_cast; rfl
  have hadd : ∀ (a : α) (m : Nat), m ≤ 2 → V.val a = Fl.of _ (.fin (m : K)) →
      V.val (a + one) = Fl.of _ (.fin ((m + 1 : Nat) : K)) := by
    intro a m hm ha
    rw [V.add, ha, hone]
    show Binary64.round ((m : K) + 1) = _
    rw [show (m : K) + 1 = ((m + 1 : ℤ) : K) by push_cast; rfl, Binary64.round_int (m + 1) (by
      rw [show ((m : ℤ) + 1) = ((m + 1 : ℕ) : ℤ) by push_cast; rfl, Nat.abs_cast]; norm_cast; omega)]
    push_cast; rfl
  have hacc : ∀ t, 1 ≤ t → V.val (acc0 2 (fun _ => some one) t) = Fl.of _ (.fin ((1 : Nat) : K)) := by
    intro t ht
    induction t, ht using Nat.le_induction with
    | base => exact hadd (lit ((0 : Nat) : ℚ)) 0 (by omega) (hlit 0 (by omega))
    | succ t ht ih =>
      have e : acc0 2 (fun _ => some one) (t + 1) = acc0 2 (fun _ => some one) t + one - one := by
        show subOpt (addOpt _ (some one)) (ago _ 1 t) = _
        rw [ago, if_pos (by omega)]; rfl
      rw [e, V.sub, hadd _ 1 (by omega) ih, hone]
      show Binary64.round (((1 + 1 : Nat) : K) + -1) = _
      rw [show ((1 + 1 : Nat) : K) + -1 = ((1 : ℤ) : K) by push_cast; ring, Binary64.round_int 1 (by norm_num)]
      push_cast; rfl
  refine ⟨_, sma_runs d (by omega) (fun _ => some one) N, fun t h2 _ => ⟨rawSum0 2 (fun _ => some one) t / lit ((2 : ℕ) : ℚ), ?_, ?_⟩⟩
  · rw [sma0, if_neg (by omega), if_pos ⟨by omega, fun k _ _ => rfl⟩]
  · rw [V.div _ _ (by rw [hlit 2 (by omega)]; exact of_fin_ne (by norm_num)), hlit 2 (by omega)]
    have e : V.val (rawSum0 2 (fun _ => some one) t) = Fl.of _ (.fin ((1 + 1 : Nat) : K)) := hadd _ 1 (by omega) (hacc t (by omega))
    rw [e]
    show Fl.div (Rounding.binary64 K) (Ext.fin (((1 + 1 : Nat) : K))) (Ext.fin (((2 : Nat) : K))) = Ext.fin 1
    rw [Fl.div, if_neg (by norm_num), div_self (by norm_num)]
    show Binary64.round (1 : K) = .fin 1
    have := Binary64.round_int (K := K) 1 (by norm_num)
    rw [Int.cast_one] at this
    exact this

/-- **C86**, the exception: in binary64 the simple moving average does not keep the order. The series 2^54, 1, 1, 1, ... is nowhere below
1, 1, 1, 1, ..., but from the third tick on its `Sma(2)` is 0.5 and that of the ones is 1. -/
theorem C86_sma_breaks_order {α : Type} [F64 α] (V : Valued (Rounding.binary64 K) α) (d : DataProvider α) {big one : α}
    (hbig : V.val big = Fl.of _ (.fin (2 ^ 54))) (hone : V.val one = Fl.of _ (.fin 1)) {N : Nat} (hN : 3 ≤ N) :
    (∀ t, F64.le one (if t = 0 then big else one) = true) ∧
    ¬ KeepsOrder (fun t => Sma.next ⟨d, t⟩) (Sma.new 2) (fun _ => some one) (fun t : Nat => some (if t = 0 then big else one)) N := by
  constructor
  · intro t
    rw [V.le, hone]
    split
    · rw [hbig]
      exact decide_eq_true (one_le_pow₀ (by norm_num))
    · rw [hone]
      exact decide_eq_true (le_refl (1 : K))
  · rintro ⟨y, y', h1, h2, h3⟩
    obtain ⟨z, g1, g2⟩ := sma_ones V d hone N
    obtain ⟨z', g1', g2'⟩ := C70_sma_drifts V d hbig hone N
    obtain ⟨v, e1, e2⟩ := g2 2 (by omega) (by omega)
    obtain ⟨v', e1', e2'⟩ := g2' 2 (by omega) (by omega)
    have := h3 2 (by omega)
    rw [h1.unique g1 2 (by omega), h2.unique g1' 2 (by omega), e1, e1'] at this
    have h4 : F64.lt v' v = false := this
    rw [V.lt, e2, e2'] at h4
    have : ¬ ((1 : K) / 2 < 1) := of_decide_eq_false h4
    norm_num at this

end ieee
end Pace
