import Verif.Spec.Average
import Verif.Props.Warmup
import Verif.Props.Content5
import Verif.Lemmas.Wilder

/-!
# The indicators built on two moving averages, and the Coppock curve, in exact arithmetic (C53)

Stated on bars, for every kind and length of the averages and every price source, and for the default configurations.
-/

set_option linter.unusedSectionVars false

namespace Pace
open Spec
variable {K : Type} [Field K] [LinearOrder K] [IsStrictOrderedRing K] [RootOps K]

/-! ## Averages of a series that begins at some tick -/

theorem firstFull_startAt {β : Type} (s : Nat) (g : Nat → β) {n : Nat} (hn : 1 ≤ n) :
    FirstFull n (startAt s g) (s + n - 1) ∧ fullWindow (startAt s g) n (s + n - 1) = some (win g n (s + n - 1)) := by
  have h : fullWindow (startAt s g) n (s + n - 1) = some (win g n (s + n - 1)) := by
    rw [fullWindow_startAt s g hn, if_pos (by omega)]
  refine ⟨⟨by rw [h]; rfl, fun r hr => ?_⟩, h⟩
  rw [fullWindow_startAt s g hn, if_neg (by omega)]

theorem ema_startAt (d : DataProvider (Ex K)) {n : Nat} (hn : 1 ≤ n) (s : Nat) (u : Nat → K) (N : Nat) :
    Runs (fun t => Ema.next ⟨d, t⟩) (Ema.new n) (flo (startAt s u)) N (flo (startAt (s + n - 1) (average .ema n s u))) := by
  rw [(C23_alpha hn).1]
  rcases Nat.lt_or_ge n 2 with h1 | h1
  · obtain rfl : n = 1 := by omega
    refine (C23_ema_one d _ _ N).congr fun t _ => ?_
    by_cases h : t < s
    · simp [flo, startAt, h]
    · have e : average .ema 1 s u t = u t := by
        obtain ⟨k, rfl⟩ := Nat.exists_eq_add_of_le (Nat.le_of_not_lt h)
        show smoothed _ _ _ (s + k + 1 - (s + 1)) = _
        rw [show s + k + 1 - (s + 1) = k by omega, show (2 : K) / (((1 : Nat) : K) + 1) = 1 by push_cast; norm_num]
        cases k with
        | zero => simp [smoothed_zero, mean, win]
        | succ k => simp [smoothed_succ, show s + 1 + k = s + (k + 1) by omega]
      simp [flo, startAt, h, e]
  · obtain ⟨hf, hw⟩ := firstFull_startAt s u hn
    refine (C23_ema d h1 _ (startAt s u) N (s + n - 1) _ hf hw (fun i => u (s + n + i)) fun i _ => ?_).congr fun t _ => ?_
    · rw [startAt, if_neg (by omega), show s + n - 1 + 1 + i = s + n + i by omega]
    · by_cases h : t < s + n - 1
      · simp [flo, startAt, h]
      · simp only [flo, startAt, h, if_false, Option.map_some, average]
        rw [show t - (s + n - 1) = t + 1 - (s + n) by omega]

/-- Every kind of moving average of numbers that begin at tick `s`. -/
theorem ma_exact (d : DataProvider (Ex K)) (kind : MaKind) {n : Nat} (hn : 1 ≤ n) (s : Nat) (u : Nat → K) (N : Nat) :
    Runs (fun t => Ma.next ⟨d, t⟩) (Ma.new kind n) (flo (startAt s u)) N
      (flo (startAt (s + maLength kind n - 1) (average kind n s u))) := by
  have hm := C53_ma d n (flo (startAt s u)) N
  cases kind with
  | sma =>
    refine (hm.1.trans ((sma_startAt d hn s u N).congr fun t _ => ?_) :)
    by_cases h : t < s + n - 1
    · rw [if_neg (by omega)]; simp [flo, startAt, maLength, h]
    · rw [if_pos (by omega)]; simp [flo, startAt, maLength, h, average]
  | ema => exact (hm.2.1.trans (ema_startAt d hn s u N) :)
  | rma =>
    refine (hm.2.2.1.trans ((rma_startAt d hn s u N).congr fun t _ => ?_) :)
    by_cases h : t < s + n - 1
    · rw [if_pos (by omega)]; simp [flo, startAt, maLength, h]
    · rw [if_neg (by omega)]; simp [flo, startAt, maLength, h, average]
  | swma =>
    refine (hm.2.2.2.trans ((swma_startAt d s u N).congr fun t _ => ?_) :)
    by_cases h : t < s + 4 - 1
    · rw [if_neg (by omega)]; simp only [flo, startAt, maLength, h, if_true, Option.map_none]
    · rw [if_pos (by omega)]; simp only [flo, startAt, maLength, h, average, if_false, Option.map_some]

/-! ## Averages stay between the least and the greatest value -/

theorem mean_ge {l : List K} {lo : K} (hl : l ≠ []) (h : ∀ a ∈ l, lo ≤ a) : lo ≤ mean l := by
  have h0 : (0 : K) < l.length := by exact_mod_cast List.length_pos_iff.mpr hl
  rw [mean, le_div_iff₀ h0, mul_comm, ← nsmul_eq_mul]
  exact List.card_nsmul_le_sum l lo h

theorem smoothed_ge {a m lo : K} {u : Nat → K} {n : Nat} (ha0 : 0 ≤ a) (ha1 : a ≤ 1) (hm : lo ≤ m)
    (hu : ∀ i, i < n → lo ≤ u i) : lo ≤ smoothed a m u n := by
  induction n with
  | zero => rw [smoothed_zero]; exact hm
  | succ n ih =>
    rw [smoothed_succ]
    have h1 := mul_le_mul_of_nonneg_left (hu n (by omega)) ha0
    have h2 := mul_le_mul_of_nonneg_left (ih fun i hi => hu i (by omega)) (show 0 ≤ 1 - a by linarith)
    nlinarith

theorem win_ge {u : Nat → K} {lo : K} {n s t : Nat} (hst : s + n ≤ t + 1) (hu : ∀ k, s ≤ k → k ≤ t → lo ≤ u k) :
    ∀ a ∈ win u n t, lo ≤ a := by
  intro a ha
  obtain ⟨i, hi, rfl⟩ := List.mem_map.mp ha
  have := List.mem_range.mp hi
  exact hu _ (by omega) (by omega)

theorem runningMean_ge {n s : Nat} (hn : 1 ≤ n) {u : Nat → K} {lo : K} (k : Nat) (hu : ∀ i, s ≤ i → i < s + n + k → lo ≤ u i) :
    lo ≤ runningMean n s u k := by
  have h1 : (1 : K) ≤ n := by exact_mod_cast hn
  induction k with
  | zero =>
    have := mean_ge (l := (List.range n).map fun i => u (s + i)) (by simp; omega) (lo := lo) fun a ha => by
      obtain ⟨i, hi, rfl⟩ := List.mem_map.mp ha
      have := List.mem_range.mp hi
      exact hu _ (by omega) (by omega)
    simpa [mean, runningMean] using this
  | succ k ih =>
    rw [runningMean]
    have e1 := ih fun i h2 h3 => hu i h2 (by omega)
    have e2 := hu (s + n + k) (by omega) (by omega)
    have e3 : runningMean n s u k + (u (s + n + k) - runningMean n s u k) / n =
        runningMean n s u k * (1 - 1 / n) + u (s + n + k) * (1 / n) := by ring
    have e4 : (0 : K) ≤ 1 / n := by positivity
    have e5 : (1 : K) / n ≤ 1 := by rw [div_le_one (by linarith)]; exact h1
    rw [e3]
    nlinarith

theorem average_ge (kind : MaKind) {n s t : Nat} (hn : 1 ≤ n) (ht : s + maLength kind n ≤ t + 1) {u : Nat → K} {lo : K}
    (hu : ∀ k, s ≤ k → k ≤ t → lo ≤ u k) : lo ≤ average kind n s u t := by
  have h1 : (1 : K) ≤ n := by exact_mod_cast hn
  cases kind with
  | sma => exact mean_ge (win_ne_nil u hn) (win_ge ht hu)
  | ema =>
    have h2 : s + n ≤ t + 1 := ht
    refine smoothed_ge (by positivity) (by rw [div_le_one (by positivity)]; linarith) ?_ fun i hi => hu _ (by omega) (by omega)
    exact mean_ge (win_ne_nil u hn) (win_ge (s := s) (by omega) fun k h3 h4 => hu k h3 (by omega))
  | rma =>
    have h2 : s + n ≤ t + 1 := ht
    exact runningMean_ge hn _ fun i h3 h4 => hu i h3 (by omega)
  | swma =>
    have h2 : s + 4 ≤ t + 1 := ht
    have e1 := hu (t - 3) (by omega) (by omega)
    have e2 := hu (t - 2) (by omega) (by omega)
    have e3 := hu (t - 1) (by omega) (by omega)
    have e4 := hu t (by omega) (by omega)
    show _ ≤ (_ + 2 * _ + 2 * _ + _) / 6
    rw [le_div_iff₀ (by norm_num)]
    linarith

theorem win_map_neg (u : Nat → K) (n t : Nat) : win (fun k => -u k) n t = (win u n t).map fun a => -a := by
  simp [win, Function.comp_def]

theorem mean_neg (l : List K) : mean (l.map fun a => -a) = -mean l := by
  have : (l.map fun a => -a).sum = -l.sum := by
    induction l with
    | nil => simp
    | cons a l ih => simp only [List.map_cons, List.sum_cons, ih]; ring
  rw [mean, mean, this, List.length_map, neg_div]

theorem smoothed_neg (a m : K) (u : Nat → K) (n : Nat) : smoothed a (-m) (fun i => -u i) n = -smoothed a m u n := by
  induction n with
  | zero => simp [smoothed_zero]
  | succ n ih => rw [smoothed_succ, smoothed_succ, ih]; ring

theorem runningMean_neg (n s : Nat) (u : Nat → K) (k : Nat) : runningMean n s (fun i => -u i) k = -runningMean n s u k := by
  induction k with
  | zero =>
    have := mean_neg ((List.range n).map fun i => u (s + i))
    simpa [mean, runningMean, Function.comp_def] using this
  | succ k ih => rw [runningMean, runningMean, ih]; ring

theorem average_neg (kind : MaKind) (n s : Nat) (u : Nat → K) (t : Nat) :
    average kind n s (fun k => -u k) t = -average kind n s u t := by
  cases kind with
  | sma => show mean _ = -mean _; rw [win_map_neg, mean_neg]
  | ema =>
    show smoothed _ (mean _) _ _ = -smoothed _ (mean _) _ _
    rw [win_map_neg, mean_neg, smoothed_neg]
  | rma => exact runningMean_neg n s u _
  | swma => show (_ + 2 * _ + 2 * _ + _) / 6 = -((_ + 2 * _ + 2 * _ + _) / 6); ring

theorem average_le (kind : MaKind) {n s t : Nat} (hn : 1 ≤ n) (ht : s + maLength kind n ≤ t + 1) {u : Nat → K} {hi : K}
    (hu : ∀ k, s ≤ k → k ≤ t → u k ≤ hi) : average kind n s u t ≤ hi := by
  have := average_ge kind hn ht (u := fun k => -u k) (lo := -hi) fun k h1 h2 => neg_le_neg (hu k h1 h2)
  rw [average_neg] at this
  linarith

theorem average_pos (kind : MaKind) {n s t : Nat} (hn : 1 ≤ n) (ht : s + maLength kind n ≤ t + 1) {u : Nat → K}
    (hu : ∀ k, s ≤ k → k ≤ t → 0 < u k) : 0 < average kind n s u t := by
  obtain ⟨m, hm1, hm2⟩ : ∃ m, 0 < m ∧ ∀ k, s ≤ k → k ≤ t → m ≤ u k := by
    have hst : s ≤ t := by have := maLength_pos kind hn; omega
    obtain ⟨k, hk, hmin⟩ := Finset.exists_min_image (Finset.Icc s t) u ⟨s, by simp [hst]⟩
    rw [Finset.mem_Icc] at hk
    exact ⟨u k, hu k hk.1 hk.2, fun j h1 h2 => hmin j (by simp [h1, h2])⟩
  exact lt_of_lt_of_le hm1 (average_ge kind hn ht hm2)

/-- **C64.** Every moving average is the same function of its inputs as the textbook one (`average`), is present exactly from the
tick on which enough values have been seen, and then lies between the least and the greatest value seen so far. -/
theorem C64_average (d : DataProvider (Ex K)) (kind : MaKind) {n : Nat} (hn : 1 ≤ n) (s : Nat) (u : Nat → K) (N : Nat) :
    Runs (fun t => Ma.next ⟨d, t⟩) (Ma.new kind n) (flo (startAt s u)) N
      (flo (startAt (s + maLength kind n - 1) (average kind n s u))) ∧
    ∀ t lo hi, s + maLength kind n - 1 ≤ t → (∀ k, s ≤ k → k ≤ t → lo ≤ u k ∧ u k ≤ hi) →
      lo ≤ average kind n s u t ∧ average kind n s u t ≤ hi := by
  have h := maLength_pos kind hn
  exact ⟨ma_exact d kind hn s u N, fun t lo hi ht hu =>
    ⟨average_ge kind hn (by omega) fun k h1 h2 => (hu k h1 h2).1, average_le kind hn (by omega) fun k h1 h2 => (hu k h1 h2).2⟩⟩

/-- A constant series: every average equals the constant. -/
theorem C64_constant (kind : MaKind) {n s t : Nat} (hn : 1 ≤ n) (ht : s + maLength kind n ≤ t + 1) (k : K) :
    average kind n s (fun _ => k) t = k :=
  le_antisymm (average_le kind hn ht fun _ _ _ => le_refl k) (average_ge kind hn ht fun _ _ _ => le_refl k)

/-! ## Sources -/

theorem src_exact {d : DataProvider (Ex K)} {N : Nat} {o h l c v : Nat → K} (hb : ExBars d N o h l c v) (k : SrcKind) (t : Nat)
    (ht : t < N) : Src.next ⟨d, t⟩ k = .ok (flo (startAt 0 (sourceValue k o h l c v)) t) := by
  have e1 := ctx_barOpen hb.open_ ht
  have e2 := ctx_barHigh hb.high ht
  have e3 := ctx_barLow hb.low ht
  have e4 := ctx_barClose hb.close ht
  have e5 := ctx_barVolume hb.volume ht
  rw [startAt_zero]
  cases k <;>
    simp [Src.next, sourceValue, e1, e2, e3, e4, e5, Pace.ohlc4, Pace.hlc3, Pace.hl2, fin_div _ _ (by norm_num : (4 : K) ≠ 0),
      fin_div _ _ (by norm_num : (3 : K) ≠ 0), fin_div _ _ (by norm_num : (2 : K) ≠ 0)]

theorem opt2_startAt (f : Ex K → Ex K → Ex K) (g : K → K → K) (hf : ∀ a b, f (fin a) (fin b) = fin (g a b)) (a b : Nat)
    (x y : Nat → K) (t : Nat) :
    opt2 f (flo (startAt a x) t) (flo (startAt b y) t) = flo (startAt (max a b) fun t => g (x t) (y t)) t := by
  by_cases h1 : t < a <;> by_cases h2 : t < b <;> simp [flo, opt2, startAt, h1, h2, hf]

theorem prev_startAt (a : Nat) (x : Nat → K) (t : Nat) :
    prev (flo (startAt a x)) t = flo (startAt (a + 1) fun t => x (t - 1)) t := by
  cases t with
  | zero => simp [flo, prev, startAt]
  | succ t => simp [flo, prev, startAt]

theorem signInf_mul_ne (a b k : K) (hb : (0 : K) < b) : Fl.of (Rounding.exact K) (Fl.signInf a) * fin b ≠ fin k := by
  have key : ∀ e : Ext K, e = .pinf ∨ e = .ninf ∨ e = .nan → (Fl.mul (Rounding.exact K) e (.fin b)) ≠ .fin k := by
    rintro e (rfl | rfl | rfl) <;> simp [Fl.mul, Fl.signInf, hb, Ext.neg]
  refine key (Fl.signInf a) ?_
  unfold Fl.signInf
  split
  · exact .inl rfl
  · split
    · exact .inr (.inl rfl)
    · exact .inr (.inr rfl)

/-! ## The two-average indicators -/

section
variable {d : DataProvider (Ex K)} {N : Nat} {o h l c v : Nat → K}

/-- **C53.** MACD on bars, for any two sources and any three averages: the line is the short average of the first source minus
the long average of the second, from the tick on which both are available; the signal line is the third average of that line. -/
theorem C53_macd_exact (hb : ExBars d N o h l c v) (ss sl : SrcKind) (ka kb kg : MaKind) {a b g : Nat} (ha : 1 ≤ a) (hb' : 1 ≤ b)
    (hg : 1 ≤ g) :
    let p := max (maLength ka a) (maLength kb b) - 1
    let line := fun t => average ka a 0 (sourceValue ss o h l c v) t - average kb b 0 (sourceValue sl o h l c v) t
    Runs (noInput fun t => withSrc2 ss sl Macd.next ⟨d, t⟩)
      (do let s ← Ma.new ka a; let l ← Ma.new kb b; let g ← Ma.new kg g; return ⟨s, l, g⟩) unit N
      (fun t => (flo (startAt p line) t, flo (startAt (p + maLength kg g - 1) (average kg g p line)) t)) := by
  intro p line
  have r1 := ma_exact d ka ha 0 (sourceValue ss o h l c v) N
  have r2 := ma_exact d kb hb' 0 (sourceValue sl o h l c v) N
  have p1 := maLength_pos ka ha
  have p2 := maLength_pos kb hb'
  have e : ∀ t, opt2 (· - ·) (flo (startAt (0 + maLength ka a - 1) (average ka a 0 (sourceValue ss o h l c v))) t)
      (flo (startAt (0 + maLength kb b - 1) (average kb b 0 (sourceValue sl o h l c v))) t) = flo (startAt p line) t := fun t => by
    rw [opt2_startAt _ (· - ·) (fun a b => fin_sub a b), show max (0 + maLength ka a - 1) (0 + maLength kb b - 1) = p by omega]
  have r3 := ma_exact d kg hg p line N
  obtain ⟨q1, e1, _⟩ := r1.trace
  obtain ⟨q2, e2, _⟩ := r2.trace
  obtain ⟨q3, e3, _⟩ := r3.trace
  rw [e1] at r1; rw [e2] at r2; rw [e3] at r3
  simp only [e1, e2, e3, Res.ok_bind, Res.pure_eq]
  refine withSrc2_runs (src_exact hb ss) (src_exact hb sl) ((C53_macd d r1 r2 (r3.input_congr fun t _ => (e t).symm)).congr fun t _ => ?_)
  rw [e t]

/-- **C53.** Awesome oscillator on bars: the change from the previous bar of the difference of the two averages. -/
theorem C53_awesome_oscillator_exact (hb : ExBars d N o h l c v) (ss sl : SrcKind) (ka kb : MaKind) {a b : Nat} (ha : 1 ≤ a)
    (hb' : 1 ≤ b) :
    let diff := fun t => average ka a 0 (sourceValue ss o h l c v) t - average kb b 0 (sourceValue sl o h l c v) t
    Runs (noInput fun t => withSrc2 ss sl AwesomeOscillator.next ⟨d, t⟩)
      (do let l ← Ma.new kb b; let s ← Ma.new ka a; return .new s l) unit N
      (flo (startAt (max (maLength ka a) (maLength kb b)) fun t => diff t - diff (t - 1))) := by
  intro diff
  have r1 := ma_exact d ka ha 0 (sourceValue ss o h l c v) N
  have r2 := ma_exact d kb hb' 0 (sourceValue sl o h l c v) N
  have p1 := maLength_pos ka ha
  have p2 := maLength_pos kb hb'
  have e : (fun t => opt2 (· - ·) (flo (startAt (0 + maLength ka a - 1) (average ka a 0 (sourceValue ss o h l c v))) t)
      (flo (startAt (0 + maLength kb b - 1) (average kb b 0 (sourceValue sl o h l c v))) t)) =
      flo (startAt (max (maLength ka a) (maLength kb b) - 1) diff) := by
    funext t
    rw [opt2_startAt _ (· - ·) (fun a b => fin_sub a b), show max (0 + maLength ka a - 1) (0 + maLength kb b - 1) =
      max (maLength ka a) (maLength kb b) - 1 by omega]
  obtain ⟨q1, e1, _⟩ := r1.trace
  obtain ⟨q2, e2, _⟩ := r2.trace
  rw [e1] at r1; rw [e2] at r2
  simp only [e1, e2, Res.ok_bind, Res.pure_eq]
  refine withSrc2_runs (src_exact hb ss) (src_exact hb sl) ((C53_awesome_oscillator d r1 r2).congr fun t _ => ?_)
  rw [e, congrFun e t, prev_startAt, opt2_startAt _ (· - ·) (fun a b => fin_sub a b)]
  congr 2
  omega

/-- **C53.** Price oscillator on bars, for any source and averages: missing until both averages are available; then
`100 (short - long) / long`, or an infinity or NaN (never missing) if the long average is 0. -/
theorem C53_price_oscillator_exact (hb : ExBars d N o h l c v) (src : SrcKind) (ka kb : MaKind) {a b : Nat} (ha : 1 ≤ a)
    (hb' : 1 ≤ b) :
    let short := average ka a 0 (sourceValue src o h l c v)
    let long := average kb b 0 (sourceValue src o h l c v)
    ∃ y, Runs (noInput fun t => withSrc src PriceOscillator.next ⟨d, t⟩)
        (do let l ← Ma.new kb b; let s ← Ma.new ka a; return ⟨s, l⟩) unit N y ∧
      StartsAt (max (maLength ka a) (maLength kb b) - 1) y ∧
      ∀ t, max (maLength ka a) (maLength kb b) - 1 ≤ t →
        (long t ≠ 0 → y t = some (fin (100 * (short t - long t) / long t))) ∧ (long t = 0 → ∀ k, y t ≠ some (fin k)) := by
  intro short long
  have r1 := ma_exact d ka ha 0 (sourceValue src o h l c v) N
  have r2 := ma_exact d kb hb' 0 (sourceValue src o h l c v) N
  have p1 := maLength_pos ka ha
  have p2 := maLength_pos kb hb'
  obtain ⟨q1, e1, _⟩ := r1.trace
  obtain ⟨q2, e2, _⟩ := r2.trace
  rw [e1] at r1; rw [e2] at r2
  simp only [e1, e2, Res.ok_bind, Res.pure_eq]
  refine ⟨_, withSrc_runs (src_exact hb src) (C53_price_oscillator d r1 r2), fun t => ?_, fun t ht => ⟨fun hne => ?_, fun h0 k => ?_⟩⟩
  · by_cases h1 : t < 0 + maLength ka a - 1 <;> by_cases h2 : t < 0 + maLength kb b - 1 <;>
      simp only [flo, opt2, startAt, h1, h2, if_true, if_false, Option.map_none, Option.map_some, Option.isSome_none,
        Option.isSome_some, false_iff, true_iff, Bool.false_eq_true] <;> omega
  · have h1 : ¬ t < 0 + maLength ka a - 1 := by omega
    have h2 : ¬ t < 0 + maLength kb b - 1 := by omega
    have hne' : average kb b 0 (sourceValue src o h l c v) t ≠ 0 := hne
    simp only [flo, startAt, h1, h2, if_false, Option.map_some, opt2, fin_sub, fin_div _ _ hne', fin_lit, fin_mul]
    congr 2
    push_cast
    simp only [short, long]
    ring
  · have h1 : ¬ t < 0 + maLength ka a - 1 := by omega
    have h2 : ¬ t < 0 + maLength kb b - 1 := by omega
    simp only [flo, startAt, h1, h2, if_false, Option.map_some, opt2, fin_sub, fin_lit]
    rw [show average kb b 0 (sourceValue src o h l c v) t = 0 from h0, fin_div_zero]
    intro hk
    exact signInf_mul_ne _ _ _ (by norm_num) (Option.some.inj hk)

/-- **C53.** Volume oscillator on bars: missing until both averages of the volume are available and whenever the long average
is 0; otherwise `100 (short - long) / long`. -/
theorem C53_volume_oscillator_exact (hb : ExBars d N o h l c v) (ka kb : MaKind) {a b : Nat} (ha : 1 ≤ a) (hb' : 1 ≤ b) :
    let short := average ka a 0 v
    let long := average kb b 0 v
    Runs (noInput fun t => VolumeOscillator.next ⟨d, t⟩)
        (do let s ← Ma.new ka a; let l ← Ma.new kb b; return ⟨s, l⟩) unit N
      (fun t => if t < max (maLength ka a) (maLength kb b) - 1 ∨ long t = 0 then none
        else some (fin (100 * (short t - long t) / long t))) := by
  intro short long
  have r1 := ma_exact d ka ha 0 v N
  have r2 := ma_exact d kb hb' 0 v N
  rw [startAt_zero] at r1 r2
  have p1 := maLength_pos ka ha
  have p2 := maLength_pos kb hb'
  obtain ⟨q1, e1, _⟩ := r1.trace
  obtain ⟨q2, e2, _⟩ := r2.trace
  rw [e1] at r1; rw [e2] at r2
  simp only [e1, e2, Res.ok_bind, Res.pure_eq]
  refine (C53_volume_oscillator d hb.volume r1 r2).congr fun t _ => ?_
  rw [opt2_startAt _ (· - ·) (fun a b => fin_sub a b)]
  by_cases ht : t < max (maLength ka a) (maLength kb b) - 1
  · rw [if_pos (Or.inl ht)]
    have : t < max (0 + maLength ka a - 1) (0 + maLength kb b - 1) := by omega
    simp only [flo, startAt, this, if_true, Option.map_none, safeDiv_none_left]
  · have h1 : ¬ t < max (0 + maLength ka a - 1) (0 + maLength kb b - 1) := by omega
    have h2 : ¬ t < 0 + maLength kb b - 1 := by omega
    simp only [flo, startAt, h1, h2, if_false, Option.map_some, safeDiv_fin, ht, false_or]
    by_cases h0 : average kb b 0 v t = 0
    · rw [if_pos h0, if_pos h0]; rfl
    · rw [if_neg h0, if_neg h0]
      simp only [Option.map_some, fin_lit, fin_mul]
      congr 2
      push_cast
      ring

/-- **C54.** With positive prices the price oscillator is a number above -100 from the tick on which both averages are
available. -/
theorem C54_price_oscillator (hb : ExBars d N o h l c v) (src : SrcKind) (hpos : ∀ t, 0 < sourceValue src o h l c v t)
    (ka kb : MaKind) {a b : Nat} (ha : 1 ≤ a) (hb' : 1 ≤ b) :
    ∃ y : Nat → Option K, Runs (noInput fun t => withSrc src PriceOscillator.next ⟨d, t⟩)
        (do let l ← Ma.new kb b; let s ← Ma.new ka a; return ⟨s, l⟩) unit N (flo y) ∧
      StartsAt (max (maLength ka a) (maLength kb b) - 1) y ∧ ∀ t k, y t = some k → -100 < k := by
  obtain ⟨y, h1, h2, h3⟩ := C53_price_oscillator_exact hb src ka kb ha hb'
  have p1 := maLength_pos ka ha
  have p2 := maLength_pos kb hb'
  have hl : ∀ t, max (maLength ka a) (maLength kb b) - 1 ≤ t → 0 < average kb b 0 (sourceValue src o h l c v) t := fun t ht =>
    average_pos kb hb' (by omega) fun k _ _ => hpos k
  have hs : ∀ t, max (maLength ka a) (maLength kb b) - 1 ≤ t → 0 < average ka a 0 (sourceValue src o h l c v) t := fun t ht =>
    average_pos ka ha (by omega) fun k _ _ => hpos k
  refine ⟨startAt (max (maLength ka a) (maLength kb b) - 1) fun t => 100 * (average ka a 0 (sourceValue src o h l c v) t -
    average kb b 0 (sourceValue src o h l c v) t) / average kb b 0 (sourceValue src o h l c v) t, h1.congr fun t _ => ?_,
    fun t => ?_, fun t k hk => ?_⟩
  · by_cases ht : t < max (maLength ka a) (maLength kb b) - 1
    · have := (h2 t).not.mpr (by omega)
      simp only [flo, startAt, ht, if_true, Option.map_none]
      simpa using this
    · rw [(h3 t (by omega)).1 (hl t (by omega)).ne']
      simp only [flo, startAt, ht, if_false, Option.map_some]
  · unfold startAt; split <;> simp <;> omega
  · unfold startAt at hk
    split at hk
    · cases hk
    · rename_i ht
      cases hk
      have e1 := hl t (by omega)
      have e2 := hs t (by omega)
      rw [lt_div_iff₀ e1]
      linarith

/-- **C54.** With volumes that are not negative the volume oscillator is never below -100. -/
theorem C54_volume_oscillator (hb : ExBars d N o h l c v) (hpos : ∀ t, 0 ≤ v t) (ka kb : MaKind) {a b : Nat} (ha : 1 ≤ a)
    (hb' : 1 ≤ b) :
    ∃ y : Nat → Option K, Runs (noInput fun t => VolumeOscillator.next ⟨d, t⟩)
        (do let s ← Ma.new ka a; let l ← Ma.new kb b; return ⟨s, l⟩) unit N (flo y) ∧ ∀ t k, y t = some k → -100 ≤ k := by
  have p1 := maLength_pos ka ha
  have p2 := maLength_pos kb hb'
  refine ⟨fun t => if t < max (maLength ka a) (maLength kb b) - 1 ∨ average kb b 0 v t = 0 then none
        else some (100 * (average ka a 0 v t - average kb b 0 v t) / average kb b 0 v t),
    (C53_volume_oscillator_exact hb ka kb ha hb').congr fun t _ => ?_, fun t k hk => ?_⟩
  · dsimp only [flo]; split <;> rfl
  · dsimp only at hk
    split at hk
    · cases hk
    · rename_i ht
      rw [not_or] at ht
      cases hk
      have e1 : 0 ≤ average kb b 0 v t := average_ge kb hb' (by omega) fun k _ _ => hpos k
      have e2 : 0 ≤ average ka a 0 v t := average_ge ka ha (by omega) fun k _ _ => hpos k
      have e3 : 0 < average kb b 0 v t := lt_of_le_of_ne e1 (Ne.symm ht.2)
      rw [le_div_iff₀ e3]
      linarith

/-- **C54, the documented bound fails.** `VOLUME_OSCILLATOR_MAX_VALUE` is 100, but with the default averages and nine bars without
volume before one with volume 1, the oscillator is 233 1/3. -/
theorem C54_volume_oscillator_exceeds : ∃ (d : DataProvider (Ex K)) (v : Nat → K), ExBars d 10 v v v v v ∧ (∀ t, 0 ≤ v t) ∧
    ∃ y : Nat → Option K, Runs (noInput fun t => VolumeOscillator.next ⟨d, t⟩) VolumeOscillator.default unit 10 (flo y) ∧
      y 9 = some (700 / 3) := by
  let v : Nat → K := fun t => if t = 9 then 1 else 0
  have hb : ExBars (DataProvider.ofSeries 10 (fun t => some (fin (v t))) (fun t => some (fin (v t))) (fun t => some (fin (v t)))
      (fun t => some (fin (v t))) (fun t => some (fin (v t)))) 10 v v v v v := bars_ofSeries 10 _ _ _ _ _
  refine ⟨_, v, hb, fun t => by dsimp only [v]; split <;> norm_num, fun t => if t < max (maLength .ema 5) (maLength .ema 10) - 1 ∨
    average .ema 10 0 v t = 0 then none else some (100 * (average .ema 5 0 v t - average .ema 10 0 v t) / average .ema 10 0 v t),
    (C53_volume_oscillator_exact hb .ema .ema (a := 5) (b := 10) (by omega) (by omega)).congr fun t _ => ?_, ?_⟩
  · dsimp only [flo]; split <;> rfl
  · have e1 : average .ema 10 0 v 9 = 1 / 10 := by
      simp [average, smoothed, mean, win, v, show List.range 10 = [0,1,2,3,4,5,6,7,8,9] from rfl]
    have e2 : average .ema 5 0 v 9 = 1 / 3 := by
      simp [average, smoothed, mean, win, v, show List.range 5 = [0,1,2,3,4] from rfl]; norm_num
    simp only [e1, e2, maLength]
    norm_num

/-! ## Coppock curve -/

/-- Rate of change over `len` bars in percent; missing if there are not enough bars or the old value is 0. -/
def Spec.rateOfChange (x : Nat → K) (len t : Nat) : Option K :=
  if len ≤ t ∧ x (t - len) ≠ 0 then some (100 * (x t - x (t - len)) / x (t - len)) else none

/-- **C53.** Coppock curve on bars: the linearly weighted mean of the last `len` sums of the two rates of change; missing if one
of them is. -/
theorem C53_coppock_exact (hb : ExBars d N o h l c v) (src : SrcKind) {len a b : Nat} (hlen : 1 ≤ len) (ha : 1 ≤ a) (hb' : 1 ≤ b) :
    let x := sourceValue src o h l c v
    Runs (noInput fun t => withSrc src CoppockCurve.next ⟨d, t⟩) (CoppockCurve.new len a b) unit N
      (fun t => (fullWindow (fun t => opt2 (· + ·) (rateOfChange x a t) (rateOfChange x b t)) len t).map
        fun w => fin (weightedMean w)) := by
  intro x
  have hr : ∀ n, 1 ≤ n → Runs (fun _ => Roc.next) (Roc.new n) (flo (startAt 0 x)) N (flo (rateOfChange x n)) := fun n hn =>
    (C28_roc n hn (startAt 0 x) N).congr fun t _ => by
      rw [startAt_zero]
      dsimp only [flo]
      by_cases h1 : n ≤ t
      · by_cases h2 : x (t - n) = 0 <;> simp [ago, opt2, rateOfChange, h1, h2]
      · simp [ago, opt2, rateOfChange, h1]
  refine withSrc_runs (src_exact hb src) (C53_coppock d (hr a ha) (hr b hb') ?_)
  refine (C25_wma d hlen _ N).input_congr fun t _ => ?_
  dsimp only [flo]
  cases rateOfChange x a t <;> cases rateOfChange x b t <;> simp [opt2]

end

end Pace
