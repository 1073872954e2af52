import Verif.Props.Flat
import Verif.Props.Order

/-!
# C87: a market that only rises, or only falls
-/

set_option linter.unusedSectionVars false

namespace Pace
open Spec

section averages
variable {K : Type} [Field K] [LinearOrder K] [IsStrictOrderedRing K] [RootOps K]

/-- Every value is above the one before. -/
def Spec.Rises (u : Nat → K) : Prop := ∀ t, u t < u (t + 1)
/-- Every value is below the one before. -/
def Spec.Falls (u : Nat → K) : Prop := ∀ t, u (t + 1) < u t

theorem Spec.Rises.lt {u : Nat → K} (h : Rises u) {i j : Nat} (hij : i < j) : u i < u j := strictMono_nat_of_lt_succ h hij
theorem Spec.Falls.lt {u : Nat → K} (h : Falls u) {i j : Nat} (hij : i < j) : u j < u i := strictAnti_nat_of_succ_lt h hij
theorem Spec.Falls.neg {u : Nat → K} (h : Falls u) : Rises fun t => -u t := fun t => neg_lt_neg (h t)

/-! ## Shorter averages lie closer to the price -/

theorem mean_gt {l : List K} {lo : K} (hl : l ≠ []) (h : ∀ a ∈ l, lo < a) : lo < mean l := by
  unfold mean
  have hp : (0 : K) < l.length := by exact_mod_cast List.length_pos_iff.mpr hl
  rw [lt_div_iff₀ hp]
  clear hp
  induction l with
  | nil => exact absurd rfl hl
  | cons a l ih =>
    rw [List.sum_cons, List.length_cons]
    have h1 := h a (by simp)
    by_cases h2 : l = []
    · subst h2; simpa using h1
    · have := ih h2 fun b hb => h b (by simp [hb])
      push_cast
      linarith

private theorem sma_shorter {u : Nat → K} (h : Rises u) {n m t : Nat} (hn : 1 ≤ n) (hm : n < m) (ht : m ≤ t + 1) :
    mean (win u m t) < mean (win u n t) := by
  have step : ∀ k, 1 ≤ k → k + 1 ≤ t + 1 → mean (win u (k + 1) t) < mean (win u k t) := fun k hk hk' => by
    have hlt : u (t - k) < mean (win u k t) := mean_gt (by intro e; have := congrArg List.length e; simp at this; omega) fun a ha => by
      obtain ⟨i, h1, h2, rfl⟩ := (mem_win (by omega)).mp ha
      exact h.lt (by omega)
    have hk0 : (0 : K) < k := by exact_mod_cast hk
    have e : mean (win u (k + 1) t) = (u (t - k) + k * mean (win u k t)) / (k + 1) := by
      simp only [mean, win_cons u hk', List.sum_cons, List.length_cons, win_length]
      field_simp
      push_cast
      ring
    rw [e, div_lt_iff₀ (by linarith)]
    linarith
  induction m with
  | zero => omega
  | succ m ih =>
    rcases Nat.lt_or_ge n m with h1 | h1
    · exact lt_trans (step m (by omega) ht) (ih h1 (by omega))
    · obtain rfl : m = n := by omega
      exact step m hn ht

/-- A smoothed mean: at first the mean of the first `n` values, then at each tick moved by the factor `a` towards the new value. -/
private def slow (a : K) (n s : Nat) (u : Nat → K) : Nat → K
  | 0 => mean (win u n (s + n - 1))
  | k + 1 => slow a n s u k + a * (u (s + n + k) - slow a n s u k)

private theorem average_slow {u : Nat → K} {n s t : Nat} (hn : 1 ≤ n) :
    average .ema n s u t = slow (2 / ((n : K) + 1)) n s u (t + 1 - (s + n)) ∧
    average .rma n s u t = slow (1 / (n : K)) n s u (t + 1 - (s + n)) := by
  constructor
  · show smoothed _ _ _ _ = _
    generalize t + 1 - (s + n) = k
    induction k with
    | zero => rw [smoothed_zero, slow]
    | succ k ih => rw [smoothed_succ, slow, ih]; ring
  · show runningMean _ _ _ _ = _
    generalize t + 1 - (s + n) = k
    induction k with
    | zero =>
      simp only [runningMean, slow, mean, win, show s + n - 1 + 1 - n = s by omega, List.length_map, List.length_range]
    | succ k ih => rw [runningMean, slow, ih]; ring

private theorem mean_snoc {u : Nat → K} {s k : Nat} (hk : 1 ≤ k) :
    mean (win u (k + 1) (s + k)) = (u (s + k) + k * mean (win u k (s + k - 1))) / (k + 1) := by
  have := win_succ u (n := k) (t := s + k - 1) (by omega)
  rw [show s + k - 1 + 1 = s + k by omega] at this
  have hk0 : (0 : K) < k := by exact_mod_cast hk
  simp only [mean, this, List.sum_append, List.length_append, win_length, List.sum_singleton, List.length_singleton]
  field_simp
  push_cast
  ring

private theorem mean_before {u : Nat → K} (h : Rises u) {s k t : Nat} (hk : 1 ≤ k) (ht : s + k ≤ t) : mean (win u k (s + k - 1)) < u t := by
  have := mean_gt (l := (win u k (s + k - 1)).map fun a => -a) (lo := -u t)
    (by intro e; have := congrArg List.length e; simp at this; omega) fun a ha => by
      obtain ⟨b, hb, rfl⟩ := List.mem_map.mp ha
      obtain ⟨i, h1, h2, rfl⟩ := (mem_win (by omega)).mp hb
      exact neg_lt_neg (h.lt (by omega))
  rw [mean_neg] at this
  linarith

private theorem slow_lt_next {u : Nat → K} (h : Rises u) {a : K} (ha1 : a ≤ 1) {n s : Nat} (hn : 1 ≤ n) (k : Nat) :
    slow a n s u k < u (s + n + k) := by
  induction k with
  | zero => exact mean_before h hn (by omega)
  | succ k ih =>
    rw [slow]
    have h2 : u (s + n + k) < u (s + n + (k + 1)) := h _
    nlinarith

private theorem slow_gt_mean {u : Nat → K} (h : Rises u) {a : K} (ha1 : a ≤ 1) {n s : Nat} (hn : 1 ≤ n) (han : 1 < a * (n + 1)) (j : Nat) :
    mean (win u (n + (j + 1)) (s + n + j)) < slow a n s u (j + 1) := by
  have ha0 : 0 < a := by
    by_contra hc
    have : (0 : K) < n + 1 := by positivity
    nlinarith
  have key : ∀ j, mean (win u (n + j) (s + n + j - 1)) ≤ slow a n s u j →
      mean (win u (n + (j + 1)) (s + n + j)) < slow a n s u (j + 1) := fun j hj => by
    have e := mean_snoc (u := u) (s := s) (k := n + j) (by omega)
    rw [← Nat.add_assoc s n j] at e
    rw [show n + (j + 1) = n + j + 1 by omega, e, slow]
    have hb := mean_before h (s := s) (k := n + j) (t := s + n + j) (by omega) (by omega)
    rw [← Nat.add_assoc s n j] at hb
    have hk : (0 : K) < ((n + j : ℕ) : K) + 1 := by positivity
    rw [div_lt_iff₀ hk]
    have han' : 1 < a * (((n + j : ℕ) : K) + 1) := by
      have : (n : K) ≤ ((n + j : ℕ) : K) := by exact_mod_cast Nat.le_add_right n j
      nlinarith
    generalize ((n + j : ℕ) : K) = c at *
    generalize mean (win u (n + j) (s + n + j - 1)) = M at *
    generalize slow a n s u j = f at *
    generalize u (s + n + j) = x at *
    have h1 : 0 ≤ (1 - a) * (c + 1) * (f - M) := mul_nonneg (mul_nonneg (by linarith) hk.le) (by linarith)
    have h2 : 0 < (a * (c + 1) - 1) * (x - M) := mul_pos (by linarith) (by linarith)
    nlinarith
  induction j with
  | zero => exact key 0 (le_of_eq (by rw [slow]; rfl))
  | succ j ih => exact key (j + 1) (by rw [show s + n + (j + 1) - 1 = s + n + j by omega]; exact ih.le)

private theorem slow_shorter {u : Nat → K} (h : Rises u) {a b : K} (ha1 : a ≤ 1) (hb0 : b < 1) (hab : b ≤ a) {n m s : Nat} (hn : 1 ≤ n)
    (hm : n < m) (han : 1 < a * (n + 1)) (k : Nat) : slow b m s u k < slow a n s u (m - n + k) := by
  obtain ⟨j, rfl⟩ : ∃ j, m = n + (j + 1) := ⟨m - n - 1, by omega⟩
  rw [show n + (j + 1) - n + k = j + 1 + k by omega]
  induction k with
  | zero =>
    have := slow_gt_mean h ha1 (s := s) hn han j
    rw [slow, show s + (n + (j + 1)) - 1 = s + n + j by omega]
    exact this
  | succ k ih =>
    have hx := slow_lt_next h ha1 (s := s) hn (j + 1 + k)
    rw [show j + 1 + (k + 1) = j + 1 + k + 1 by omega, slow, slow, show s + (n + (j + 1)) + k = s + n + (j + 1 + k) by omega]
    generalize slow a n s u (j + 1 + k) = f at *
    generalize slow b (n + (j + 1)) s u k = g at *
    generalize u (s + n + (j + 1 + k)) = x at *
    have h1 : 0 ≤ (a - b) * (x - f) := mul_nonneg (by linarith) (by linarith)
    have h2 : 0 < (1 - b) * (f - g) := mul_pos (by linarith) (by linarith)
    nlinarith

/-- While the series only rises, the average over fewer values lies above the one over more, and below the last value. -/
theorem average_shorter {kind : MaKind} (hk : kind ≠ .swma) {n m s t : Nat} (hn : 1 ≤ n) (hm : n < m) (ht : s + m ≤ t + 1) {u : Nat → K}
    (h : Rises u) : average kind m s u t < average kind n s u t := by
  have hn0 : (0 : K) < n := by exact_mod_cast hn
  have hnm : (n : K) < m := by exact_mod_cast hm
  have hn1 : (1 : K) ≤ n := by exact_mod_cast hn
  have ek : m - n + (t + 1 - (s + m)) = t + 1 - (s + n) := by omega
  cases kind with
  | sma => exact sma_shorter h hn hm (by omega)
  | ema =>
    rw [(average_slow hn).1, (average_slow (by omega)).1, ← ek]
    refine slow_shorter h ?_ ?_ ?_ hn hm ?_ _
    · rw [div_le_one (by linarith)]; linarith
    · rw [div_lt_one (by linarith)]; linarith
    · exact div_le_div_of_nonneg_left (by norm_num) (by linarith) (by linarith)
    · rw [div_mul_cancel₀ _ (by linarith)]; norm_num
  | rma =>
    rw [(average_slow hn).2, (average_slow (by omega)).2, ← ek]
    refine slow_shorter h ?_ ?_ ?_ hn hm ?_ _
    · rw [div_le_one (by linarith)]; linarith
    · rw [div_lt_one (by linarith)]; linarith
    · exact div_le_div_of_nonneg_left (by norm_num) (by linarith) (by linarith)
    · rw [div_mul_eq_mul_div, lt_div_iff₀ hn0]; linarith
  | swma => exact absurd rfl hk

theorem average_longer {kind : MaKind} (hk : kind ≠ .swma) {n m s t : Nat} (hn : 1 ≤ n) (hm : n < m) (ht : s + m ≤ t + 1) {u : Nat → K}
    (h : Falls u) : average kind n s u t < average kind m s u t := by
  have := average_shorter hk hn hm ht h.neg
  rw [average_neg, average_neg] at this
  linarith

private theorem maLength_eq {kind : MaKind} (hk : kind ≠ .swma) (n : Nat) : maLength kind n = n := by
  cases kind <;> first | rfl | exact absurd rfl hk

theorem average_below {kind : MaKind} (hk : kind ≠ .swma) {n s t : Nat} (hn : 2 ≤ n) (ht : s + n ≤ t + 1) {u : Nat → K} (h : Rises u) :
    average kind n s u t < u t :=
  lt_of_lt_of_le (average_shorter hk (le_refl 1) hn ht h) <|
    average_le kind (le_refl 1) (by rw [maLength_eq hk]; omega) fun k _ hk => by
      rcases Nat.lt_or_ge k t with h1 | h1
      · exact (h.lt h1).le
      · rw [show k = t by omega]

theorem average_above {kind : MaKind} (hk : kind ≠ .swma) {n s t : Nat} (hn : 2 ≤ n) (ht : s + n ≤ t + 1) {u : Nat → K} (h : Falls u) :
    u t < average kind n s u t := by
  have := average_below hk hn ht h.neg
  rw [average_neg] at this
  linarith

/-- Open, high, low and close of every bar are above those of the bar before. -/
def Spec.AllRise (o h l c : Nat → K) : Prop := Rises o ∧ Rises h ∧ Rises l ∧ Rises c
/-- Open, high, low and close of every bar are below those of the bar before. -/
def Spec.AllFall (o h l c : Nat → K) : Prop := Falls o ∧ Falls h ∧ Falls l ∧ Falls c

variable {d : DataProvider (Ex K)} {N : Nat} {o h l c v : Nat → K}

theorem Spec.AllRise.source (hr : AllRise o h l c) {s : SrcKind} (hs : s ≠ .volume) : Rises (sourceValue s o h l c v) := by
  obtain ⟨h1, h2, h3, h4⟩ := hr
  intro t
  have h1 := h1 t
  have h2 := h2 t
  have h3 := h3 t
  have h4 := h4 t
  cases s
  all_goals first | exact absurd rfl hs | exact h1 | exact h2 | exact h3 | exact h4 | skip
  all_goals
    simp only [sourceValue]
    linarith

theorem Spec.AllFall.source (hr : AllFall o h l c) {s : SrcKind} (hs : s ≠ .volume) : Falls (sourceValue s o h l c v) := by
  obtain ⟨h1, h2, h3, h4⟩ := hr
  intro t
  have h1 := h1 t
  have h2 := h2 t
  have h3 := h3 t
  have h4 := h4 t
  cases s
  all_goals first | exact absurd rfl hs | exact h1 | exact h2 | exact h3 | exact h4 | skip
  all_goals
    simp only [sourceValue]
    linarith

/-- **C87.** While prices only rise, the price lies above its simple, exponential and Wilder averages, and of two averages of the same kind
the one over fewer bars lies above the other; while prices only fall it is the other way round.  At every tick on which both averages have
a value, for all lengths and price sources. -/
theorem C87_averages (hb : ExBars d N o h l c v) {s : SrcKind} (hs : s ≠ .volume) {kind : MaKind} (hk : kind ≠ .swma) {n m : Nat}
    (hn : 2 ≤ n) (hm : n < m) :
    ∃ a b, Runs (noInput fun t => withSrc s Ma.next ⟨d, t⟩) (Ma.new kind n) unit N (flo (startAt (n - 1) a)) ∧
      Runs (noInput fun t => withSrc s Ma.next ⟨d, t⟩) (Ma.new kind m) unit N (flo (startAt (m - 1) b)) ∧
      ∀ t, m - 1 ≤ t →
        (AllRise o h l c → b t < a t ∧ a t < sourceValue s o h l c v t) ∧
        (AllFall o h l c → sourceValue s o h l c v t < a t ∧ a t < b t) := by
  have hr : ∀ n, 1 ≤ n → Runs (noInput fun t => withSrc s Ma.next ⟨d, t⟩) (Ma.new kind n) unit N
      (flo (startAt (n - 1) (average kind n 0 (sourceValue s o h l c v)))) := fun n hn => by
    have := withSrc_runs (src_exact hb s) (ma_exact d kind hn 0 (sourceValue s o h l c v) N)
    rwa [maLength_eq hk, Nat.zero_add] at this
  refine ⟨_, _, hr n (by omega), hr m (by omega), fun t ht => ⟨fun h => ⟨?_, ?_⟩, fun h => ⟨?_, ?_⟩⟩⟩
  · exact average_shorter hk (by omega) hm (by omega) (h.source hs)
  · exact average_below hk hn (by omega) (h.source hs)
  · exact average_above hk hn (by omega) (h.source hs)
  · exact average_longer hk (by omega) hm (by omega) (h.source hs)

end averages

/-! ## Values of the indicators -/

variable {K : Type} [Field K] [LinearOrder K] [IsStrictOrderedRing K] [LawfulRoots K]
variable {d : DataProvider (Ex K)} {N : Nat} {o h l c v : Nat → K}

section series
variable {p : Nat → K}

private theorem loss_rises (hp : Rises p) (t : Nat) : loss p t = 0 := by
  cases t with
  | zero => simp [loss]
  | succ t => exact max_eq_right (sub_nonpos.mpr (hp t).le)
private theorem gain_rises (hp : Rises p) {t : Nat} (ht : 1 ≤ t) : 0 < gain p t := by
  obtain ⟨t, rfl⟩ : ∃ s, t = s + 1 := ⟨t - 1, by omega⟩
  exact lt_of_lt_of_le (sub_pos.mpr (hp t)) (le_max_left _ _)
private theorem gain_falls (hp : Falls p) (t : Nat) : gain p t = 0 := by
  cases t with
  | zero => simp [gain]
  | succ t => exact max_eq_right (sub_nonpos.mpr (hp t).le)
private theorem loss_falls (hp : Falls p) {t : Nat} (ht : 1 ≤ t) : 0 < loss p t := by
  obtain ⟨t, rfl⟩ : ∃ s, t = s + 1 := ⟨t - 1, by omega⟩
  exact lt_of_lt_of_le (sub_pos.mpr (hp t)) (le_max_left _ _)

private theorem moves_rises (hp : Rises p) {n : Nat} (hn : 2 ≤ n) : Moves p n := ⟨1, by omega, (hp 0).ne'⟩
private theorem moves_falls (hp : Falls p) {n : Nat} (hn : 2 ≤ n) : Moves p n := ⟨1, by omega, (hp 0).ne⟩

private theorem wilder_zero {n : Nat} (hn : 2 ≤ n) {g : Nat → K} (h : ∀ t, g t = 0) (k : Nat) : wilder n g k = 0 :=
  (wilder_zero_iff hn (fun t => (h t).ge) k).mpr fun i _ _ => h i
private theorem wilder_ne {n : Nat} (hn : 2 ≤ n) {g : Nat → K} (h0 : ∀ t, 0 ≤ g t) (h : 0 < g 1) (k : Nat) : wilder n g k ≠ 0 := fun e =>
  h.ne' ((wilder_zero_iff hn h0 k).mp e 1 (le_refl 1) (by omega))

private theorem rsi_rises (hp : Rises p) {n : Nat} (hn : 2 ≤ n) : rsiSeries n p = startAt n fun _ => 100 := by
  unfold rsiSeries
  congr 1
  funext t
  rw [wilder_zero hn (loss_rises hp), add_zero, mul_div_assoc, div_self (wilder_ne hn (gain_nonneg p) (gain_rises hp (le_refl 1)) _), mul_one]

private theorem rsi_falls (hp : Falls p) {n : Nat} (hn : 2 ≤ n) : rsiSeries n p = startAt n fun _ => 0 := by
  unfold rsiSeries
  congr 1
  funext t
  rw [wilder_zero hn (gain_falls hp), mul_zero, zero_div]

private theorem ownStochastic_const {x : Nat → Option K} {k : K} (hx : ∀ t w, x t = some w → w = k) (m t : Nat) :
    ownStochastic x m t = none := by
  have key : ∀ t, ∀ hi lo, Spec.highest x m t = some hi → Spec.lowest x m t = some lo → hi = lo := fun t hi lo h1 h2 => by
    have hl : m ≤ t + 1 := by
      by_contra hc
      rw [Spec.highest, if_neg hc] at h1
      cases h1
    obtain ⟨⟨i, _, _, e⟩, _⟩ := ((C30_bounds x hl hi).1).mp h1
    obtain ⟨⟨j, _, _, e'⟩, _⟩ := ((C30_bounds x hl lo).2).mp h2
    rw [hx _ _ e, hx _ _ e']
  induction t with
  | zero =>
    unfold ownStochastic
    split
    · rename_i h1 h2 h3
      rw [if_pos (key _ _ _ h2 h3)]
    · rfl
  | succ t ih =>
    unfold ownStochastic
    split
    · rename_i h1 h2 h3
      rw [if_pos (key _ _ _ h2 h3), ih]
    · rfl

private theorem smaSeries_none {x : Nat → Option K} (hx : ∀ t, x t = none) {n : Nat} (hn : 1 ≤ n) (t : Nat) : smaSeries x n t = none := by
  unfold smaSeries fullWindow
  by_cases hc : n ≤ t + 1
  · rw [if_pos hc]
    rcases he : allSome (win x n t) with _ | w
    · rfl
    · exfalso
      rw [allSome_eq_some] at he
      have : none ∈ win x n t := (mem_win hc).mpr ⟨t, by omega, le_refl t, hx t⟩
      rw [he] at this
      simp at this
  · rw [if_neg hc]; rfl

private theorem stochRsi_const {n m k q : Nat} (hn : 2 ≤ n) (hm : 1 ≤ m) (hk : 1 ≤ k) (hq : 1 ≤ q) (hp : Moves p n) {a : K}
    (hr : rsiSeries n p = startAt n fun _ => a) (N : Nat) :
    Runs (fun t => StochRsi.next ⟨d, t⟩) (StochRsi.new n m k q) (fun t => some (fin (p t))) N (fun _ => (none, none)) := by
  refine (C53_stoch_rsi_exact d hn hm hk hq hp N).congr fun t _ => ?_
  have h1 : ∀ t, ownStochastic (rsiSeries n p) m t = none := ownStochastic_const (k := a) (fun t w => by
    rw [hr, startAt]
    split
    · intro h; cases h
    · intro h; exact (Option.some.inj h).symm) m
  have h2 := smaSeries_none h1 hk
  have h3 := smaSeries_none h2 hq
  show (Option.map fin _, Option.map fin _) = _
  rw [h2, h3]; rfl

private theorem win_sum_pos {g : Nat → K} {n t : Nat} (hn : 1 ≤ n) (ht : n ≤ t + 1) (h : ∀ k, t + 1 - n ≤ k → k ≤ t → 0 < g k) : 0 < (win g n t).sum :=
  List.sum_pos _ (fun a ha => by
    obtain ⟨i, h1, h2, rfl⟩ := (mem_win ht).mp ha
    exact h i h1 h2) (by intro e; have := congrArg List.length e; simp at this; omega)
private theorem win_sum_zero {g : Nat → K} {n t : Nat} (h : ∀ k, g k = 0) : (win g n t).sum = 0 :=
  List.sum_eq_zero fun a ha => by
    simp only [win, List.mem_map] at ha
    obtain ⟨i, _, rfl⟩ := ha
    exact h _

private theorem cmo_rises (hp : Rises p) {n : Nat} (hn : 2 ≤ n) :
    Runs (fun t => ChandeMomentumOscillator.next ⟨d, t⟩) (ChandeMomentumOscillator.new n) (fun t => some (fin (p t))) N
      (flo (startAt n fun _ => 100)) := by
  refine (C53_cmo_exact hn p).congr fun t _ => ?_
  show _ = Option.map fin (if t < n then none else some _)
  by_cases ht : t < n
  · rw [if_pos ht, if_pos ht]; rfl
  · have hG := win_sum_pos (g := gain p) (n := n) (t := t) (by omega) (by omega) fun k h1 _ => gain_rises hp (by omega)
    rw [if_neg ht, if_neg ht]
    simp only [win_sum_zero (loss_rises hp), add_zero, sub_zero]
    rw [if_neg hG.ne', mul_div_assoc, div_self hG.ne', mul_one]; rfl

private theorem cmo_falls (hp : Falls p) {n : Nat} (hn : 2 ≤ n) :
    Runs (fun t => ChandeMomentumOscillator.next ⟨d, t⟩) (ChandeMomentumOscillator.new n) (fun t => some (fin (p t))) N
      (flo (startAt n fun _ => -100)) := by
  refine (C53_cmo_exact hn p).congr fun t _ => ?_
  show _ = Option.map fin (if t < n then none else some _)
  by_cases ht : t < n
  · rw [if_pos ht, if_pos ht]; rfl
  · have hG := win_sum_pos (g := loss p) (n := n) (t := t) (by omega) (by omega) fun k h1 _ => loss_falls hp (by omega)
    rw [if_neg ht, if_neg ht]
    simp only [win_sum_zero (gain_falls hp), zero_add, zero_sub]
    rw [if_neg hG.ne', mul_div_assoc, neg_div, div_self hG.ne']
    simp

private theorem relvol_rises (hp : Rises p) {n m : Nat} (hn : 2 ≤ n) (hm : 1 ≤ m) (hnm : m = 1 ∨ n ≤ m + 2) :
    ∃ y, Runs (fun t => RelativeVolatilityIndex.next ⟨d, t⟩) (RelativeVolatilityIndex.new n m) (fun t => some (fin (p t))) N y ∧
      ∀ t, y t = none ∨ y t = some (fin 100) := by
  refine ⟨_, C53_relative_volatility_exact d hn hm hnm p N, fun t => ?_⟩
  have h0 := emaSeries_zero (x := downDeviation p n) (fun t w => by
    cases t with
    | zero => intro h; simp [downDeviation] at h
    | succ t =>
      unfold downDeviation
      rw [if_neg (by omega), if_pos (show p (t + 1 - 1) < p (t + 1) from hp t)]
      intro h; exact (Option.some.inj h).symm) m t
  rcases emaSeries (upDeviation p n) m t with _ | u
  · exact .inl rfl
  rcases he : emaSeries (downDeviation p n) m t with _ | w
  · exact .inl rfl
  obtain rfl := h0 w he
  simp only [opt2, Option.join_some, add_zero]
  by_cases hu : u = 0
  · exact .inl (if_pos hu)
  · right
    rw [if_neg hu, mul_div_assoc, div_self hu, mul_one]

private theorem relvol_falls (hp : Falls p) {n m : Nat} (hn : 2 ≤ n) (hm : 1 ≤ m) (hnm : m = 1 ∨ n ≤ m + 2) :
    ∃ y, Runs (fun t => RelativeVolatilityIndex.next ⟨d, t⟩) (RelativeVolatilityIndex.new n m) (fun t => some (fin (p t))) N y ∧
      ∀ t, y t = none ∨ y t = some (fin 0) := by
  refine ⟨_, C53_relative_volatility_exact d hn hm hnm p N, fun t => ?_⟩
  have h0 := emaSeries_zero (x := upDeviation p n) (fun t w => by
    cases t with
    | zero => intro h; simp [upDeviation] at h
    | succ t =>
      unfold upDeviation
      rw [if_neg (by omega), if_pos (show p (t + 1) ≤ p (t + 1 - 1) from (hp t).le)]
      intro h; exact (Option.some.inj h).symm) m t
  rcases he : emaSeries (upDeviation p n) m t with _ | u
  · exact .inl rfl
  rcases emaSeries (downDeviation p n) m t with _ | w
  · exact .inl rfl
  obtain rfl := h0 u he
  simp only [opt2, Option.join_some, zero_add, mul_zero, zero_div]
  by_cases hu : w = 0
  · exact .inl (if_pos hu)
  · exact .inr (if_neg hu)

private theorem prank_rises (hp : Rises p) {n : Nat} (hn : 1 ≤ n) :
    Runs (fun t => Prank.next ⟨d, t⟩) (Prank.new n) (fun t => some (fin (p t))) N (flo (startAt n fun _ => 100)) := by
  refine Runs.congr (C29_prank d hn (fun t => some (p t)) N) fun t _ => ?_
  show _ = Option.map fin (if t < n then none else some _)
  by_cases ht : n ≤ t
  · rw [if_pos ht, if_neg (by omega)]
    have : (List.range n).countP (fun i => (some (p (t - 1 - i))).any (· ≤ p t)) = n := by
      conv_rhs => rw [← List.length_range (n := n)]
      rw [List.countP_eq_length]
      intro i hi
      have := List.mem_range.mp hi
      simpa using (hp.lt (show t - 1 - i < t by omega)).le
    have h0 : (n : K) ≠ 0 := by exact_mod_cast (by omega : n ≠ 0)
    simp only [Option.map_some]
    rw [this, mul_div_assoc, div_self h0, mul_one]
  · rw [if_neg ht, if_pos (by omega)]; rfl

private theorem prank_falls (hp : Falls p) {n : Nat} (hn : 1 ≤ n) :
    Runs (fun t => Prank.next ⟨d, t⟩) (Prank.new n) (fun t => some (fin (p t))) N (flo (startAt n fun _ => 0)) := by
  refine Runs.congr (C29_prank d hn (fun t => some (p t)) N) fun t _ => ?_
  show _ = Option.map fin (if t < n then none else some _)
  by_cases ht : n ≤ t
  · rw [if_pos ht, if_neg (by omega)]
    have : (List.range n).countP (fun i => (some (p (t - 1 - i))).any (· ≤ p t)) = 0 := by
      rw [List.countP_eq_zero]
      intro i hi
      have := List.mem_range.mp hi
      simpa using hp.lt (show t - 1 - i < t by omega)
    simp only [Option.map_some]
    rw [this]; simp
  · rw [if_neg ht, if_pos (by omega)]; rfl

end series

section bars

private theorem aroon_rises (hb : ExBars d N o h l c v) (hh : Rises h) (hl : Rises l) {n : Nat} (hn : 1 ≤ n) :
    Runs (noInput fun t => Aroon.next ⟨d, t⟩) (Aroon.new n) unit N
      (fun t => (flo (startAt (n - 1) fun _ => 100) t, flo (startAt (n - 1) fun _ => 100 / (n : K)) t)) := by
  obtain ⟨a, b, h1, h2⟩ := C53_aroon_exact hb hn
  refine h1.congr fun t ht => ?_
  show _ = (Option.map fin (if t < n - 1 then none else some _), Option.map fin (if t < n - 1 then none else some _))
  have h0 : (n : K) ≠ 0 := by exact_mod_cast (by omega : n ≠ 0)
  by_cases hc : t + 1 < n
  · rw [if_pos hc, if_pos (by omega), if_pos (by omega)]; rfl
  · obtain ⟨⟨a1, a2⟩, b1, b2⟩ := h2 t ht (by omega)
    have ea : a t = 0 := by
      by_contra h
      exact absurd (hh.lt (show t - a t < t by omega)) (not_lt.mpr (a2 0 (by omega)).1)
    have eb : b t = n - 1 := by
      by_contra h
      exact absurd (hl.lt (show t - (n - 1) < t - b t by omega)) (not_lt.mpr (b2 (n - 1) (by omega)).1)
    rw [if_neg hc, if_neg (by omega), if_neg (by omega), ea, eb]
    rw [Nat.cast_sub hn]
    simp [h0]

private theorem aroon_falls (hb : ExBars d N o h l c v) (hh : Falls h) (hl : Falls l) {n : Nat} (hn : 1 ≤ n) :
    Runs (noInput fun t => Aroon.next ⟨d, t⟩) (Aroon.new n) unit N
      (fun t => (flo (startAt (n - 1) fun _ => 100 / (n : K)) t, flo (startAt (n - 1) fun _ => 100) t)) := by
  obtain ⟨a, b, h1, h2⟩ := C53_aroon_exact hb hn
  refine h1.congr fun t ht => ?_
  show _ = (Option.map fin (if t < n - 1 then none else some _), Option.map fin (if t < n - 1 then none else some _))
  have h0 : (n : K) ≠ 0 := by exact_mod_cast (by omega : n ≠ 0)
  by_cases hc : t + 1 < n
  · rw [if_pos hc, if_pos (by omega), if_pos (by omega)]; rfl
  · obtain ⟨⟨a1, a2⟩, b1, b2⟩ := h2 t ht (by omega)
    have eb : b t = 0 := by
      by_contra h
      exact absurd (hl.lt (show t - b t < t by omega)) (not_lt.mpr (b2 0 (by omega)).1)
    have ea : a t = n - 1 := by
      by_contra h
      exact absurd (hh.lt (show t - (n - 1) < t - a t by omega)) (not_lt.mpr (a2 (n - 1) (by omega)).1)
    rw [if_neg hc, if_neg (by omega), if_neg (by omega), ea, eb]
    rw [Nat.cast_sub hn]
    simp [h0]

private theorem highest_rises {u : Nat → K} (hu : Rises u) {n t : Nat} (hn : 1 ≤ n) (ht : n ≤ t + 1) :
    Spec.highest (fun t => some (u t)) n t = some (u t) ∧ Spec.lowest (fun t => some (u t)) n t = some (u (t + 1 - n)) := by
  have hm : ∀ i j, i ≤ j → u i ≤ u j := (strictMono_nat_of_lt_succ hu).monotone
  constructor
  · refine (C30_bounds _ ht _).1.mpr ⟨⟨t, by omega, le_refl t, rfl⟩, fun k w _ hk e => ?_⟩
    cases e; exact hm _ _ hk
  · refine (C30_bounds _ ht _).2.mpr ⟨⟨t + 1 - n, le_refl _, by omega, rfl⟩, fun k w hk _ e => ?_⟩
    cases e; exact hm _ _ hk

private theorem highest_falls {u : Nat → K} (hu : Falls u) {n t : Nat} (hn : 1 ≤ n) (ht : n ≤ t + 1) :
    Spec.highest (fun t => some (u t)) n t = some (u (t + 1 - n)) ∧ Spec.lowest (fun t => some (u t)) n t = some (u t) := by
  have hm : ∀ i j, i ≤ j → u j ≤ u i := fun i j => (strictAnti_nat_of_succ_lt hu).antitone (a := i) (b := j)
  constructor
  · refine (C30_bounds _ ht _).1.mpr ⟨⟨t + 1 - n, le_refl _, by omega, rfl⟩, fun k w hk _ e => ?_⟩
    cases e; exact hm _ _ hk
  · refine (C30_bounds _ ht _).2.mpr ⟨⟨t, by omega, le_refl t, rfl⟩, fun k w _ hk e => ?_⟩
    cases e; exact hm _ _ hk

private theorem dmi_rises (hb : ExBars d N o h l c v) (hw : WellFormed o h l c) (hh : Rises h) (hl : Rises l) {n q : Nat} (hn : 2 ≤ n)
    (hq : 1 ≤ q) : ∃ p : Nat → K, (∀ t, 0 < p t) ∧ Runs (noInput fun t => Dmi.next ⟨d, t⟩) (Dmi.new n q) unit N (fun t =>
      { plus := flo (startAt n p) t, minus := flo (startAt n fun _ => 0) t, adx := flo (startAt (n + q - 1) fun _ => 100) t }) := by
  have hp : ∀ k, 1 ≤ k → 0 < plusMove h l k := fun k hk => by
    obtain ⟨k, rfl⟩ : ∃ s, k = s + 1 := ⟨k - 1, by omega⟩
    have h1 := hh k
    have h2 := hl k
    unfold plusMove
    rw [Nat.add_sub_cancel, if_pos ⟨by linarith, by linarith⟩]
    linarith
  have hm : ∀ k, minusMove h l k = 0 := fun k => by
    unfold minusMove
    refine if_neg fun hc => ?_
    cases k with
    | zero => exact absurd hc.2 (by simp)
    | succ k =>
      have h2 := hl k
      have h3 := hc.2
      rw [Nat.add_sub_cancel] at h3
      linarith
  have e0 : ∀ t, smoothMinus n h l t = 0 := fun t => runningMean_zero hm _ _ _
  have e1 : ∀ t, 0 < smoothPlus n h l t := fun t => runningMean_pos hn (fun k hk => (hp k hk).le) (i := 0) (by omega) (hp 1 (le_refl 1)) _
  have e2 : ∀ t, directionalIndex n h l t = 1 := fun t => by
    unfold directionalIndex
    rw [e0, sub_zero, add_zero, abs_of_pos (e1 t), div_self (e1 t).ne']
  refine ⟨fun t => 100 * smoothPlus n h l t / smoothRange n h l c t, fun t => ?_,
    (C53_dmi_moving hb hw hn hq ⟨1, le_refl 1, by omega, .inl (hp 1 (le_refl 1)).ne'⟩).congr fun t _ => ?_⟩
  · have := (smooth_bounds hw (show 1 ≤ n by omega) (t := t)).2.1
    have h1 := e1 t
    exact div_pos (by linarith) (by linarith)
  · have f1 : (fun t => 100 * smoothMinus n h l t / smoothRange n h l c t) = fun _ => (0 : K) := funext fun t => by rw [e0]; simp
    have f2 : (fun t => 100 * runningMean q n (directionalIndex n h l) (t + 1 - (n + q))) = fun _ => (100 : K) := funext fun t => by
      have : directionalIndex n h l = fun _ => 1 := funext e2
      rw [this, runningMean_const hq, mul_one]
    rw [f1, f2]

private theorem dmi_falls (hb : ExBars d N o h l c v) (hw : WellFormed o h l c) (hh : Falls h) (hl : Falls l) {n q : Nat} (hn : 2 ≤ n)
    (hq : 1 ≤ q) : ∃ p : Nat → K, (∀ t, 0 < p t) ∧ Runs (noInput fun t => Dmi.next ⟨d, t⟩) (Dmi.new n q) unit N (fun t =>
      { plus := flo (startAt n fun _ => 0) t, minus := flo (startAt n p) t, adx := flo (startAt (n + q - 1) fun _ => 100) t }) := by
  have hm : ∀ k, 1 ≤ k → 0 < minusMove h l k := fun k hk => by
    obtain ⟨k, rfl⟩ : ∃ s, k = s + 1 := ⟨k - 1, by omega⟩
    have h1 := hh k
    have h2 := hl k
    unfold minusMove
    rw [Nat.add_sub_cancel, if_pos ⟨by linarith, by linarith⟩]
    linarith
  have hp : ∀ k, plusMove h l k = 0 := fun k => by
    unfold plusMove
    refine if_neg fun hc => ?_
    cases k with
    | zero => exact absurd hc.2 (by simp)
    | succ k =>
      have h2 := hh k
      have h3 := hc.2
      rw [Nat.add_sub_cancel] at h3
      linarith
  have e0 : ∀ t, smoothPlus n h l t = 0 := fun t => runningMean_zero hp _ _ _
  have e1 : ∀ t, 0 < smoothMinus n h l t := fun t => runningMean_pos hn (fun k hk => (hm k hk).le) (i := 0) (by omega) (hm 1 (le_refl 1)) _
  have e2 : ∀ t, directionalIndex n h l t = 1 := fun t => by
    unfold directionalIndex
    rw [e0, zero_sub, zero_add, abs_neg, abs_of_pos (e1 t), div_self (e1 t).ne']
  refine ⟨fun t => 100 * smoothMinus n h l t / smoothRange n h l c t, fun t => ?_,
    (C53_dmi_moving hb hw hn hq ⟨1, le_refl 1, by omega, .inr (hm 1 (le_refl 1)).ne'⟩).congr fun t _ => ?_⟩
  · have := (smooth_bounds hw (show 1 ≤ n by omega) (t := t)).2.2.2
    have h1 := e1 t
    exact div_pos (by linarith) (by linarith)
  · have f1 : (fun t => 100 * smoothPlus n h l t / smoothRange n h l c t) = fun _ => (0 : K) := funext fun t => by rw [e0]; simp
    have f2 : (fun t => 100 * runningMean q n (directionalIndex n h l) (t + 1 - (n + q))) = fun _ => (100 : K) := funext fun t => by
      have : directionalIndex n h l = fun _ => 1 := funext e2
      rw [this, runningMean_const hq, mul_one]
    rw [f1, f2]

private theorem win_sum_lt {f g : Nat → K} {n t : Nat} (hn : 1 ≤ n) (ht : n ≤ t + 1) (h : ∀ k, t + 1 - n ≤ k → k ≤ t → f k < g k) :
    (win f n t).sum < (win g n t).sum := by
  have := win_sum_pos (g := fun k => g k - f k) hn ht fun k h1 h2 => sub_pos.mpr (h k h1 h2)
  have e : ∀ L : List Nat, (L.map fun i => g (t + 1 - n + i) - f (t + 1 - n + i)).sum =
      (L.map fun i => g (t + 1 - n + i)).sum - (L.map fun i => f (t + 1 - n + i)).sum := fun L => by
    induction L with
    | nil => simp
    | cons a L ih => simp only [List.map_cons, List.sum_cons, ih]; ring
  unfold win at this ⊢
  rw [e] at this
  linarith

private theorem vortex_lines (hb : ExBars d N o h l c v) (hlh : ∀ t, l t < h t) {n : Nat} (hn : 1 ≤ n) :
    Runs (noInput fun t => Vortex.next ⟨d, t⟩) (Vortex.new n) unit N (fun t =>
      (flo (startAt n fun t => (win (fun t => |h t - l (t - 1)|) n t).sum / (win (barRange h l c) n t).sum) t,
       flo (startAt n fun t => (win (fun t => |l t - h (t - 1)|) n t).sum / (win (barRange h l c) n t).sum) t)) ∧
    ∀ t, n ≤ t → 0 < (win (barRange h l c) n t).sum := by
  have hR : ∀ t, n ≤ t → 0 < (win (barRange h l c) n t).sum := fun t ht => win_sum_pos hn (by omega) fun k _ _ => by
    have := hlh k
    cases k with
    | zero => exact sub_pos.mpr this
    | succ k => exact lt_of_lt_of_le (sub_pos.mpr this) ((le_max_left _ _).trans (le_max_left _ _))
  refine ⟨(C53_vortex_exact hb hn).congr fun t _ => ?_, hR⟩
  show _ = (Option.map fin (if t < n then none else some _), Option.map fin (if t < n then none else some _))
  by_cases hc : t < n
  · rw [if_pos (.inl hc), if_pos hc, if_pos hc]; rfl
  · rw [if_neg (by rintro (h | h); exacts [hc h, (hR t (by omega)).ne' h]), if_neg hc, if_neg hc]; rfl

private theorem vortex_rises (hh : Rises h) (hl : Rises l) (hlh : ∀ t, l t < h t) {n t : Nat} (hn : 1 ≤ n) (ht : n ≤ t) :
    (win (fun t => |l t - h (t - 1)|) n t).sum < (win (fun t => |h t - l (t - 1)|) n t).sum :=
  win_sum_lt hn (by omega) fun k h1 _ => by
    obtain ⟨k, rfl⟩ : ∃ s, k = s + 1 := ⟨k - 1, by omega⟩
    have := hh k
    have := hl k
    have := hlh k
    have := hlh (k + 1)
    rw [Nat.add_sub_cancel, abs_of_pos (show 0 < h (k + 1) - l k by linarith), abs_lt]
    constructor <;> linarith

private theorem vortex_falls (hh : Falls h) (hl : Falls l) (hlh : ∀ t, l t < h t) {n t : Nat} (hn : 1 ≤ n) (ht : n ≤ t) :
    (win (fun t => |h t - l (t - 1)|) n t).sum < (win (fun t => |l t - h (t - 1)|) n t).sum :=
  win_sum_lt hn (by omega) fun k h1 _ => by
    obtain ⟨k, rfl⟩ : ∃ s, k = s + 1 := ⟨k - 1, by omega⟩
    have := hh k
    have := hl k
    have := hlh k
    have := hlh (k + 1)
    rw [Nat.add_sub_cancel, abs_of_neg (show l (k + 1) - h k < 0 by linarith), abs_lt]
    constructor <;> linarith

end bars

/-- **C87.** While prices only rise (open, high, low and close of every bar above those of the bar before): RSI, momentum (CMO), percent
rank and the relative volatility index (if it has a value) are 100, the stochastic RSI has no value, the Aroon lines are 100 and `100 / n`,
the Donchian channel goes from the low of the oldest bar to the high of the last, the minus line of the DMI is 0, its plus line positive and
the ADX 100, and the plus line of the vortex lies above the minus line.  On every tick, for all lengths and price sources. -/
theorem C87_rising (hb : ExBars d N o h l c v) (hw : WellFormed o h l c) (hr : AllRise o h l c) {s : SrcKind} (hs : s ≠ .volume) {n m k q : Nat}
    (hn : 2 ≤ n) (hm : 1 ≤ m) (hk : 1 ≤ k) (hq : 1 ≤ q) :
    Runs (noInput fun t => withSrc s Rsi.next ⟨d, t⟩) (Rsi.new n) unit N (flo (startAt n fun _ => 100)) ∧
    Runs (noInput fun t => withSrc s ChandeMomentumOscillator.next ⟨d, t⟩) (ChandeMomentumOscillator.new n) unit N
      (flo (startAt n fun _ => 100)) ∧
    Runs (noInput fun t => withSrc s Prank.next ⟨d, t⟩) (Prank.new n) unit N (flo (startAt n fun _ => 100)) ∧
    (m = 1 ∨ n ≤ m + 2 → ∃ y, Runs (noInput fun t => withSrc s RelativeVolatilityIndex.next ⟨d, t⟩) (RelativeVolatilityIndex.new n m) unit N y ∧
      ∀ t, y t = none ∨ y t = some (fin 100)) ∧
    Runs (noInput fun t => withSrc s StochRsi.next ⟨d, t⟩) (StochRsi.new n m k q) unit N (fun _ => (none, none)) ∧
    Runs (noInput fun t => Aroon.next ⟨d, t⟩) (Aroon.new n) unit N
      (fun t => (flo (startAt (n - 1) fun _ => 100) t, flo (startAt (n - 1) fun _ => 100 / (n : K)) t)) ∧
    Runs (noInput fun t => DonchianChannels.next ⟨d, t⟩) (DonchianChannels.new n) unit N (fun t =>
      { upper := flo (startAt (n - 1) fun t => h t) t
        basis := flo (startAt (n - 1) fun t => (h t + l (t + 1 - n)) / 2) t
        lower := flo (startAt (n - 1) fun t => l (t + 1 - n)) t }) ∧
    (∃ p : Nat → K, (∀ t, 0 < p t) ∧ Runs (noInput fun t => Dmi.next ⟨d, t⟩) (Dmi.new n q) unit N (fun t =>
      { plus := flo (startAt n p) t, minus := flo (startAt n fun _ => 0) t, adx := flo (startAt (n + q - 1) fun _ => 100) t })) ∧
    ((∀ t, l t < h t) → ∃ a b : Nat → K, (∀ t, n ≤ t → b t < a t) ∧ Runs (noInput fun t => Vortex.next ⟨d, t⟩) (Vortex.new n) unit N
      (fun t => (flo (startAt n a) t, flo (startAt n b) t))) := by
  have hp := hr.source (v := v) hs
  have x := src_exact' hb s
  obtain ⟨ho, hh, hl, hc⟩ := hr
  refine ⟨withSrc_runs x ?_, withSrc_runs x (cmo_rises hp hn), withSrc_runs x (prank_rises hp (by omega)), fun hnm => ?_,
    withSrc_runs x (stochRsi_const hn hm hk hq (moves_rises hp hn) (rsi_rises hp hn) N), aroon_rises hb hh hl (by omega), ?_,
    dmi_rises hb hw hh hl hn hq, fun hlh => ?_⟩
  · have := C34_rsi_moving d hn (moves_rises hp hn) N
    rwa [rsi_rises hp hn] at this
  · obtain ⟨y, h1, h2⟩ := relvol_rises (d := d) (N := N) hp hn hm hnm
    exact ⟨y, withSrc_runs x h1, h2⟩
  · refine (C53_donchian_exact hb (show 1 ≤ n by omega)).congr fun t _ => ?_
    show _ = DonchianData.mk (Option.map fin (if t < n - 1 then none else some _)) (Option.map fin (if t < n - 1 then none else some _))
      (Option.map fin (if t < n - 1 then none else some _))
    by_cases hc : t < n - 1
    · rw [if_pos hc, if_pos hc, if_pos hc, Spec.highest, Spec.lowest, if_neg (by omega), if_neg (by omega)]; rfl
    · rw [if_neg hc, if_neg hc, if_neg hc, (highest_rises hh (by omega) (by omega)).1, (highest_rises hl (by omega) (by omega)).2]; rfl
  · obtain ⟨h1, h2⟩ := vortex_lines hb hlh (show 1 ≤ n by omega)
    exact ⟨_, _, fun t ht => div_lt_div_of_pos_right (vortex_rises hh hl hlh (by omega) ht) (h2 t ht), h1⟩

/-- **C87.** While prices only fall: RSI, percent rank and the relative volatility index (if it has a value) are 0, momentum (CMO) is -100,
the stochastic RSI has no value, the Aroon lines are `100 / n` and 100, the Donchian channel goes from the last low to the high of the
oldest bar, the plus line of the DMI is 0, its minus line positive and the ADX 100, and the minus line of the vortex lies above the plus
line.  On every tick, for all lengths and price sources. -/
theorem C87_falling (hb : ExBars d N o h l c v) (hw : WellFormed o h l c) (hr : AllFall o h l c) {s : SrcKind} (hs : s ≠ .volume) {n m k q : Nat}
    (hn : 2 ≤ n) (hm : 1 ≤ m) (hk : 1 ≤ k) (hq : 1 ≤ q) :
    Runs (noInput fun t => withSrc s Rsi.next ⟨d, t⟩) (Rsi.new n) unit N (flo (startAt n fun _ => 0)) ∧
    Runs (noInput fun t => withSrc s ChandeMomentumOscillator.next ⟨d, t⟩) (ChandeMomentumOscillator.new n) unit N
      (flo (startAt n fun _ => -100)) ∧
    Runs (noInput fun t => withSrc s Prank.next ⟨d, t⟩) (Prank.new n) unit N (flo (startAt n fun _ => 0)) ∧
    (m = 1 ∨ n ≤ m + 2 → ∃ y, Runs (noInput fun t => withSrc s RelativeVolatilityIndex.next ⟨d, t⟩) (RelativeVolatilityIndex.new n m) unit N y ∧
      ∀ t, y t = none ∨ y t = some (fin 0)) ∧
    Runs (noInput fun t => withSrc s StochRsi.next ⟨d, t⟩) (StochRsi.new n m k q) unit N (fun _ => (none, none)) ∧
    Runs (noInput fun t => Aroon.next ⟨d, t⟩) (Aroon.new n) unit N
      (fun t => (flo (startAt (n - 1) fun _ => 100 / (n : K)) t, flo (startAt (n - 1) fun _ => 100) t)) ∧
    Runs (noInput fun t => DonchianChannels.next ⟨d, t⟩) (DonchianChannels.new n) unit N (fun t =>
      { upper := flo (startAt (n - 1) fun t => h (t + 1 - n)) t
        basis := flo (startAt (n - 1) fun t => (h (t + 1 - n) + l t) / 2) t
        lower := flo (startAt (n - 1) fun t => l t) t }) ∧
    (∃ p : Nat → K, (∀ t, 0 < p t) ∧ Runs (noInput fun t => Dmi.next ⟨d, t⟩) (Dmi.new n q) unit N (fun t =>
      { plus := flo (startAt n fun _ => 0) t, minus := flo (startAt n p) t, adx := flo (startAt (n + q - 1) fun _ => 100) t })) ∧
    ((∀ t, l t < h t) → ∃ a b : Nat → K, (∀ t, n ≤ t → a t < b t) ∧ Runs (noInput fun t => Vortex.next ⟨d, t⟩) (Vortex.new n) unit N
      (fun t => (flo (startAt n a) t, flo (startAt n b) t))) := by
  have hp := hr.source (v := v) hs
  have x := src_exact' hb s
  obtain ⟨ho, hh, hl, hc⟩ := hr
  refine ⟨withSrc_runs x ?_, withSrc_runs x (cmo_falls hp hn), withSrc_runs x (prank_falls hp (by omega)), fun hnm => ?_,
    withSrc_runs x (stochRsi_const hn hm hk hq (moves_falls hp hn) (rsi_falls hp hn) N), aroon_falls hb hh hl (by omega), ?_,
    dmi_falls hb hw hh hl hn hq, fun hlh => ?_⟩
  · have := C34_rsi_moving d hn (moves_falls hp hn) N
    rwa [rsi_falls hp hn] at this
  · obtain ⟨y, h1, h2⟩ := relvol_falls (d := d) (N := N) hp hn hm hnm
    exact ⟨y, withSrc_runs x h1, h2⟩
  · refine (C53_donchian_exact hb (show 1 ≤ n by omega)).congr fun t _ => ?_
    show _ = DonchianData.mk (Option.map fin (if t < n - 1 then none else some _)) (Option.map fin (if t < n - 1 then none else some _))
      (Option.map fin (if t < n - 1 then none else some _))
    by_cases hc : t < n - 1
    · rw [if_pos hc, if_pos hc, if_pos hc, Spec.highest, Spec.lowest, if_neg (by omega), if_neg (by omega)]; rfl
    · rw [if_neg hc, if_neg hc, if_neg hc, (highest_falls hh (by omega) (by omega)).1, (highest_falls hl (by omega) (by omega)).2]; rfl
  · obtain ⟨h1, h2⟩ := vortex_lines hb hlh (show 1 ≤ n by omega)
    exact ⟨_, _, fun t ht => div_lt_div_of_pos_right (vortex_falls hh hl hlh (by omega) ht) (h2 t ht), h1⟩

/-! ## Differences of averages and rates of change -/

theorem weightedMean_pos {w : List K} (hw : w ≠ []) (h : ∀ a ∈ w, 0 < a) : 0 < weightedMean w := by
  unfold weightedMean
  have hl : 0 < w.length := List.length_pos_iff.mpr hw
  have hl' : (0 : K) < w.length := by exact_mod_cast hl
  refine div_pos (List.sum_pos _ (fun x hx => ?_) ?_) (by positivity)
  · obtain ⟨i, hi, rfl⟩ := List.mem_iff_getElem.mp hx
    rw [List.getElem_zipWith]
    exact mul_pos (by positivity) (h _ (List.getElem_mem _))
  · intro e
    have := congrArg List.length e
    rw [List.length_zipWith, List.length_range, List.length_nil] at this
    omega

private theorem coppock_line {p : Nat → K} (h0 : ∀ t, 0 < p t) {n a b : Nat} (hn : 1 ≤ n) (t : Nat) :
    (fullWindow (fun t => opt2 (· + ·) (rateOfChange p a t) (rateOfChange p b t)) n t).map (fun w => (fin (weightedMean w) : Ex K)) =
      flo (startAt (max a b + n - 1) fun t => weightedMean (win (fun t => 100 * (p t - p (t - a)) / p (t - a) +
        100 * (p t - p (t - b)) / p (t - b)) n t)) t := by
  have e : (fun t => opt2 (· + ·) (rateOfChange p a t) (rateOfChange p b t)) = startAt (max a b) fun t =>
      100 * (p t - p (t - a)) / p (t - a) + 100 * (p t - p (t - b)) / p (t - b) := funext fun t => by
    unfold rateOfChange startAt
    by_cases h1 : a ≤ t
    · by_cases h2 : b ≤ t
      · rw [if_pos ⟨h1, (h0 _).ne'⟩, if_pos ⟨h2, (h0 _).ne'⟩, if_neg (by omega)]; rfl
      · rw [if_neg (c := b ≤ t ∧ _) (fun h => h2 h.1), if_pos (c := t < max a b) (by omega)]
        cases (if a ≤ t ∧ p (t - a) ≠ 0 then some (100 * (p t - p (t - a)) / p (t - a)) else none) <;> rfl
    · rw [if_neg (fun h => h1 h.1), if_pos (c := t < max a b) (by omega)]; rfl
  rw [e, fullWindow_startAt _ _ hn]
  show _ = Option.map fin (if t < max a b + n - 1 then none else some _)
  by_cases hc : max a b + n ≤ t + 1
  · rw [if_pos hc, if_neg (by omega)]; rfl
  · rw [if_neg hc, if_pos (by omega)]; rfl

/-- **C87.** While prices only rise, the line of the MACD with a shorter and a longer average of the same kind is positive at every tick on
which it has a value, and while they only fall it is negative.  The same for the price oscillator and the Coppock curve, if the prices are
positive. -/
theorem C87_lines (hb : ExBars d N o h l c v) {s : SrcKind} (hs : s ≠ .volume) {kind : MaKind} (hk : kind ≠ .swma) (kg : MaKind) {n m g : Nat}
    (hn : 1 ≤ n) (hm : n < m) (hg : 1 ≤ g) :
    (∃ (y : Nat → K) (z : Nat → Option (Ex K)), Runs (noInput fun t => withSrc2 s s Macd.next ⟨d, t⟩)
        (do let s ← Ma.new kind n; let l ← Ma.new kind m; let g ← Ma.new kg g; return ⟨s, l, g⟩) unit N (fun t => (flo (startAt (m - 1) y) t, z t)) ∧
      ∀ t, m - 1 ≤ t → (AllRise o h l c → 0 < y t) ∧ (AllFall o h l c → y t < 0)) ∧
    ((∀ t, 0 < sourceValue s o h l c v t) →
      (∃ y, Runs (noInput fun t => withSrc s PriceOscillator.next ⟨d, t⟩) (do let l ← Ma.new kind m; let s ← Ma.new kind n; return ⟨s, l⟩)
          unit N (flo (startAt (m - 1) y)) ∧
        ∀ t, m - 1 ≤ t → (AllRise o h l c → 0 < y t) ∧ (AllFall o h l c → y t < 0)) ∧
      ∃ y, Runs (noInput fun t => withSrc s CoppockCurve.next ⟨d, t⟩) (CoppockCurve.new g n m) unit N (flo (startAt (m + g - 1) y)) ∧
        ∀ t, m + g - 1 ≤ t → (AllRise o h l c → 0 < y t) ∧ (AllFall o h l c → y t < 0)) := by
  have eM : max (maLength kind n) (maLength kind m) - 1 = m - 1 := by rw [maLength_eq hk, maLength_eq hk]; omega
  refine ⟨?_, fun hpos => ⟨?_, ?_⟩⟩
  · have := C53_macd_exact hb s s kind kind kg hn (show 1 ≤ m by omega) hg
    dsimp only at this
    rw [eM] at this
    refine ⟨_, _, this, fun t ht => ⟨fun hr => ?_, fun hr => ?_⟩⟩
    · exact sub_pos.mpr (average_shorter hk hn hm (by omega) (hr.source hs))
    · exact sub_neg.mpr (average_longer hk hn hm (by omega) (hr.source hs))
  · obtain ⟨y, h1, h2, h3⟩ := C53_price_oscillator_exact hb s kind kind hn (show 1 ≤ m by omega)
    rw [eM] at h2 h3
    have hl : ∀ t, m - 1 ≤ t → 0 < average kind m 0 (sourceValue s o h l c v) t := fun t ht =>
      average_pos kind (by omega) (by rw [maLength_eq hk]; omega) fun k _ _ => hpos k
    refine ⟨fun t => 100 * (average kind n 0 (sourceValue s o h l c v) t - average kind m 0 (sourceValue s o h l c v) t) /
      average kind m 0 (sourceValue s o h l c v) t, h1.congr fun t _ => ?_, fun t ht => ⟨fun hr => ?_, fun hr => ?_⟩⟩
    · show _ = Option.map fin (if t < m - 1 then none else some _)
      by_cases hc : t < m - 1
      · rw [if_pos hc]
        have := h2 t
        show y t = none
        rw [← Option.not_isSome_iff_eq_none]
        intro hs
        have := this.mp hs
        omega
      · rw [if_neg hc, (h3 t (by omega)).1 (hl t (by omega)).ne']; rfl
    · have := average_shorter hk hn hm (s := 0) (t := t) (by omega) (hr.source (v := v) hs)
      exact div_pos (by linarith) (hl t ht)
    · have := average_longer hk hn hm (s := 0) (t := t) (by omega) (hr.source (v := v) hs)
      exact div_neg_of_neg_of_pos (by linarith) (hl t ht)
  · have := (C53_coppock_exact hb s hg hn (show 1 ≤ m by omega)).congr fun t _ => coppock_line hpos hg t
    rw [show max n m + g - 1 = m + g - 1 by omega] at this
    have hne : ∀ (f : Nat → K) t, win f g t ≠ [] := fun f t e => by
      have := congrArg List.length e
      rw [win_length] at this
      simp at this
      omega
    refine ⟨_, this, fun t ht => ⟨fun hr => ?_, fun hr => ?_⟩⟩
    · refine weightedMean_pos (hne _ _) fun a ha => ?_
      obtain ⟨i, h1, h2, rfl⟩ := (mem_win (by omega)).mp ha
      have g1 := (hr.source (v := v) hs).lt (show i - n < i by omega)
      have g2 := (hr.source (v := v) hs).lt (show i - m < i by omega)
      have g3 := div_pos (show 0 < 100 * (sourceValue s o h l c v i - sourceValue s o h l c v (i - n)) by linarith) (hpos (i - n))
      have g4 := div_pos (show 0 < 100 * (sourceValue s o h l c v i - sourceValue s o h l c v (i - m)) by linarith) (hpos (i - m))
      linarith
    · set f := fun i => 100 * (sourceValue s o h l c v i - sourceValue s o h l c v (i - n)) / sourceValue s o h l c v (i - n) +
        100 * (sourceValue s o h l c v i - sourceValue s o h l c v (i - m)) / sourceValue s o h l c v (i - m)
      have : 0 < weightedMean (win (fun k => (-1) * f k + 0 * f k) g t) := weightedMean_pos (hne _ _) fun a ha => by
        obtain ⟨i, h1, h2, rfl⟩ := (mem_win (by omega)).mp ha
        have g1 := (hr.source (v := v) hs).lt (show i - n < i by omega)
        have g2 := (hr.source (v := v) hs).lt (show i - m < i by omega)
        have g3 := div_neg_of_neg_of_pos (show 100 * (sourceValue s o h l c v i - sourceValue s o h l c v (i - n)) < 0 by linarith) (hpos (i - n))
        have g4 := div_neg_of_neg_of_pos (show 100 * (sourceValue s o h l c v i - sourceValue s o h l c v (i - m)) < 0 by linarith) (hpos (i - m))
        show 0 < (-1) * f i + 0 * f i
        have : f i < 0 := add_neg g3 g4
        linarith
      rw [weightedMean_linear] at this
      linarith

/-! ## No signals, no trades -/

private theorem lt_asymm' (a b : Ex K) (h : F64.lt a b = true) : F64.lt b a = false := by
  rcases a with _ | _ | _ | a <;> rcases b with _ | _ | _ | b <;> try rfl
  all_goals first | exact Bool.noConfusion h | skip
  have h' : a < b := of_decide_eq_true h
  exact decide_eq_false (not_lt.mpr h'.le)
private theorem lt_not_le (a b : Ex K) (h : F64.lt a b = true) : F64.le b a = false := by
  rcases a with _ | _ | _ | a <;> rcases b with _ | _ | _ | b <;> try rfl
  all_goals first | exact Bool.noConfusion h | skip
  have h' : a < b := of_decide_eq_true h
  exact decide_eq_false (not_le.mpr h')
private theorem lt_fin {a b : K} (h : a < b) : F64.lt (fin a : Ex K) (fin b) = true := decide_eq_true h
private theorem above_zero (θ : Ex K) (h : F64.le θ (lit 0) = true) {x : K} (hx : 0 < x) : F64.lt θ (fin x) = true := by
  rw [fin_lit] at h
  rcases θ with _ | _ | _ | a
  · exact Bool.noConfusion h
  · exact Bool.noConfusion h
  · rfl
  · have h' : a ≤ ((0 : ℚ) : K) := of_decide_eq_true h
    rw [Rat.cast_zero] at h'
    exact decide_eq_true (lt_of_le_of_lt h' hx)
private theorem below_zero (θ : Ex K) (h : F64.le (lit 0) θ = true) {x : K} (hx : x < 0) : F64.lt (fin x) θ = true := by
  rw [fin_lit] at h
  rcases θ with _ | _ | _ | a
  · exact Bool.noConfusion h
  · rfl
  · exact Bool.noConfusion h
  · have h' : ((0 : ℚ) : K) ≤ a := of_decide_eq_true h
    rw [Rat.cast_zero] at h'
    exact decide_eq_true (lt_of_lt_of_le hx h')

/-- **C87.** An indicator whose values all lie above both thresholds, or all below both, never gives a signal, and two lines of which one
always lies above the other never cross: no signal of the crossing, DMI and Aroon strategies either. -/
theorem C87_one_side :
    (∀ (over under : Ex K) {y : Nat → Option (Ex K)},
      (∀ t w, t < N → y t = some w → F64.lt over w = true ∧ F64.lt under w = true) ∨
        (∀ t w, t < N → y t = some w → F64.lt w over = true ∧ F64.lt w under = true) →
      Runs (total ThresholdStrategy.next) (.ok (ThresholdStrategy.mk' over under)) y N (fun _ => none)) ∧
    (∀ {a b : Nat → Option (Ex K)}, (∀ t x y, t < N → a t = some x → b t = some y → F64.lt x y = true) →
      Runs (total CrossStrategy.next) (.ok .new) (fun t => (a t, b t)) N (fun _ => none) ∧
      Runs (total CrossStrategy.next) (.ok .new) (fun t => (b t, a t)) N (fun _ => none) ∧
      ∀ (strong : Ex K) (adx : Nat → Option (Ex K)),
        Runs (total DmiStrategy.next) (.ok (.new strong)) (fun t => ⟨a t, b t, adx t⟩) N (fun _ => none) ∧
        Runs (total DmiStrategy.next) (.ok (.new strong)) (fun t => ⟨b t, a t, adx t⟩) N (fun _ => none)) ∧
    (∀ {a b : Nat → Option K}, (∀ t x y, t < N → a t = some x → b t = some y → x < y) →
      Runs (total AroonStrategy.next) (.ok .new) (fun t => (flo a t, flo b t)) N (fun _ => none) ∧
      Runs (total AroonStrategy.next) (.ok .new) (fun t => (flo b t, flo a t)) N (fun _ => none)) := by
  have hx : ∀ {a b : Nat → Option (Ex K)}, (∀ t x y, t < N → a t = some x → b t = some y → F64.lt x y = true) → ∀ t, t < N →
      ¬ CrossesOver a b t ∧ ¬ CrossesOver b a t := fun {a b} h t ht => by
    constructor
    · rintro ⟨s, pa, pb, va, vb, rfl, e1, e2, e3, e4, h1, h2⟩
      rw [lt_asymm' _ _ (h _ _ _ ht e3 e4)] at h2; cases h2
    · rintro ⟨s, pb, pa, vb, va, rfl, e1, e2, e3, e4, h1, h2⟩
      rw [lt_not_le _ _ (h _ _ _ (by omega) e2 e1)] at h1; cases h1
  refine ⟨fun over under y h => ?_, fun {a b} h => ⟨?_, ?_, fun strong adx => ⟨?_, ?_⟩⟩, fun {a b} h => ?_⟩
  · obtain ⟨z, h1, h2⟩ := thresholdStrategy_runs over under y N
    refine h1.congr fun t ht => no_direction ?_ ?_
    · rw [ne_eq, (h2 t ht).1]
      rintro ⟨s, p, w, rfl, e1, e2, e3, e4⟩
      rcases h with h | h
      · rw [lt_not_le _ _ (h _ _ (by omega) e1).1] at e3; cases e3
      · rw [lt_asymm' _ _ (h _ _ ht e2).1] at e4; cases e4
    · rw [ne_eq, (h2 t ht).2]
      rintro ⟨⟨s, p, w, rfl, e1, e2, e3, e4⟩, _⟩
      rcases h with h | h
      · rw [lt_asymm' _ _ (h _ _ ht e2).2] at e4; cases e4
      · rw [lt_not_le _ _ (h _ _ (by omega) e1).2] at e3; cases e3
  · obtain ⟨z, h1, h2⟩ := C55_cross a b N
    refine h1.congr fun t ht => no_direction ?_ ?_
    · rw [ne_eq, (h2 t ht).1]; exact (hx h t ht).1
    · rw [ne_eq, (h2 t ht).2]; exact (hx h t ht).2
  · obtain ⟨z, h1, h2⟩ := C55_cross b a N
    refine h1.congr fun t ht => no_direction ?_ ?_
    · rw [ne_eq, (h2 t ht).1]; exact (hx h t ht).2
    · rw [ne_eq, (h2 t ht).2]; exact (hx h t ht).1
  · obtain ⟨z, h1, h2⟩ := C55_dmi strong (fun t => ⟨a t, b t, adx t⟩) N
    refine h1.congr fun t ht => no_direction ?_ ?_
    · rw [ne_eq, (h2 t ht).1]; exact fun h' => (hx h t ht).1 h'.2
    · rw [ne_eq, (h2 t ht).2]; exact fun h' => (hx h t ht).2 h'.2
  · obtain ⟨z, h1, h2⟩ := C55_dmi strong (fun t => ⟨b t, a t, adx t⟩) N
    refine h1.congr fun t ht => no_direction ?_ ?_
    · rw [ne_eq, (h2 t ht).1]; exact fun h' => (hx h t ht).2 h'.2
    · rw [ne_eq, (h2 t ht).2]; exact fun h' => (hx h t ht).1 h'.2
  · have h' : ∀ t x y, t < N → flo a t = some x → flo b t = some y → F64.lt x y = true := fun t x y ht e1 e2 => by
      obtain ⟨x', g1, rfl⟩ := Option.map_eq_some_iff.mp e1
      obtain ⟨y', g2, rfl⟩ := Option.map_eq_some_iff.mp e2
      exact lt_fin (h t x' y' ht g1 g2)
    constructor
    · obtain ⟨z, h1, h2⟩ := C55_aroon a b N
      have ha : ∀ t, t < N → ¬ AroonArmed (flo a) (flo b) z t := by
        rintro t ht ⟨s, hs, h | h, _⟩
        · exact (hx h' s (by omega)).1 h
        · exact (hx h' s (by omega)).2 h
      refine h1.congr fun t ht => no_direction ?_ ?_
      · rw [ne_eq, (h2 t ht).1]; exact fun h => ha t ht h.1
      · rw [ne_eq, (h2 t ht).2]; exact fun h => ha t ht h.1
    · obtain ⟨z, h1, h2⟩ := C55_aroon b a N
      have ha : ∀ t, t < N → ¬ AroonArmed (flo b) (flo a) z t := by
        rintro t ht ⟨s, hs, h | h, _⟩
        · exact (hx h' s (by omega)).2 h
        · exact (hx h' s (by omega)).1 h
      refine h1.congr fun t ht => no_direction ?_ ?_
      · rw [ne_eq, (h2 t ht).1]; exact fun h => ha t ht h.1
      · rw [ne_eq, (h2 t ht).2]; exact fun h => ha t ht h.1

private theorem startAt_some {z : Nat} {y : Nat → K} {t : Nat} {w : Ex K} (h : flo (startAt z y) t = some w) : z ≤ t ∧ w = fin (y t) := by
  obtain ⟨x, h1, h2⟩ := Option.map_eq_some_iff.mp h
  unfold startAt at h1
  by_cases hc : t < z
  · rw [if_pos hc] at h1; cases h1
  · rw [if_neg hc] at h1
    cases h1
    exact ⟨by omega, h2.symm⟩

private theorem startAt_some' {z : Nat} {y : Nat → K} {t : Nat} {w : K} (h : startAt z y t = some w) : z ≤ t ∧ w = y t := by
  unfold startAt at h
  by_cases hc : t < z
  · rw [if_pos hc] at h; cases h
  · rw [if_neg hc] at h
    cases h
    exact ⟨by omega, rfl⟩

/-- **C87.** In a market that only rises, and likewise in one that only falls, no strategy that waits for a crossing ever takes a position:
RSI, momentum, relative volatility and stochastic RSI for whatever thresholds, MACD, price oscillator and Coppock curve for thresholds that
are not positive (rising) resp. not negative (falling), and the crossing strategies on DMI, Aroon and vortex.  Each runs through the bars
without panic, gives no signal, opens no position and its equity stays the initial capital: it misses the whole trend. -/
theorem C87_sits_out (hb : ExBars d N o h l c v) (hw : WellFormed o h l c) (hr : AllRise o h l c ∨ AllFall o h l c) {s : SrcKind}
    (hs : s ≠ .volume) {kind : MaKind} (hk : kind ≠ .swma) (kg : MaKind) {n m k q : Nat} (hn : 2 ≤ n) (hm : 1 ≤ m) (hkk : 1 ≤ k) (hq : 1 ≤ q)
    (hmk : m < k) (a b strong : Ex K) :
    let rule := ThresholdStrategy.next (α := Ex K)
    let at' := ThresholdStrategy.mk' a b
    SitsOut d N (withSrc s Rsi.next) (Rsi.new n) rule at' ∧
    SitsOut d N (withSrc s ChandeMomentumOscillator.next) (ChandeMomentumOscillator.new n) rule at' ∧
    (m = 1 ∨ n ≤ m + 2 → SitsOut d N (withSrc s RelativeVolatilityIndex.next) (RelativeVolatilityIndex.new n m) rule at') ∧
    SitsOut d N (withSrc s StochRsi.next) (StochRsi.new n m k q) (fun q y => rule q y.1) at' ∧
    ((AllRise o h l c ∧ F64.le a (lit 0) = true ∧ F64.le b (lit 0) = true) ∨
      (AllFall o h l c ∧ F64.le (lit 0) a = true ∧ F64.le (lit 0) b = true) →
      SitsOut d N (withSrc2 s s Macd.next) (do let s ← Ma.new kind m; let l ← Ma.new kind k; let g ← Ma.new kg q; return ⟨s, l, g⟩)
        (fun q y => rule q y.1) at' ∧
      ((∀ t, 0 < sourceValue s o h l c v t) →
        SitsOut d N (withSrc s PriceOscillator.next) (do let l ← Ma.new kind k; let s ← Ma.new kind m; return ⟨s, l⟩) rule at' ∧
        SitsOut d N (withSrc s CoppockCurve.next) (CoppockCurve.new q m k) rule at')) ∧
    SitsOut d N Dmi.next (Dmi.new n q) DmiStrategy.next (.new strong) ∧
    SitsOut d N Aroon.next (Aroon.new n) AroonStrategy.next .new ∧
    ((∀ t, l t < h t) → SitsOut d N Vortex.next (Vortex.new n) CrossStrategy.next .new) := by
  intro rule at'
  obtain ⟨n1, -, -, -⟩ := C84_no_signal (K := K) (N := N)
  obtain ⟨o1, o2, o3⟩ := C87_one_side (K := K) (N := N)
  have N1 : ∀ {y : Nat → Option (Ex K)}, Still N y → Runs (total rule) (.ok at') y N (fun _ => none) := n1 a b
  have hlines : ∀ {z : Nat} {y : Nat → K}, (∀ t, z ≤ t → (AllRise o h l c → 0 < y t) ∧ (AllFall o h l c → y t < 0)) →
      (AllRise o h l c ∧ F64.le a (lit 0) = true ∧ F64.le b (lit 0) = true) ∨
        (AllFall o h l c ∧ F64.le (lit 0) a = true ∧ F64.le (lit 0) b = true) →
      Runs (total rule) (.ok at') (flo (startAt z y)) N (fun _ => none) := fun {z y} hy hc => by
    refine o1 a b ?_
    rcases hc with ⟨h1, h2, h3⟩ | ⟨h1, h2, h3⟩
    · left; intro t w _ hw
      obtain ⟨e1, rfl⟩ := startAt_some hw
      exact ⟨above_zero a h2 ((hy t e1).1 h1), above_zero b h3 ((hy t e1).1 h1)⟩
    · right; intro t w _ hw
      obtain ⟨e1, rfl⟩ := startAt_some hw
      exact ⟨below_zero a h2 ((hy t e1).2 h1), below_zero b h3 ((hy t e1).2 h1)⟩
  have h100 : (100 : K) / n < 100 := by
    have : (1 : K) < n := by exact_mod_cast hn
    rw [div_lt_iff₀ (by linarith)]; linarith
  obtain ⟨⟨y1, z1, l1, l2⟩, l3⟩ := C87_lines hb hs hk kg hm hmk hq
  have M : (AllRise o h l c ∧ F64.le a (lit 0) = true ∧ F64.le b (lit 0) = true) ∨
      (AllFall o h l c ∧ F64.le (lit 0) a = true ∧ F64.le (lit 0) b = true) →
      SitsOut d N (withSrc2 s s Macd.next) (do let s ← Ma.new kind m; let l ← Ma.new kind k; let g ← Ma.new kg q; return ⟨s, l, g⟩)
        (fun q y => rule q y.1) at' ∧
      ((∀ t, 0 < sourceValue s o h l c v t) →
        SitsOut d N (withSrc s PriceOscillator.next) (do let l ← Ma.new kind k; let s ← Ma.new kind m; return ⟨s, l⟩) rule at' ∧
        SitsOut d N (withSrc s CoppockCurve.next) (CoppockCurve.new q m k) rule at') := fun hc => by
    refine ⟨sitsOut hb l1 (total_fst (hlines l2 hc)), fun hpos => ?_⟩
    obtain ⟨⟨y2, p1, p2⟩, y3, p3, p4⟩ := l3 hpos
    exact ⟨sitsOut hb p1 (hlines p2 hc), sitsOut hb p3 (hlines p4 hc)⟩
  rcases hr with hr | hr
  · obtain ⟨r1, r2, -, r4, r5, r6, -, ⟨p, hp, r8⟩, r9⟩ := C87_rising hb hw hr hs hn hm hkk hq
    refine ⟨sitsOut hb r1 (N1 (still_startAt _ _)), sitsOut hb r2 (N1 (still_startAt _ _)), fun hnm => ?_,
      sitsOut hb r5 (total_fst (N1 still_none)), M, sitsOut hb r8 ?_, sitsOut hb r6 ?_, fun hlh => ?_⟩
    · obtain ⟨y, h1, h2⟩ := r4 hnm
      exact sitsOut hb h1 (N1 ⟨100, fun t _ => (h2 t).imp (fun h => .inl h) id⟩)
    · refine ((o2 (a := flo (startAt n fun _ => 0)) (b := flo (startAt n p)) fun t x y _ e1 e2 => ?_).2.2 strong _).2
      obtain ⟨-, rfl⟩ := startAt_some e1
      obtain ⟨-, rfl⟩ := startAt_some e2
      exact lt_fin (hp t)
    · refine (o3 (a := startAt (n - 1) fun _ => 100 / (n : K)) (b := startAt (n - 1) fun _ => 100) fun t x y _ e1 e2 => ?_).2
      rw [(startAt_some' e1).2, (startAt_some' e2).2]
      exact h100
    · obtain ⟨x, y, g1, g2⟩ := r9 hlh
      refine sitsOut hb g2 (o2 (a := flo (startAt n y)) (b := flo (startAt n x)) fun t _ _ _ e1 e2 => ?_).2.1
      obtain ⟨e3, rfl⟩ := startAt_some e1
      obtain ⟨-, rfl⟩ := startAt_some e2
      exact lt_fin (g1 t e3)
  · obtain ⟨r1, r2, -, r4, r5, r6, -, ⟨p, hp, r8⟩, r9⟩ := C87_falling hb hw hr hs hn hm hkk hq
    refine ⟨sitsOut hb r1 (N1 (still_startAt _ _)), sitsOut hb r2 (N1 (still_startAt _ _)), fun hnm => ?_,
      sitsOut hb r5 (total_fst (N1 still_none)), M, sitsOut hb r8 ?_, sitsOut hb r6 ?_, fun hlh => ?_⟩
    · obtain ⟨y, h1, h2⟩ := r4 hnm
      exact sitsOut hb h1 (N1 ⟨0, fun t _ => (h2 t).imp (fun h => .inl h) id⟩)
    · refine ((o2 (a := flo (startAt n fun _ => 0)) (b := flo (startAt n p)) fun t x y _ e1 e2 => ?_).2.2 strong _).1
      obtain ⟨-, rfl⟩ := startAt_some e1
      obtain ⟨-, rfl⟩ := startAt_some e2
      exact lt_fin (hp t)
    · refine (o3 (a := startAt (n - 1) fun _ => 100 / (n : K)) (b := startAt (n - 1) fun _ => 100) fun t x y _ e1 e2 => ?_).1
      rw [(startAt_some' e1).2, (startAt_some' e2).2]
      exact h100
    · obtain ⟨x, y, g1, g2⟩ := r9 hlh
      refine sitsOut hb g2 (o2 (a := flo (startAt n x)) (b := flo (startAt n y)) fun t _ _ _ e1 e2 => ?_).1
      obtain ⟨e3, rfl⟩ := startAt_some e1
      obtain ⟨-, rfl⟩ := startAt_some e2
      exact lt_fin (g1 t e3)

end Pace
