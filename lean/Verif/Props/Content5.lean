import Verif.Props.Content4
import Verif.Lemmas.Real

/-!
# Ranges of the oscillators built on RSI, standard deviation and true range (C34, C54)
-/

set_option linter.unusedSectionVars false

namespace Pace
open Spec
section exact
variable {K : Type} [Field K] [LinearOrder K] [IsStrictOrderedRing K] [RootOps K]
variable {d : DataProvider (Ex K)} {N : Nat} {o h l c v : Nat → K}

theorem sum_eq_zero_of_nonneg {l : List K} (h0 : ∀ a ∈ l, 0 ≤ a) (hs : l.sum = 0) : ∀ a ∈ l, a = 0 := by
  intro a ha
  have h1 := List.single_le_sum h0 a ha
  have h2 := h0 a ha
  linarith

theorem smoothed_zero_iff {a m : K} {u : Nat → K} (ha0 : 0 < a) (ha1 : a < 1) (hm : 0 ≤ m) (hu : ∀ i, 0 ≤ u i) (n : Nat) :
    smoothed a m u n = 0 ↔ m = 0 ∧ ∀ i, i < n → u i = 0 := by
  induction n with
  | zero => simp [smoothed_zero]
  | succ n ih =>
    rw [smoothed_succ]
    have h1 := smoothed_nonneg ha0.le ha1.le hm (fun i (_ : i < n) => hu i)
    have h2 := hu n
    constructor
    · intro h
      have e1 : 0 ≤ a * u n := by positivity
      have e2 : 0 ≤ (1 - a) * smoothed a m u n := mul_nonneg (by linarith) h1
      have e3 : a * u n = 0 := by linarith
      have e4 : (1 - a) * smoothed a m u n = 0 := by linarith
      have e5 : u n = 0 := (mul_eq_zero.mp e3).resolve_left ha0.ne'
      have e6 := ih.mp ((mul_eq_zero.mp e4).resolve_left (by linarith))
      refine ⟨e6.1, fun i hi => ?_⟩
      rcases Nat.lt_succ_iff_lt_or_eq.mp hi with h | rfl
      · exact e6.2 i h
      · exact e5
    · rintro ⟨h3, h4⟩
      rw [h4 n (by omega), ih.mpr ⟨h3, fun i hi => h4 i (by omega)⟩]; ring

theorem wilder_zero_iff {len : Nat} (hlen : 2 ≤ len) {g : Nat → K} (hg : ∀ t, 0 ≤ g t) (n : Nat) :
    wilder len g n = 0 ↔ ∀ k, 1 ≤ k → k ≤ len + n → g k = 0 := by
  have hl0 : (0 : K) < len := by exact_mod_cast (by omega : 0 < len)
  have hl1 : (1 : K) < len := by exact_mod_cast (by omega : 1 < len)
  have hnn : ∀ a ∈ (List.range len).map fun i => g (i + 1), 0 ≤ a := fun a ha => by
    obtain ⟨k, _, rfl⟩ := List.mem_map.mp ha; exact hg _
  unfold wilder
  rw [smoothed_zero_iff (by positivity) (by rw [div_lt_one hl0]; exact hl1) (mean_nonneg hnn) fun i => hg _]
  constructor
  · rintro ⟨h1, h2⟩ k hk1 hk2
    by_cases hk : k ≤ len
    · unfold mean at h1
      rw [div_eq_zero_iff] at h1
      have := sum_eq_zero_of_nonneg hnn (h1.resolve_right (by simp; omega))
      have h3 := this (g k) (List.mem_map.mpr ⟨k - 1, List.mem_range.mpr (by omega), by congr 1; omega⟩)
      exact h3
    · have := h2 (k - (len + 1)) (by omega)
      rwa [show len + 1 + (k - (len + 1)) = k by omega] at this
  · intro h
    refine ⟨?_, fun i hi => h _ (by omega) (by omega)⟩
    unfold mean
    rw [List.sum_eq_zero, zero_div]
    intro a ha
    obtain ⟨k, hk, rfl⟩ := List.mem_map.mp ha
    have := List.mem_range.mp hk
    exact h _ (by omega) (by omega)

theorem no_change_iff (p : Nat → K) (T : Nat) :
    ((∀ k, 1 ≤ k → k ≤ T → gain p k = 0) ∧ ∀ k, 1 ≤ k → k ≤ T → loss p k = 0) ↔ ∀ k, k ≤ T → p k = p 0 := by
  constructor
  · rintro ⟨h1, h2⟩ k
    induction k with
    | zero => intro _; rfl
    | succ k ih =>
      intro hk
      have a1 := h1 (k + 1) (by omega) hk
      have a2 := h2 (k + 1) (by omega) hk
      simp only [gain, loss, Nat.add_sub_cancel] at a1 a2
      have b1 := le_max_left (p (k + 1) - p k) 0
      have b2 := le_max_left (p k - p (k + 1)) 0
      rw [← ih (by omega)]
      linarith
  · intro h
    constructor
    · intro k h1 h2
      rw [gain, h k h2, h (k - 1) (by omega)]; simp
    · intro k h1 h2
      rw [loss, h k h2, h (k - 1) (by omega)]; simp

theorem gain_nonneg (p : Nat → K) (t : Nat) : 0 ≤ gain p t := le_max_right _ _
theorem loss_nonneg (p : Nat → K) (t : Nat) : 0 ≤ loss p t := le_max_right _ _

/-- **C34.** From tick `len` on the RSI is NaN exactly as long as the price has never changed. -/
theorem C34_rsi_nan_iff (d : DataProvider (Ex K)) {len : Nat} (hlen : 2 ≤ len) (p : Nat → K) (N : Nat) :
    ∃ y, Runs (fun t => Rsi.next ⟨d, t⟩) (Rsi.new len) (fun t => some (fin (p t))) N y ∧
      ∀ t, t < N → len ≤ t → (y t = some (Fl.of _ .nan) ↔ ∀ k, k ≤ t → p k = p 0) := by
  obtain ⟨y, h1, _, h3⟩ := C34_rsi_exact d hlen p N
  refine ⟨y, h1, fun t ht hl => ?_⟩
  obtain ⟨n, rfl⟩ : ∃ n, t = len + n := ⟨t - len, by omega⟩
  rw [h3 n ht, ← no_change_iff, ← wilder_zero_iff hlen (gain_nonneg p) n,
    ← wilder_zero_iff hlen (loss_nonneg p) n]
  split
  · rename_i h; exact ⟨fun _ => h, fun _ => rfl⟩
  · rename_i h
    exact ⟨fun h' => absurd (Option.some.inj h') (fin_ne_nan _), fun h' => absurd h' h⟩

/-- The price changes somewhere in the first `n + 1` ticks. -/
def Spec.Moves (p : Nat → K) (n : Nat) : Prop := ∃ k, k ≤ n ∧ p k ≠ p 0

/-- The RSI of a price that moves among its first `len + 1` values is a number in [0, 100] from tick `len` on. -/
theorem rsi_numbers (d : DataProvider (Ex K)) {len : Nat} (hlen : 2 ≤ len) {p : Nat → K} (hp : Moves p len) (N : Nat) :
    ∃ r : Nat → K, (∀ t, 0 ≤ r t ∧ r t ≤ 100) ∧
      Runs (fun t => Rsi.next ⟨d, t⟩) (Rsi.new len) (fun t => some (fin (p t))) N (flo (startAt len r)) := by
  obtain ⟨y, h1, h2, h3⟩ := C34_rsi_exact d hlen p N
  have hu := fun n => wilder_nonneg (show 1 ≤ len by omega) (g := gain p) (fun t => le_max_right _ _) n
  have hd := fun n => wilder_nonneg (show 1 ≤ len by omega) (g := loss p) (fun t => le_max_right _ _) n
  refine ⟨fun t => 100 * wilder len (gain p) (t - len) / (wilder len (gain p) (t - len) + wilder len (loss p) (t - len)), ?_, ?_⟩
  · intro t
    have a := hu (t - len)
    have b := hd (t - len)
    dsimp only
    generalize wilder len (gain p) (t - len) = U at *
    generalize wilder len (loss p) (t - len) = D at *
    refine ⟨by positivity, ?_⟩
    rcases lt_or_eq_of_le (add_nonneg a b) with h | h
    · rw [div_le_iff₀ h]; linarith
    · rw [← h, div_zero]; norm_num
  · refine h1.congr fun t ht => ?_
    show _ = Option.map fin (if t < len then none else some _)
    split
    · exact h2 t ht (by assumption)
    · rename_i hl
      obtain ⟨n, rfl⟩ : ∃ n, t = len + n := ⟨t - len, by omega⟩
      rw [h3 n ht, if_neg]
      · dsimp only; rw [Nat.add_sub_cancel_left]; rfl
      · rw [wilder_zero_iff hlen (gain_nonneg p) n, wilder_zero_iff hlen (loss_nonneg p) n, no_change_iff]
        obtain ⟨k, hk1, hk2⟩ := hp
        exact fun h => hk2 (h k (by omega))

/-- A series whose values all have a property is a series of numbers with the property. -/
theorem exists_numbers {P : K → Prop} {y : Nat → Option (Ex K)} {N : Nat}
    (hy : ∀ t, t < N → ∀ o, y t = some o → ∃ k, o = fin k ∧ P k) :
    ∃ x : Nat → Option K, (∀ t, t < N → y t = flo x t) ∧ ∀ t, ∀ k, x t = some k → P k := by
  have : ∀ t, ∃ x : Option K, (t < N → y t = x.map fin) ∧ ∀ k, x = some k → P k := by
    intro t
    by_cases ht : t < N
    · cases hyt : y t with
      | none => exact ⟨none, fun _ => rfl, by simp⟩
      | some o =>
        obtain ⟨k, rfl, hk⟩ := hy t ht o hyt
        exact ⟨some k, fun _ => rfl, by rintro _ ⟨⟩; exact hk⟩
    · exact ⟨none, fun h => absurd h ht, by simp⟩
  choose x hx using this
  exact ⟨x, fun t ht => (hx t).1 ht, fun t => (hx t).2⟩

/-- A moving average of numbers in an interval is in it. -/
theorem sma_range {len : Nat} (hlen : 1 ≤ len) {x : Nat → Option K} {lo hi : K} (hx : ∀ t k, x t = some k → lo ≤ k ∧ k ≤ hi) (N : Nat) :
    ∃ y : Nat → Option K, Runs (fun t => Sma.next ⟨d, t⟩) (Sma.new len) (flo x) N (flo y) ∧
      ∀ t k, y t = some k → lo ≤ k ∧ k ≤ hi := by
  refine ⟨fun t => (fullWindow x len t).map mean, (C21_sma d hlen x N).congr fun t _ => ?_, fun t k hk => ?_⟩
  · show _ = ((fullWindow x len t).map mean).map fin
    rw [Option.map_map]; rfl
  · cases hf : fullWindow x len t with
    | none => simp [hf] at hk
    | some w =>
      have hk' : mean w = k := by simpa [hf] using hk
      rw [← hk']
      have hlen' := fullWindow_length hf
      refine mean_bounds (by intro h; rw [h] at hlen'; simp at hlen'; omega) fun a ha => ?_
      unfold fullWindow at hf
      split at hf
      · rename_i hl
        rw [allSome_eq_some] at hf
        have hmem : some a ∈ win x len t := by rw [hf]; exact List.mem_map.mpr ⟨a, ha, rfl⟩
        rw [mem_win hl] at hmem
        obtain ⟨k, _, _, h3⟩ := hmem
        exact hx k a h3
      · simp at hf

/-- **C54.** Stochastic RSI of a price that moves among its first `n + 1` values: `k` and `d` are in [0, 100]. -/
theorem C54_stoch_rsi (d : DataProvider (Ex K)) {n m k q : Nat} (hn : 2 ≤ n) (hm : 1 ≤ m) (hk : 1 ≤ k) (hq : 1 ≤ q) {p : Nat → K}
    (hp : Moves p n) (N : Nat) :
    ∃ y z : Nat → Option K, Runs (fun t => StochRsi.next ⟨d, t⟩) (StochRsi.new n m k q) (fun t => some (fin (p t))) N
        (fun t => (flo y t, flo z t)) ∧
      (∀ t u, y t = some u → 0 ≤ u ∧ u ≤ 100) ∧ ∀ t u, z t = some u → 0 ≤ u ∧ u ≤ 100 := by
  obtain ⟨r, _, hr⟩ := rsi_numbers d hn hp N
  obtain ⟨s, hs, hs'⟩ := C32_stoch_range d hm (startAt n r) (startAt n r) (startAt n r) N (by
    intro t w hi lo _ h1 h2 h3
    have hl : m ≤ t + 1 := by
      by_contra hc; rw [Spec.highest, if_neg hc] at h2; simp at h2
    exact ⟨(spec_lowest_some hl h3).2 t w (by omega) (le_refl _) h1, (spec_highest_some hl h2).2 t w (by omega) (le_refl _) h1⟩)
  obtain ⟨x, hx1, hx2⟩ := exists_numbers hs'
  obtain ⟨y, hy1, hy2⟩ := sma_range (d := d) hk hx2 N
  obtain ⟨z, hz1, hz2⟩ := sma_range (d := d) hq hy2 N
  exact ⟨y, z, C53_stoch_rsi d hr hs (hy1.input_congr fun t ht => (hx1 t ht).symm) hz1, hy2, hz2⟩

end exact

section lawful
variable {K : Type} [Field K] [LinearOrder K] [IsStrictOrderedRing K] [LawfulRoots K]
variable {d : DataProvider (Ex K)} {N : Nat} {o h l c v : Nat → K}

/-- Exact arithmetic is a lawful rounding. -/
theorem exact_lawful : (Rounding.exact K).Lawful where
  ne_nan k := by simp [Rounding.exact]
  mono a b h := decide_eq_true h
  odd a := rfl
  idem a b h := by rfl
  int n _ := rfl
  sqrt_nonneg k _ := decide_eq_true (LawfulRoots.sqrt_nonneg k)

theorem opt3_map_fin {f : Ex K → Ex K → Ex K → Ex K} {g : K → K → K → K} (h : ∀ a b c, f (fin a) (fin b) (fin c) = fin (g a b c))
    (x y z : Option K) : opt3 f (x.map fin) (y.map fin) (z.map fin) = (opt3 g x y z).map fin := by
  cases x <;> cases y <;> cases z <;> try rfl
  simp only [Option.map_some, opt3, h]

/-- **C54.** Connors RSI of a price that moves among its first `n + 1` values is in [0, 100]. -/
theorem C54_connors (d : DataProvider (Ex K)) {n m k : Nat} (hn : 2 ≤ n) (hm : 2 ≤ m) (hk : 1 ≤ k) {p : Nat → K} (hp : Moves p n)
    {N : Nat} (hN : N ≤ 2 ^ 53) :
    ∃ y : Nat → Option K, Runs (fun t => ConnorsRsi.next ⟨d, t⟩) (ConnorsRsi.new n m k) (fun t => some (fin (p t))) N (flo y) ∧
      ∀ t u, y t = some u → 0 ≤ u ∧ u ≤ 100 := by
  obtain ⟨r, hr0, hr⟩ := rsi_numbers d hn hp N
  have hst : Moves (fun t => (streak (fun t => some (fin (p t))) t : K)) m := by
    refine ⟨1, by omega, ?_⟩
    have : streak (fun t => some (fin (p t))) 1 ≠ streak (fun t => some (fin (p t))) 0 := by
      simp only [streak, Option.isSome_some, if_true]
      split
      · decide
      · split <;> decide
    exact fun h => this (Int.cast_injective h)
  obtain ⟨q, hq0, hq⟩ := rsi_numbers d hm hst N
  have hrc := C28_roc 1 (le_refl 1) (fun t => some (p t)) N
  let rcK : Nat → Option K := fun t => (opt2 (fun old new => (old, new)) (ago (fun t => some (p t)) 1 t) (some (p t))).bind fun a =>
    if a.1 = 0 then none else some (100 * (a.2 - a.1) / a.1)
  have hrc' : Runs (fun _ => Roc.next) (Roc.new 1) (fun t => some (fin (p t))) N (flo rcK) := by
    refine Runs.congr hrc fun t _ => ?_
    show _ = (rcK t).map fin
    simp only [rcK]
    cases opt2 (fun old new => (old, new)) (ago (fun t => some (p t)) 1 t) (some (p t)) with
    | none => rfl
    | some a =>
      simp only [Option.bind_some]
      split <;> rfl
  let prK : Nat → Option K := fun t => if k ≤ t then (rcK t).map fun last =>
        100 * (((List.range k).countP fun i => (rcK (t - 1 - i)).any (· ≤ last) : Nat) : K) / (k : K) else none
  have hpr : Runs (fun t => Prank.next ⟨d, t⟩) (Prank.new k) (flo rcK) N (flo prK) := by
    refine (C29_prank d hk rcK N).congr fun t _ => ?_
    show _ = (prK t).map fin
    simp only [prK]
    split
    · cases rcK t <;> rfl
    · rfl
  refine ⟨fun t => opt3 (fun r u p => (r + u + p) / 3) (startAt n r t) (startAt m q t) (prK t), ?_, ?_⟩
  · refine (C53_connors exact_lawful hN hr hq hrc' hpr).congr fun t _ => ?_
    exact opt3_map_fin (fun a b c => by
      simp only [fin_add, fin_lit]; rw [fin_div _ _ (by norm_num)]; push_cast; rfl) _ _ _
  · intro t u hu
    dsimp only at hu
    unfold startAt at hu
    split at hu
    · simp [opt3] at hu
    split at hu
    · simp [opt3] at hu
    simp only [prK] at hu
    split at hu
    · cases hrk : rcK t with
      | none => rw [hrk] at hu; simp [opt3] at hu
      | some last =>
        rw [hrk] at hu
        simp only [Option.map_some, opt3, Option.some.injEq] at hu
        have h3 := C29_range (K := K) hk (fun i => (rcK (t - 1 - i)).any (· ≤ last))
        have h1 := hr0 t
        have h2 := hq0 t
        rw [← hu]
        constructor
        · rw [le_div_iff₀ (by norm_num)]; linarith
        · rw [div_le_iff₀ (by norm_num)]; linarith
    · simp [opt3] at hu

/-- **C54.** Bollinger band width of positive prices with a non-negative multiplier is not negative. -/
theorem C54_bollinger_width {len : Nat} (hlen : 2 ≤ len) {k : K} (hk : 0 ≤ k) {x : Nat → K} (hx : ∀ t, 0 < x t) :
    ∃ y, Runs (fun t => BollingerBandsWidth.next ⟨d, t⟩) (BollingerBands.new len (fin k)) (fun t => some (fin (x t))) N y ∧
      (∀ t, t + 1 < len → y t = none) ∧ ∀ t, len ≤ t + 1 → ∃ w, y t = some (fin w) ∧ 0 ≤ w := by
  refine ⟨_, C53_bollinger_width_exact hlen k x, fun t ht => if_pos ht, fun t ht => ?_⟩
  have hm : 0 < mean (win x len t) := by
    unfold mean win
    apply div_pos
    · apply List.sum_pos
      · intro a ha
        obtain ⟨i, _, rfl⟩ := List.mem_map.mp ha
        exact hx _
      · simp; omega
    · simp; omega
  refine ⟨_, (by dsimp only; rw [if_neg (by omega), if_neg hm.ne']), ?_⟩
  have := LawfulRoots.sqrt_nonneg (cutSqDev (win x len t) / (len : K))
  positivity

/-- An exponential average of non-negative numbers is not negative; it does not panic when no value is missing after the seed. -/
theorem ema_numbers {len : Nat} (hlen : 1 ≤ len) {x : Nat → Option K} (hx : ∀ t k, x t = some k → 0 ≤ k) {N : Nat}
    (hok : len = 1 ∨ ∀ s, (fullWindow x len s).isSome → ∀ t, s < t → t < N → (x t).isSome) :
    ∃ y : Nat → Option K, Runs (fun t => Ema.next ⟨d, t⟩) (Ema.new len) (flo x) N (flo y) ∧ ∀ t k, y t = some k → 0 ≤ k := by
  have ha := C23_alpha (K := K) hlen
  rw [ha.1]
  rcases hok with rfl | hok
  · exact ⟨x, C23_ema_one d _ _ N, hx⟩
  by_cases h1 : len = 1
  · subst h1; exact ⟨x, C23_ema_one d _ _ N, hx⟩
  have h2 : 2 ≤ len := by omega
  by_cases hs : ∃ s, (fullWindow x len s).isSome = true
  · have hmin : FirstFull len x (Nat.find hs) := ⟨Nat.find_spec hs, fun r hr => by simpa using Nat.find_min hs hr⟩
    generalize Nat.find hs = s at hmin
    obtain ⟨v, hv⟩ := Option.isSome_iff_exists.mp hmin.1
    refine ⟨fun t => if t < s then none else some (smoothed (2 / ((len : K) + 1)) (mean v) (fun i => (x (s + 1 + i)).getD 0) (t - s)),
      (C23_ema d h2 _ x N s v hmin hv (fun i => (x (s + 1 + i)).getD 0) fun i hi => ?_).congr fun t _ => ?_, fun t k hk => ?_⟩
    · have := hok s hmin.1 (s + 1 + i) (by omega) hi
      obtain ⟨w, hw⟩ := Option.isSome_iff_exists.mp this
      rw [hw]; rfl
    · show _ = Option.map fin (if t < s then none else some _)
      split <;> rfl
    · dsimp only at hk
      split at hk
      · simp at hk
      · rw [← Option.some.inj hk]
        refine smoothed_nonneg ha.2.2.1.le ha.2.2.2.1 (mean_nonneg fun a ha => ?_) fun i _ => ?_
        · unfold fullWindow at hv
          split at hv
          · rename_i hl
            rw [allSome_eq_some] at hv
            have hmem : some a ∈ win x len s := by rw [hv]; exact List.mem_map.mpr ⟨a, ha, rfl⟩
            rw [mem_win hl] at hmem
            obtain ⟨k, _, _, h3⟩ := hmem
            exact hx k a h3
          · simp at hv
        · cases hxi : x (s + 1 + i) with
          | none => simp
          | some w => exact hx _ w hxi
  · refine ⟨fun _ => none, C23_ema_unseeded d h2 _ x N fun t _ => ?_, by simp⟩
    simpa using fun h => hs ⟨t, h⟩

/-- **C54.** Relative volatility index with `n <= m + 2` (or `m = 1`): it does not panic, and every output is in [0, 100]. -/
theorem C54_relative_volatility (d : DataProvider (Ex K)) {n m : Nat} (hn : 2 ≤ n) (hm : 1 ≤ m) (hnm : m = 1 ∨ n ≤ m + 2) (p : Nat → K)
    (N : Nat) :
    ∃ y, Runs (fun t => RelativeVolatilityIndex.next ⟨d, t⟩) (RelativeVolatilityIndex.new n m) (fun t => some (fin (p t))) N y ∧
      ∀ t, t < N → ∀ z, y t = some z → ∃ k, z = fin k ∧ 0 ≤ k ∧ k ≤ 100 := by
  have hsd := C26_stdev d hn true (startAt 0 p) N
  have hfw : ∀ t, fullWindow (startAt 0 p) n t = if n ≤ t + 1 then some (win p n t) else none := fun t => by
    rw [fullWindow_startAt 0 p (by omega) t]; simp
  rw [startAt_zero] at hsd hfw
  let sdv : Nat → K := fun t => RootOps.sqrt (cutSqDev (win p n t) / (n : K))
  have hsdv : ∀ t, 0 ≤ sdv t := fun t => LawfulRoots.sqrt_nonneg _
  let sdK : Nat → Option K := fun t => if n ≤ t + 1 then some (sdv t) else none
  have hsd' : Runs (fun t => Stdev.next ⟨d, t⟩) (Stdev.new n true) (fun t => some (fin (p t))) N (flo sdK) := by
    refine Runs.congr hsd fun t _ => ?_
    show _ = Option.map fin (if n ≤ t + 1 then some (sdv t) else none)
    rw [hfw]
    by_cases hc : n ≤ t + 1
    · rw [if_pos hc, if_pos hc]; rfl
    · rw [if_neg hc, if_neg hc]; rfl
  -- the two averaged series
  let side : (K → Bool) → Nat → Option K := fun zero t => if t = 0 then none else if zero (p t - p (t - 1)) then some 0 else sdK t
  have hside : ∀ zero t k, side zero t = some k → 0 ≤ k := by
    intro zero t k hk
    simp only [side] at hk
    split at hk
    · simp at hk
    · split at hk
      · rw [← Option.some.inj hk]
      · simp only [sdK] at hk
        split at hk
        · rw [← Option.some.inj hk]; exact hsdv t
        · simp at hk
  have hok : ∀ zero, m = 1 ∨ ∀ s, (fullWindow (side zero) m s).isSome → ∀ t, s < t → t < N → (side zero t).isSome := by
    intro zero
    rcases hnm with h | h
    · exact Or.inl h
    · right
      intro s hs t hst _
      have hs' := (fullWindow_isSome.mp hs)
      have hms : m ≤ s := by
        by_contra hc
        have := hs'.2 0 (by omega) (by omega)
        simp [side] at this
      simp only [side, sdK]
      rw [if_neg (by omega)]
      split
      · rfl
      · rw [if_pos (by omega)]; rfl
  let z1 : K → Bool := fun z => decide (z ≤ 0)
  let z2 : K → Bool := fun z => decide (0 < z)
  obtain ⟨u, hu, hu0⟩ := ema_numbers (d := d) (x := side z1) hm (hside z1) (N := N) (hok z1)
  obtain ⟨w, hw, hw0⟩ := ema_numbers (d := d) (x := side z2) hm (hside z2) (N := N) (hok z2)
  have hsidei : ∀ (zero : K → Bool) (zf : Ex K → Bool), (∀ k, zf (fin k) = zero k) → ∀ t,
      (flo (side zero)) t = (opt2 (fun a q => if zf (a - q) then some (lit 0) else flo sdK t) (some (fin (p t)))
        (prev (fun t => some (fin (p t))) t)).join := by
    intro zero zf hz t
    cases t with
    | zero => rfl
    | succ t =>
      show Option.map fin (side zero (t + 1)) = _
      simp only [prev, opt2, Option.join_some, fin_sub, hz, side, Nat.add_sub_cancel, if_neg (Nat.succ_ne_zero t)]
      split
      · simp
      · rfl
  refine ⟨_, C53_relative_volatility d hsd'
    (hu.input_congr fun t _ => hsidei z1 (fun z => F64.le z (lit 0)) (fun k => by simp [z1]) t)
    (hw.input_congr fun t _ => hsidei z2 (fun z => fgt z (lit 0)) (fun k => by simp [z2]) t), fun t _ z hz => ?_⟩
  have e1 : flo u t = (u t).map fin := rfl
  have e2 : flo w t = (w t).map fin := rfl
  rw [e1, e2] at hz
  cases hut : u t with
  | none => rw [hut] at hz; simp [opt2] at hz
  | some a =>
    cases hwt : w t with
    | none => rw [hut, hwt] at hz; simp [opt2] at hz
    | some b =>
      have ha := hu0 t a hut
      have hb := hw0 t b hwt
      rw [hut, hwt] at hz
      simp only [Option.map_some, opt2, Option.join_some, fin_neg, fin_feq, decide_eq_true_eq] at hz
      split at hz
      · simp at hz
      · rename_i hne
        have hpos : 0 < a + b := lt_of_le_of_ne (by linarith) fun h => hne (by linarith)
        rw [fin_add, fin_div _ _ hpos.ne', fin_lit, fin_mul] at hz
        refine ⟨_, (Option.some.inj hz).symm, ?_, ?_⟩
        · push_cast; positivity
        · push_cast
          have : a / (a + b) ≤ 1 := by rw [div_le_one hpos]; linarith
          linarith

end lawful

/-! ## Choppiness -/
section choppiness
variable {K : Type} [Field K] [LinearOrder K] [IsStrictOrderedRing K] [RootOps K] {o h l c : Nat → K}

theorem barRange_ge (hw : WellFormed o h l c) (t : Nat) : h t - l t ≤ barRange h l c t ∧ 0 ≤ barRange h l c t := by
  have h0 := hw.range t
  have : h t - l t ≤ barRange h l c t := by
    cases t with
    | zero => exact le_refl _
    | succ t => exact (le_max_left _ _).trans (le_max_left _ _)
  exact ⟨this, by linarith⟩

/-- The highs and lows of consecutive bars are no further apart than the sum of their true ranges. -/
theorem spread_le_ranges (hw : WellFormed o h l c) (a : Nat) : ∀ n,
    (∀ i j, i ≤ n → j ≤ n → h (a + i) - l (a + j) ≤ ((List.range (n + 1)).map fun i => barRange h l c (a + i)).sum) ∧
    (∀ i, i ≤ n → h (a + i) - c (a + n) ≤ ((List.range (n + 1)).map fun i => barRange h l c (a + i)).sum) ∧
    (∀ j, j ≤ n → c (a + n) - l (a + j) ≤ ((List.range (n + 1)).map fun i => barRange h l c (a + i)).sum) := by
  intro n
  induction n with
  | zero =>
    have h1 := (barRange_ge hw (a + 0)).1
    have h2 := (hw (a + 0)).2.2
    simp only [Nat.zero_add, List.range_one, List.map_cons, List.map_nil, List.sum_cons, List.sum_nil, add_zero] at *
    refine ⟨fun i j hi hj => ?_, fun i hi => ?_, fun j hj => ?_⟩
    · rw [Nat.le_zero.mp hi, Nat.le_zero.mp hj]; exact h1
    · rw [Nat.le_zero.mp hi]; simp only [Nat.add_zero]; linarith [h2.1]
    · rw [Nat.le_zero.mp hj]; simp only [Nat.add_zero]; linarith [h2.2]
  | succ n ih =>
    obtain ⟨i1, i2, i3⟩ := ih
    rw [List.range_succ, List.map_append, List.sum_append]
    simp only [List.map_cons, List.map_nil, List.sum_cons, List.sum_nil, add_zero]
    generalize ((List.range (n + 1)).map fun i => barRange h l c (a + i)).sum = S at *
    have hR := barRange_ge hw (a + (n + 1))
    have hS : 0 ≤ S := by
      have := i1 0 0 (by omega) (by omega)
      have := hw.range (a + 0)
      linarith
    have e : a + (n + 1) = (a + n) + 1 := by omega
    have r1 : |h (a + n + 1) - c (a + n)| ≤ barRange h l c (a + (n + 1)) := by
      rw [e]; exact (le_max_right _ _).trans (le_max_left _ _)
    have r2 : |l (a + n + 1) - c (a + n)| ≤ barRange h l c (a + (n + 1)) := by
      rw [e]; exact le_max_right _ _
    have hc := (hw (a + (n + 1))).2.2
    rw [← e] at r1 r2
    have b1 := abs_le.mp r1
    have b2 := abs_le.mp r2
    generalize barRange h l c (a + (n + 1)) = R at *
    have key : ∀ i j, i ≤ n + 1 → j ≤ n + 1 → h (a + i) - l (a + j) ≤ S + R := by
      intro i j hi hj
      rcases Nat.lt_or_ge i (n + 1) with hi' | hi' <;> rcases Nat.lt_or_ge j (n + 1) with hj' | hj'
      · have := i1 i j (by omega) (by omega); linarith
      · obtain rfl : j = n + 1 := by omega
        have := i2 i (by omega); linarith
      · obtain rfl : i = n + 1 := by omega
        have := i3 j (by omega); linarith
      · obtain rfl : i = n + 1 := by omega
        obtain rfl : j = n + 1 := by omega
        linarith
    refine ⟨key, fun i hi => ?_, fun j hj => ?_⟩
    · have := key i (n + 1) hi (le_refl _); linarith [hc.1]
    · have := key (n + 1) j (le_refl _) hj; linarith [hc.2]

theorem spread_le_win (hw : WellFormed o h l c) {len t : Nat} (hl : 1 ≤ len) (hlt : len ≤ t + 1) {hi lo : K}
    (h1 : Spec.highest (fun t => some (h t)) len t = some hi) (h2 : Spec.lowest (fun t => some (l t)) len t = some lo) :
    hi - lo ≤ (win (barRange h l c) len t).sum := by
  obtain ⟨i, hi1, hi2, hi3⟩ := (spec_highest_some hlt h1).1
  obtain ⟨j, hj1, hj2, hj3⟩ := (spec_lowest_some hlt h2).1
  have := (spread_le_ranges hw (t + 1 - len) (len - 1)).1 (i - (t + 1 - len)) (j - (t + 1 - len)) (by omega) (by omega)
  rw [show t + 1 - len + (i - (t + 1 - len)) = i by omega, show t + 1 - len + (j - (t + 1 - len)) = j by omega,
    show len - 1 + 1 = len by omega] at this
  rw [← Option.some.inj hi3, ← Option.some.inj hj3]
  exact this

/-- Each true range of the window is at most its spread, if the close just before the window lies inside the spread. -/
theorem range_le_spread (hw : WellFormed o h l c) {len t : Nat} (hl : 1 ≤ len) (hlt : len ≤ t + 1) {hi lo : K}
    (h1 : Spec.highest (fun t => some (h t)) len t = some hi) (h2 : Spec.lowest (fun t => some (l t)) len t = some lo)
    (hc : t + 1 = len ∨ lo ≤ c (t - len) ∧ c (t - len) ≤ hi) :
    (win (barRange h l c) len t).sum ≤ (len : K) * (hi - lo) := by
  have hh := (spec_highest_some hlt h1).2
  have hl' := (spec_lowest_some hlt h2).2
  have hr : ∀ r ∈ win (barRange h l c) len t, r ≤ hi - lo := by
    intro r hr
    obtain ⟨k, k1, k2, rfl⟩ := (mem_win hlt).mp hr
    have a1 := hh k _ k1 k2 rfl
    have a2 := hl' k _ k1 k2 rfl
    have hk := hw.range k
    have hpc : k = 0 ∨ lo ≤ c (k - 1) ∧ c (k - 1) ≤ hi := by
      rcases Nat.eq_zero_or_pos k with h0 | h0
      · exact Or.inl h0
      rcases Nat.lt_or_ge (k - 1) (t + 1 - len) with hlt' | hge
      · rcases hc with hc | hc
        · omega
        · rw [show k - 1 = t - len by omega]; exact Or.inr hc
      · have b1 := hh (k - 1) _ hge (by omega) rfl
        have b2 := hl' (k - 1) _ hge (by omega) rfl
        have b3 := (hw (k - 1)).2.2
        exact Or.inr ⟨b2.trans b3.1, b3.2.trans b1⟩
    cases k with
    | zero => show h 0 - l 0 ≤ _; linarith
    | succ k =>
      obtain ⟨c1, c2⟩ := hpc.resolve_left (by omega)
      rw [Nat.add_sub_cancel] at c1 c2
      refine max_le (max_le (by linarith) (abs_le.mpr ⟨by linarith, by linarith⟩)) (abs_le.mpr ⟨by linarith, by linarith⟩)
  have := List.sum_le_card_nsmul _ _ hr
  rwa [win_length, nsmul_eq_mul] at this

end choppiness

/-- **C54.** Choppiness index of well-formed bars, length at least 2, over the real numbers: whenever there is a value it is at
least 0; and it is at most 100 if the window starts at the first bar, or the close just before the window lies between the
lowest low and the highest high of the window. -/
theorem C54_choppiness {d : DataProvider (Ex ℝ)} {N : Nat} {o h l c v : Nat → ℝ} (hb : ExBars d N o h l c v)
    (hw : WellFormed o h l c) {len : Nat} (hlen : 2 ≤ len) :
    ∃ y, Runs (noInput fun t => ChoppinessIndex.next ⟨d, t⟩) (ChoppinessIndex.new len) unit N y ∧
      ∀ t, t < N → ∀ z, y t = some z → len ≤ t + 1 ∧ ∃ k : ℝ, z = fin k ∧ 0 ≤ k ∧
        ((t + 1 = len ∨ (∃ i, t - len < i ∧ i ≤ t ∧ l i ≤ c (t - len)) ∧ ∃ i, t - len < i ∧ i ≤ t ∧ c (t - len) ≤ h i) →
          k ≤ 100) := by
  refine ⟨_, C53_choppiness_exact hb (by omega), fun t _ z hz => ?_⟩
  by_cases hlt : len ≤ t + 1
  · refine ⟨hlt, ?_⟩
    cases h1 : Spec.highest (fun t => some (h t)) len t with
    | none => rw [h1] at hz; simp [opt2] at hz
    | some hi =>
      cases h2 : Spec.lowest (fun t => some (l t)) len t with
      | none => rw [h1, h2] at hz; simp [opt2] at hz
      | some lo =>
        rw [h1, h2] at hz
        simp only [opt2, Option.join_some] at hz
        split at hz
        · simp at hz
        · rename_i hne
          have hh := (spec_highest_some hlt h1).2
          have hl' := (spec_lowest_some hlt h2).2
          have hpos : 0 < hi - lo := by
            have a1 := hh t _ (by omega) (le_refl t) rfl
            have a2 := hl' t _ (by omega) (le_refl t) rfl
            have := hw.range t
            rcases lt_or_eq_of_le (show lo ≤ hi by linarith) with h' | h'
            · linarith
            · exact absurd h'.symm hne
          have hsp := spread_le_win hw (by omega) hlt h1 h2
          have hq : 1 ≤ (win (barRange h l c) len t).sum / (hi - lo) := by rw [one_le_div hpos]; exact hsp
          have hL : (1 : ℝ) < len := by exact_mod_cast (by omega : 1 < len)
          have hlog : 0 < Real.logb 10 (len : ℝ) := Real.logb_pos (by norm_num) hL
          have hlq : 0 ≤ Real.logb 10 ((win (barRange h l c) len t).sum / (hi - lo)) := Real.logb_nonneg (by norm_num) hq
          rw [fin_log10 _ (by linarith), fin_log10 _ (by linarith), fin_mul, fin_div _ _ (show RootOps.log10 (len : ℝ) ≠ 0 from hlog.ne')] at hz
          refine ⟨_, (Option.some.inj hz).symm, ?_, fun hc => ?_⟩
          · exact div_nonneg (mul_nonneg (by norm_num) hlq) hlog.le
          · have hle := range_le_spread hw (by omega) hlt h1 h2 (by
              rcases hc with hc | ⟨⟨i, i1, i2, i3⟩, j, j1, j2, j3⟩
              · exact Or.inl hc
              · by_cases he : t + 1 = len
                · exact Or.inl he
                · exact Or.inr ⟨(hl' i _ (by omega) i2 rfl).trans i3, j3.trans (hh j _ (by omega) j2 rfl)⟩)
            rw [← div_le_iff₀ hpos] at hle
            have := Real.logb_le_logb_of_le (b := 10) (by norm_num) (by linarith) hle
            show 100 * Real.logb 10 _ / Real.logb 10 _ ≤ 100
            rw [div_le_iff₀ hlog]
            linarith
  · simp [hlt, Spec.highest, opt2] at hz

end Pace
