import Verif.Lemmas.TaExact2
import Verif.Lemmas.NonNeg
import Verif.Lemmas.SeriesCongr

/-!
# Properties of the data-driven and composite components of ta (C31–C35)
-/

set_option linter.unusedSectionVars false

namespace Pace
open Spec

section float
variable {K : Type} [Field K] [LinearOrder K] [IsStrictOrderedRing K] (R : Rounding K)

/-! ## C31 -/

theorem bars0_spec {better : Fl R → Fl R → Bool} (law : BetterLaw better (fun v => v ≠ Fl.of R .nan)) {len t : Nat}
    (hlen : 1 ≤ len) (hl : len ≤ t + 1) {x : Nat → Option (Fl R)}
    (hn : ∀ k, k ≤ t → x k ≠ some (Fl.of R .nan)) :
    ∃ dd, dd < len ∧ bars0 better len x t = some (-(dd : Int)) ∧
      ((dd = 0 ∧ ∀ j, j < len → x (t - j) = none) ∨
       ∃ m, x (t - dd) = some m ∧ ∀ j v, j < len → x (t - j) = some v →
          better v m = false ∧ (dd < j → better m v = true)) := by
  obtain ⟨i, h1, h2, h3⟩ := findBest_ok better (win_ne_nil x (t := t) hlen)
  rw [win_length] at h2
  have hget : ∀ j, j < len → (win x len t)[len - 1 - j]? = some (x (t - j)) := by
    intro j hj
    rw [win_getElem?, if_pos (by omega)]
    congr 2; omega
  refine ⟨len - 1 - i, by omega, by simp [bars0, if_pos hl, h1], ?_⟩
  rcases h3 with ⟨m, hm⟩ | ⟨h3, h4⟩
  · right
    have hi := hget (len - 1 - i) (by omega)
    rw [show len - 1 - (len - 1 - i) = i by omega] at hi
    refine ⟨m, by rw [hi] at hm; exact Option.some.inj hm, fun j v hj hv => ?_⟩
    have hb := findBest_best better law (arr := win x len t) (fun v hv => by
      obtain ⟨k, _, hk, hkv⟩ := (mem_win hl).mp hv
      rintro rfl
      exact hn k hk hkv) h1 hm (len - 1 - j) v (by rw [hget j hj, hv])
    exact ⟨hb.1, fun hd => hb.2 (by omega)⟩
  · left
    rw [win_length] at h4
    refine ⟨by omega, fun j hj => h3 _ ?_⟩
    exact List.mem_of_getElem? (hget j hj)

/-- **C31.** `HighestBars(len)` on any column of highs without NaN: `None` for the first `len - 1` ticks, then `-dd` where
`high(t-dd)` is a greatest high of the last `len` bars and every bar of the window before it is strictly lower (the oldest of
several maxima); 0 if all highs of the window are missing. -/
theorem C31_highest_bars (d : DataProvider (Fl R)) {len N : Nat} (hlen : 1 ≤ len) {x : Nat → Option (Fl R)}
    (hx : HasCol d.high N x) (hn : ∀ t, t < N → x t ≠ some (Fl.of R .nan)) :
    ∃ y, Runs (noInput fun t => HighestBars.next ⟨d, t⟩) (HighestBars.new len) unit N y ∧ ∀ t, t < N →
      (t + 1 < len → y t = none) ∧
      (len ≤ t + 1 → ∃ dd, dd < len ∧ y t = some (-(dd : Int)) ∧
        ((dd = 0 ∧ ∀ j, j < len → x (t - j) = none) ∨
         ∃ m, x (t - dd) = some m ∧ ∀ j v, j < len → x (t - j) = some v →
            F64.le v m = true ∧ (dd < j → F64.lt v m = true))) := by
  refine ⟨_, highestBars_runs hlen hx, fun t ht => ⟨fun h => ?_, fun hl => ?_⟩⟩
  · rw [bars0, if_neg (by omega)]
  · obtain ⟨dd, h1, h2, h3⟩ := bars0_spec R (maxLaw R) hlen hl (x := x) (fun k hk => hn k (by omega))
    refine ⟨dd, h1, h2, h3.imp id ?_⟩
    rintro ⟨m, hm, hb⟩
    refine ⟨m, hm, fun j v hj hv => ⟨?_, (hb j v hj hv).2⟩⟩
    refine fl_le_of_not_lt v m ?_ ?_ (hb j v hj hv).1
    · rintro rfl; exact hn _ (by omega) hv
    · rintro rfl; exact hn _ (by omega) hm

/-- **C31**, dually `LowestBars(len)`. -/
theorem C31_lowest_bars (d : DataProvider (Fl R)) {len N : Nat} (hlen : 1 ≤ len) {x : Nat → Option (Fl R)}
    (hx : HasCol d.low N x) (hn : ∀ t, t < N → x t ≠ some (Fl.of R .nan)) :
    ∃ y, Runs (noInput fun t => LowestBars.next ⟨d, t⟩) (LowestBars.new len) unit N y ∧ ∀ t, t < N →
      (t + 1 < len → y t = none) ∧
      (len ≤ t + 1 → ∃ dd, dd < len ∧ y t = some (-(dd : Int)) ∧
        ((dd = 0 ∧ ∀ j, j < len → x (t - j) = none) ∨
         ∃ m, x (t - dd) = some m ∧ ∀ j v, j < len → x (t - j) = some v →
            F64.le m v = true ∧ (dd < j → F64.lt m v = true))) := by
  refine ⟨_, lowestBars_runs hlen hx, fun t ht => ⟨fun h => ?_, fun hl => ?_⟩⟩
  · rw [bars0, if_neg (by omega)]
  · obtain ⟨dd, h1, h2, h3⟩ := bars0_spec R (minLaw R) hlen hl (x := x) (fun k hk => hn k (by omega))
    refine ⟨dd, h1, h2, h3.imp id ?_⟩
    rintro ⟨m, hm, hb⟩
    refine ⟨m, hm, fun j v hj hv => ⟨?_, (hb j v hj hv).2⟩⟩
    refine fl_le_of_not_lt m v ?_ ?_ (hb j v hj hv).1
    · rintro rfl; exact hn _ (by omega) hm
    · rintro rfl; exact hn _ (by omega) hv

end float

/-- Highs 1, 3, 3, 2: at tick 3 with length 3 the maximum 3 is 1 and 2 bars ago; the older one is reported. -/
example : outputs (noInput fun t => HighestBars.next ⟨DataProvider.ofSeries 4 unit'
      (fun t => some (fin (([1, 3, 3, 2] : List ℚ).getD t 0))) unit' unit' unit', t⟩) unit 4 (HighestBars.new 3)
    = .ok [none, none, some (-1), some (-2)] := by decide +kernel

section exact
variable {K : Type} [Field K] [LinearOrder K] [IsStrictOrderedRing K] [RootOps K]

/-! ## C32 -/

theorem stoch_exact {len : Nat} (hlen : 1 ≤ len) (v h l : Nat → Option K) (t : Nat) :
    stoch0 len (flo v) (flo h) (flo l) t =
      match v t, Spec.highest h len t, Spec.lowest l len t with
      | some w, some hi, some lo =>
        if hi = lo then before (stoch0 len (flo v) (flo h) (flo l)) t else some (fin (100 * (w - lo) / (hi - lo)))
      | _, _, _ => none := by
  rw [stoch0_eq, highest0_exact hlen, lowest0_exact hlen, show flo v t = (v t).map fin from rfl]
  cases v t with
  | none => rfl
  | some w =>
    cases Spec.highest h len t with
    | none => rfl
    | some hi =>
      cases Spec.lowest l len t with
      | none => rfl
      | some lo =>
        simp only [Option.map_some, stochVal, fin_sub, fin_lit, fin_feq, fin_mul]
        by_cases he : hi = lo
        · simp [he]
        · have hne : hi - lo ≠ 0 := sub_ne_zero.mpr he
          simp [he, hne, fin_div]

/-- **C32.** `Stoch(len)` on any series of values, highs and lows with gaps: with `hi`, `lo` the greatest high and least low
of the last `len` ticks, `100 (v - lo) / (hi - lo)`; if `hi = lo`, the previous output again; `None` if the value is missing
or there is no `hi` or `lo` (in particular before `len` ticks). -/
theorem C32_stoch (d : DataProvider (Ex K)) {len : Nat} (hlen : 1 ≤ len) (v h l : Nat → Option K) (N : Nat) :
    ∃ y, Runs (fun t => Stoch.next ⟨d, t⟩) (Stoch.new len) (fun t => (flo v t, flo h t, flo l t)) N y ∧
      ∀ t, t < N →
        ((v t = none ∨ Spec.highest h len t = none ∨ Spec.lowest l len t = none) → y t = none) ∧
        ∀ w hi lo, v t = some w → Spec.highest h len t = some hi → Spec.lowest l len t = some lo →
          (hi ≠ lo → y t = some (fin (100 * (w - lo) / (hi - lo)))) ∧
          (hi = lo → (t = 0 → y t = none) ∧ ∀ s, t = s + 1 → y t = y s) := by
  refine ⟨_, stoch_runs d hlen (flo v) (flo h) (flo l) N, fun t _ => ⟨fun hn => ?_, fun w hi lo hv hh hl => ⟨fun hne => ?_, fun he => ⟨?_, ?_⟩⟩⟩⟩
  · rw [stoch_exact hlen]
    rcases hn with hn | hn | hn
    · rw [hn]
    · rw [hn]; cases v t <;> rfl
    · rw [hn]; cases v t <;> cases Spec.highest h len t <;> rfl
  · rw [stoch_exact hlen, hv, hh, hl]; exact if_neg hne
  · rintro rfl; rw [stoch_exact hlen, hv, hh, hl]; exact if_pos he
  · rintro s rfl; rw [stoch_exact hlen, hv, hh, hl]; exact if_pos he

/-- **C32.** If every value lies between the greatest high and the least low of its window, every output is in [0, 100]. -/
theorem C32_stoch_range (d : DataProvider (Ex K)) {len : Nat} (hlen : 1 ≤ len) (v h l : Nat → Option K) (N : Nat)
    (hb : ∀ t w hi lo, t < N → v t = some w → Spec.highest h len t = some hi → Spec.lowest l len t = some lo →
      lo ≤ w ∧ w ≤ hi) :
    ∃ y, Runs (fun t => Stoch.next ⟨d, t⟩) (Stoch.new len) (fun t => (flo v t, flo h t, flo l t)) N y ∧
      ∀ t, t < N → ∀ o, y t = some o → ∃ k, o = fin k ∧ 0 ≤ k ∧ k ≤ 100 := by
  refine ⟨_, stoch_runs d hlen (flo v) (flo h) (flo l) N, ?_⟩
  intro t
  induction t with
  | zero =>
    intro ht o ho
    rw [stoch_exact hlen] at ho
    split at ho
    · rename_i w hi lo h1 h2 h3
      split at ho
      · simp [before] at ho
      · rename_i hne
        obtain ⟨hb1, hb2⟩ := hb _ _ _ _ ht h1 h2 h3
        have hpos : 0 < hi - lo := by
          rcases lt_or_eq_of_le (hb1.trans hb2) with h | h
          · linarith
          · exact absurd h.symm hne
        refine ⟨_, (Option.some.inj ho).symm, div_nonneg (by linarith) hpos.le, ?_⟩
        rw [div_le_iff₀ hpos]; linarith
    · simp at ho
  | succ t ih =>
    intro ht o ho
    rw [stoch_exact hlen] at ho
    split at ho
    · rename_i w hi lo h1 h2 h3
      split at ho
      · exact ih (by omega) o ho
      · rename_i hne
        obtain ⟨hb1, hb2⟩ := hb _ _ _ _ ht h1 h2 h3
        have hpos : 0 < hi - lo := by
          rcases lt_or_eq_of_le (hb1.trans hb2) with h | h
          · linarith
          · exact absurd h.symm hne
        refine ⟨_, (Option.some.inj ho).symm, div_nonneg (by linarith) hpos.le, ?_⟩
        rw [div_le_iff₀ hpos]; linarith
    · simp at ho

/-- The hypothesis holds for closes between the low and the high of their own bar. -/
theorem C32_close_between {len : Nat} (hlen : 1 ≤ len) {h l c : Nat → K} {t : Nat} (hc : l t ≤ c t ∧ c t ≤ h t) {w hi lo : K}
    (hw : some (c t) = some w) (h1 : Spec.highest (fun t => some (h t)) len t = some hi)
    (h2 : Spec.lowest (fun t => some (l t)) len t = some lo) : lo ≤ w ∧ w ≤ hi := by
  have hl : len ≤ t + 1 := by
    by_contra hc; rw [Spec.highest, if_neg hc] at h1; simp at h1
  cases hw
  exact ⟨((spec_lowest_some hl h2).2 t (l t) (by omega) (le_refl _) rfl).trans hc.1,
    hc.2.trans ((spec_highest_some hl h1).2 t (h t) (by omega) (le_refl _) rfl)⟩

/-- A flat second window (highs and lows 5) repeats the value 25. -/
example : outputs (fun t => Stoch.next ⟨DataProvider.ofSeries 3 unit' unit' unit' unit' unit', t⟩)
    (fun t => (some (fin (([1, 2, 5] : List ℚ).getD t 0)), some (fin (([3, 5, 5] : List ℚ).getD t 0)),
      some (fin (([1, 5, 5] : List ℚ).getD t 0)))) 3 (Stoch.new 2)
    = .ok [none, some (fin 25), some (fin 25)] := by decide +kernel

/-! ## C33 -/

/-- **C33.** `Tr` on complete bars, from the second tick on: the greatest of `high - low`, `|high - previous close|` and
`|low - previous close|`. -/
theorem C33_tr (d : DataProvider (Ex K)) {N : Nat} {o h l c v : Nat → K}
    (hb : Bars d N (fun t => fin (o t)) (fun t => fin (h t)) (fun t => fin (l t)) (fun t => fin (c t)) (fun t => fin (v t)))
    (na : Bool) {t : Nat} (ht : t + 1 < N) :
    ∃ r : K, Tr.next ⟨d, t + 1⟩ na = .ok (some (fin r)) ∧
      (r = h (t + 1) - l (t + 1) ∨ r = |h (t + 1) - c t| ∨ r = |l (t + 1) - c t|) ∧
      h (t + 1) - l (t + 1) ≤ r ∧ |h (t + 1) - c t| ≤ r ∧ |l (t + 1) - c t| ≤ r ∧ 0 ≤ r := by
  refine ⟨max (max (h (t + 1) - l (t + 1)) |h (t + 1) - c t|) |l (t + 1) - c t|, ?_, ?_, ?_, ?_, ?_, ?_⟩
  · rw [tr_step hb.high hb.low hb.close ht na, tr0]; simp
  · rcases max_choice (max (h (t + 1) - l (t + 1)) |h (t + 1) - c t|) |l (t + 1) - c t| with h1 | h1 <;> rw [h1]
    · rcases max_choice (h (t + 1) - l (t + 1)) |h (t + 1) - c t| with h2 | h2 <;> rw [h2]
      · exact Or.inl rfl
      · exact Or.inr (Or.inl rfl)
    · exact Or.inr (Or.inr rfl)
  · exact (le_max_left _ _).trans (le_max_left _ _)
  · exact (le_max_right _ _).trans (le_max_left _ _)
  · exact le_max_right _ _
  · exact (abs_nonneg _).trans (le_max_right _ _)

/-- **C33.** `Tr` at the first tick: `high - low` with `handle_na`, otherwise `None`. -/
theorem C33_tr_first (d : DataProvider (Ex K)) {N : Nat} {o h l c v : Nat → K}
    (hb : Bars d N (fun t => fin (o t)) (fun t => fin (h t)) (fun t => fin (l t)) (fun t => fin (c t)) (fun t => fin (v t)))
    (hN : 0 < N) :
    Tr.next ⟨d, 0⟩ true = .ok (some (fin (h 0 - l 0))) ∧ Tr.next ⟨d, 0⟩ false = .ok none := by
  rw [tr_step hb.high hb.low hb.close hN, tr_step hb.high hb.low hb.close hN]
  simp [tr0]

/-- The hypothesis is met by every choice of bars (`bars_ofSeries`); a gap up: close 2, then high 10, low 8 gives 8. -/
example : Tr.next ⟨DataProvider.ofSeries 2 unit' (fun t => some (fin (([3, 10] : List ℚ).getD t 0)))
      (fun t => some (fin (([1, 8] : List ℚ).getD t 0))) (fun t => some (fin (([2, 9] : List ℚ).getD t 0))) unit', 1⟩ true
    = .ok (some (fin 8)) := by decide +kernel

/-- **C33.** In exact arithmetic `Atr(len)`, `len >= 2`: `None` before `len` bars, then the RMA (mean of the first `len` true
ranges, then exponential smoothing with factor `1/len`), never negative when lows are not above highs. -/
theorem C33_atr_exact (d : DataProvider (Ex K)) {N len : Nat} (hlen : 2 ≤ len) {o h l c v : Nat → K}
    (hb : Bars d N (fun t => fin (o t)) (fun t => fin (h t)) (fun t => fin (l t)) (fun t => fin (c t)) (fun t => fin (v t)))
    (hhl : ∀ t, l t ≤ h t) (r : Nat → K) (hr : ∀ t, t < N → Tr.next ⟨d, t⟩ true = .ok (some (fin (r t)))) :
    ∃ y, Runs (noInput fun t => Atr.next ⟨d, t⟩) (Atr.new len) unit N y ∧
      (∀ t, t < N → t + 1 < len → y t = none) ∧
      ∀ n, len - 1 + n < N →
        y (len - 1 + n) = some (fin (smoothed (1 / (len : K)) (mean (hist r len)) (fun i => r (len + i)) n)) ∧
        0 ≤ smoothed (1 / (len : K)) (mean (hist r len)) (fun i => r (len + i)) n := by
  have hrt : ∀ t, t < N → tr0 true (fun t => (fin (h t) : Ex K)) (fun t => fin (l t)) (fun t => fin (c t)) t
      = some (fin (r t)) := by
    intro t ht
    have := hr t ht
    rw [tr_step hb.high hb.low hb.close ht true] at this
    exact Except.ok.inj this
  have hr0 : ∀ t, t < N → 0 ≤ r t := by
    intro t ht
    have := hrt t ht
    cases t with
    | zero =>
      simp [tr0] at this
      rw [← this]; linarith [hhl 0]
    | succ t =>
      simp [tr0] at this
      rw [← this]; exact (abs_nonneg _).trans (le_max_right _ _)
  -- beyond `N` the true range is irrelevant: use a total series
  let x : Nat → Option K := fun t => if t < N then some (r t) else none
  have hx : ∀ t, t < N → x t = some (r t) := fun t ht => if_pos ht
  have hag : ∀ t, t < N → atr0 len (fun t => (fin (h t) : Ex K)) (fun t => fin (l t)) (fun t => fin (c t)) t
      = rma0 len (flo x) t := by
    intro t ht
    refine ema0_congr len _ fun k hk => ?_
    rw [hrt k (by omega), show flo x k = (x k).map fin from rfl, hx k (by omega)]; rfl
  have hlt : ∀ t, t + 1 < len → fullWindow x len t = none := fun t ht => by
    unfold fullWindow; rw [if_neg (by omega)]
  refine ⟨_, atr_runs (by omega) hb.high hb.low hb.close, fun t ht hl => ?_, fun n hn => ?_⟩
  · rw [hag t ht]
    exact ema0_exact_before hlen _ fun r hr => hlt r (by omega)
  · have hw : fullWindow x len (len - 1) = some (hist r len) := by
      unfold fullWindow
      rw [if_pos (by omega), show win x len (len - 1) = hist x len by
        rw [show len = (len - 1) + 1 by omega, Nat.add_sub_cancel, win_full], allSome_eq_some, hist_map]
      exact hist_congr fun t ht => hx t (by omega)
    refine ⟨?_, ?_⟩
    · rw [hag _ hn]
      have := ema0_exact hlen (1 / (len : K)) (x := x) (s := len - 1) ⟨by rw [hw]; rfl, fun r hr => hlt r (by omega)⟩ hw
        (fun i => r (len + i)) n (fun i hi => by rw [show len - 1 + 1 + i = len + i by omega]; exact hx _ (by omega))
      rw [← this, rma0, rmaAlpha_exact (by omega)]
    · have hl0 : (0 : K) < len := by exact_mod_cast (by omega : 0 < len)
      refine smoothed_nonneg (by positivity) ?_ ?_ fun i hi => hr0 _ (by omega)
      · rw [div_le_one hl0]; exact_mod_cast (by omega : 1 ≤ len)
      · refine div_nonneg (List.sum_nonneg fun a ha => ?_) (by positivity)
        obtain ⟨k, hk, rfl⟩ := List.mem_map.mp ha
        exact hr0 k (by have := List.mem_range.mp hk; omega)

end exact

/-- **C33.** For floats: `Atr(len)` returns exactly what `Rma(len)` returns when fed the outputs of `Tr` with `handle_na`, on
all complete bars. -/
theorem C33_atr_is_rma {α : Type} [F64 α] (d : DataProvider α) {N len : Nat} (hlen : 1 ≤ len) {o h l c v : Nat → α}
    (hb : Bars d N o h l c v) :
    ∃ (r : Nat → α) (y : Nat → Option α), (∀ t, t < N → Tr.next ⟨d, t⟩ true = .ok (some (r t))) ∧
      Runs (fun t => Rma.next ⟨d, t⟩) (Rma.new len) (fun t => some (r t)) N y ∧
      Runs (noInput fun t => Atr.next ⟨d, t⟩) (Atr.new len) unit N y := by
  have h1 : ∀ t, ∃ r, tr0 true h l c t = some r := fun t => Option.isSome_iff_exists.mp (tr0_isSome h l c t)
  choose r hr using h1
  have he : tr0 true h l c = fun t => some (r t) := funext hr
  refine ⟨r, atr0 len h l c, fun t ht => ?_, ?_, atr_runs hlen hb.high hb.low hb.close⟩
  · rw [tr_step hb.high hb.low hb.close ht, hr]
  · rw [atr0, he]
    exact rma_runs d hlen _ N (emaOk_of_present fun t _ => rfl)

section float
variable {K : Type} [Field K] [LinearOrder K] [IsStrictOrderedRing K] {R : Rounding K}

theorem nn_sub_of_le (L : R.Lawful) {a b : Fl R} (h : F64.le b a = true) : NN (a - b) := by
  match a, b, h with
  | .nan, _, _ => exact nn_nan
  | .pinf, .pinf, _ => exact nn_nan
  | .pinf, .ninf, _ => exact nn_pinf
  | .pinf, .fin _, _ => exact nn_pinf
  | .ninf, .ninf, _ => exact nn_nan
  | .fin _, .ninf, _ => exact nn_pinf
  | .fin x, .fin y, h =>
    have : y ≤ x := of_decide_eq_true h
    exact nn_rnd L (show 0 ≤ x + -y by linarith)

/-- **C33.** In floating point, under every monotone rounding: if no bar's low is above its high, every `Some` of `Atr` is NaN
or at least 0. -/
theorem C33_atr_nonneg (L : R.Lawful) (d : DataProvider (Fl R)) {N len : Nat} (hlen : 1 ≤ len) {o h l c v : Nat → Fl R}
    (hb : Bars d N o h l c v) (hhl : ∀ t, t < N → F64.le (l t) (h t) = true) :
    ∃ y, Runs (noInput fun t => Atr.next ⟨d, t⟩) (Atr.new len) unit N y ∧
      ∀ t, t < N → ∀ w, y t = some w → w = Fl.of R .nan ∨ F64.le (Fl.of R (.fin 0)) w = true := by
  refine ⟨_, atr_runs hlen hb.high hb.low hb.close, fun t ht w hw => ?_⟩
  let x : Nat → Option (Fl R) := fun t => if t < N then tr0 true h l c t else none
  have hxe : ∀ t, t < N → tr0 true h l c t = x t := fun t ht => (if_pos ht).symm
  rw [atr0, rma0, ema0_congr len _ (y := x) fun k hk => hxe k (by omega)] at hw
  refine (ema0_nn L hlen (t0 := 0) (rmaAlpha_nn L hlen).1 (rmaAlpha_nn L hlen).2 (x := x) (by simp)
    (fun t v hv => ?_) (N := N) (fun t _ ht => by rw [← hxe t ht]; exact tr0_isSome h l c t)).2 t ht w hw
  have ht : t < N := by
    by_contra hc
    rw [show x t = none from if_neg hc] at hv; simp at hv
  rw [← hxe t ht] at hv
  cases t with
  | zero =>
    simp [tr0] at hv
    rw [← hv]; exact nn_sub_of_le L (hhl 0 ht)
  | succ t =>
    simp [tr0] at hv
    rw [← hv]
    exact NN.fmax (NN.fmax (nn_sub_of_le L (hhl _ ht)) (nn_abs _)) (nn_abs _)

/-! ## C34 -/

theorem rsi_value_range (L : R.Lawful) {u dn : Fl R} (hu : NN u) (hd : NN dn) {v : Fl R}
    (hv : lit 100 - lit 100 / (lit 1 + u / dn) = v) :
    v = Fl.of R .nan ∨ (F64.le (Fl.of R (.fin 0)) v = true ∧ F64.le v (Fl.of R (.fin 100)) = true) := by
  rw [lit_hundred L, lit_one L] at hv
  have hq := NN.div L hu hd
  generalize u / dn = q at hv hq
  have h100 : ∀ z : K, 0 ≤ z → z ≤ 100 →
      Fl.of R (.fin 100) - Fl.of R (.fin z) = v →
      v = Fl.of R .nan ∨ (F64.le (Fl.of R (.fin 0)) v = true ∧ F64.le v (Fl.of R (.fin 100)) = true) := by
    rintro z hz0 hz1 rfl
    right
    constructor
    · rcases nn_rnd L (show 0 ≤ 100 + -z by linarith) with h | h
      · exact absurd h (L.ne_nan _)
      · exact h
    · have := rnd_le_int L (k := 100 + -z) (n := 100) (by norm_num) (by push_cast; linarith)
      exact_mod_cast this
  -- the sum `1 + q`
  have hs : Fl.of R (.fin 1) + q = Fl.of R .nan ∨ Fl.of R (.fin 1) + q = Fl.of R .pinf ∨
      ∃ k : K, 1 ≤ k ∧ Fl.of R (.fin 1) + q = Fl.of R (.fin k) := by
    rcases hq.cases with rfl | rfl | ⟨k, hk, rfl⟩
    · exact Or.inl rfl
    · exact Or.inr (Or.inl rfl)
    · right
      have hm := L.mono 1 (1 + k) (by linarith)
      have hn := L.ne_nan (1 + k)
      rw [rnd_one L] at hm
      show (R.rnd (1 + k) = .pinf) ∨ ∃ j : K, 1 ≤ j ∧ R.rnd (1 + k) = .fin j
      cases hr : R.rnd (1 + k) with
      | nan => exact absurd hr hn
      | pinf => exact Or.inl rfl
      | ninf => rw [hr] at hm; exact absurd (show false = true from hm) (by simp)
      | fin j => rw [hr] at hm; exact Or.inr ⟨j, of_decide_eq_true hm, rfl⟩
  rcases hs with h | h | ⟨k, hk, h⟩ <;> rw [h] at hv
  · left; rw [← hv]; rfl
  · exact h100 0 (le_refl _) (by norm_num) hv
  · have hne : k ≠ 0 := by rintro rfl; linarith
    have hdv : Fl.of R (.fin 100) / Fl.of R (.fin k) = Fl.of R (R.rnd (100 / k)) :=
      (if_neg hne : (if k = 0 then Fl.signInf 100 else R.rnd (100 / k)) = R.rnd (100 / k))
    have h0 : 0 ≤ 100 / k := div_nonneg (by norm_num) (by linarith)
    have h1 : 100 / k ≤ ((100 : ℤ) : K) := by
      push_cast
      rw [div_le_iff₀ (by linarith)]; linarith
    have hle := rnd_le_int L (n := 100) (by norm_num) h1
    rw [hdv] at hv
    rcases (nn_rnd L h0).cases with h2 | h2 | ⟨z, hz, h2⟩
    · exact absurd h2 (L.ne_nan _)
    · have h3 : R.rnd (100 / k) = .pinf := h2
      rw [h3] at hle; exact absurd (show false = true from hle) (by simp)
    · have h3 : R.rnd (100 / k) = .fin z := h2
      rw [h3] at hle
      rw [h2] at hv
      have : z ≤ ((100 : ℤ) : K) := of_decide_eq_true hle
      exact h100 z hz (by exact_mod_cast this) hv

/-- **C34.** In floating point, under every monotone rounding that is exact on small integers, and for every input series
without a gap after its first value (values may be NaN or infinite): every `Some` of `Rsi` is NaN or lies in [0, 100]. -/
theorem C34_rsi_range (L : R.Lawful) (d : DataProvider (Fl R)) {len N : Nat} (hlen : 2 ≤ len) (x : Nat → Option (Fl R))
    (hx : ∀ t, t + 1 < N → (x t).isSome → (x (t + 1)).isSome) :
    ∃ y, Runs (fun t => Rsi.next ⟨d, t⟩) (Rsi.new len) x N y ∧ ∀ t, t < N → ∀ v, y t = some v →
      v = Fl.of R .nan ∨ (F64.le (Fl.of R (.fin 0)) v = true ∧ F64.le v (Fl.of R (.fin 100)) = true) := by
  refine ⟨_, rsi_runs d hlen x N hx, fun t ht v hv => ?_⟩
  -- the tick of the first change
  have hstart : ∃ t0, (∀ t, t < t0 → ((x t).isSome && (before x t).isSome) = false) ∧
      ∀ t, t0 ≤ t → t < N → ((x t).isSome && (before x t).isSome) = true := by
    by_cases he : ∃ s, s < N ∧ (x s).isSome
    · have hw : ∃ s, (x s).isSome = true := ⟨he.choose, he.choose_spec.2⟩
      have hs1 := Nat.find_spec hw
      have hs2 : ∀ t, t < Nat.find hw → (x t).isSome = false := fun t ht => by
        have := Nat.find_min hw ht; simpa using this
      have hup : ∀ k, Nat.find hw ≤ k → k < N → (x k).isSome = true := by
        intro k hk
        induction k, hk using Nat.le_induction with
        | base => intro _; exact hs1
        | succ k hk ih => intro hkN; exact hx k hkN (ih (by omega))
      refine ⟨Nat.find hw + 1, fun t ht => ?_, fun t h1 h2 => ?_⟩
      · cases t with
        | zero => simp [before]
        | succ t => simp [before, hs2 t (by omega)]
      · cases t with
        | zero => omega
        | succ t => simp [before, hup t (by omega) (by omega), hup (t + 1) (by omega) h2]
    · refine ⟨N, fun t ht => ?_, fun t h1 h2 => by omega⟩
      have : (x t).isSome = false := by
        by_contra hc; exact he ⟨t, ht, by simpa [Option.isSome_iff_ne_none] using hc⟩
      simp [this]
  obtain ⟨t0, h0, h1⟩ := hstart
  have hal := rmaAlpha_nn (R := R) L (show 1 ≤ len by omega)
  have hnone : ∀ (o : Option (Fl R)), o.isSome = false → o = none := fun o h => by simpa using h
  have hz : (lit 0 : Fl R) = Fl.of R (.fin 0) := lit_zero L
  have hup : ∀ v, rma0 len (gain0 x) t = some v → NN v := by
    refine (ema0_nn L (show 1 ≤ len by omega) hal.1 hal.2 (t0 := t0) (fun t ht => hnone _ (by rw [gain0_isSome]; exact h0 t ht))
      (fun t v hv => ?_) (N := N) (fun t h2 h3 => by rw [gain0_isSome]; exact h1 t h2 h3)).2 t ht
    unfold gain0 at hv
    cases hxt : x t <;> cases hbt : before x t <;> simp [hxt, hbt, opt2] at hv
    rw [← hv, hz]; exact nn_fmax_fin _ (le_refl _)
  have hdn : ∀ v, rma0 len (loss0 x) t = some v → NN v := by
    refine (ema0_nn L (show 1 ≤ len by omega) hal.1 hal.2 (t0 := t0) (fun t ht => hnone _ (by rw [loss0_isSome]; exact h0 t ht))
      (fun t v hv => ?_) (N := N) (fun t h2 h3 => by rw [loss0_isSome]; exact h1 t h2 h3)).2 t ht
    unfold loss0 at hv
    cases hxt : x t <;> cases hbt : before x t <;> simp [hxt, hbt, opt2] at hv
    rw [← hv, hz]; exact nn_neg_fmin _ (le_refl _)
  unfold rsi0 at hv
  cases hu : rma0 len (gain0 x) t with
  | none => rw [hu] at hv; simp [opt2] at hv
  | some u =>
    cases hd : rma0 len (loss0 x) t with
    | none => rw [hu, hd] at hv; simp [opt2] at hv
    | some dn =>
      rw [hu, hd] at hv
      exact rsi_value_range L (hup u hu) (hdn dn hd) (Option.some.inj hv)

end float

section exact
variable {K : Type} [Field K] [LinearOrder K] [IsStrictOrderedRing K] [RootOps K]

/-- The Wilder average at tick `len + n` of the per-tick changes `g 1, g 2, ...`: the mean of the first `len`, then
smoothing with factor `1/len`. -/
def Spec.wilder (len : Nat) (g : Nat → K) (n : Nat) : K :=
  smoothed (1 / (len : K)) (mean ((List.range len).map fun i => g (i + 1))) (fun i => g (len + 1 + i)) n

theorem wilder_nonneg {len : Nat} (hlen : 1 ≤ len) {g : Nat → K} (hg : ∀ t, 0 ≤ g t) (n : Nat) : 0 ≤ wilder len g n := by
  have hl0 : (0 : K) < len := by exact_mod_cast hlen
  refine smoothed_nonneg (by positivity) ?_ (mean_nonneg fun a ha => ?_) fun i _ => hg _
  · rw [div_le_one hl0]; exact_mod_cast hlen
  · obtain ⟨k, _, rfl⟩ := List.mem_map.mp ha; exact hg _

theorem rma0_changes {len : Nat} (hlen : 2 ≤ len) {g : Nat → K} {x : Nat → Option (Ex K)} (hx0 : x 0 = none)
    (hx : ∀ t, x (t + 1) = some (fin (g (t + 1)))) :
    (∀ t, t < len → rma0 len x t = none) ∧ ∀ n, rma0 len x (len + n) = some (fin (wilder len g n)) := by
  let w : Nat → Option K := fun t => if t = 0 then none else some (g t)
  have hxw : x = flo w := by
    funext t
    cases t with
    | zero => rw [hx0]; rfl
    | succ t => rw [hx]; rfl
  have hfull : ∀ t, t < len → fullWindow w len t = none := by
    intro t ht
    unfold fullWindow
    split
    · rw [allSome_eq_none, mem_win (by omega)]
      exact ⟨0, by omega, by omega, rfl⟩
    · rfl
  have hl : fullWindow w len len = some ((List.range len).map fun i => g (i + 1)) := by
    unfold fullWindow
    rw [if_pos (by omega), allSome_eq_some, win, List.map_map]
    apply List.map_congr_left
    intro i _
    show (if len + 1 - len + i = 0 then none else some (g (len + 1 - len + i))) = some (g (i + 1))
    rw [if_neg (by omega), show len + 1 - len + i = i + 1 by omega]
  constructor
  · intro t ht
    rw [hxw]; exact ema0_exact_before hlen _ fun r hr => hfull r (by omega)
  · intro n
    rw [hxw, rma0, rmaAlpha_exact (by omega)]
    refine ema0_exact hlen _ ⟨by rw [hl]; rfl, hfull⟩ hl _ n fun i _ => ?_
    show (if len + 1 + i = 0 then none else some (g (len + 1 + i))) = _
    rw [if_neg (by omega)]

/-- Gain and loss from one price to the next. -/
def Spec.gain (p : Nat → K) (t : Nat) : K := max (p t - p (t - 1)) 0
def Spec.loss (p : Nat → K) (t : Nat) : K := max (p (t - 1) - p t) 0

/-- **C34.** `Rsi(len)` in exact arithmetic, for every price series: `None` for the first `len` ticks; afterwards, with `U`
and `D` the Wilder averages of the gains and losses, NaN if both are 0 and `100 U / (U + D)` otherwise. -/
theorem C34_rsi_exact (d : DataProvider (Ex K)) {len : Nat} (hlen : 2 ≤ len) (p : Nat → K) (N : Nat) :
    ∃ y, Runs (fun t => Rsi.next ⟨d, t⟩) (Rsi.new len) (fun t => some (fin (p t))) N y ∧
      (∀ t, t < N → t < len → y t = none) ∧
      ∀ n, len + n < N → y (len + n) = some (
        if wilder len (gain p) n = 0 ∧ wilder len (loss p) n = 0 then Fl.of _ .nan
        else fin (100 * wilder len (gain p) n / (wilder len (gain p) n + wilder len (loss p) n))) := by
  have hU := rma0_changes hlen (g := gain p) (x := gain0 fun t => some (fin (p t))) rfl
    (fun t => by simp [gain0, before, opt2, gain])
  have hD := rma0_changes hlen (g := loss p) (x := loss0 fun t => some (fin (p t))) rfl
    (fun t => by
      simp only [loss0, before, opt2, loss, fin_sub, fin_lit, fin_fmin, fin_neg, Rat.cast_zero, Nat.add_sub_cancel]
      congr 2
      rcases le_total (p (t + 1) - p t) 0 with h | h
      · rw [min_eq_left h, max_eq_left (by linarith)]; ring
      · rw [min_eq_right h, max_eq_right (by linarith)]; ring)
  refine ⟨_, rsi_runs d hlen _ N (fun _ _ _ => rfl), fun t _ ht => ?_, fun n _ => ?_⟩
  · rw [rsi0, hU.1 t ht]; rfl
  · rw [rsi0, hU.2 n, hD.2 n]
    have hu := wilder_nonneg (show 1 ≤ len by omega) (g := gain p) (fun t => le_max_right _ _) n
    have hd := wilder_nonneg (show 1 ≤ len by omega) (g := loss p) (fun t => le_max_right _ _) n
    generalize wilder len (gain p) n = u at hu
    generalize wilder len (loss p) n = dn at hd
    show some _ = some _
    congr 1
    simp only [fin_lit]
    by_cases hd0 : dn = 0
    · subst hd0
      rw [fin_div_zero]
      by_cases hu0 : u = 0
      · subst hu0
        rw [if_pos ⟨rfl, rfl⟩]
        unfold Fl.signInf; rw [if_neg (lt_irrefl _), if_neg (lt_irrefl _)]
        rfl
      · have hpos : 0 < u := lt_of_le_of_ne hu (Ne.symm hu0)
        rw [if_neg (by tauto), Fl.signInf, if_pos hpos, add_zero, mul_div_assoc, div_self hu0]
        have : (fin ((100 : ℚ) : K) : Ex K) / (fin ((1 : ℚ) : K) + Fl.of _ .pinf) = fin 0 := rfl
        exact (congrArg (fun z => (fin ((100 : ℚ) : K) : Ex K) - z) this).trans (by rw [fin_sub]; congr 1; push_cast; ring)
    · have hpos : 0 < dn := lt_of_le_of_ne hd (Ne.symm hd0)
      rw [if_neg (by tauto), fin_div _ _ hd0, fin_add, fin_div, fin_sub]
      · congr 1
        push_cast
        have h1 : dn + u ≠ 0 := by positivity
        have h2 : u + dn ≠ 0 := by positivity
        field_simp
        ring
      · push_cast
        have : 0 ≤ u / dn := by positivity
        intro h; linarith

/-- **C34.** In exact arithmetic every number returned is in [0, 100]. -/
theorem C34_rsi_exact_range (d : DataProvider (Ex K)) {len : Nat} (hlen : 2 ≤ len) (p : Nat → K) (N : Nat) :
    ∃ y, Runs (fun t => Rsi.next ⟨d, t⟩) (Rsi.new len) (fun t => some (fin (p t))) N y ∧
      ∀ t, t < N → len ≤ t → ∀ k, y t = some (fin k) → 0 ≤ k ∧ k ≤ 100 := by
  obtain ⟨y, h1, _, h3⟩ := C34_rsi_exact d hlen p N
  refine ⟨y, h1, fun t ht hl k hk => ?_⟩
  obtain ⟨n, rfl⟩ : ∃ n, t = len + n := ⟨t - len, by omega⟩
  rw [h3 n ht] at hk
  have hu := wilder_nonneg (show 1 ≤ len by omega) (g := gain p) (fun t => le_max_right _ _) n
  have hd := wilder_nonneg (show 1 ≤ len by omega) (g := loss p) (fun t => le_max_right _ _) n
  have hk' := Option.some.inj hk
  split at hk'
  · exact absurd hk'.symm (fin_ne_nan k)
  · rename_i hne
    rw [fin_inj] at hk'
    have hpos : 0 < wilder len (gain p) n + wilder len (loss p) n := by
      rcases lt_or_eq_of_le hu with h | h
      · linarith
      · rcases lt_or_eq_of_le hd with h' | h'
        · linarith
        · exact absurd ⟨h.symm, h'.symm⟩ hne
    rw [← hk']
    refine ⟨by positivity, ?_⟩
    rw [div_le_iff₀ hpos]; linarith

/-- **C34.** Prices that never fall and rise somewhere among the first `len + 1`: the RSI is 100 on every tick from `len` on. -/
theorem C34_rsi_only_gains (d : DataProvider (Ex K)) {len : Nat} (hlen : 2 ≤ len) (p : Nat → K) (N : Nat)
    (hp : ∀ t, p t ≤ p (t + 1)) (hr : p 0 < p len) :
    ∃ y, Runs (fun t => Rsi.next ⟨d, t⟩) (Rsi.new len) (fun t => some (fin (p t))) N y ∧
      ∀ t, t < N → len ≤ t → y t = some (fin 100) := by
  obtain ⟨y, h1, _, h3⟩ := C34_rsi_exact d hlen p N
  refine ⟨y, h1, fun t ht hl => ?_⟩
  obtain ⟨n, rfl⟩ : ∃ n, t = len + n := ⟨t - len, by omega⟩
  rw [h3 n ht]
  have hl0 : (0 : K) < len := by exact_mod_cast (by omega : 0 < len)
  have hloss : ∀ t, loss p t = 0 := by
    intro t
    cases t with
    | zero => simp [loss]
    | succ t => simp only [loss, Nat.add_sub_cancel]; rw [max_eq_right]; linarith [hp t]
  have hgain : ∀ t, gain p (t + 1) = p (t + 1) - p t := fun t => by
    simp only [gain, Nat.add_sub_cancel]; rw [max_eq_left]; linarith [hp t]
  have hsum : ∀ m, ((List.range m).map fun i => gain p (i + 1)).sum = p m - p 0 := by
    intro m
    induction m with
    | zero => simp
    | succ m ih => rw [List.range_succ, List.map_append, List.sum_append, ih]; simp [hgain]
  have hD : wilder len (loss p) n = 0 := by
    unfold wilder
    simp only [hloss]
    rw [show mean ((List.range len).map fun _ => (0 : K)) = 0 by simp [mean]]
    exact smoothed_eq_zero fun _ _ => rfl
  have hU : 0 < wilder len (gain p) n := by
    refine smoothed_pos (by positivity) ?_ ?_ fun i _ => le_max_right _ _
    · rw [div_lt_one hl0]; exact_mod_cast (by omega : 1 < len)
    · unfold mean
      rw [hsum]
      apply div_pos
      · linarith
      · simp; omega
  rw [hD, if_neg (by rintro ⟨h, _⟩; linarith), add_zero, mul_div_assoc, div_self hU.ne', mul_one]

/-- **C34.** Constant prices: the RSI is `Some(NaN)` on every tick from `len` on. -/
theorem C34_rsi_constant (d : DataProvider (Ex K)) {len : Nat} (hlen : 2 ≤ len) (p : K) (N : Nat) :
    ∃ y, Runs (fun t => Rsi.next ⟨d, t⟩) (Rsi.new len) (fun _ => some (fin p)) N y ∧
      ∀ t, t < N → len ≤ t → y t = some (Fl.of _ .nan) := by
  obtain ⟨y, h1, _, h3⟩ := C34_rsi_exact d hlen (fun _ => p) N
  refine ⟨y, h1, fun t ht hl => ?_⟩
  obtain ⟨n, rfl⟩ : ∃ n, t = len + n := ⟨t - len, by omega⟩
  rw [h3 n ht, if_pos]
  have h0 : ∀ g : Nat → K, (∀ t, g t = 0) → wilder len g n = 0 := by
    intro g hg
    unfold wilder
    simp only [hg]
    rw [show mean ((List.range len).map fun _ => (0 : K)) = 0 by simp [mean]]
    exact smoothed_eq_zero fun _ _ => rfl
  exact ⟨h0 _ fun t => by simp [gain], h0 _ fun t => by simp [loss]⟩

end exact

/-- A run with gains and losses: prices 1, 3, 2, 2 with length 2 give 200/3 at tick 2. -/
example : outputs (fun t => Rsi.next ⟨DataProvider.ofSeries 4 unit' unit' unit' unit' unit', t⟩)
    (fun t => some (fin (([1, 3, 2, 2] : List ℚ).getD t 0))) 4 (Rsi.new 2)
    = .ok [none, none, some (fin (200 / 3)), some (fin (200 / 3))] := by decide +kernel

section cross
variable {K : Type} [Field K] [LinearOrder K] [IsStrictOrderedRing K] {R : Rounding K}

/-! ## C35 -/

/-- `a` moves from at most `b` at tick `t - 1` to above `b` at tick `t`, all four values being present. -/
def Spec.CrossesOver (a b : Nat → Option (Fl R)) (t : Nat) : Prop :=
  ∃ s pa pb va vb, t = s + 1 ∧ a s = some pa ∧ b s = some pb ∧ a t = some va ∧ b t = some vb ∧
    F64.le pa pb = true ∧ F64.lt vb va = true

theorem over0_iff (a b : Nat → Option (Fl R)) (t : Nat) : over0 a b t = true ↔ CrossesOver a b t := by
  unfold over0 CrossesOver
  cases t with
  | zero => simp [before]
  | succ s =>
    simp only [before]
    cases h1 : a s <;> cases h2 : b s <;> cases h3 : a (s + 1) <;> cases h4 : b (s + 1) <;>
      simp [h1, h2, h3, h4, and_comm]

theorem under0_eq (a b : Nat → Option (Fl R)) (t : Nat) : under0 a b t = over0 b a t := by
  unfold under0 over0
  cases t with
  | zero => simp [before]
  | succ s =>
    simp only [before]
    cases a s <;> cases b s <;> cases a (s + 1) <;> cases b (s + 1) <;> rfl

theorem crosses_exclusive (a b : Nat → Option (Fl R)) (t : Nat) : CrossesOver a b t → ¬ CrossesOver b a t := by
  rintro ⟨s, pa, pb, va, vb, h1, h2, h3, h4, h5, h6, h7⟩ ⟨s', pb', pa', vb', va', g1, g2, g3, g4, g5, g6, g7⟩
  rw [h4] at g5; rw [h5] at g4
  cases g5; cases g4
  have := fl_lt_asymm _ _ h7
  rw [show Ext.lt va vb = true from g7] at this
  simp at this

/-- **C35.** `Cross` returns `Over` exactly when the first series crosses over the second, `Under` exactly when the second
crosses over the first, and never both (the two conditions exclude each other); for all float series with gaps. -/
theorem C35_cross (a b : Nat → Option (Fl R)) (N : Nat) :
    ∃ y, Runs (total Cross.next) (.ok CrossState.new) (fun t => (a t, b t)) N y ∧ ∀ t, t < N →
      (y t = some .over ↔ CrossesOver a b t) ∧ (y t = some .under ↔ CrossesOver b a t) ∧
      ¬ (CrossesOver a b t ∧ CrossesOver b a t) := by
  refine ⟨cross0 a b, Impl.runs (Inv := CrossInv a b) ⟨rfl, fun t s _ h => ?_⟩, fun t _ => ?_⟩
  · obtain ⟨s', h1, h2⟩ := cross_step h
    exact ⟨s', by rw [total, h1], h2⟩
  · have hex := crosses_exclusive a b t
    refine ⟨?_, ?_, fun h => hex h.1 h.2⟩
    · rw [← over0_iff]; unfold cross0
      cases over0 a b t <;> simp
    · rw [← over0_iff, ← over0_iff] at *
      unfold cross0
      rw [under0_eq]
      cases h1 : over0 a b t <;> simp_all

/-- **C35.** `CrossOver` and `CrossUnder` are the two halves of `Cross`. -/
theorem C35_cross_over_under (a b : Nat → Option (Fl R)) (N : Nat) :
    (∃ y, Runs (total CrossOver.next) (.ok CrossState.new) (fun t => (a t, b t)) N y ∧
      ∀ t, t < N → (y t = true ↔ CrossesOver a b t)) ∧
    (∃ y, Runs (total CrossUnder.next) (.ok CrossState.new) (fun t => (a t, b t)) N y ∧
      ∀ t, t < N → (y t = true ↔ CrossesOver b a t)) := by
  refine ⟨⟨over0 a b, Impl.runs (Inv := CrossInv a b) ⟨rfl, fun t s _ h => ?_⟩, fun t _ => over0_iff a b t⟩,
    ⟨under0 a b, Impl.runs (Inv := CrossInv a b) ⟨rfl, fun t s _ h => ?_⟩, fun t _ => by rw [under0_eq]; exact over0_iff b a t⟩⟩
  · obtain ⟨s', h1, h2⟩ := crossOver_step h
    exact ⟨s', by rw [total, h1], h2⟩
  · obtain ⟨s', h1, h2⟩ := crossUnder_step h
    exact ⟨s', by rw [total, h1], h2⟩

/-- **C35.** The threshold variants return what `Cross`, `CrossOver`, `CrossUnder` return against the constant series. -/
theorem C35_threshold (th : Fl R) (a : Nat → Option (Fl R)) (N : Nat) :
    (∃ y, Runs (total CrossThreshold.next) (.ok (CrossThresholdState.new th)) a N y ∧
      Runs (total Cross.next) (.ok CrossState.new) (fun t => (a t, some th)) N y) ∧
    (∃ y, Runs (total CrossOverThreshold.next) (.ok (CrossThresholdState.new th)) a N y ∧
      Runs (total CrossOver.next) (.ok CrossState.new) (fun t => (a t, some th)) N y) ∧
    (∃ y, Runs (total CrossUnderThreshold.next) (.ok (CrossThresholdState.new th)) a N y ∧
      Runs (total CrossUnder.next) (.ok CrossState.new) (fun t => (a t, some th)) N y) := by
  let b : Nat → Option (Fl R) := fun _ => some th
  refine ⟨⟨cross0 a b, Impl.runs (Inv := ThreshInv th a) ⟨rfl, fun t s _ h => ?_⟩,
      Impl.runs (Inv := CrossInv a b) ⟨rfl, fun t s _ h => ?_⟩⟩,
    ⟨over0 a b, Impl.runs (Inv := ThreshInv th a) ⟨rfl, fun t s _ h => ?_⟩,
      Impl.runs (Inv := CrossInv a b) ⟨rfl, fun t s _ h => ?_⟩⟩,
    ⟨under0 a b, Impl.runs (Inv := ThreshInv th a) ⟨rfl, fun t s _ h => ?_⟩,
      Impl.runs (Inv := CrossInv a b) ⟨rfl, fun t s _ h => ?_⟩⟩⟩
  · obtain ⟨s', h1, h2⟩ := threshCross_step h; exact ⟨s', by rw [total, h1], h2⟩
  · obtain ⟨s', h1, h2⟩ := cross_step (b := b) h; exact ⟨s', by rw [total, ← h1], h2⟩
  · obtain ⟨s', h1, h2⟩ := threshOver_step h; exact ⟨s', by rw [total, h1], h2⟩
  · obtain ⟨s', h1, h2⟩ := crossOver_step (b := b) h; exact ⟨s', by rw [total, ← h1], h2⟩
  · obtain ⟨s', h1, h2⟩ := threshUnder_step h; exact ⟨s', by rw [total, h1], h2⟩
  · obtain ⟨s', h1, h2⟩ := crossUnder_step (b := b) h; exact ⟨s', by rw [total, ← h1], h2⟩

theorem fl_le_not_lt (a b : Ext K) : a.le b = true → b.lt a = true → False := by
  cases a <;> cases b <;> simp [Ext.le, Ext.lt]

/-- **C35.** The first tick never crosses, and between two `Over` signals there is a tick with `a <= b`. -/
theorem C35_over_separated (a b : Nat → Option (Fl R)) :
    ¬ CrossesOver a b 0 ∧
    ∀ t t', t < t' → CrossesOver a b t → CrossesOver a b t' →
      ∃ r va vb, t < r ∧ r < t' ∧ a r = some va ∧ b r = some vb ∧ F64.le va vb = true := by
  constructor
  · rintro ⟨s, _, _, _, _, h, _⟩; omega
  · rintro t t' htt ⟨s, pa, pb, va, vb, h1, h2, h3, h4, h5, h6, h7⟩ ⟨s', pa', pb', va', vb', g1, g2, g3, g4, g5, g6, g7⟩
    refine ⟨s', pa', pb', ?_, by omega, g2, g3, g6⟩
    rcases Nat.lt_or_ge t s' with h | h
    · exact h
    · exfalso
      obtain rfl : t = s' := by omega
      rw [g2] at h4; rw [g3] at h5
      cases h4; cases h5
      exact fl_le_not_lt _ _ g6 h7

end cross

/-- Crossings of 1, 3, 1 against 2, 2, 2; a gap suppresses the last one. -/
example : outputs (total Cross.next) (fun t => ((([some (fin (1 : ℚ)), some (fin 3), some (fin 1), none, some (fin 3)] :
      List (Option (Ex ℚ))).getD t none), some (fin 2))) 5 (.ok CrossState.new)
    = .ok [none, some .over, some .under, none, none] := by decide +kernel

end Pace
