import Verif.Props.Content8
import Verif.Lemmas.SeriesCongr
import Verif.Float.Signed
import Verif.Float.Binary64
import Verif.Lemmas.NonNeg

/-!
# Finite memory (C70)

A windowed component forgets: once it has been fed `n` values, what it returns is a function of the last `n` values only. Nothing
older matters, and neither does the tick it happens at. Components that only compare and combine stored inputs forget bit for bit, in
every arithmetic. Components that keep a running sum forget in exact arithmetic. Exponential and Wilder averages never forget
completely; the influence of the past shrinks by a fixed factor per tick.
-/

set_option linter.unusedSectionVars false

namespace Pace
open Spec

/-! ## Specification -/

/-- The last `n` values of `x` up to tick `t` are the last `n` values of `x'` up to tick `t'`. -/
def Spec.SameRecent {β : Type} (n : Nat) (x : Nat → β) (t : Nat) (x' : Nat → β) (t' : Nat) : Prop :=
  n ≤ t + 1 ∧ n ≤ t' + 1 ∧ ∀ i, i < n → x (t - i) = x' (t' - i)

/-- The component remembers at most its last `n` inputs: whatever two runs were fed before, whatever data they run on and at whatever
ticks they are, if the last `n` inputs are the same, they return the same. Inputs range over the image of `emb`. -/
def Spec.Remembers {α S J I O : Type} (emb : J → I) (n : Nat) (step : DataProvider α → Nat → S → I → Res (O × S)) (s0 : Res S) : Prop :=
  ∀ (d d' : DataProvider α) (x x' : Nat → J) (N N' : Nat) (y y' : Nat → O),
    Runs (step d) s0 (fun t => emb (x t)) N y → Runs (step d') s0 (fun t => emb (x' t)) N' y' →
    ∀ t t', t < N → t' < N' → SameRecent n x t x' t' → y t = y' t'

/-- A component that reads the bars itself remembers at most the last `n` bars. Prices and volumes are finite numbers. -/
def Spec.RemembersBars {K S O : Type} [Field K] [LinearOrder K] [IsStrictOrderedRing K] [RootOps K] (n : Nat)
    (step : DataProvider (Ex K) → Nat → S → Res (O × S)) (s0 : Res S) : Prop :=
  ∀ (d d' : DataProvider (Ex K)) (N N' : Nat) (o h l c v o' h' l' c' v' : Nat → K) (y y' : Nat → O),
    ExBars d N o h l c v → ExBars d' N' o' h' l' c' v' →
    Runs (noInput (step d)) s0 unit N y → Runs (noInput (step d')) s0 unit N' y' →
    ∀ t t', t < N → t' < N' → SameRecent n o t o' t' → SameRecent n h t h' t' → SameRecent n l t l' t' →
      SameRecent n c t c' t' → SameRecent n v t v' t' → y t = y' t'

/-! ## Lemmas -/

section lemmas
variable {β γ : Type}

theorem sameRecent_mono {n m : Nat} {x x' : Nat → β} {t t' : Nat} (h : SameRecent n x t x' t') (hm : m ≤ n) : SameRecent m x t x' t' :=
  ⟨by have := h.1; omega, by have := h.2.1; omega, fun i hi => h.2.2 i (by omega)⟩

theorem sameRecent_map {n : Nat} {x x' : Nat → β} {t t' : Nat} (f : β → γ) (h : SameRecent n x t x' t') :
    SameRecent n (fun t => f (x t)) t (fun t => f (x' t)) t' :=
  ⟨h.1, h.2.1, fun i hi => by simp only [h.2.2 i hi]⟩

/-- A series computed from windows of length `m` of another one. -/
theorem sameRecent_of {n m k : Nat} {x x' : Nat → β} {g g' : Nat → γ} {t t' : Nat} (h : SameRecent k x t x' t')
    (hn : 1 ≤ n) (hm : 1 ≤ m) (hk : n + m ≤ k + 1)
    (hg : ∀ s s', SameRecent m x s x' s' → g s = g' s') : SameRecent n g t g' t' := by
  obtain ⟨h1, h2, h3⟩ := h
  refine ⟨by omega, by omega, fun i hi => hg _ _ ⟨by omega, by omega, fun j hj => ?_⟩⟩
  have := h3 (i + j) (by omega)
  rwa [show t - (i + j) = t - i - j by omega, show t' - (i + j) = t' - i - j by omega] at this

theorem sameRecent_at {n : Nat} {x x' : Nat → β} {t t' : Nat} (h : SameRecent n x t x' t') (i : Nat) (hi : i < n) :
    x (t - i) = x' (t' - i) := h.2.2 i hi

theorem sameRecent_now {n : Nat} {x x' : Nat → β} {t t' : Nat} (h : SameRecent n x t x' t') (hn : 1 ≤ n) : x t = x' t' :=
  h.2.2 0 hn

theorem sameRecent_win {n m : Nat} {x x' : Nat → β} {t t' : Nat} (h : SameRecent n x t x' t') (hm : m ≤ n) :
    win x m t = win x' m t' := by
  obtain ⟨h1, h2, h3⟩ := h
  refine List.map_congr_left fun i hi => ?_
  have hi := List.mem_range.mp hi
  have := h3 (m - 1 - i) (by omega)
  rwa [show t - (m - 1 - i) = t + 1 - m + i by omega, show t' - (m - 1 - i) = t' + 1 - m + i by omega] at this

theorem sameRecent_ago {n i : Nat} {x x' : Nat → Option β} {t t' : Nat} (h : SameRecent n x t x' t') (hi : i < n) :
    ago x i t = ago x' i t' := by
  have h1 := h.1; have h2 := h.2.1
  rw [ago, ago, if_pos (by omega), if_pos (by omega)]
  exact h.2.2 i hi

theorem sameRecent_before {x x' : Nat → Option β} {t t' : Nat} (h : SameRecent 2 x t x' t') : before x t = before x' t' := by
  obtain ⟨h1, h2, h3⟩ := h
  obtain ⟨u, rfl⟩ : ∃ u, t = u + 1 := ⟨t - 1, by omega⟩
  obtain ⟨u', rfl⟩ : ∃ u, t' = u + 1 := ⟨t' - 1, by omega⟩
  exact h3 1 (by omega)

theorem sameRecent_fullWindow {n m : Nat} {x x' : Nat → Option β} {t t' : Nat} (h : SameRecent n x t x' t') (hm : m ≤ n) :
    fullWindow x m t = fullWindow x' m t' := by
  have h1 := h.1; have h2 := h.2.1
  rw [fullWindow, fullWindow, if_pos (by omega), if_pos (by omega), sameRecent_win h hm]

/-- How the theorems below are proved: the component computes `f x` on input `x`, and `f` only looks at the last `n` values. -/
theorem remembers_of {α S J I O : Type} {emb : J → I} {n : Nat} {step : DataProvider α → Nat → S → I → Res (O × S)} {s0 : Res S}
    (f : (Nat → J) → Nat → O) (hf : ∀ d x N, Runs (step d) s0 (fun t => emb (x t)) N (f x))
    (hw : ∀ x x' t t', SameRecent n x t x' t' → f x t = f x' t') : Remembers emb n step s0 := by
  intro d d' x x' N N' y y' h h' t t' ht ht' hs
  rw [h.unique (hf d x N) t ht, h'.unique (hf d' x' N') t' ht']
  exact hw _ _ _ _ hs

end lemmas

/-! ## Bit for bit, in every arithmetic -/

section level0
variable {α : Type} [F64 α]

/-- **C70.** The weighted averages and the rolling extremes of length `len` remember exactly their window; change, rate of change and
percent rank remember one value more. This holds bit for bit in every arithmetic, so a NaN, an infinity or a missing value that was
ever fed is forgotten after that many ticks. -/
theorem C70_window {len : Nat} (hlen : 1 ≤ len) :
    Remembers (id : Option α → Option α) len (fun d t => Wma.next ⟨d, t⟩) (Wma.new len) ∧
    Remembers (id : Option α → Option α) 4 (fun d t => Swma.next ⟨d, t⟩) Swma.new ∧
    Remembers (id : Option α → Option α) len (fun d t => Highest.next ⟨d, t⟩) (Highest.new len) ∧
    Remembers (id : Option α → Option α) len (fun d t => Lowest.next ⟨d, t⟩) (Lowest.new len) ∧
    Remembers (α := α) (id : Option α → Option α) (len + 1) (fun _ _ => Change.next) (Change.new len) ∧
    Remembers (α := α) (id : Option α → Option α) (len + 1) (fun _ _ => Roc.next) (Roc.new len) ∧
    Remembers (id : Option α → Option α) (len + 1) (fun d t => Prank.next ⟨d, t⟩) (Prank.new len) := by
  have lag : ∀ (f : α → α → α) (x x' : Nat → Option α) (t t' : Nat), SameRecent (len + 1) x t x' t' →
      lag0 f len x t = lag0 f len x' t' := by
    intro f x x' t t' h
    unfold lag0
    rw [sameRecent_ago h (by omega), sameRecent_now h (by omega)]
  refine ⟨?_, ?_, ?_, ?_, ?_, ?_, ?_⟩
  · refine remembers_of (wma0 len) (fun d x N => wma_runs d hlen x N) fun x x' t t' h => ?_
    have h1 := h.1; have h2 := h.2.1
    rw [wma0, wma0, if_pos h1, if_pos h2, sameRecent_win h le_rfl]
  · refine remembers_of swma0 (fun d x N => swma_runs d x N) fun x x' t t' h => ?_
    have h1 := h.1; have h2 := h.2.1
    rw [swma0, swma0, if_pos h1, if_pos h2, sameRecent_win h le_rfl]
  · refine remembers_of (highest0 len) (fun d x N => highest_runs d hlen x N) fun x x' t t' h => ?_
    rw [highest0, highest0, if_pos h.1, if_pos h.2.1, sameRecent_win h le_rfl]
  · refine remembers_of (lowest0 len) (fun d x N => lowest_runs d hlen x N) fun x x' t t' h => ?_
    rw [lowest0, lowest0, if_pos h.1, if_pos h.2.1, sameRecent_win h le_rfl]
  · exact remembers_of (change0 len) (fun d x N => change_runs len hlen x N) fun x x' t t' h => lag _ _ _ _ _ h
  · exact remembers_of (roc0 len) (fun d x N => roc_runs len hlen x N) fun x x' t t' h => lag _ _ _ _ _ h
  · refine remembers_of (prank0 len) (fun d x N => prank_runs d hlen x N) fun x x' t t' h => ?_
    have h1 := h.1; have h2 := h.2.1
    have hw : win x len (t - 1) = win x' len (t' - 1) := by
      have : SameRecent len x (t - 1) x' (t' - 1) := ⟨by omega, by omega, fun i hi => by
        have := h.2.2 (i + 1) (by omega)
        rwa [show t - (i + 1) = t - 1 - i by omega, show t' - (i + 1) = t' - 1 - i by omega] at this⟩
      exact sameRecent_win this le_rfl
    rw [prank0, prank0, if_pos (by omega), if_pos (by omega), sameRecent_now h (by omega), hw]

/-- **C70.** Crossings remember the current and the previous pair of values. -/
theorem C70_cross :
    Remembers (α := α) (id : Option α × Option α → _) 2 (fun _ => total Cross.next) (.ok .new) ∧
    Remembers (α := α) (id : Option α × Option α → _) 2 (fun _ => total CrossOver.next) (.ok .new) ∧
    Remembers (α := α) (id : Option α × Option α → _) 2 (fun _ => total CrossUnder.next) (.ok .new) ∧
    ∀ th : α,
      Remembers (α := α) (id : Option α → _) 2 (fun _ => total CrossThreshold.next) (.ok (.new th)) ∧
      Remembers (α := α) (id : Option α → _) 2 (fun _ => total CrossOverThreshold.next) (.ok (.new th)) ∧
      Remembers (α := α) (id : Option α → _) 2 (fun _ => total CrossUnderThreshold.next) (.ok (.new th)) := by
  have ho : ∀ (a b a' b' : Nat → Option α) t t', SameRecent 2 a t a' t' → SameRecent 2 b t b' t' → over0 a b t = over0 a' b' t' := by
    intro a b a' b' t t' h1 h2
    unfold over0
    rw [sameRecent_before h1, sameRecent_before h2, sameRecent_now h1 (by omega), sameRecent_now h2 (by omega)]
  have hu : ∀ (a b a' b' : Nat → Option α) t t', SameRecent 2 a t a' t' → SameRecent 2 b t b' t' → under0 a b t = under0 a' b' t' := by
    intro a b a' b' t t' h1 h2
    unfold under0
    rw [sameRecent_before h1, sameRecent_before h2, sameRecent_now h1 (by omega), sameRecent_now h2 (by omega)]
  have hc : ∀ (a b a' b' : Nat → Option α) t t', SameRecent 2 a t a' t' → SameRecent 2 b t b' t' → cross0 a b t = cross0 a' b' t' := by
    intro a b a' b' t t' h1 h2
    unfold cross0
    rw [ho _ _ _ _ _ _ h1 h2, hu _ _ _ _ _ _ h1 h2]
  have hth : ∀ (th : Option α) (t t' : Nat), 2 ≤ t + 1 → 2 ≤ t' + 1 → SameRecent 2 (fun _ => th) t (fun _ => th) t' :=
    fun th t t' h1 h2 => ⟨h1, h2, fun _ _ => rfl⟩
  refine ⟨?_, ?_, ?_, fun th => ⟨?_, ?_, ?_⟩⟩
  · exact remembers_of (fun x => cross0 (fun t => (x t).1) (fun t => (x t).2))
      (fun d x N => Impl.runs (Inv := CrossInv (fun t => (x t).1) (fun t => (x t).2)) ⟨rfl, fun t s _ h => by
        obtain ⟨s', h1, h2⟩ := cross_step h; exact ⟨s', by simp [total, h1], h2⟩⟩)
      fun x x' t t' h => hc _ _ _ _ _ _ (sameRecent_map Prod.fst h) (sameRecent_map Prod.snd h)
  · exact remembers_of (fun x => over0 (fun t => (x t).1) (fun t => (x t).2))
      (fun d x N => Impl.runs (Inv := CrossInv (fun t => (x t).1) (fun t => (x t).2)) ⟨rfl, fun t s _ h => by
        obtain ⟨s', h1, h2⟩ := crossOver_step h; exact ⟨s', by simp [total, h1], h2⟩⟩)
      fun x x' t t' h => ho _ _ _ _ _ _ (sameRecent_map Prod.fst h) (sameRecent_map Prod.snd h)
  · exact remembers_of (fun x => under0 (fun t => (x t).1) (fun t => (x t).2))
      (fun d x N => Impl.runs (Inv := CrossInv (fun t => (x t).1) (fun t => (x t).2)) ⟨rfl, fun t s _ h => by
        obtain ⟨s', h1, h2⟩ := crossUnder_step h; exact ⟨s', by simp [total, h1], h2⟩⟩)
      fun x x' t t' h => hu _ _ _ _ _ _ (sameRecent_map Prod.fst h) (sameRecent_map Prod.snd h)
  · exact remembers_of (fun x => cross0 x (fun _ => some th))
      (fun d x N => Impl.runs (Inv := ThreshInv th x) ⟨rfl, fun t s _ h => by
        obtain ⟨s', h1, h2⟩ := threshCross_step h; exact ⟨s', by simp [total, h1], h2⟩⟩)
      fun x x' t t' h => hc _ _ _ _ _ _ h (hth _ _ _ h.1 h.2.1)
  · exact remembers_of (fun x => over0 x (fun _ => some th))
      (fun d x N => Impl.runs (Inv := ThreshInv th x) ⟨rfl, fun t s _ h => by
        obtain ⟨s', h1, h2⟩ := threshOver_step h; exact ⟨s', by simp [total, h1], h2⟩⟩)
      fun x x' t t' h => ho _ _ _ _ _ _ h (hth _ _ _ h.1 h.2.1)
  · exact remembers_of (fun x => under0 x (fun _ => some th))
      (fun d x N => Impl.runs (Inv := ThreshInv th x) ⟨rfl, fun t s _ h => by
        obtain ⟨s', h1, h2⟩ := threshUnder_step h; exact ⟨s', by simp [total, h1], h2⟩⟩)
      fun x x' t t' h => hu _ _ _ _ _ _ h (hth _ _ _ h.1 h.2.1)

end level0

/-! ## In exact arithmetic -/

section exact
variable {K : Type} [Field K] [LinearOrder K] [IsStrictOrderedRing K] [RootOps K]

/-- A possibly missing finite number as the components receive it. -/
abbrev Spec.finite? : Option K → Option (Ex K) := fun o => o.map fin
/-- A finite number as the components receive it. -/
abbrev Spec.finite : K → Option (Ex K) := fun k => some (fin k)

/-- **C70.** Mean, sum and deviations of length `len` remember their window: in exact arithmetic the running sums carry nothing over. -/
theorem C70_rolling {len : Nat} (hlen : 2 ≤ len) (biased : Bool) :
    Remembers (finite? (K := K)) len (fun d t => Sma.next ⟨d, t⟩) (Sma.new len) ∧
    Remembers (finite? (K := K)) len (fun d t => Sum.next ⟨d, t⟩) (Sum.new len) ∧
    Remembers (finite? (K := K)) len (fun d t => Dev.next ⟨d, t⟩) (Dev.new len) ∧
    Remembers (finite? (K := K)) len (fun d t => Stdev.next ⟨d, t⟩) (Stdev.new len biased) := by
  refine ⟨?_, ?_, ?_, ?_⟩
  · refine remembers_of (fun x => sma0 len (flo x)) (fun d x N => sma_runs d (by omega) (flo x) N) fun x x' t t' h => ?_
    rw [sma0_exact (by omega), sma0_exact (by omega), sameRecent_fullWindow h le_rfl]
  · refine remembers_of (fun x => sum0 len (flo x)) (fun d x N => sum_runs d (by omega) (flo x) N) fun x x' t t' h => ?_
    rw [sum0_exact (by omega), sum0_exact (by omega), sameRecent_fullWindow h le_rfl]
  · refine remembers_of (fun x => dev0 len (flo x)) (fun d x N => dev_runs d (by omega) (flo x) N) fun x x' t t' h => ?_
    rw [dev0_exact hlen, dev0_exact hlen, sameRecent_fullWindow h le_rfl]
  · refine remembers_of (fun x => stdev0 len biased (flo x)) (fun d x N => stdev_runs d (by omega) biased (flo x) N) fun x x' t t' h => ?_
    rw [stdev0_exact hlen, stdev0_exact hlen, sameRecent_fullWindow h le_rfl]

/-- **C70.** Source-driven indicators of length `len` on complete sources: Bollinger %B and width and the commodity channel index
remember the last `len` values, the Chande momentum oscillator one more. -/
theorem C70_source {len : Nat} (hlen : 2 ≤ len) (k : K) :
    Remembers (finite (K := K)) len (fun d t => BollingerBandsPercentB.next ⟨d, t⟩) (BollingerBands.new len (fin k)) ∧
    Remembers (finite (K := K)) len (fun d t => BollingerBandsWidth.next ⟨d, t⟩) (BollingerBands.new len (fin k)) ∧
    Remembers (finite (K := K)) len (fun d t => CommodityChannelIndex.next ⟨d, t⟩) (CommodityChannelIndex.new len) ∧
    Remembers (finite (K := K)) (len + 1) (fun d t => ChandeMomentumOscillator.next ⟨d, t⟩) (ChandeMomentumOscillator.new len) := by
  refine ⟨?_, ?_, ?_, ?_⟩
  · refine remembers_of _ (fun d x N => C53_bollinger_percent_b_exact hlen k x) fun x x' t t' h => ?_
    have h1 := h.1; have h2 := h.2.1
    dsimp only
    rw [if_neg (show ¬ t + 1 < len by omega), if_neg (show ¬ t' + 1 < len by omega), sameRecent_win h le_rfl, sameRecent_now h (by omega)]
  · refine remembers_of _ (fun d x N => C53_bollinger_width_exact hlen k x) fun x x' t t' h => ?_
    have h1 := h.1; have h2 := h.2.1
    dsimp only
    rw [if_neg (show ¬ t + 1 < len by omega), if_neg (show ¬ t' + 1 < len by omega), sameRecent_win h le_rfl]
  · refine remembers_of _ (fun d x N => C53_cci_exact hlen x) fun x x' t t' h => ?_
    have h1 := h.1; have h2 := h.2.1
    rw [if_neg (show ¬ t + 1 < len by omega), if_neg (show ¬ t' + 1 < len by omega), sameRecent_win h le_rfl, sameRecent_now h (by omega)]
  · refine remembers_of _ (fun d x N => C53_cmo_exact hlen x) fun x x' t t' h => ?_
    have h1 := h.1; have h2 := h.2.1
    have hg : SameRecent len (gain x) t (gain x') t' := sameRecent_of h (by omega) (show 1 ≤ 2 by omega) (by omega) fun s s' h => by
      rw [gain, gain, sameRecent_at h 1 (by omega), sameRecent_now h (by omega)]
    have hl : SameRecent len (loss x) t (loss x') t' := sameRecent_of h (by omega) (show 1 ≤ 2 by omega) (by omega) fun s s' h => by
      rw [loss, loss, sameRecent_at h 1 (by omega), sameRecent_now h (by omega)]
    dsimp only
    rw [if_neg (show ¬ t < len by omega), if_neg (show ¬ t' < len by omega), sameRecent_win hg le_rfl, sameRecent_win hl le_rfl]

/-- The bars as one series. -/
def Spec.bar (o h l c v : Nat → K) (t : Nat) : K × K × K × K × K := (o t, h t, l t, c t, v t)

theorem bar_eq {o h l c v o' h' l' c' v' : Nat → K} {s s' : Nat} (e : bar o h l c v s = bar o' h' l' c' v' s') :
    o s = o' s' ∧ h s = h' s' ∧ l s = l' s' ∧ c s = c' s' ∧ v s = v' s' := by
  simpa [bar] using e

theorem remembersBars_of {S O : Type} {n : Nat} {step : DataProvider (Ex K) → Nat → S → Res (O × S)} {s0 : Res S}
    (f : (o h l c v : Nat → K) → Nat → O)
    (hf : ∀ d N o h l c v, ExBars d N o h l c v → Runs (noInput (step d)) s0 unit N (f o h l c v))
    (hw : ∀ o h l c v o' h' l' c' v' t t', SameRecent n (bar o h l c v) t (bar o' h' l' c' v') t' →
      f o h l c v t = f o' h' l' c' v' t') : RemembersBars n step s0 := by
  intro d d' N N' o h l c v o' h' l' c' v' y y' hb hb' hr hr' t t' ht ht' h1 h2 h3 h4 h5
  rw [hr.unique (hf d N _ _ _ _ _ hb) t ht, hr'.unique (hf d' N' _ _ _ _ _ hb') t' ht']
  exact hw _ _ _ _ _ _ _ _ _ _ _ _ ⟨h1.1, h1.2.1, fun i hi => by
    simp only [bar, h1.2.2 i hi, h2.2.2 i hi, h3.2.2 i hi, h4.2.2 i hi, h5.2.2 i hi]⟩

section barlemmas
variable {o h l c v o' h' l' c' v' : Nat → K} {n t t' : Nat} (e : SameRecent n (bar o h l c v) t (bar o' h' l' c' v') t')
include e
theorem bar_open : SameRecent n o t o' t' := ⟨e.1, e.2.1, fun i hi => (bar_eq (e.2.2 i hi)).1⟩
theorem bar_high : SameRecent n h t h' t' := ⟨e.1, e.2.1, fun i hi => (bar_eq (e.2.2 i hi)).2.1⟩
theorem bar_low : SameRecent n l t l' t' := ⟨e.1, e.2.1, fun i hi => (bar_eq (e.2.2 i hi)).2.2.1⟩
theorem bar_close : SameRecent n c t c' t' := ⟨e.1, e.2.1, fun i hi => (bar_eq (e.2.2 i hi)).2.2.2.1⟩
theorem bar_volume : SameRecent n v t v' t' := ⟨e.1, e.2.1, fun i hi => (bar_eq (e.2.2 i hi)).2.2.2.2⟩
theorem bar_source (src : SrcKind) : SameRecent n (sourceValue src o h l c v) t (sourceValue src o' h' l' c' v') t' :=
  ⟨e.1, e.2.1, fun i hi => by
    obtain ⟨a, b, c, d, f⟩ := bar_eq (e.2.2 i hi)
    cases src <;> simp only [sourceValue, a, b, c, d, f]⟩
theorem bar_range (hn : 2 ≤ n) : SameRecent (n - 1) (barRange h l c) t (barRange h' l' c') t' := by
  refine sameRecent_of e (by omega) (show 1 ≤ 2 by omega) (by omega) fun s s' e => ?_
  have h1 := e.1; have h2 := e.2.1
  obtain ⟨u, rfl⟩ : ∃ u, s = u + 1 := ⟨s - 1, by omega⟩
  obtain ⟨u', rfl⟩ : ∃ u, s' = u + 1 := ⟨s' - 1, by omega⟩
  have a := sameRecent_now (bar_high e) (by omega)
  have b := sameRecent_now (bar_low e) (by omega)
  have c := sameRecent_at (bar_close e) 1 (by omega)
  simp only [Nat.add_sub_cancel] at c
  simp only [barRange, a, b, c]
end barlemmas

theorem sameRecent_highest {n len t t' : Nat} {x x' : Nat → K} (h : SameRecent n x t x' t') (hl : len ≤ n) :
    Spec.highest (fun t => some (x t)) len t = Spec.highest (fun t => some (x' t)) len t' ∧
    Spec.lowest (fun t => some (x t)) len t = Spec.lowest (fun t => some (x' t)) len t' := by
  have h1 := h.1; have h2 := h.2.1
  simp only [Spec.highest, Spec.lowest]
  rw [if_pos (by omega), if_pos (by omega), if_pos (by omega), if_pos (by omega), sameRecent_win (sameRecent_map some h) hl]
  exact ⟨rfl, rfl⟩

theorem oldestLowest_unique {x : Nat → K} {len t i j : Nat} (hi : OldestLowest x len t i) (hj : OldestLowest x len t j) : i = j := by
  rcases Nat.lt_trichotomy i j with h | h | h
  · exact absurd ((hi.2 j hj.1).2 h) (not_lt.mpr (hj.2 i hi.1).1)
  · exact h
  · exact absurd ((hj.2 i hi.1).2 h) (not_lt.mpr (hi.2 j hj.1).1)

/-- **C70.** Indicators that read the bars: Donchian channels, Chaikin money flow, Aroon and Williams' percent rank of length `len`
remember `len` bars, the vortex and choppiness indices one more, the relative vigor index with its signal line six more, the ultimate
oscillator its longest period and one more, the Coppock curve `len` plus its longest rate of change. -/
theorem C70_bars {len : Nat} (hlen : 1 ≤ len) (src : SrcKind) :
    RemembersBars (K := K) len (fun d t => DonchianChannels.next ⟨d, t⟩) (DonchianChannels.new len) ∧
    RemembersBars (K := K) len (fun d t => ChaikinMoneyFlow.next ⟨d, t⟩) (ChaikinMoneyFlow.new len) ∧
    RemembersBars (K := K) len (fun d t => Aroon.next ⟨d, t⟩) (Aroon.new len) ∧
    RemembersBars (K := K) len (fun d t => withSrc src WilliamsPercentRank.next ⟨d, t⟩) (WilliamsPercentRank.new len) ∧
    RemembersBars (K := K) (len + 1) (fun d t => Vortex.next ⟨d, t⟩) (Vortex.new len) ∧
    RemembersBars (K := K) (len + 1) (fun d t => ChoppinessIndex.next ⟨d, t⟩) (ChoppinessIndex.new len) ∧
    RemembersBars (K := K) (len + 6) (fun d t => RelativeVigorIndex.next ⟨d, t⟩) (RelativeVigorIndex.new len) ∧
    (∀ n1 n2 n3, 1 ≤ n1 → 1 ≤ n2 → 1 ≤ n3 → RemembersBars (K := K) (max n1 (max n2 n3) + 1)
      (fun d t => UltimateOscillator.next ⟨d, t⟩) (UltimateOscillator.new n1 n2 n3)) ∧
    ∀ a b, 1 ≤ a → 1 ≤ b → RemembersBars (K := K) (len + max a b)
      (fun d t => withSrc src CoppockCurve.next ⟨d, t⟩) (CoppockCurve.new len a b) := by
  refine ⟨?_, ?_, ?_, ?_, ?_, ?_, ?_, ?_, ?_⟩
  · refine remembersBars_of _ (fun d N o h l c v hb => C53_donchian_exact hb hlen) fun o h l c v o' h' l' c' v' t t' e => ?_
    rw [(sameRecent_highest (bar_high e) le_rfl).1, (sameRecent_highest (bar_low e) le_rfl).2]
  · refine remembersBars_of _ (fun d N o h l c v hb => C53_cmf_exact hb hlen) fun o h l c v o' h' l' c' v' t t' e => ?_
    have h1 := e.1; have h2 := e.2.1
    have hf : SameRecent len (flowVolume h l c v) t (flowVolume h' l' c' v') t' :=
      sameRecent_of e (by omega) le_rfl (by omega) fun s s' e => by
        obtain ⟨_, a, b, c, d⟩ := bar_eq (sameRecent_now e (by omega))
        simp only [flowVolume, a, b, c, d]
    rw [if_neg (show ¬ t + 1 < len by omega), if_neg (show ¬ t' + 1 < len by omega), sameRecent_win (bar_volume e) le_rfl, sameRecent_win hf le_rfl]
  · intro d d' N N' o h l c v o' h' l' c' v' y y' hb hb' hr hr' t t' ht ht' h1 h2 h3 h4 h5
    obtain ⟨a, b, ha, hab⟩ := C53_aroon_exact hb hlen
    obtain ⟨a', b', ha', hab'⟩ := C53_aroon_exact hb' hlen
    rw [hr.unique ha t ht, hr'.unique ha' t' ht']
    have g1 := h1.1; have g2 := h1.2.1
    rw [if_neg (show ¬ t + 1 < len by omega), if_neg (show ¬ t' + 1 < len by omega)]
    obtain ⟨p1, p2⟩ := hab t ht g1
    obtain ⟨q1, q2⟩ := hab' t' ht' g2
    have e1 : a t = a' t' := oldestHighest_unique (x := h') (len := len) (t := t')
      ⟨p1.1, fun i hi => by have := p1.2 i hi; rwa [h2.2.2 i hi, h2.2.2 _ p1.1] at this⟩ q1
    have e2 : b t = b' t' := oldestLowest_unique (x := l') (len := len) (t := t')
      ⟨p2.1, fun i hi => by have := p2.2 i hi; rwa [h3.2.2 i hi, h3.2.2 _ p2.1] at this⟩ q2
    rw [e1, e2]
  · refine remembersBars_of _ (fun d N o h l c v hb => withSrc_runs (src_exact hb src)
      (C53_williams_exact hb hlen (startAt 0 (sourceValue src o h l c v)))) fun o h l c v o' h' l' c' v' t t' e => ?_
    rw [(sameRecent_highest (bar_high e) le_rfl).1, (sameRecent_highest (bar_low e) le_rfl).2, startAt_zero, startAt_zero]
    simp only [sameRecent_now (bar_source e src) hlen]
  · refine remembersBars_of _ (fun d N o h l c v hb => C53_vortex_exact hb hlen) fun o h l c v o' h' l' c' v' t t' e => ?_
    have h1 := e.1; have h2 := e.2.1
    have w1 : SameRecent len (fun t => |h t - l (t - 1)|) t (fun t => |h' t - l' (t - 1)|) t' :=
      sameRecent_of e (by omega) (show 1 ≤ 2 by omega) (by omega) fun s s' e => by
        rw [sameRecent_now (bar_high e) (by omega), sameRecent_at (bar_low e) 1 (by omega)]
    have w2 : SameRecent len (fun t => |l t - h (t - 1)|) t (fun t => |l' t - h' (t - 1)|) t' :=
      sameRecent_of e (by omega) (show 1 ≤ 2 by omega) (by omega) fun s s' e => by
        rw [sameRecent_now (bar_low e) (by omega), sameRecent_at (bar_high e) 1 (by omega)]
    have w3 := bar_range e (by omega)
    have n1 : ¬ t < len := by omega
    have n2 : ¬ t' < len := by omega
    rw [sameRecent_win w1 le_rfl, sameRecent_win w2 le_rfl, sameRecent_win w3 (show len ≤ len + 1 - 1 by omega)]
    simp only [n1, n2, false_or]
  · refine remembersBars_of _ (fun d N o h l c v hb => C53_choppiness_exact hb hlen) fun o h l c v o' h' l' c' v' t t' e => ?_
    rw [(sameRecent_highest (bar_high e) (show len ≤ len + 1 by omega)).1, (sameRecent_highest (bar_low e) (show len ≤ len + 1 by omega)).2,
      sameRecent_win (bar_range e (by omega)) (show len ≤ len + 1 - 1 by omega)]
  · refine remembersBars_of _ (fun d N o h l c v hb => C53_relative_vigor_exact hb hlen) fun o h l c v o' h' l' c' v' t t' e => ?_
    have hs : ∀ s s', SameRecent (len + 3) (bar o h l c v) s (bar o' h' l' c' v') s' → vigor o h l c len s = vigor o' h' l' c' len s' := by
      intro s s' e
      have h1 := e.1; have h2 := e.2.1
      have s4 : ∀ (g g' : Nat → K), (∀ r r', SameRecent 1 (bar o h l c v) r (bar o' h' l' c' v') r' → g r = g' r') →
          SameRecent len (sym4 g) s (sym4 g') s' := fun g g' hg =>
        sameRecent_of e (by omega) (show 1 ≤ 4 by omega) (by omega) fun r r' e => by
          have e4 : SameRecent 4 g r g' r' := sameRecent_of e (by omega) (show 1 ≤ 1 by omega) (by omega) hg
          simp only [sym4, sameRecent_now e4 (by omega), sameRecent_at e4 1 (by omega), sameRecent_at e4 2 (by omega),
            sameRecent_at e4 3 (by omega)]
      have a1 := s4 (fun t => h t - l t) (fun t => h' t - l' t) fun r r' e => by
        rw [sameRecent_now (bar_high e) le_rfl, sameRecent_now (bar_low e) le_rfl]
      have a2 := s4 (fun t => c t - o t) (fun t => c' t - o' t) fun r r' e => by
        rw [sameRecent_now (bar_close e) le_rfl, sameRecent_now (bar_open e) le_rfl]
      have n1 : ¬ s < len + 2 := by omega
      have n2 : ¬ s' < len + 2 := by omega
      rw [vigor, vigor, sameRecent_win a1 le_rfl, sameRecent_win a2 le_rfl]
      simp only [n1, n2, false_or]
    have hv : SameRecent 4 (vigor o h l c len) t (vigor o' h' l' c' len) t' :=
      sameRecent_of e (by omega) (show 1 ≤ len + 3 by omega) (by omega) hs
    rw [sameRecent_fullWindow hv le_rfl, show flo (vigor o h l c len) t = flo (vigor o' h' l' c' len) t' from by
      rw [flo, flo, sameRecent_now hv (by omega)]]
  · intro n1 n2 n3 hn1 hn2 hn3
    refine remembersBars_of _ (fun d N o h l c v hb => C53_ultimate_oscillator_exact hb hn1 hn2 hn3) fun o h l c v o' h' l' c' v' t t' e => ?_
    have g1 := e.1; have g2 := e.2.1
    have m1 : n1 ≤ max n1 (max n2 n3) := le_max_left _ _
    have m2 : n2 ≤ max n1 (max n2 n3) := le_trans (le_max_left _ _) (le_max_right _ _)
    have m3 : n3 ≤ max n1 (max n2 n3) := le_trans (le_max_right _ _) (le_max_right _ _)
    generalize max n1 (max n2 n3) = M at *
    have w1 : SameRecent M (buyingPressure l c) t (buyingPressure l' c') t' :=
      sameRecent_of e (by omega) (show 1 ≤ 2 by omega) (by omega) fun s s' e => by
        rw [buyingPressure, buyingPressure, sameRecent_now (bar_close e) (by omega), sameRecent_now (bar_low e) (by omega),
          sameRecent_at (bar_close e) 1 (by omega)]
    have w2 : SameRecent M (trueSpread h l c) t (trueSpread h' l' c') t' :=
      sameRecent_of e (by omega) (show 1 ≤ 2 by omega) (by omega) fun s s' e => by
        rw [trueSpread, trueSpread, sameRecent_now (bar_high e) (by omega), sameRecent_now (bar_low e) (by omega),
          sameRecent_at (bar_close e) 1 (by omega)]
    simp only [sameRecent_win w1 m1, sameRecent_win w1 m2, sameRecent_win w1 m3, sameRecent_win w2 m1, sameRecent_win w2 m2,
      sameRecent_win w2 m3, show ¬ t < n1 by omega, show ¬ t < n2 by omega, show ¬ t < n3 by omega, show ¬ t' < n1 by omega,
      show ¬ t' < n2 by omega, show ¬ t' < n3 by omega, false_or]
  · intro a b ha hb'
    refine remembersBars_of _ (fun d N o h l c v hb => C53_coppock_exact hb src hlen ha hb') fun o h l c v o' h' l' c' v' t t' e => ?_
    have m1 : a ≤ max a b := le_max_left _ _
    have m2 : b ≤ max a b := le_max_right _ _
    have hx := bar_source e src
    generalize max a b = M at *
    have hr : ∀ m, m ≤ M → ∀ s s', SameRecent (M + 1) (sourceValue src o h l c v) s (sourceValue src o' h' l' c' v') s' →
        rateOfChange (sourceValue src o h l c v) m s = rateOfChange (sourceValue src o' h' l' c' v') m s' := by
      intro m hm s s' e
      have g1 := e.1; have g2 := e.2.1
      have n1 : m ≤ s := by omega
      have n2 : m ≤ s' := by omega
      simp only [rateOfChange, sameRecent_now e (by omega), sameRecent_at e m (by omega), n1, n2, true_and]
    have hw := sameRecent_of (g := fun t => opt2 (· + ·) (rateOfChange (sourceValue src o h l c v) a t) (rateOfChange (sourceValue src o h l c v) b t))
      (g' := fun t => opt2 (· + ·) (rateOfChange (sourceValue src o' h' l' c' v') a t) (rateOfChange (sourceValue src o' h' l' c' v') b t))
      hx hlen (show 1 ≤ M + 1 by omega) (by omega) fun s s' e => by
        simp only [hr a m1 s s' e, hr b m2 s s' e]
    rw [sameRecent_fullWindow hw le_rfl]

/-! ## Exponential forgetting -/

theorem ema0_forgets {len : Nat} (hlen : 2 ≤ len) (a : K) {x x' : Nat → K} {s : Nat} (hs : len ≤ s + 1)
    (hx : ∀ t, s < t → x t = x' t) : ∃ p q : K, ema0 len (fin a) (fun t => some (fin (x t))) s = some (fin p) ∧
      ema0 len (fin a) (fun t => some (fin (x' t))) s = some (fin q) ∧
      ∀ n, ∃ p' q' : K, ema0 len (fin a) (fun t => some (fin (x t))) (s + n) = some (fin p') ∧
        ema0 len (fin a) (fun t => some (fin (x' t))) (s + n) = some (fin q') ∧ p' - q' = (1 - a) ^ n * (p - q) := by
  have hval : ∀ x : Nat → K, ∃ p : K, ema0 len (fin a) (fun t => some (fin (x t))) s = some (fin p) := by
    intro x
    have hf : ∀ r, fullWindow (fun t => some (x t)) len r = if len ≤ r + 1 then some (win x len r) else none := by
      intro r
      have := fullWindow_startAt 0 x (show 1 ≤ len by omega) r
      rw [startAt_zero] at this
      rw [this, Nat.zero_add]
    have := ema0_exact hlen a (x := fun t => some (x t)) (s := len - 1) (v := win x len (len - 1))
      ⟨by rw [hf, if_pos (by omega)]; rfl, fun r hr => by rw [hf, if_neg (by omega)]⟩ (by rw [hf, if_pos (by omega)])
      (fun i => x (len - 1 + 1 + i)) (s - (len - 1)) (fun i _ => rfl)
    rw [show len - 1 + (s - (len - 1)) = s by omega] at this
    exact ⟨_, this⟩
  obtain ⟨p, hp⟩ := hval x
  obtain ⟨q, hq⟩ := hval x'
  refine ⟨p, q, hp, hq, fun n => ?_⟩
  induction n with
  | zero => exact ⟨p, q, hp, hq, by ring⟩
  | succ n ih =>
    obtain ⟨p', q', h1, h2, h3⟩ := ih
    refine ⟨a * x (s + n + 1) + (1 - a) * p', a * x' (s + n + 1) + (1 - a) * q', ?_, ?_, ?_⟩
    · rw [← Nat.add_assoc, ema0, if_neg (by omega), h1]; simp
    · rw [← Nat.add_assoc, ema0, if_neg (by omega), h2]; simp
    · rw [hx _ (by omega), pow_succ]; linear_combination (1 - a) * h3

/-- **C70.** Exponential averages forget gradually: if two complete inputs agree after tick `s` (by which both averages exist), then
`n` ticks later the two outputs differ by `(1 - a)^n` times what they differed by at `s`. With `Ema` the factor per tick is
`1 - 2/(len+1)`, with `Rma` it is `1 - 1/len`. -/
theorem C70_forgets (d d' : DataProvider (Ex K)) {len : Nat} (hlen : 2 ≤ len) {x x' : Nat → K} {s : Nat} (hs : len ≤ s + 1)
    (hx : ∀ t, s < t → x t = x' t) {N : Nat} (hN : s < N) {y y' : Nat → Option (Ex K)} {factor : K}
    (h : (∃ a, Runs (fun t => Ema.next ⟨d, t⟩) (Ema.withAlpha len (fin a)) (fun t => finite (x t)) N y ∧
        Runs (fun t => Ema.next ⟨d', t⟩) (Ema.withAlpha len (fin a)) (fun t => finite (x' t)) N y' ∧ factor = 1 - a) ∨
      (Runs (fun t => Ema.next ⟨d, t⟩) (Ema.new len) (fun t => finite (x t)) N y ∧
        Runs (fun t => Ema.next ⟨d', t⟩) (Ema.new len) (fun t => finite (x' t)) N y' ∧ factor = 1 - 2 / ((len : K) + 1)) ∨
      (Runs (fun t => Rma.next ⟨d, t⟩) (Rma.new len) (fun t => finite (x t)) N y ∧
        Runs (fun t => Rma.next ⟨d', t⟩) (Rma.new len) (fun t => finite (x' t)) N y' ∧ factor = 1 - 1 / (len : K))) :
    ∃ p q : K, y s = some (fin p) ∧ y' s = some (fin q) ∧ ∀ n, s + n < N → ∃ p' q' : K,
      y (s + n) = some (fin p') ∧ y' (s + n) = some (fin q') ∧ p' - q' = factor ^ n * (p - q) := by
  have hok : ∀ x : Nat → K, EmaOk len (fun t => finite (x t)) N := fun x => emaOk_of_present fun t _ => rfl
  obtain ⟨a, r, r', rfl⟩ : ∃ a : K, (∀ t, t < N → y t = ema0 len (fin a) (fun t => some (fin (x t))) t) ∧
      (∀ t, t < N → y' t = ema0 len (fin a) (fun t => some (fin (x' t))) t) ∧ factor = 1 - a := by
    rcases h with ⟨a, h1, h2, h3⟩ | ⟨h1, h2, h3⟩ | ⟨h1, h2, h3⟩
    · exact ⟨a, h1.unique (ema_runs d (by omega) _ _ N (hok x)), h2.unique (ema_runs d' (by omega) _ _ N (hok x')), h3⟩
    · refine ⟨2 / ((len : K) + 1), ?_, ?_, h3⟩
      · rw [← emaAlpha_exact]; exact h1.unique (ema_runs d (by omega) _ _ N (hok x))
      · rw [← emaAlpha_exact]; exact h2.unique (ema_runs d' (by omega) _ _ N (hok x'))
    · refine ⟨1 / (len : K), ?_, ?_, h3⟩
      · rw [← rmaAlpha_exact (by omega)]; exact h1.unique (rma_runs d (by omega) _ N (hok x))
      · rw [← rmaAlpha_exact (by omega)]; exact h2.unique (rma_runs d' (by omega) _ N (hok x'))
  obtain ⟨p, q, h1, h2, h3⟩ := ema0_forgets hlen a hs hx
  refine ⟨p, q, by rw [r s hN, h1], by rw [r' s hN, h2], fun n hn => ?_⟩
  obtain ⟨p', q', e1, e2, e3⟩ := h3 n
  exact ⟨p', q', by rw [r _ hn, e1], by rw [r' _ hn, e2], e3⟩

/-! ## The statements are not vacuous, and the memory is not shorter -/

/-- Two inputs with the same last two values at different ticks, and different before; runs of both exist, and after them the two
highest values of the last two agree. -/
example : SameRecent 2 (fun t => ([some 9, none, some 1, some 5] : List (Option K)).getD t none) 3
    (fun t => ([some 1, some 5] : List (Option K)).getD t none) 1 := by
  refine ⟨by omega, by omega, fun i hi => ?_⟩
  obtain rfl | rfl : i = 0 ∨ i = 1 := by omega
  all_goals rfl

/-- `Highest(2)` needs both values of its window: agreeing on the last one is not enough. -/
theorem C70_highest_needs_two : ¬ Remembers (finite? (K := K)) 1 (fun d t => Highest.next ⟨d, t⟩) (Highest.new 2) := by
  intro h
  have d : DataProvider (Ex K) := ⟨[], [], [], [], [], [], 0, 0⟩
  have := h d d (fun t => if t = 0 then some 1 else some 0) (fun _ => some 0) 2 2 _ _
    (highest_runs d (by omega) (flo fun t => if t = 0 then some 1 else some 0) 2)
    (highest_runs d (by omega) (flo fun _ => some 0) 2) 1 1 (by omega) (by omega)
    ⟨by omega, by omega, fun i hi => by have e : i = 0 := (by omega); subst e; rfl⟩
  rw [highest0_exact (by omega), highest0_exact (by omega)] at this
  simp [Spec.highest, win, List.range_succ, List.reduceOption, List.max?] at this

end exact

/-! ## Binary64: the running sum does not forget -/

section ieee
variable {K : Type} [Field K] [LinearOrder K] [IsStrictOrderedRing K] [FloorRing K] [LawfulRoots K]

theorem round_absorbs : Binary64.round ((2 : K) ^ 54 + 1) = .fin ((2 : K) ^ 54) := by
  have hpos : (0 : K) < 2 ^ 54 + 1 := by positivity
  have hlog : Int.log 2 ((2 : K) ^ 54 + 1) = 54 := by
    have h1 : (54 : ℤ) ≤ Int.log 2 ((2 : K) ^ 54 + 1) := (Binary64.le_log_iff hpos 54).mpr (by
      rw [show (54 : ℤ) = ((54 : ℕ) : ℤ) by norm_num, zpow_natCast]; linarith)
    have h2 : Int.log 2 ((2 : K) ^ 54 + 1) < 55 := (Binary64.lt_log_iff hpos 55).mpr (by
      rw [show (55 : ℤ) = ((55 : ℕ) : ℤ) by norm_num, zpow_natCast]; norm_num)
    omega
  have hlp : Binary64.lastPlace ((2 : K) ^ 54 + 1) = 2 := by rw [Binary64.lastPlace, hlog]; norm_num
  have hm : Binary64.mag ((2 : K) ^ 54 + 1) = 2 ^ 54 := by
    have hf : ⌊((2 : K) ^ 54 + 1) / (2 : K) ^ (2 : ℤ)⌋ = 2 ^ 52 := by
      rw [Int.floor_eq_iff]
      constructor <;> norm_num
    have hr : Binary64.roundEven (((2 : K) ^ 54 + 1) / (2 : K) ^ (2 : ℤ)) = 2 ^ 52 := by
      unfold Binary64.roundEven
      rw [hf]
      exact if_pos (by norm_num)
    rw [Binary64.mag, hlp, hr]
    norm_num
  rw [Binary64.round_pos hpos, hm, if_neg]
  rw [not_le, show (1024 : ℤ) = ((1024 : ℕ) : ℤ) by norm_num, zpow_natCast]
  exact pow_lt_pow_right₀ (by norm_num) (by norm_num)

theorem round_two54 : Binary64.round ((2 : K) ^ 54) = .fin ((2 : K) ^ 54) := by
  have h := Binary64.mag_fixed (K := K) (m := 1) (q := 54) (by norm_num) (by norm_num) (by norm_num)
  rw [show (54 : ℤ) = ((54 : ℕ) : ℤ) by norm_num, zpow_natCast, Int.cast_one, one_mul] at h
  rw [Binary64.round_pos (by positivity), h, if_neg]
  rw [not_le, show (1024 : ℤ) = ((1024 : ℕ) : ℤ) by norm_num, zpow_natCast]
  exact pow_lt_pow_right₀ (by norm_num) (by norm_num)

theorem round_half : Binary64.round ((1 : K) / 2) = .fin (1 / 2) := by
  have h := Binary64.mag_fixed (K := K) (m := 1) (q := -1) (by norm_num) (by norm_num) (by norm_num)
  rw [Int.cast_one, one_mul, zpow_neg_one, inv_eq_one_div] at h
  rw [Binary64.round_pos (by positivity), h, if_neg]
  rw [not_le, show (1024 : ℤ) = ((1024 : ℕ) : ℤ) by norm_num, zpow_natCast]
  exact lt_of_lt_of_le (by norm_num) (one_le_pow₀ (by norm_num : (1 : K) ≤ 2))

/-- **C70**, the limit in binary64: one large price spoils a simple moving average for good. Fed 2^54 and then nothing but 1, `Sma(2)`
returns 0.5 from the third tick on, for ever, while the mean of its window is 1. Signed zeros included. -/
theorem C70_sma_drifts {α : Type} [F64 α] (V : Valued (Rounding.binary64 K) α) (d : DataProvider α) {big one : α}
    (hbig : V.val big = Fl.of _ (.fin (2 ^ 54))) (hone : V.val one = Fl.of _ (.fin 1)) (N : Nat) :
    ∃ y, Runs (fun t => Sma.next ⟨d, t⟩) (Sma.new 2) (fun t => some (if t = 0 then big else one)) N y ∧
      ∀ t, 2 ≤ t → t < N → ∃ v, y t = some v ∧ V.val v = Fl.of _ (.fin (1 / 2)) := by
  refine ⟨_, sma_runs d (by omega) _ N, fun t h2 _ => ?_⟩
  have L := binary64_lawful K
  have one0 : V.val one + -V.val one = Fl.of _ (.fin 0) := by
    rw [hone]; show Binary64.round ((1 : K) + -1) = _; rw [add_neg_cancel, Binary64.round_zero]; rfl
  have zero_one : ∀ a : α, V.val a = Fl.of _ (.fin 0) → V.val (a + one) = Fl.of _ (.fin 1) := by
    intro a ha
    rw [V.add, ha, hone]
    show Binary64.round ((0 : K) + 1) = _
    rw [zero_add, show (1 : K) = ((1 : ℤ) : K) by norm_num, Binary64.round_int 1 (by norm_num)]; rfl
  have hacc : ∀ t, 2 ≤ t → V.val (acc0 2 (fun t => some (if t = 0 then big else one)) t) = Fl.of _ (.fin 0) := by
    intro t ht
    induction t, ht using Nat.le_induction with
    | base =>
      show V.val (((lit 0 + big) + one) - big) = _
      have e1 : V.val (lit 0 + big) = Fl.of _ (.fin (2 ^ 54)) := by
        rw [V.add, V.lit, lit_zero L, hbig]
        show Binary64.round ((0 : K) + 2 ^ 54) = _
        rw [zero_add, round_two54]; rfl
      have e2 : V.val (lit 0 + big + one) = Fl.of _ (.fin (2 ^ 54)) := by
        rw [V.add, e1, hone]; exact round_absorbs
      rw [V.sub, e2, hbig]
      show Binary64.round ((2 : K) ^ 54 + -2 ^ 54) = _
      rw [add_neg_cancel, Binary64.round_zero]; rfl
    | succ t ht ih =>
      have e : acc0 2 (fun t => some (if t = 0 then big else one)) (t + 1)
          = acc0 2 (fun t => some (if t = 0 then big else one)) t + one - one := by
        show subOpt (addOpt _ (some (if t = 0 then big else one))) (ago _ 1 t) = _
        rw [if_neg (by omega), ago, if_pos (by omega)]
        show (_ + one) - (if t - 1 = 0 then big else one) = _
        rw [if_neg (by omega)]
      rw [e, V.sub, zero_one _ ih, hone]
      show Binary64.round ((1 : K) + -1) = _; rw [add_neg_cancel, Binary64.round_zero]; rfl
  refine ⟨rawSum0 2 (fun t => some (if t = 0 then big else one)) t / lit ((2 : ℕ) : ℚ), ?_, ?_⟩
  · rw [sma0, if_neg (by omega), if_pos ⟨by omega, fun k _ _ => rfl⟩]
  · have e1 : V.val (rawSum0 2 (fun t => some (if t = 0 then big else one)) t) = Fl.of _ (.fin 1) := by
      show V.val (_ + if t = 0 then big else one) = _
      rw [if_neg (by omega)]
      exact zero_one _ (hacc t h2)
    have e2 : V.val (lit ((2 : ℕ) : ℚ) : α) = Fl.of _ (.fin 2) := by
      rw [V.lit]
      show Binary64.round ((((2 : ℕ) : ℚ)) : K) = _
      rw [show ((((2 : ℕ) : ℚ)) : K) = ((2 : ℤ) : K) by norm_num, Binary64.round_int 2 (by norm_num)]
      norm_num; rfl
    rw [V.div _ _ (by rw [e2]; exact of_fin_ne (by norm_num)), e1, e2]
    show Fl.div _ (Ext.fin (1 : K)) (Ext.fin 2) = _
    rw [Fl.div, if_neg (by norm_num)]
    exact round_half

/-- So `Sma` does not have a finite memory in binary64, however long. -/
theorem C70_sma_never_forgets (n : Nat) : ¬ Remembers (id : Option (Sf (Rounding.binary64 K)) → _) n
    (fun d t => Sma.next ⟨d, t⟩) (Sma.new 2) := by
  intro h
  have L := binary64_lawful K
  let V := Sf.valued (Rounding.binary64 K)
  let big : Sf (Rounding.binary64 K) := ⟨Fl.of _ (.fin (2 ^ 54)), false⟩
  let one : Sf (Rounding.binary64 K) := ⟨Fl.of _ (.fin 1), false⟩
  have d : DataProvider (Sf (Rounding.binary64 K)) := ⟨[], [], [], [], [], [], 0, 0⟩
  obtain ⟨y, hy, hv⟩ := C70_sma_drifts V d (big := big) (one := one) rfl rfl (n + 3)
  obtain ⟨v, h1, h2⟩ := hv (n + 2) (by omega) (by omega)
  -- the constant series
  have hlit : ∀ m : Nat, m ≤ 2 → V.val (lit (m : ℚ)) = Fl.of _ (.fin (m : K)) := by
    intro m hm
    rw [V.lit]
    show Binary64.round (((m : ℚ)) : K) = _
    rw [show (((m : ℚ)) : K) = ((m : ℤ) : K) by push_cast; rfl, Binary64.round_int m (by rw [Nat.abs_cast]; norm_cast; omega)]
    push_cast; rfl
  have hadd : ∀ (a : Sf (Rounding.binary64 K)) (m : Nat), m ≤ 2 → V.val a = Fl.of _ (.fin (m : K)) →
      V.val (a + one) = Fl.of _ (.fin ((m + 1 : Nat) : K)) := by
    intro a m hm ha
    rw [V.add, ha]
    show Binary64.round ((m : K) + 1) = _
    rw [show (m : K) + 1 = ((m + 1 : ℤ) : K) by push_cast; rfl, Binary64.round_int (m + 1) (by
      rw [show ((m : ℤ) + 1) = ((m + 1 : ℕ) : ℤ) by push_cast; rfl, Nat.abs_cast]; norm_cast; omega)]
    push_cast; rfl
  have hacc : ∀ t, 1 ≤ t → V.val (acc0 2 (fun _ => some one) t) = Fl.of _ (.fin ((1 : Nat) : K)) := by
    intro t ht
    induction t, ht using Nat.le_induction with
    | base => exact hadd (lit ((0 : Nat) : ℚ)) 0 (by omega) (hlit 0 (by omega))
    | succ t ht ih =>
      have e : acc0 2 (fun _ => some one) (t + 1) = acc0 2 (fun _ => some one) t + one - one := by
        show subOpt (addOpt _ (some one)) (ago _ 1 t) = _
        rw [ago, if_pos (by omega)]; rfl
      rw [e, V.sub, hadd _ 1 (by omega) ih]
      show Binary64.round (((1 + 1 : Nat) : K) + -1) = _
      rw [show ((1 + 1 : Nat) : K) + -1 = ((1 : ℤ) : K) by push_cast; ring, Binary64.round_int 1 (by norm_num)]
      push_cast; rfl
  have h3 := h d d (fun t => some (if t = 0 then big else one)) (fun _ => some one) (n + 3) (n + 3) y _ hy
    (sma_runs d (by omega) (fun _ => some one) (n + 3)) (n + 2) (n + 2) (by omega) (by omega) ⟨by omega, by omega, fun i hi => by
      show some (if n + 2 - i = 0 then big else one) = some one
      rw [if_neg (by omega)]⟩
  rw [h1, sma0, if_neg (by omega), if_pos ⟨by omega, fun k _ _ => rfl⟩] at h3
  have h4 : V.val v = Fl.of _ (.fin ((2 : Nat) : K)) / Fl.of _ (.fin ((2 : Nat) : K)) := by
    rw [Option.some.inj h3, V.div _ _ (by rw [hlit 2 (by omega)]; exact of_fin_ne (by norm_num)), hlit 2 (by omega)]
    exact congrArg (· / _) (hadd _ 1 (by omega) (hacc (n + 2) (by omega)))
  rw [h4] at h2
  have h5 : Fl.div (Rounding.binary64 K) (Ext.fin (((2 : Nat) : K))) (Ext.fin (((2 : Nat) : K))) = Ext.fin (1 / 2) := h2
  rw [Fl.div, if_neg (by norm_num), div_self (by norm_num)] at h5
  have h6 : Binary64.round (1 : K) = .fin (1 / 2) := h5
  rw [show (1 : K) = ((1 : ℤ) : K) by norm_num, Binary64.round_int 1 (by norm_num)] at h6
  have h7 := Ext.fin.inj h6
  norm_num at h7

end ieee
end Pace
