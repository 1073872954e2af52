import Verif.Props.Content8
import Verif.Props.Program
import Verif.Props.Statistics

/-!
# C84: a market that does not move
-/

set_option linter.unusedSectionVars false

namespace Pace
open Spec
variable {K : Type} [Field K] [LinearOrder K] [IsStrictOrderedRing K] [LawfulRoots K]
variable {d : DataProvider (Ex K)} {N : Nat} {v : Nat → K} {k : K}

/-- Complete bars whose four prices are all `k`; the volumes are arbitrary. -/
def Spec.FlatBars (d : DataProvider (Ex K)) (N : Nat) (k : K) (v : Nat → K) : Prop :=
  ExBars d N (fun _ => k) (fun _ => k) (fun _ => k) (fun _ => k) v

theorem win_const {β : Type} (b : β) (n t : Nat) : win (fun _ => b) n t = List.replicate n b := by
  simp [win, List.map_const']

private theorem sum_zero {g : Nat → K} (h : ∀ t, g t = 0) (n t : Nat) : (win g n t).sum = 0 := by
  have : g = fun _ => 0 := funext h
  rw [this, win_const]; simp

private theorem mean_const {n : Nat} (hn : 1 ≤ n) (t : Nat) : mean (win (fun _ => k) n t) = k := by
  have : (n : K) ≠ 0 := by exact_mod_cast (by omega : n ≠ 0)
  rw [win_const, mean]; simp [this]

private theorem absDev_const {n : Nat} (hn : 1 ≤ n) (t : Nat) : meanAbsDev (win (fun _ => k) n t) = 0 := by
  rw [meanAbsDev, mean_const hn, win_const]; simp

private theorem sqDev_const {n : Nat} (hn : 1 ≤ n) (t : Nat) : cutSqDev (win (fun _ => k) n t) = 0 := by
  rw [cutSqDev, mean_const hn, win_const]; simp [cutDev]

private theorem sqrt_zero : RootOps.sqrt (0 : K) = 0 := by
  have := LawfulRoots.sqrt_mul_self (0 : K) (le_refl _)
  exact mul_self_eq_zero.mp this

theorem highest_const {n : Nat} (hn : 1 ≤ n) (t : Nat) :
    Spec.highest (fun _ => some k) n t = if n ≤ t + 1 then some k else none := by
  unfold Spec.highest
  split
  · obtain ⟨m, rfl⟩ : ∃ m, n = m + 1 := ⟨n - 1, by omega⟩
    have : (win (fun _ => some k) (m + 1) t).reduceOption = List.replicate (m + 1) k := by
      rw [win_const]; simp [List.reduceOption]
    rw [this]; simp
  · rfl

theorem lowest_const {n : Nat} (hn : 1 ≤ n) (t : Nat) :
    Spec.lowest (fun _ => some k) n t = if n ≤ t + 1 then some k else none := by
  unfold Spec.lowest
  split
  · obtain ⟨m, rfl⟩ : ∃ m, n = m + 1 := ⟨n - 1, by omega⟩
    have : (win (fun _ => some k) (m + 1) t).reduceOption = List.replicate (m + 1) k := by
      rw [win_const]; simp [List.reduceOption]
    rw [this]; simp
  · rfl

private theorem barRange_const (t : Nat) : barRange (fun _ => k) (fun _ => k) (fun _ => k) t = 0 := by
  cases t <;> simp [barRange]

theorem sourceValue_flat {s : SrcKind} (hs : s ≠ .volume) : sourceValue s (fun _ => k) (fun _ => k) (fun _ => k) (fun _ => k) v = fun _ => k := by
  funext t
  cases s <;> simp only [sourceValue] <;> first | rfl | exact absurd rfl hs | (field_simp; try ring)


theorem runningMean_zero {u : Nat → K} (h : ∀ t, u t = 0) (n s j : Nat) : runningMean n s u j = 0 := by
  induction j with
  | zero => simp [runningMean, h]
  | succ j ih => rw [runningMean, ih, h]; simp

theorem emaSeries_zero {x : Nat → Option K} (h : ∀ t w, x t = some w → w = 0) (n t : Nat) :
    ∀ w, emaSeries x n t = some w → w = 0 := by
  have hm : ∀ t w, (fullWindow x n t).map mean = some w → w = 0 := fun t w hw => by
    obtain ⟨l, h1, rfl⟩ := Option.map_eq_some_iff.mp hw
    unfold fullWindow at h1
    split at h1
    · rename_i hc
      rw [allSome_eq_some] at h1
      have : ∀ a ∈ l, a = 0 := fun a ha => by
        have : some a ∈ win x n t := by rw [h1]; exact List.mem_map_of_mem ha
        obtain ⟨i, _, hi⟩ := (mem_win hc).mp this
        exact h _ _ hi.2
      rw [mean, List.sum_eq_zero this, zero_div]
    · cases h1
  induction t with
  | zero => exact hm 0
  | succ t ih =>
    intro w hw
    rw [emaSeries] at hw
    rcases he : emaSeries x n t with _ | e
    · rw [he] at hw; exact hm _ w hw
    · rw [he] at hw
      obtain ⟨a, h1, rfl⟩ := Option.map_eq_some_iff.mp hw
      rw [h _ _ h1, ih e he]
      simp

/-! ## Values -/

private theorem flat_src (hb : FlatBars d N k v) {s : SrcKind} (hs : s ≠ .volume) (t : Nat) (ht : t < N) :
    Src.next ⟨d, t⟩ s = .ok (some (fin k)) := by
  rw [src_exact' hb s t ht, sourceValue_flat hs]

/-- **C84.** In a market that stands still at `k`, every moving average of every price source equals `k` as soon as it has a value, the
highest and the lowest price and all three Donchian lines are `k`, and deviations, true range and average true range are 0. -/
theorem C84_averages (hb : FlatBars d N k v) {s : SrcKind} (hs : s ≠ .volume) (kind : MaKind) {n : Nat} (hn : 2 ≤ n) (biased : Bool) :
    Runs (noInput fun t => withSrc s Ma.next ⟨d, t⟩) (Ma.new kind n) unit N (flo (startAt (maLength kind n - 1) fun _ => k)) ∧
    Runs (noInput fun t => withSrc s Highest.next ⟨d, t⟩) (Highest.new n) unit N (flo (startAt (n - 1) fun _ => k)) ∧
    Runs (noInput fun t => withSrc s Lowest.next ⟨d, t⟩) (Lowest.new n) unit N (flo (startAt (n - 1) fun _ => k)) ∧
    Runs (noInput fun t => withSrc s Dev.next ⟨d, t⟩) (Dev.new n) unit N (flo (startAt (n - 1) fun _ => 0)) ∧
    Runs (noInput fun t => withSrc s Stdev.next ⟨d, t⟩) (Stdev.new n biased) unit N (flo (startAt (n - 1) fun _ => 0)) ∧
    Runs (noInput fun t => Atr.next ⟨d, t⟩) (Atr.new n) unit N (flo (startAt (n - 1) fun _ => 0)) ∧
    Runs (noInput fun t => DonchianChannels.next ⟨d, t⟩) (DonchianChannels.new n) unit N (fun t =>
      ⟨flo (startAt (n - 1) fun _ => k) t, flo (startAt (n - 1) fun _ => k) t, flo (startAt (n - 1) fun _ => k) t⟩) := by
  have x := flat_src hb hs
  have fw : ∀ t, fullWindow (startAt 0 fun _ => k) n t = if t < n - 1 then none else some (win (fun _ => k) n t) := fun t => by
    rw [fullWindow_startAt 0 _ (show 1 ≤ n by omega)]
    split <;> split <;> first | rfl | omega
  have hl : ∀ t, (n ≤ t + 1) = ¬ (t < n - 1) := fun t => by rw [eq_iff_iff]; omega
  refine ⟨?_, ?_, ?_, ?_, ?_, ?_, ?_⟩
  · refine withSrc_runs x ((((C64_average d kind (show 1 ≤ n by omega) 0 (fun _ => k) N).1).input_congr fun t _ => ?_).congr fun t _ => ?_)
    · rw [startAt_zero]; rfl
    · have hp := maLength_pos kind (show 1 ≤ n by omega)
      show Option.map fin (if _ then _ else _) = Option.map fin (if _ then _ else _)
      rw [Nat.zero_add]
      by_cases hc : t < maLength kind n - 1
      · rw [if_pos hc, if_pos hc]
      · rw [if_neg hc, if_neg hc, C64_constant kind (by omega) (by omega)]
  · refine withSrc_runs x ((C30_highest d (show 1 ≤ n by omega) (fun _ => some k) N).congr fun t _ => ?_)
    rw [highest_const (by omega)]
    show _ = Option.map fin (if _ then _ else _)
    simp only [hl, ite_not]
  · refine withSrc_runs x ((C30_lowest d (show 1 ≤ n by omega) (fun _ => some k) N).congr fun t _ => ?_)
    rw [lowest_const (by omega)]
    show _ = Option.map fin (if _ then _ else _)
    simp only [hl, ite_not]
  · refine withSrc_runs x (((C26_dev d hn (startAt 0 fun _ => k) N).input_congr fun t _ => ?_).congr fun t _ => ?_)
    · rw [startAt_zero]; rfl
    · rw [fw]
      show _ = Option.map fin (if _ then _ else _)
      split
      · rfl
      · rw [Option.map_some, absDev_const (by omega)]; rfl
  · refine withSrc_runs x (((C26_stdev d hn biased (startAt 0 fun _ => k) N).input_congr fun t _ => ?_).congr fun t _ => ?_)
    · rw [startAt_zero]; rfl
    · rw [fw]
      show _ = Option.map fin (if _ then _ else _)
      by_cases hc : t < n - 1
      · rw [if_pos hc, if_pos hc]; rfl
      · rw [if_neg hc, if_neg hc, Option.map_some, sqDev_const (by omega), zero_div, sqrt_zero]; rfl
  · refine (C33_atr_bars hb (show 1 ≤ n by omega)).congr fun t _ => ?_
    have e : (averageRange (fun _ => k) (fun _ => k) (fun _ => k) n) = startAt (n - 1) (fun _ => (0 : K)) := by
      unfold averageRange
      congr 1
      funext t
      exact runningMean_zero barRange_const n 0 _
    rw [e]
  · refine (C53_donchian_exact hb (show 1 ≤ n by omega)).congr fun t _ => ?_
    rw [highest_const (by omega), lowest_const (by omega)]
    show _ = (⟨Option.map fin (if _ then _ else _), Option.map fin (if _ then _ else _), Option.map fin (if _ then _ else _)⟩ : DonchianData (Ex K))
    simp only [hl, ite_not]
    split
    · rfl
    · simp [opt2]

/-- **C84.** In a market that does not move these indicators never have a value (they divide by something that is 0): balance of power,
Williams %R, Bollinger %B, commodity channel index, Chande momentum oscillator, relative volatility, choppiness, both vortex lines,
the ultimate oscillator and both lines of relative vigor. -/
theorem C84_undefined (hb : FlatBars d N k v) {s : SrcKind} (hs : s ≠ .volume) {n m l : Nat} (hn : 2 ≤ n) (hm : 1 ≤ m) (hl : 1 ≤ l) (mult : K) :
    (∀ t, t < N → BalanceOfPower.next ⟨d, t⟩ = .ok none) ∧
    Runs (noInput fun t => withSrc s WilliamsPercentRank.next ⟨d, t⟩) (WilliamsPercentRank.new n) unit N (fun _ => none) ∧
    Runs (noInput fun t => withSrc s BollingerBandsPercentB.next ⟨d, t⟩) (BollingerBands.new n (fin mult)) unit N (fun _ => none) ∧
    Runs (noInput fun t => withSrc s CommodityChannelIndex.next ⟨d, t⟩) (CommodityChannelIndex.new n) unit N (fun _ => none) ∧
    Runs (noInput fun t => withSrc s ChandeMomentumOscillator.next ⟨d, t⟩) (ChandeMomentumOscillator.new n) unit N (fun _ => none) ∧
    (m = 1 ∨ n ≤ m + 2 → Runs (noInput fun t => withSrc s RelativeVolatilityIndex.next ⟨d, t⟩) (RelativeVolatilityIndex.new n m) unit N
      (fun _ => none)) ∧
    Runs (noInput fun t => ChoppinessIndex.next ⟨d, t⟩) (ChoppinessIndex.new n) unit N (fun _ => none) ∧
    Runs (noInput fun t => Vortex.next ⟨d, t⟩) (Vortex.new n) unit N (fun _ => (none, none)) ∧
    Runs (noInput fun t => UltimateOscillator.next ⟨d, t⟩) (UltimateOscillator.new n m l) unit N (fun _ => none) ∧
    Runs (noInput fun t => RelativeVigorIndex.next ⟨d, t⟩) (RelativeVigorIndex.new n) unit N (fun _ => (none, none)) := by
  have x := flat_src hb hs
  have h1 : 1 ≤ n := by omega
  refine ⟨fun t ht => ?_, ?_, ?_, ?_, ?_, fun hnm => ?_, ?_, ?_, ?_, ?_⟩
  · rw [C53_balance_of_power d hb.open_ hb.high hb.low hb.close ht]
    simp [opt4]
  · refine withSrc_runs x ((C53_williams_exact hb h1 fun _ => some k).congr fun t _ => ?_)
    rw [highest_const h1, lowest_const h1]
    split <;> simp [opt3]
  · refine withSrc_runs x ((C53_bollinger_percent_b_exact hn mult fun _ => k).congr fun t _ => ?_)
    simp only [sqDev_const h1, zero_div, sqrt_zero, zero_mul, if_true]
    split <;> rfl
  · refine withSrc_runs x ((C53_cci_exact hn fun _ => k).congr fun t _ => ?_)
    simp only [absDev_const h1, if_true]
    split <;> rfl
  · refine withSrc_runs x ((C53_cmo_exact hn fun _ => k).congr fun t _ => ?_)
    have e1 : ∀ t, gain (fun _ => k) t = 0 := fun t => by simp [gain]
    have e2 : ∀ t, loss (fun _ => k) t = 0 := fun t => by simp [loss]
    simp only [sum_zero e1, sum_zero e2, add_zero, if_true]
    split <;> rfl
  · refine withSrc_runs x ((C53_relative_volatility_exact d hn hm hnm (fun _ => k) N).congr fun t _ => ?_)
    have e1 : ∀ t w, upDeviation (fun _ => k) n t = some w → w = 0 := fun t w => by
      simp only [upDeviation, le_refl, if_true]
      split
      · intro h; cases h
      · intro h; exact (Option.some.inj h).symm
    have e2 : ∀ t w, downDeviation (fun _ => k) n t = some w → w = 0 := fun t w => by
      simp only [downDeviation, lt_irrefl, if_false, sqDev_const h1, zero_div, sqrt_zero]
      split
      · intro h; cases h
      · intro h
        unfold startAt at h
        split at h
        · cases h
        · exact (Option.some.inj h).symm
    have z1 := emaSeries_zero e1 m t
    have z2 := emaSeries_zero e2 m t
    generalize emaSeries (upDeviation (fun _ => k) n) m t = U at z1 ⊢
    generalize emaSeries (downDeviation (fun _ => k) n) m t = W at z2 ⊢
    rcases U with _ | a
    · rfl
    rcases W with _ | b
    · rfl
    rw [z1 a rfl, z2 b rfl]
    simp [opt2]
  · refine (C53_choppiness_exact hb h1).congr fun t _ => ?_
    rw [highest_const h1, lowest_const h1]
    split <;> simp [opt2]
  · refine (C53_vortex_exact hb h1).congr fun t _ => ?_
    rw [if_pos (Or.inr (sum_zero barRange_const _ _))]
  · refine (C53_ultimate_oscillator_exact hb h1 hm hl).congr fun t _ => ?_
    have e : ∀ t, trueSpread (fun _ => k) (fun _ => k) (fun _ => k) t = 0 := fun t => by simp [trueSpread]
    simp only [sum_zero e]
    simp
  · refine (C53_relative_vigor_exact hb h1).congr fun t _ => ?_
    have e : ∀ t, vigor (fun _ => k) (fun _ => k) (fun _ => k) (fun _ => k) n t = none := fun t => by
      unfold vigor
      refine if_pos (Or.inr (sum_zero (fun t => ?_) _ _))
      simp [sym4]
    have e' : (vigor (fun _ => k) (fun _ => k) (fun _ => k) (fun _ => k) n) = fun _ => none := funext e
    rw [e', fullWindow, win_const]
    split <;> rfl

/-- **C84.** In a market that stands still at `k` the differences of averages are 0: MACD and its signal line, the awesome oscillator, and
if `k` is not 0 the price oscillator and the Coppock curve (both have no finite value if `k = 0`); Chaikin money flow is 0, or missing while
there is no volume. -/
theorem C84_zero (hb : FlatBars d N k v) {s s' : SrcKind} (hs : s ≠ .volume) (hs' : s' ≠ .volume) (ka kb kg : MaKind) {a b g : Nat}
    (ha : 1 ≤ a) (hb' : 1 ≤ b) (hg : 1 ≤ g) :
    let p := max (maLength ka a) (maLength kb b) - 1
    Runs (noInput fun t => withSrc2 s s' Macd.next ⟨d, t⟩)
      (do let s ← Ma.new ka a; let l ← Ma.new kb b; let g ← Ma.new kg g; return ⟨s, l, g⟩) unit N
      (fun t => (flo (startAt p fun _ => 0) t, flo (startAt (p + maLength kg g - 1) fun _ => 0) t)) ∧
    Runs (noInput fun t => withSrc2 s s' AwesomeOscillator.next ⟨d, t⟩)
      (do let l ← Ma.new kb b; let s ← Ma.new ka a; return .new s l) unit N (flo (startAt (p + 1) fun _ => 0)) ∧
    (k ≠ 0 → Runs (noInput fun t => withSrc s PriceOscillator.next ⟨d, t⟩)
        (do let l ← Ma.new kb b; let s ← Ma.new ka a; return ⟨s, l⟩) unit N (flo (startAt p fun _ => 0)) ∧
      Runs (noInput fun t => withSrc s CoppockCurve.next ⟨d, t⟩) (CoppockCurve.new g a b) unit N (flo (startAt (max a b + g - 1) fun _ => 0))) ∧
    (k = 0 → (∃ y, Runs (noInput fun t => withSrc s PriceOscillator.next ⟨d, t⟩)
        (do let l ← Ma.new kb b; let s ← Ma.new ka a; return ⟨s, l⟩) unit N y ∧ ∀ t w, t < N → y t ≠ some (fin w)) ∧
      Runs (noInput fun t => withSrc s CoppockCurve.next ⟨d, t⟩) (CoppockCurve.new g a b) unit N (fun _ => none)) ∧
    Runs (noInput fun t => ChaikinMoneyFlow.next ⟨d, t⟩) (ChaikinMoneyFlow.new g) unit N (fun t =>
      if t + 1 < g ∨ (win v g t).sum = 0 then none else some (fin 0)) := by
  intro p
  have q1 := maLength_pos ka ha
  have q2 := maLength_pos kb hb'
  have q3 := maLength_pos kg hg
  have fl : ∀ (z : Nat) (f f' : Nat → K) (t : Nat), (∀ t, z ≤ t → f t = f' t) → flo (startAt z f) t = (flo (startAt z f') t : Option (Ex K)) := by
    intro z f f' t h
    show Option.map fin (if _ then _ else _) = Option.map fin (if _ then _ else _)
    by_cases hc : t < z
    · rw [if_pos hc, if_pos hc]
    · rw [if_neg hc, if_neg hc, h t (by omega)]
  have avg : ∀ kind n t, 1 ≤ n → maLength kind n ≤ t + 1 → average kind n 0 (fun _ => k) t = k := fun kind n t hn ht =>
    C64_constant kind hn (by omega) k
  refine ⟨?_, ?_, fun hk => ⟨?_, ?_⟩, fun hk => ⟨?_, ?_⟩, ?_⟩
  · have h := C53_macd_exact hb s s' ka kb kg ha hb' hg
    simp only [sourceValue_flat hs, sourceValue_flat hs'] at h
    refine h.congr fun t _ => ?_
    have e : ∀ t, p ≤ t → average ka a 0 (fun _ => k) t - average kb b 0 (fun _ => k) t = 0 := fun t ht => by
      rw [avg ka a t ha (by omega), avg kb b t hb' (by omega), sub_self]
    rw [fl _ _ (fun _ => 0) t e]
    refine Prod.ext rfl (fl _ _ _ t fun t ht => ?_)
    refine le_antisymm (average_le kg hg (by omega) fun r h1 h2 => (e r h1).le) (average_ge kg hg (by omega) fun r h1 h2 => (e r h1).ge)
  · have h := C53_awesome_oscillator_exact hb s s' ka kb ha hb'
    simp only [sourceValue_flat hs, sourceValue_flat hs'] at h
    refine h.congr fun t _ => ?_
    rw [show p + 1 = max (maLength ka a) (maLength kb b) by omega]
    refine fl _ _ _ t fun t ht => ?_
    rw [avg ka a t ha (by omega), avg kb b t hb' (by omega), avg ka a (t - 1) ha (by omega), avg kb b (t - 1) hb' (by omega)]
    simp
  · obtain ⟨y, h, h1, h2⟩ := C53_price_oscillator_exact hb s ka kb ha hb'
    simp only [sourceValue_flat hs] at h2
    refine h.congr fun t _ => ?_
    show _ = Option.map fin (if _ then _ else _)
    by_cases hc : t < p
    · have : y t = none := by
        rw [← Option.not_isSome_iff_eq_none, h1 t]; omega
      rw [if_pos hc, this]; rfl
    · rw [if_neg hc, (h2 t (by omega)).1 (by rw [avg kb b t hb' (by omega)]; exact hk), avg kb b t hb' (by omega),
        avg ka a t ha (by omega)]
      simp
  · have h := C53_coppock_exact hb s hg ha hb'
    simp only [sourceValue_flat hs] at h
    refine h.congr fun t _ => ?_
    have e : (fun t => opt2 (· + ·) (rateOfChange (fun _ => k) a t) (rateOfChange (fun _ => k) b t)) = startAt (max a b) fun _ => 0 := by
      funext t
      simp only [rateOfChange, startAt, ne_eq, hk, not_false_eq_true, and_true]
      by_cases h1 : a ≤ t <;> by_cases h2 : b ≤ t <;> simp [h1, h2, opt2]
    rw [e, fullWindow_startAt _ _ hg]
    show _ = Option.map fin (if _ then _ else _)
    by_cases hc : t < max a b + g - 1
    · rw [if_pos hc, if_neg (by omega)]; rfl
    · rw [if_neg hc, if_pos (by omega), Option.map_some, Option.map_some, win_const, weightedMean]
      congr 2
      rw [List.sum_eq_zero, zero_div]
      intro w hw
      rw [List.mem_iff_getElem] at hw
      obtain ⟨i, hi, rfl⟩ := hw
      simp
  · obtain ⟨y, h, h1, h2⟩ := C53_price_oscillator_exact hb s ka kb ha hb'
    simp only [sourceValue_flat hs] at h2
    refine ⟨y, h, fun t w ht => ?_⟩
    by_cases hc : t < p
    · have : y t = none := by
        rw [← Option.not_isSome_iff_eq_none, h1 t]; omega
      rw [this]; simp
    · exact (h2 t (by omega)).2 (by rw [avg kb b t hb' (by omega), hk]) w
  · have h := C53_coppock_exact hb s hg ha hb'
    simp only [sourceValue_flat hs] at h
    refine h.congr fun t _ => ?_
    have e : (fun t => opt2 (· + ·) (rateOfChange (fun _ => k) a t) (rateOfChange (fun _ => k) b t)) = fun _ => none := by
      funext t
      simp [rateOfChange, hk, opt2]
    obtain ⟨m, rfl⟩ : ∃ m, g = m + 1 := ⟨g - 1, by omega⟩
    rw [e, fullWindow, win_const]
    split <;> rfl
  · refine (C53_cmf_exact hb hg).congr fun t _ => ?_
    have e : ∀ t, flowVolume (fun _ => k) (fun _ => k) (fun _ => k) v t = 0 := fun t => by simp [flowVolume]
    simp only [sum_zero e, zero_div]
    by_cases h1 : t + 1 < g
    · rw [if_pos h1, if_pos (Or.inl h1)]
    · by_cases h2 : (win v g t).sum = 0 <;> simp [h1, h2]

/-- Missing or NaN. -/
def Spec.NoNumber (y : Option (Ex K)) : Prop := y = none ∨ y = some (Fl.of _ .nan)

private theorem nan_add (a : Ex K) : (Fl.of _ .nan : Ex K) + a = Fl.of _ .nan := rfl
private theorem add_nan (a : Ex K) : a + (Fl.of _ .nan : Ex K) = Fl.of _ .nan := by
  rcases a with _ | _ | _ | a <;> rfl

private theorem stoch_noNumber {m : Nat} {r : Nat → Option (Ex K)} (h : ∀ t, NoNumber (r t)) (t : Nat) : NoNumber (stoch0 m r r r t) := by
  have step : ∀ w hi lo prev : Option (Ex K), NoNumber w → NoNumber prev → NoNumber (stochVal w hi lo prev) := by
    intro w hi lo prev hw hp
    rcases hw with rfl | rfl
    · exact .inl rfl
    rcases hi with _ | hi
    · exact .inl rfl
    rcases lo with _ | lo
    · exact .inl rfl
    unfold stochVal
    dsimp only
    by_cases hc : F64.feq (hi - lo) (lit 0) = true
    · rw [if_pos hc]; exact hp
    · rw [if_neg hc]; exact .inr rfl
  induction t with
  | zero => exact step _ _ _ _ (h 0) (.inl rfl)
  | succ t ih => exact step _ _ _ _ (h _) ih

private theorem sma_noNumber {a : Nat} (ha : 1 ≤ a) {r : Nat → Option (Ex K)} (h : ∀ t, NoNumber (r t)) (t : Nat) : NoNumber (sma0 a r t) := by
  unfold sma0
  by_cases h1 : a = 1
  · rw [if_pos h1]; exact h t
  · rw [if_neg h1]
    by_cases h2 : a ≤ t + 1 ∧ WindowPresent r a t
    · rw [if_pos h2]
      have hp : (r t).isSome := h2.2 t (le_refl _) (by omega)
      rcases h t with e | e
      · rw [e] at hp; cases hp
      · right
        rw [rawSum0, e]
        show some ((acc0 a r t + (Fl.of _ .nan : Ex K)) / _) = _
        rw [add_nan]; rfl
    · rw [if_neg h2]; exact .inl rfl

/-- **C84.** In a market that does not move the relative strength index is NaN from its first value on, and neither the stochastic RSI nor
the Connors RSI is ever a number. -/
theorem C84_nan (hb : FlatBars d N k v) {s : SrcKind} (hs : s ≠ .volume) {n m a b : Nat} (hn : 2 ≤ n) (hm : 1 ≤ m) (ha : 1 ≤ a) (hb' : 1 ≤ b) :
    Runs (noInput fun t => withSrc s Rsi.next ⟨d, t⟩) (Rsi.new n) unit N (fun t => if t < n then none else some (Fl.of _ .nan)) ∧
    (∃ y, Runs (noInput fun t => withSrc s StochRsi.next ⟨d, t⟩) (StochRsi.new n m a b) unit N y ∧
      ∀ t, t < N → NoNumber (y t).1 ∧ NoNumber (y t).2) ∧
    (2 ≤ m → N ≤ 2 ^ 53 → ∃ y, Runs (noInput fun t => withSrc s ConnorsRsi.next ⟨d, t⟩) (ConnorsRsi.new n m a) unit N y ∧
      ∀ t, t < N → NoNumber (y t)) := by
  have x := flat_src hb hs
  have hr : Runs (fun t => Rsi.next ⟨d, t⟩) (Rsi.new n) (fun _ => some (fin k)) N (fun t => if t < n then none else some (Fl.of _ .nan)) := by
    obtain ⟨y, h1, h2, h3⟩ := C34_rsi_exact d hn (fun _ => k) N
    refine h1.congr fun t ht => ?_
    by_cases hc : t < n
    · rw [if_pos hc, h2 t ht hc]
    · obtain ⟨j, rfl⟩ : ∃ j, t = n + j := ⟨t - n, by omega⟩
      rw [if_neg hc, h3 j ht, if_pos]
      rw [wilder_zero_iff hn (gain_nonneg _) j, wilder_zero_iff hn (loss_nonneg _) j, no_change_iff]
      intros; rfl
  have hnr : ∀ t, NoNumber ((if t < n then none else some (Fl.of _ .nan) : Option (Ex K))) := fun t => by
    split
    · exact .inl rfl
    · exact .inr rfl
  set r : Nat → Option (Ex K) := fun t => if t < n then none else some (Fl.of _ .nan)
  refine ⟨withSrc_runs x hr, ?_, fun hm2 hN => ?_⟩
  · have h1 := stoch_runs d hm r r r N
    have n1 : ∀ t, NoNumber (stoch0 m r r r t) := stoch_noNumber hnr
    have n2 : ∀ t, NoNumber (sma0 a (stoch0 m r r r) t) := sma_noNumber ha n1
    exact ⟨_, withSrc_runs x (C53_stoch_rsi d hr h1 (sma_runs d ha _ N) (sma_runs d hb' _ N)), fun t _ =>
      ⟨n2 t, sma_noNumber hb' n2 t⟩⟩
  · obtain ⟨u, hu, _⟩ := C34_rsi_exact d hm2 (fun t => ((streak (fun _ : Nat => some (fin k : Ex K)) t : Int) : K)) N
    have hc := C53_connors exact_lawful hN hr hu (C28_roc_complete (fun _ => k) (le_refl 1) N) (prank_runs d ha _ N)
    refine ⟨_, withSrc_runs x hc, fun t _ => ?_⟩
    rcases hnr t with e | e
    · left
      have e : r t = none := e
      rw [e]; rfl
    · have e : r t = some (Fl.of _ .nan) := e
      rw [e]
      generalize u t = U
      generalize prank0 a (flo (rateOfChange (fun _ => k) 1)) t = P
      rcases U with _ | U
      · exact .inl rfl
      rcases P with _ | P
      · exact .inl rfl
      exact .inr rfl

/-- **C84.** In a market that does not move the directional lines and the ADX never have a value, and both Aroon lines are `100 / n`. -/
theorem C84_lines (hb : FlatBars d N k v) {n m : Nat} (hn : 1 ≤ n) (hm : 1 ≤ m) :
    Runs (noInput fun t => Dmi.next ⟨d, t⟩) (Dmi.new n m) unit N (fun _ => ⟨none, none, none⟩) ∧
    Runs (noInput fun t => Aroon.next ⟨d, t⟩) (Aroon.new n) unit N (fun t =>
      (flo (startAt (n - 1) fun _ => 100 / (n : K)) t, flo (startAt (n - 1) fun _ => 100 / (n : K)) t)) := by
  constructor
  · obtain ⟨y, h, h1, h2⟩ := dmi_main hb (fun _ => ⟨le_refl _, le_refl _, le_refl _, le_refl _⟩) hn hm
    have hl : ∀ t, t < N → (y t).plus = none ∧ (y t).minus = none := fun t ht => by
      rcases h1 t ht with ⟨e1, e2, _⟩ | ⟨j, _, _, e, _⟩
      · exact ⟨e1, e2⟩
      · exact absurd (runningMean_zero barRange_const _ _ _) e
    refine h.congr fun t ht => ?_
    rcases h2 t ht with ⟨e, _⟩ | ⟨_, e, _⟩
    · rcases hy : y t with ⟨a, b, c⟩
      have := hl t ht
      rw [hy] at this e
      cases this.1; cases this.2; cases e; rfl
    · exact absurd (hl _ (by omega)).1 e
  · obtain ⟨a, b, h, hab⟩ := C53_aroon_exact hb hn
    refine h.congr fun t ht => ?_
    show _ = (Option.map fin (if _ then _ else _), Option.map fin (if _ then _ else _))
    by_cases hc : t < n - 1
    · rw [if_pos (show t + 1 < n by omega), if_pos hc]; rfl
    · obtain ⟨⟨a1, a2⟩, ⟨b1, b2⟩⟩ := hab t ht (by omega)
      have ea : a t = n - 1 := by
        by_contra hne
        exact absurd ((a2 (n - 1) (by omega)).2 (by omega)) (lt_irrefl _)
      have eb : b t = n - 1 := by
        by_contra hne
        exact absurd ((b2 (n - 1) (by omega)).2 (by omega)) (lt_irrefl _)
      rw [if_neg (show ¬ t + 1 < n by omega), if_neg hc, ea, eb]
      have e : (n : K) - ((n - 1 : Nat) : K) = 1 := by rw [Nat.cast_sub hn]; simp
      rw [e, mul_one]; rfl

/-! ## No signals, no trades -/

/-- All numbers of the series are the same. -/
def Spec.Still (N : Nat) (y : Nat → Option (Ex K)) : Prop := ∃ c, ∀ t, t < N → NoNumber (y t) ∨ y t = some (fin c)

theorem le_nan (a : Ex K) : F64.le a (Fl.of _ .nan : Ex K) = false ∧ F64.le (Fl.of _ .nan : Ex K) a = false ∧
    F64.lt a (Fl.of _ .nan : Ex K) = false ∧ F64.lt (Fl.of _ .nan : Ex K) a = false := by
  rcases a with _ | _ | _ | a <;> exact ⟨rfl, rfl, rfl, rfl⟩

theorem le_not_lt (a b : Ex K) (h : F64.le a b = true) : F64.lt b a = false := by
  rcases a with _ | _ | _ | a <;> rcases b with _ | _ | _ | b <;> try rfl
  all_goals first | exact Bool.noConfusion h | skip
  have h' : a ≤ b := by simpa [F64.le, Ext.le] using h
  show decide (b < a) = false
  simp [h']

theorem still_rises {y : Nat → Option (Ex K)} (h : Still N y) (θ : Ex K) {t : Nat} (ht : t < N) : ¬ RisesThrough y θ t := by
  rintro ⟨s, p, w, rfl, h1, h2, h3, h4⟩
  obtain ⟨c, h⟩ := h
  rcases h s (by omega) with (e | e) | e <;> rw [h1] at e
  · cases e
  · cases e; rw [(le_nan θ).2.1] at h3; cases h3
  rcases h (s + 1) ht with (e' | e') | e' <;> rw [h2] at e'
  · cases e'
  · cases e'; rw [(le_nan θ).2.2.1] at h4; cases h4
  cases e; cases e'
  rw [le_not_lt _ _ h3] at h4; cases h4

theorem still_falls {y : Nat → Option (Ex K)} (h : Still N y) (θ : Ex K) {t : Nat} (ht : t < N) : ¬ FallsThrough y θ t := by
  rintro ⟨s, p, w, rfl, h1, h2, h3, h4⟩
  obtain ⟨c, h⟩ := h
  rcases h s (by omega) with (e | e) | e <;> rw [h1] at e
  · cases e
  · cases e; rw [(le_nan θ).1] at h3; cases h3
  rcases h (s + 1) ht with (e' | e') | e' <;> rw [h2] at e'
  · cases e'
  · cases e'; rw [(le_nan θ).2.2.2] at h4; cases h4
  cases e; cases e'
  rw [le_not_lt _ _ h3] at h4; cases h4

theorem no_direction {o : Option TradeDirection} (h1 : o ≠ some .long) (h2 : o ≠ some .short) : o = none := by
  rcases o with _ | _ | _
  · rfl
  · exact absurd rfl h1
  · exact absurd rfl h2

/-- **C84.** No threshold, whatever its value, is ever crossed by a series whose numbers are all the same, even if values are missing or
NaN in between; and two lines that are equal whenever both are present never cross. -/
theorem C84_no_signal :
    (∀ (over under : Ex K) {y : Nat → Option (Ex K)}, Still N y →
      Runs (total ThresholdStrategy.next) (.ok (ThresholdStrategy.mk' over under)) y N (fun _ => none)) ∧
    (∀ a : Nat → Option (Ex K), Runs (total CrossStrategy.next) (.ok .new) (fun t => (a t, a t)) N (fun _ => none)) ∧
    (∀ a : Nat → Option K, Runs (total AroonStrategy.next) (.ok .new) (fun t => (flo a t, flo a t)) N (fun _ => none)) ∧
    (∀ (strong : Ex K) (y : Nat → DmiData (Ex K)), (∀ t, (y t).plus = (y t).minus) →
      Runs (total DmiStrategy.next) (.ok (.new strong)) y N (fun _ => none)) := by
  have hx : ∀ (a : Nat → Option (Ex K)) t, ¬ CrossesOver a a t := by
    rintro a t ⟨s, pa, pb, va, vb, rfl, _, _, e1, e2, _, h⟩
    rw [e1] at e2
    cases e2
    have : F64.le va va = true ∨ va = Fl.of _ .nan := by
      rcases va with _ | _ | _ | va
      all_goals first | exact .inl rfl | exact .inr rfl | skip
      left; show decide (va ≤ va) = true; simp
    rcases this with h' | h'
    · rw [le_not_lt _ _ h'] at h; cases h
    · rw [h', (le_nan _).2.2.1] at h; cases h
  refine ⟨fun over under y h => ?_, fun a => ?_, fun a => ?_, fun strong y h => ?_⟩
  · obtain ⟨z, h1, h2⟩ := thresholdStrategy_runs over under y N
    refine h1.congr fun t ht => no_direction ?_ ?_
    · rw [ne_eq, (h2 t ht).1]; exact still_rises h over ht
    · rw [ne_eq, (h2 t ht).2]; exact fun h' => still_falls h under ht h'.1
  · obtain ⟨z, h1, h2⟩ := C55_cross a a N
    refine h1.congr fun t ht => no_direction ?_ ?_
    · rw [ne_eq, (h2 t ht).1]; exact hx a t
    · rw [ne_eq, (h2 t ht).2]; exact hx a t
  · obtain ⟨z, h1, h2⟩ := C55_aroon a a N
    have ha : ∀ t, ¬ AroonArmed (flo a) (flo a) z t := by
      rintro t ⟨s, _, h | h, _⟩ <;> exact hx _ _ h
    refine h1.congr fun t ht => no_direction ?_ ?_
    · rw [ne_eq, (h2 t ht).1]; exact fun h => ha t h.1
    · rw [ne_eq, (h2 t ht).2]; exact fun h => ha t h.1
  · obtain ⟨z, h1, h2⟩ := C55_dmi strong y N
    have e : (fun t => (y t).plus) = fun t => (y t).minus := funext h
    rw [e] at h2
    refine h1.congr fun t ht => no_direction ?_ ?_
    · rw [ne_eq, (h2 t ht).1]; exact fun h => hx _ t h.2
    · rw [ne_eq, (h2 t ht).2]; exact fun h => hx _ t h.2

/-- **C84.** A backtest whose strategy never signals, in any arithmetic and on any bars: no trades, all totals 0, equity the initial
capital plus two zeros. -/
theorem C84_idle {α : Type} [F64 α] {cfg : StrategyConfig α} {d : DataProvider α} {sig : Nat → Option TradeDirection} {N : Nat}
    {st : Nat → Strategy α} (h : Backtest cfg d sig N st) (hs : ∀ t, t < N → sig t = none) {t : Nat} (ht : t < N) :
    (st t).trades = [] ∧ (st t).metrics.netProfit = lit 0 ∧ (st t).metrics.openProfit = lit 0 ∧
    (st t).metrics.grossProfit = lit 0 ∧ (st t).metrics.grossLoss = lit 0 ∧ (st t).metrics.closedTrades = 0 ∧
    (st t).metrics.equity = cfg.initialCapital + lit 0 + lit 0 := by
  have hl : ∀ n, n ≤ N → ledger cfg d sig n = ⟨[], none⟩ := fun n => by
    induction n with
    | zero => intro _; rfl
    | succ n ih =>
      intro hn
      rw [ledger, ih (by omega)]
      have : order cfg sig n = none := by
        unfold order
        split
        · exact hs n (by omega)
        · split
          · rfl
          · exact hs (n - 1) (by omega)
      rw [this]; rfl
  have e1 : (st t).trades = [] := by
    rw [C39_refines h ht, hl _ (by omega)]; rfl
  have s := C40_statistics h ht
  rw [e1] at s
  have e2 := s.netProfit
  have e3 := (C42_equity h ht).2.1 (by rw [e1]; simp)
  have e2' : (st t).metrics.netProfit = lit 0 := e2
  refine ⟨e1, e2', e3, s.grossProfit, s.grossLoss, s.closedTrades, ?_⟩
  rw [(C42_equity h ht).1, e3, e2']

/-- The program (indicator `ind`, signals `sgn`) runs through the bars without panic, never signals, never trades, and its equity stays the
initial capital: for every configuration. -/
def Spec.SitsOut {S Q O : Type} (d : DataProvider (Ex K)) (N : Nat) (ind : Ctx (Ex K) → S → Res (O × S)) (ind0 : Res S)
    (sgn : Q → O → Option TradeDirection × Q) (q0 : Q) : Prop :=
  ∀ (cfg : StrategyConfig (Ex K)) (rfr : Ex K), ∃ (y : Nat → O) (st : Nat → Strategy (Ex K)) (tv : Nat → TvMetrics (Ex K)),
    Runs (noInput fun t => Program.next ind sgn ⟨d, t⟩) (Program.new ind0 q0 cfg rfr) unit N (fun t => (y t, none, st t, tv t)) ∧
    ∀ t, t < N → (st t).trades = [] ∧ (st t).metrics.equity = cfg.initialCapital

theorem add_zeros (x : Ex K) : x + lit 0 + lit 0 = x := by
  rw [fin_lit]
  rcases x with _ | _ | _ | x <;> try rfl
  show Ext.fin (x + ((0 : ℚ) : K) + ((0 : ℚ) : K)) = Ext.fin x
  simp

theorem sitsOut {S Q O : Type} {o h l c : Nat → K} (hb : ExBars d N o h l c v) {ind : Ctx (Ex K) → S → Res (O × S)} {ind0 : Res S}
    {sgn : Q → O → Option TradeDirection × Q} {q0 : Q} {y : Nat → O} (hy : Runs (noInput fun t => ind ⟨d, t⟩) ind0 unit N y)
    (hs : Runs (total sgn) (.ok q0) y N (fun _ => none)) : SitsOut d N ind ind0 sgn q0 := by
  intro cfg rfr
  obtain ⟨st, tv, h1, _, h2⟩ := C65_program hb hy hs cfg rfr
  refine ⟨y, st, tv, h2, fun t ht => ?_⟩
  have h := C84_idle h1 (fun _ _ => rfl) ht
  exact ⟨h.1, h.2.2.2.2.2.2.trans (add_zeros _)⟩

theorem still_none : Still N (fun _ : Nat => (none : Option (Ex K))) := ⟨0, fun _ _ => .inl (.inl rfl)⟩
theorem still_startAt (z : Nat) (c : K) : Still N (flo (startAt z fun _ => c)) := ⟨c, fun t _ => by
  by_cases h : t < z
  · left; left
    show Option.map fin (if _ then _ else _) = _
    rw [if_pos h]; rfl
  · right
    show Option.map fin (if _ then _ else _) = _
    rw [if_neg h]; rfl⟩
theorem still_noNumber {y : Nat → Option (Ex K)} (h : ∀ t, t < N → NoNumber (y t)) : Still N y := ⟨0, fun t ht => .inl (h t ht)⟩

theorem total_fst {Q A B O : Type} {next : Q → A → O × Q} {q : Q} {y : Nat → A × B} {z : Nat → O}
    (h : Runs (total next) (.ok q) (fun t => (y t).1) N z) : Runs (total fun q (p : A × B) => next q p.1) (.ok q) y N z := by
  obtain ⟨s, h0, hs⟩ := h.trace
  exact Runs.of_trace s h0 fun t ht => hs t ht

/-- **C84.** In a market that does not move, no strategy on a price indicator trades, whatever its thresholds, its lengths, the price
source and the configuration of the backtest: it runs through the bars without panic, gives no signal, opens no position and its equity
stays the initial capital.  (Thresholds `a`, `b` are the levels through which the indicator must rise, respectively fall.)  The volume
oscillator is not in the list: its signals come from the volume. -/
theorem C84_sits_out (hb : FlatBars d N k v) {s s' : SrcKind} (hs : s ≠ .volume) (hs' : s' ≠ .volume) (k₁ k₂ k₃ : MaKind) {n m l q : Nat}
    (hn : 2 ≤ n) (hm : 1 ≤ m) (hl : 1 ≤ l) (hq : 1 ≤ q) (a b strong : Ex K) (f : K) :
    let rule := ThresholdStrategy.next (α := Ex K)
    let at' := ThresholdStrategy.mk' a b
    SitsOut d N (fun c (s : Unit) => do return (← BalanceOfPower.next c, s)) (.ok ()) rule at' ∧
    SitsOut d N (withSrc s WilliamsPercentRank.next) (WilliamsPercentRank.new n) rule at' ∧
    SitsOut d N (withSrc s BollingerBandsPercentB.next) (BollingerBands.new n (fin f)) rule at' ∧
    SitsOut d N (withSrc s CommodityChannelIndex.next) (CommodityChannelIndex.new n) rule at' ∧
    SitsOut d N (withSrc s ChandeMomentumOscillator.next) (ChandeMomentumOscillator.new n) rule at' ∧
    (m = 1 ∨ n ≤ m + 2 → SitsOut d N (withSrc s RelativeVolatilityIndex.next) (RelativeVolatilityIndex.new n m) rule at') ∧
    SitsOut d N (withSrc2 s s' Macd.next) (do let s ← Ma.new k₁ m; let l ← Ma.new k₂ l; let g ← Ma.new k₃ q; return ⟨s, l, g⟩)
      (fun q y => rule q y.1) at' ∧
    SitsOut d N (withSrc2 s s' AwesomeOscillator.next) (do let l ← Ma.new k₂ l; let s ← Ma.new k₁ m; return .new s l) rule at' ∧
    (k ≠ 0 → SitsOut d N (withSrc s PriceOscillator.next) (do let l ← Ma.new k₂ l; let s ← Ma.new k₁ m; return ⟨s, l⟩) rule at') ∧
    SitsOut d N (withSrc s CoppockCurve.next) (CoppockCurve.new q m l) rule at' ∧
    SitsOut d N ChaikinMoneyFlow.next (ChaikinMoneyFlow.new q) rule at' ∧
    SitsOut d N (withSrc s Rsi.next) (Rsi.new n) rule at' ∧
    SitsOut d N (withSrc s StochRsi.next) (StochRsi.new n m l q) (fun q y => rule q y.1) at' ∧
    (2 ≤ m → N ≤ 2 ^ 53 → SitsOut d N (withSrc s ConnorsRsi.next) (ConnorsRsi.new n m l) rule at') ∧
    SitsOut d N Vortex.next (Vortex.new n) CrossStrategy.next .new ∧
    SitsOut d N RelativeVigorIndex.next (RelativeVigorIndex.new n) CrossStrategy.next .new ∧
    SitsOut d N Dmi.next (Dmi.new m l) DmiStrategy.next (.new strong) ∧
    SitsOut d N Aroon.next (Aroon.new m) AroonStrategy.next .new := by
  intro rule at'
  obtain ⟨u1, u2, u3, u4, u5, u6, -, u8, -, u10⟩ := C84_undefined hb hs hn hm hl f
  obtain ⟨z1, z2, z3, z4, z5⟩ := C84_zero hb hs hs' k₁ k₂ k₃ hm hl hq
  obtain ⟨w1, ⟨y2, w2, w2'⟩, w3⟩ := C84_nan hb hs hn hm hl hq
  obtain ⟨x1, x2⟩ := C84_lines hb hm hl
  obtain ⟨n1, n2, n3, n4⟩ := C84_no_signal (K := K) (N := N)
  have N1 : ∀ {y : Nat → Option (Ex K)}, Still N y → Runs (total rule) (.ok at') y N (fun _ => none) := n1 a b
  refine ⟨sitsOut hb ?_ (N1 still_none), sitsOut hb u2 (N1 still_none), sitsOut hb u3 (N1 still_none), sitsOut hb u4 (N1 still_none),
    sitsOut hb u5 (N1 still_none), fun h => sitsOut hb (u6 h) (N1 still_none), sitsOut hb z1 ?_, sitsOut hb z2 (N1 (still_startAt _ _)),
    fun h => sitsOut hb (z3 h).1 (N1 (still_startAt _ _)), ?_, sitsOut hb z5 (N1 ?_), sitsOut hb w1 (N1 ?_), sitsOut hb w2 ?_,
    fun h h' => ?_, sitsOut hb u8 (n2 _), sitsOut hb u10 (n2 _), sitsOut hb x1 (n4 strong _ fun _ => rfl), sitsOut hb x2 (n3 _)⟩
  · exact Runs.of_trace (fun _ => ()) rfl fun t ht => by simp [noInput, u1 t ht]
  · exact total_fst (N1 (still_startAt _ _))
  · by_cases hk : k = 0
    · exact sitsOut hb (z4 hk).2 (N1 still_none)
    · exact sitsOut hb (z3 hk).2 (N1 (still_startAt _ _))
  · refine ⟨0, fun t _ => ?_⟩
    by_cases hc : t + 1 < q ∨ (win v q t).sum = 0
    · exact .inl (.inl (if_pos hc))
    · exact .inr (if_neg hc)
  · refine still_noNumber fun t _ => ?_
    split
    · exact .inl rfl
    · exact .inr rfl
  · exact total_fst (N1 (still_noNumber fun t ht => (w2' t ht).1))
  · obtain ⟨y, e1, e2⟩ := w3 h h'
    exact sitsOut hb e1 (N1 (still_noNumber e2))

/-- The hypotheses are met: 100 bars at price 5, volumes 0, 1, 2, .... -/
example : ∃ d : DataProvider (Ex ℝ), FlatBars d 100 5 (fun t => (t : ℝ)) :=
  ⟨_, bars_ofSeries 100 _ _ _ _ _⟩

/-- An indicator that does not stand still does signal: one that reads 0, 1, 2 rises through 0 on tick 1. -/
example : ∃ y : Nat → Option TradeDirection,
    Runs (total ThresholdStrategy.next) (.ok (ThresholdStrategy.mk' (fin 0 : Ex ℚ) (fin 0))) (fun t => some (fin (t : ℚ))) 3 y ∧
      y 1 = some .long := by
  obtain ⟨y, h, h2⟩ := thresholdStrategy_runs (fin 0 : Ex ℚ) (fin 0) (fun t => some (fin (t : ℚ))) 3
  refine ⟨y, h, (h2 1 (by omega)).1.mpr ⟨0, _, _, rfl, rfl, rfl, ?_, ?_⟩⟩ <;> simp

end Pace
