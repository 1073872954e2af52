import Verif.Lemmas.Warmup
import Verif.Model.Defaults
import Verif.Props.Content
import Verif.Props.Common
import Verif.Props.Fresh

/-!
# Warm-up of the bundled indicators (C63)

On complete bars (no missing open, high, low, close or volume), for every number type, every choice of lengths the
constructor accepts (except where the finding of the relative volatility index requires more) and every source:
the indicator never panics, and its output is missing on every tick before the one stated.  `StartsAt` says in addition
that it is present from that tick on; where only `SilentBefore` is stated, the output can also be missing later, because the
indicator divides and gives no value when the divisor is 0.
-/

set_option linter.unusedSectionVars false

namespace Pace
open Spec
variable {α : Type} [F64 α] {d : DataProvider α} {N : Nat} {o h l c v : Nat → α}

/-! ## Sources on complete bars -/

theorem src_bars (hb : Bars d N o h l c v) (k : SrcKind) :
    ∃ x : Nat → α, ∀ t, t < N → Src.next ⟨d, t⟩ k = .ok (some (x t)) := by
  cases k with
  | open_ => exact ⟨o, fun t ht => ctx_barOpen hb.open_ ht⟩
  | high => exact ⟨h, fun t ht => ctx_barHigh hb.high ht⟩
  | low => exact ⟨l, fun t ht => ctx_barLow hb.low ht⟩
  | close => exact ⟨c, fun t ht => ctx_barClose hb.close ht⟩
  | volume => exact ⟨v, fun t ht => ctx_barVolume hb.volume ht⟩
  | ohlc4 =>
    exact ⟨fun t => ohlc4 (o t) (h t) (l t) (c t), fun t ht => by
      simp [Src.next, ctx_barOpen hb.open_ ht, ctx_barHigh hb.high ht, ctx_barLow hb.low ht, ctx_barClose hb.close ht]⟩
  | hlc3 =>
    exact ⟨fun t => hlc3 (h t) (l t) (c t), fun t ht => by
      simp [Src.next, ctx_barHigh hb.high ht, ctx_barLow hb.low ht, ctx_barClose hb.close ht]⟩
  | hl2 =>
    exact ⟨fun t => hl2 (h t) (l t), fun t ht => by
      simp [Src.next, ctx_barHigh hb.high ht, ctx_barLow hb.low ht]⟩

theorem withSrc_runs {S O : Type} {k : SrcKind} {next : Ctx α → S → Option α → Res (O × S)} {s0 : Res S} {x : Nat → Option α}
    {y : Nat → O} (hx : ∀ t, t < N → Src.next ⟨d, t⟩ k = .ok (x t)) (hr : Runs (fun t => next ⟨d, t⟩) s0 x N y) :
    Runs (noInput fun t => withSrc k next ⟨d, t⟩) s0 unit N y := by
  obtain ⟨s, h0, hs⟩ := hr.trace
  refine Runs.of_trace s h0 fun t ht => ?_
  simp only [noInput, withSrc, hx t ht, Res.ok_bind, hs t ht]

theorem withSrc2_runs {S O : Type} {k k' : SrcKind} {next : Ctx α → S → Option α × Option α → Res (O × S)} {s0 : Res S}
    {x x' : Nat → Option α} {y : Nat → O} (hx : ∀ t, t < N → Src.next ⟨d, t⟩ k = .ok (x t))
    (hx' : ∀ t, t < N → Src.next ⟨d, t⟩ k' = .ok (x' t)) (hr : Runs (fun t => next ⟨d, t⟩) s0 (fun t => (x t, x' t)) N y) :
    Runs (noInput fun t => withSrc2 k k' next ⟨d, t⟩) s0 unit N y := by
  obtain ⟨s, h0, hs⟩ := hr.trace
  refine Runs.of_trace s h0 fun t ht => ?_
  simp only [noInput, withSrc2, hx t ht, hx' t ht, Res.ok_bind, hs t ht]

theorem ma_runs (d : DataProvider α) (kind : MaKind) {len : Nat} (hlen : 1 ≤ len) {s : Nat} {x : Nat → Option α} (N : Nat)
    (hx : StartsAt s x) :
    ∃ y, Runs (fun t => Ma.next ⟨d, t⟩) (Ma.new kind len) x N y ∧ StartsAt (s + Spec.maLength kind len - 1) y := by
  have hm := C53_ma d len x N
  cases kind with
  | sma => exact ⟨_, (hm.1.trans (sma_runs d hlen x N) :), hx.sma0 hlen⟩
  | ema => exact ⟨_, (hm.2.1.trans (ema_runs d hlen _ x N (hx.stays.emaOk _ _ hlen)) :), hx.ema0 hlen _⟩
  | rma => exact ⟨_, (hm.2.2.1.trans (rma_runs d hlen x N (hx.stays.emaOk _ _ hlen)) :), hx.rma0 hlen⟩
  | swma => exact ⟨_, (hm.2.2.2.trans (swma_runs d x N) :), hx.swma0.cast (by simp [Spec.maLength])⟩

theorem maLength_pos (kind : MaKind) {len : Nat} (hlen : 1 ≤ len) : 1 ≤ Spec.maLength kind len := by
  cases kind <;> simp [Spec.maLength, hlen]

/-! ## Indicators of a source -/

/-- **C63.** Relative strength index: first value at tick `len`. -/
theorem C63_rsi (hb : Bars d N o h l c v) (src : SrcKind) {len : Nat} (hlen : 2 ≤ len) :
    ∃ y, Runs (noInput fun t => withSrc src RelativeStrengthIndex.next ⟨d, t⟩) (Rsi.new len) unit N y ∧ StartsAt len y := by
  obtain ⟨x, hx⟩ := src_bars hb src
  have hs : StartsAt 0 (fun t => some (x t)) := .some x
  refine ⟨_, withSrc_runs hx (rsi_runs d hlen _ N fun t _ _ => rfl), ?_⟩
  exact (hs.rsi0 (by omega)).cast (by omega)

/-- **C63.** Bollinger bands %B and width: nothing before tick `len - 1`. -/
theorem C63_bollinger (hb : Bars d N o h l c v) (src : SrcKind) {len : Nat} (hlen : 1 ≤ len) (mult : α) :
    (∃ y, Runs (noInput fun t => withSrc src BollingerBandsPercentB.next ⟨d, t⟩) (BollingerBands.new len mult) unit N y ∧
      SilentBefore (len - 1) y) ∧
    ∃ y, Runs (noInput fun t => withSrc src BollingerBandsWidth.next ⟨d, t⟩) (BollingerBands.new len mult) unit N y ∧
      SilentBefore (len - 1) y := by
  obtain ⟨x, hx⟩ := src_bars hb src
  have hs : StartsAt 0 (fun t => some (x t)) := .some x
  have hm := ((hs.sma0 hlen).cast (show 0 + len - 1 = len - 1 by omega)).silent
  exact ⟨⟨_, withSrc_runs hx (C53_bollinger_percent_b d (sma_runs d hlen _ N) (stdev_runs d hlen true _ N)),
      (SilentBefore.opt3 (.inr (.inl hm)) _).join⟩,
    ⟨_, withSrc_runs hx (C53_bollinger_width d (sma_runs d hlen _ N) (stdev_runs d hlen true _ N)),
      (SilentBefore.opt3 (.inr (.inl hm)) _).join⟩⟩

/-- **C63.** Commodity channel index: nothing before tick `len - 1`. -/
theorem C63_cci (hb : Bars d N o h l c v) (src : SrcKind) {len : Nat} (hlen : 1 ≤ len) :
    ∃ y, Runs (noInput fun t => withSrc src CommodityChannelIndex.next ⟨d, t⟩) (CommodityChannelIndex.new len) unit N y ∧
      SilentBefore (len - 1) y := by
  obtain ⟨x, hx⟩ := src_bars hb src
  have hs : StartsAt 0 (fun t => some (x t)) := .some x
  have hm := ((hs.sma0 hlen).cast (show 0 + len - 1 = len - 1 by omega)).silent
  exact ⟨_, withSrc_runs hx (C53_cci d (sma_runs d hlen _ N) (dev_runs d hlen _ N)),
    .safeDiv (.inl (hm.opt2_right _ _))⟩

/-- **C63.** Coppock curve: nothing before tick `max long short + len - 1`. -/
theorem C63_coppock (hb : Bars d N o h l c v) (src : SrcKind) {len a b : Nat} (hlen : 1 ≤ len) (ha : 1 ≤ a) (hb' : 1 ≤ b) :
    ∃ y, Runs (noInput fun t => withSrc src CoppockCurve.next ⟨d, t⟩) (CoppockCurve.new len a b) unit N y ∧
      SilentBefore (max a b + len - 1) y := by
  obtain ⟨x, hx⟩ := src_bars hb src
  have hs : SilentBefore 0 (fun t => some (x t)) := fun t ht => absurd ht (Nat.not_lt_zero t)
  refine ⟨_, withSrc_runs hx (C53_coppock d (roc_runs a ha _ N) (roc_runs b hb' _ N) (wma_runs d hlen _ N)), ?_⟩
  refine SilentBefore.wma0 ?_ hlen
  have h1 : SilentBefore (0 + a) (roc0 a fun t => some (x t)) := hs.lag0 _
  have h2 : SilentBefore (0 + b) (roc0 b fun t => some (x t)) := hs.lag0 _
  rcases Nat.le_total a b with h3 | h3
  · exact .opt2 (.inr (h2.mono (by omega))) _
  · exact .opt2 (.inl (h1.mono (by omega))) _

/-- **C63.** Chande momentum oscillator: nothing before tick `len`. -/
theorem C63_cmo (hb : Bars d N o h l c v) (src : SrcKind) {len : Nat} (hlen : 2 ≤ len) :
    ∃ y, Runs (noInput fun t => withSrc src ChandeMomentumOscillator.next ⟨d, t⟩) (ChandeMomentumOscillator.new len) unit N y ∧
      SilentBefore len y := by
  obtain ⟨x, hx⟩ := src_bars hb src
  have hs : StartsAt 0 (fun t => some (x t)) := .some x
  refine ⟨_, withSrc_runs hx (C53_cmo d hlen (sum_runs d (by omega) _ N) (sum_runs d (by omega) _ N)), ?_⟩
  refine (SilentBefore.opt2 (.inl ?_) _).join
  exact (((hs.opt2 hs.prev _).sum0 (by omega)).cast (by omega)).silent

/-- **C63.** Connors RSI: nothing before tick `max n m k` of its three lengths. -/
theorem C63_connors (hb : Bars d N o h l c v) (src : SrcKind) {n m k : Nat} (hn : 2 ≤ n) (hm : 2 ≤ m) (hk : 1 ≤ k) :
    ∃ y, Runs (noInput fun t => withSrc src ConnorsRsi.next ⟨d, t⟩) (ConnorsRsi.new n m k) unit N y ∧
      SilentBefore (max (max n m) k) y := by
  obtain ⟨x, hx⟩ := src_bars hb src
  have hs : StartsAt 0 (fun t => some (x t)) := .some x
  let xs : Nat → Option α := fun t => some (x t)
  let ud : Nat → Option α := fun t => Nat.rec (ConnorsRsi.computeUpDown (xs 0) none none)
    (fun t p => ConnorsRsi.computeUpDown (xs (t + 1)) (xs t) p) t
  have hud : ∀ t, ud t = ConnorsRsi.computeUpDown (xs t) (prev xs t) (prev ud t) := fun t => by cases t <;> rfl
  have hsome : ∀ t, (ud t).isSome := fun t => by
    rw [hud]; unfold ConnorsRsi.computeUpDown
    dsimp only
    split
    · rfl
    · repeat' split
      all_goals rfl
  have hu : StartsAt 0 ud := fun t => by simp [hsome]
  refine ⟨_, withSrc_runs hx (connors_runs d (ud := ud) (fun t _ => hud t) (rsi_runs d hn _ N fun t _ _ => rfl)
    (rsi_runs d hm ud N fun t _ _ => hsome (t + 1)) (roc_runs 1 (le_refl _) _ N) (prank_runs d hk _ N)), ?_⟩
  have h1 := ((hs.rsi0 (len := n) (by omega)).cast (Nat.zero_add n)).silent
  have h2 := ((hu.rsi0 (len := m) (by omega)).cast (Nat.zero_add m)).silent
  have h3 : SilentBefore (max 1 k) (prank0 k (roc0 1 fun t => some (x t))) :=
    SilentBefore.prank0 ((hs.silent.lag0 (len := 1) _).mono (by omega))
  by_cases h4 : max n m ≤ k
  · exact .opt3 (.inr (.inr (h3.mono (by omega)))) _
  · rcases Nat.le_total n m with h5 | h5
    · exact .opt3 (.inr (.inl (h2.mono (by omega)))) _
    · exact .opt3 (.inl (h1.mono (by omega))) _

/-- **C63.** Stochastic RSI: nothing before the ticks `max n (m - 1) + k - 1` (K line) and `max n (m - 1) + k + q - 2` (D line). -/
theorem C63_stoch_rsi (hb : Bars d N o h l c v) (src : SrcKind) {n m k q : Nat} (hn : 2 ≤ n) (hm : 1 ≤ m) (hk : 1 ≤ k) (hq : 1 ≤ q) :
    ∃ y z, Runs (noInput fun t => withSrc src StochRsi.next ⟨d, t⟩) (StochRsi.new n m k q) unit N (fun t => (y t, z t)) ∧
      SilentBefore (max n (m - 1) + k - 1) y ∧ SilentBefore (max n (m - 1) + k + q - 2) z := by
  obtain ⟨x, hx⟩ := src_bars hb src
  have hs : StartsAt 0 (fun t => some (x t)) := .some x
  have h1 := ((hs.rsi0 (len := n) (by omega)).cast (Nat.zero_add n)).silent
  have h2 := (h1.stoch0 (len := m) (h := rsi0 n fun t => some (x t)) (l := rsi0 n fun t => some (x t))).sma0 hk
  exact ⟨_, _, withSrc_runs hx (C53_stoch_rsi d (rsi_runs d hn _ N fun t _ _ => rfl) (stoch_runs d hm _ _ _ N)
    (sma_runs d hk _ N) (sma_runs d hq _ N)), h2, (h2.sma0 hq).mono (by omega)⟩

/-- **C63.** Relative volatility index: nothing before tick `m`.  It needs `n ≤ m + 2` or `m = 1` (see `C57`: with other
lengths it panics on some complete data). -/
theorem C63_relative_volatility (hb : Bars d N o h l c v) (src : SrcKind) {n m : Nat} (hn : 1 ≤ n) (hm : 1 ≤ m)
    (hnm : n ≤ m + 2 ∨ m = 1) :
    ∃ y, Runs (noInput fun t => withSrc src RelativeVolatilityIndex.next ⟨d, t⟩) (RelativeVolatilityIndex.new n m) unit N y ∧
      SilentBefore m y := by
  obtain ⟨x, hx⟩ := src_bars hb src
  have hs : StartsAt 0 (fun t => some (x t)) := .some x
  let sd := stdev0 n true (fun t => some (x t))
  have hsd : ∀ t, n ≤ t + 1 → (sd t).isSome := fun t ht => by
    by_cases h1 : n = 1
    · subst h1; rfl
    · exact (hs.stdev0 (b := true) (len := n) (by omega) t).mpr (by omega)
  have key : ∀ (g : Nat → α → α → Option α) (hg : ∀ t a b, (sd t).isSome → (g t a b).isSome),
      let u : Nat → Option α := fun t => (opt2 (g t) (some (x t)) (prev (fun t => some (x t)) t)).join
      EmaOk m u N ∧ SilentBefore 1 u := by
    intro g hg
    dsimp only
    have hsil : SilentBefore 1 (fun t => (opt2 (g t) (some (x t)) (prev (fun t => some (x t)) t)).join) :=
      (SilentBefore.opt2 (.inr hs.prev.silent) _).join
    refine ⟨?_, hsil⟩
    rcases hnm with hnm | h1
    · refine .inr fun t _ ⟨s, h1, h2, h3⟩ => ?_
      have : m ≤ s := by
        by_contra hlt
        have h5 := h3 0 (by omega) (by omega)
        rw [hsil 0 (by omega)] at h5
        simp at h5
      exact hg (t + 1) _ _ (hsd _ (by omega))
    · exact .inl h1
  have hu := key (fun t a p => if F64.le (a - p) (lit 0) then some (lit 0) else sd t) fun t a b ht => by
    split
    · rfl
    · exact ht
  have hw := key (fun t a p => if fgt (a - p) (lit 0) then some (lit 0) else sd t) fun t a b ht => by
    split
    · rfl
    · exact ht
  refine ⟨_, withSrc_runs hx (C53_relative_volatility d (stdev_runs d hn true _ N) (ema_runs d hm _ _ N hu.1)
    (ema_runs d hm _ _ N hw.1)), ?_⟩
  exact (SilentBefore.opt2 (.inl ((hu.2.ema0 hm _).mono (by omega))) _).join

/-- **C63.** Williams %R: nothing before tick `len - 1`. -/
theorem C63_williams (hb : Bars d N o h l c v) (src : SrcKind) {len : Nat} (hlen : 1 ≤ len) :
    ∃ y, Runs (noInput fun t => withSrc src WilliamsPercentRank.next ⟨d, t⟩) (WilliamsPercentRank.new len) unit N y ∧
      SilentBefore (len - 1) y := by
  obtain ⟨x, hx⟩ := src_bars hb src
  have hh := (((StartsAt.some h).highest0 hlen).cast (Nat.zero_max _)).silent
  exact ⟨_, withSrc_runs hx (C53_williams d hb.high hb.low (highest_runs d hlen _ N) (lowest_runs d hlen _ N)),
    (SilentBefore.safeDiv (.inl (hh.opt2_right _ _))).map _⟩

/-! ## Indicators of moving averages -/

/-- **C63.** Moving average convergence divergence: with averages of any kinds and lengths `a`, `b` (of two sources) and a
signal average of length `g`, the line starts at tick `max a b - 1` and the signal at `max a b + g - 2`. -/
theorem C63_macd (hb : Bars d N o h l c v) (ss sl : SrcKind) (ka kb kg : MaKind) {a b g : Nat} (ha : 1 ≤ a) (hb' : 1 ≤ b)
    (hg : 1 ≤ g) :
    ∃ y z, Runs (noInput fun t => withSrc2 ss sl Macd.next ⟨d, t⟩)
        (do let s ← Ma.new ka a; let l ← Ma.new kb b; let g ← Ma.new kg g; return ⟨s, l, g⟩) unit N (fun t => (y t, z t)) ∧
      StartsAt (max (maLength ka a) (maLength kb b) - 1) y ∧
      StartsAt (max (maLength ka a) (maLength kb b) + maLength kg g - 2) z := by
  obtain ⟨x, hx⟩ := src_bars hb ss
  obtain ⟨x', hx'⟩ := src_bars hb sl
  obtain ⟨ya, r1, s1⟩ := ma_runs d ka ha N (StartsAt.some x)
  obtain ⟨yb, r2, s2⟩ := ma_runs d kb hb' N (StartsAt.some x')
  have s3 := s1.opt2 s2 fun a b => (a - b : α)
  obtain ⟨yg, r3, s4⟩ := ma_runs d kg hg N s3
  have p1 := maLength_pos ka ha
  have p2 := maLength_pos kb hb'
  have p3 := maLength_pos kg hg
  obtain ⟨q1, e1, _⟩ := r1.trace
  obtain ⟨q2, e2, _⟩ := r2.trace
  obtain ⟨q3, e3, _⟩ := r3.trace
  rw [e1] at r1; rw [e2] at r2; rw [e3] at r3
  refine ⟨_, _, withSrc2_runs hx hx' ?_, s3.cast (by omega), s4.cast (by omega)⟩
  simp only [e1, e2, e3, Res.ok_bind, Res.pure_eq]
  exact C53_macd d r1 r2 r3

/-- **C63.** Awesome oscillator (change of the difference of two averages): first value at tick `max a b`. -/
theorem C63_awesome_oscillator (hb : Bars d N o h l c v) (ss sl : SrcKind) (ka kb : MaKind) {a b : Nat} (ha : 1 ≤ a) (hb' : 1 ≤ b) :
    ∃ y, Runs (noInput fun t => withSrc2 ss sl AwesomeOscillator.next ⟨d, t⟩)
        (do let l ← Ma.new kb b; let s ← Ma.new ka a; return .new s l) unit N y ∧
      StartsAt (max (maLength ka a) (maLength kb b)) y := by
  obtain ⟨x, hx⟩ := src_bars hb ss
  obtain ⟨x', hx'⟩ := src_bars hb sl
  obtain ⟨ya, r1, s1⟩ := ma_runs d ka ha N (StartsAt.some x)
  obtain ⟨yb, r2, s2⟩ := ma_runs d kb hb' N (StartsAt.some x')
  have s3 := s1.opt2 s2 fun a b => (a - b : α)
  have p1 := maLength_pos ka ha
  have p2 := maLength_pos kb hb'
  obtain ⟨q1, e1, _⟩ := r1.trace
  obtain ⟨q2, e2, _⟩ := r2.trace
  rw [e1] at r1; rw [e2] at r2
  refine ⟨_, withSrc2_runs hx hx' ?_, (s3.opt2 s3.prev fun a b => (a - b : α)).cast (by omega)⟩
  simp only [e1, e2, Res.ok_bind, Res.pure_eq]
  exact C53_awesome_oscillator d r1 r2

/-- **C63.** Price oscillator: first value at tick `max a b - 1` (it divides without a guard). -/
theorem C63_price_oscillator (hb : Bars d N o h l c v) (src : SrcKind) (ka kb : MaKind) {a b : Nat} (ha : 1 ≤ a) (hb' : 1 ≤ b) :
    ∃ y, Runs (noInput fun t => withSrc src PriceOscillator.next ⟨d, t⟩)
        (do let l ← Ma.new kb b; let s ← Ma.new ka a; return ⟨s, l⟩) unit N y ∧
      StartsAt (max (maLength ka a) (maLength kb b) - 1) y := by
  obtain ⟨x, hx⟩ := src_bars hb src
  obtain ⟨ya, r1, s1⟩ := ma_runs d ka ha N (StartsAt.some x)
  obtain ⟨yb, r2, s2⟩ := ma_runs d kb hb' N (StartsAt.some x)
  have p1 := maLength_pos ka ha
  have p2 := maLength_pos kb hb'
  obtain ⟨q1, e1, _⟩ := r1.trace
  obtain ⟨q2, e2, _⟩ := r2.trace
  rw [e1] at r1; rw [e2] at r2
  refine ⟨_, withSrc_runs hx ?_, (s1.opt2 s2 fun a b => ((a - b) / b * lit 100 : α)).cast (by omega)⟩
  simp only [e1, e2, Res.ok_bind, Res.pure_eq]
  exact C53_price_oscillator d r1 r2

/-- **C63.** Volume oscillator: nothing before tick `max a b - 1`. -/
theorem C63_volume_oscillator (hb : Bars d N o h l c v) (ka kb : MaKind) {a b : Nat} (ha : 1 ≤ a) (hb' : 1 ≤ b) :
    ∃ y, Runs (noInput fun t => VolumeOscillator.next ⟨d, t⟩)
        (do let s ← Ma.new ka a; let l ← Ma.new kb b; return ⟨s, l⟩) unit N y ∧
      SilentBefore (max (maLength ka a) (maLength kb b) - 1) y := by
  obtain ⟨ya, r1, s1⟩ := ma_runs d ka ha N (StartsAt.some v)
  obtain ⟨yb, r2, s2⟩ := ma_runs d kb hb' N (StartsAt.some v)
  have p1 := maLength_pos ka ha
  have p2 := maLength_pos kb hb'
  obtain ⟨q1, e1, _⟩ := r1.trace
  obtain ⟨q2, e2, _⟩ := r2.trace
  rw [e1] at r1; rw [e2] at r2
  have s3 := (s1.opt2 s2 fun a b => (a - b : α)).silent
  refine ⟨_, ?_, ((SilentBefore.safeDiv (z := yb) (.inl s3)).map fun _ x => x * lit 100).mono (by omega)⟩
  simp only [e1, e2, Res.ok_bind, Res.pure_eq]
  exact C53_volume_oscillator d hb.volume r1 r2

/-! ## Indicators of the bars -/

/-- **C63.** Aroon: both lines start at tick `len - 1`. -/
theorem C63_aroon (hb : Bars d N o h l c v) {len : Nat} (hlen : 1 ≤ len) :
    ∃ y z, Runs (noInput fun t => Aroon.next ⟨d, t⟩) (Aroon.new len) unit N (fun t => (y t, z t)) ∧
      StartsAt (len - 1) y ∧ StartsAt (len - 1) z :=
  ⟨_, _, C53_aroon d hlen hb.high hb.low (highestBars_runs hlen hb.high) (lowestBars_runs hlen hb.low),
    (startsAt_bars0 maxB _ hlen).map _, (startsAt_bars0 minB _ hlen).map _⟩

/-- **C63.** Chaikin money flow: nothing before tick `len - 1`. -/
theorem C63_cmf (hb : Bars d N o h l c v) {len : Nat} (hlen : 1 ≤ len) :
    ∃ y, Runs (noInput fun t => ChaikinMoneyFlow.next ⟨d, t⟩) (ChaikinMoneyFlow.new len) unit N y ∧ SilentBefore (len - 1) y :=
  ⟨_, C53_cmf d hb.high hb.low hb.close hb.volume (sum_runs d hlen _ N) (sum_runs d hlen _ N),
    .safeDiv (.inr (((StartsAt.some v).sum0 hlen).cast (by omega)).silent)⟩

/-- **C63.** Chande Kroll stop: the first stops start at tick `p - 1`, the stops at tick `max p q - 1`. -/
theorem C63_chande_kroll (hb : Bars d N o h l c v) {p q : Nat} (hp : 1 ≤ p) (hq : 1 ≤ q) (f : α) :
    ∃ y, Runs (noInput fun t => ChandeKrollStop.next ⟨d, t⟩) (ChandeKrollStop.new p q f) unit N y ∧
      StartsAt (p - 1) (fun t => (y t).firstHighStop) ∧ StartsAt (p - 1) (fun t => (y t).firstLowStop) ∧
      StartsAt (max p q - 1) (fun t => (y t).stopLong) ∧ StartsAt (max p q - 1) (fun t => (y t).stopShort) := by
  have s1 := (StartsAt.some h).highest0 hp
  have s2 := (StartsAt.some l).lowest0 hp
  have s3 := startsAt_atr0 h l c hp
  have a1 := (s1.opt3 s2 s3 fun h _ a => h - f * a).cast (show _ = p - 1 by omega)
  have a2 := (s1.opt3 s2 s3 fun _ l a => l + f * a).cast (show _ = p - 1 by omega)
  exact ⟨_, C53_chande_kroll d hb.high hb.low (atr_runs hp hb.high hb.low hb.close) (highest_runs d hp _ N) (lowest_runs d hp _ N)
    (highest_runs d hq _ N) (lowest_runs d hq _ N), a1, a2, (a2.lowest0 hq).cast (by omega), (a1.highest0 hq).cast (by omega)⟩

/-- **C63.** Choppiness index: nothing before tick `len - 1`. -/
theorem C63_choppiness (hb : Bars d N o h l c v) {len : Nat} (hlen : 1 ≤ len) :
    ∃ y, Runs (noInput fun t => ChoppinessIndex.next ⟨d, t⟩) (ChoppinessIndex.new len) unit N y ∧ SilentBefore (len - 1) y :=
  ⟨_, C53_choppiness d hb.high hb.low (atr_runs (le_refl 1) hb.high hb.low hb.close) (sum_runs d hlen _ N)
      (highest_runs d hlen _ N) (lowest_runs d hlen _ N),
    (SilentBefore.opt3 (.inr (.inl (((StartsAt.some h).highest0 hlen).cast (Nat.zero_max _)).silent)) _).join⟩

/-- **C63.** Donchian channels: all three lines start at tick `len - 1`. -/
theorem C63_donchian (hb : Bars d N o h l c v) {len : Nat} (hlen : 1 ≤ len) :
    ∃ y, Runs (noInput fun t => DonchianChannels.next ⟨d, t⟩) (DonchianChannels.new len) unit N y ∧
      StartsAt (len - 1) (fun t => (y t).upper) ∧ StartsAt (len - 1) (fun t => (y t).basis) ∧
      StartsAt (len - 1) (fun t => (y t).lower) := by
  have s1 := ((StartsAt.some h).highest0 hlen).cast (Nat.zero_max _)
  have s2 := ((StartsAt.some l).lowest0 hlen).cast (Nat.zero_max _)
  exact ⟨_, C53_donchian d hb.high hb.low (highest_runs d hlen _ N) (lowest_runs d hlen _ N), s1,
    (s1.opt2 s2 _).cast (Nat.max_self _), s2⟩

/-- **C63.** Relative vigor index: nothing before the ticks `len + 2` (line) and `len + 5` (signal). -/
theorem C63_relative_vigor (hb : Bars d N o h l c v) {len : Nat} (hlen : 1 ≤ len) :
    ∃ y z, Runs (noInput fun t => RelativeVigorIndex.next ⟨d, t⟩) (RelativeVigorIndex.new len) unit N (fun t => (y t, z t)) ∧
      SilentBefore (len + 2) y ∧ SilentBefore (len + 5) z := by
  have s1 := (((((StartsAt.some c).opt2 (StartsAt.some o) fun a b => (a - b : α)).swma0).sum0 hlen).cast
    (show _ = len + 2 by omega)).silent
  have s2 := fun z => SilentBefore.safeDiv (z := z) (.inl s1)
  exact ⟨_, _, C53_relative_vigor d hb.open_ hb.high hb.low hb.close (swma_runs d _ N) (swma_runs d _ N) (sum_runs d hlen _ N)
    (sum_runs d hlen _ N) (swma_runs d _ N), s2 _, (s2 _).swma0⟩

/-- **C63.** Ultimate oscillator: nothing before tick `max n1 n2 n3`. -/
theorem C63_ultimate_oscillator (hb : Bars d N o h l c v) {n1 n2 n3 : Nat} (h1 : 1 ≤ n1) (h2 : 1 ≤ n2) (h3 : 1 ≤ n3) :
    ∃ y, Runs (noInput fun t => UltimateOscillator.next ⟨d, t⟩) (UltimateOscillator.new n1 n2 n3) unit N y ∧
      SilentBefore (max (max n1 n2) n3) y := by
  have hbp := (StartsAt.some c).opt3 (StartsAt.some l) (StartsAt.some c).prev fun c l p => c - F64.fmin l p
  have key : ∀ (n : Nat) (_ : 1 ≤ n) (z : Nat → Option α), SilentBefore n fun t => safeDiv
      (sum0 n (fun t => opt3 (fun c l p => c - F64.fmin l p) (some (c t)) (some (l t)) (prev (fun t => some (c t)) t)) t) (z t) :=
    fun n hn z => .safeDiv (.inl ((hbp.sum0 hn).cast (by omega)).silent)
  refine ⟨_, C53_ultimate_oscillator d hb.high hb.low hb.close (fun _ _ => rfl) (fun _ _ => rfl) (sum_runs d h1 _ N)
    (sum_runs d h1 _ N) (sum_runs d h2 _ N) (sum_runs d h2 _ N) (sum_runs d h3 _ N) (sum_runs d h3 _ N), ?_⟩
  by_cases h4 : max n1 n2 ≤ n3
  · exact .opt3 (.inr (.inr ((key n3 h3 _).mono (by omega)))) _
  · rcases Nat.le_total n1 n2 with h5 | h5
    · exact .opt3 (.inr (.inl ((key n2 h2 _).mono (by omega)))) _
    · exact .opt3 (.inl ((key n1 h1 _).mono (by omega))) _

/-- **C63.** Vortex: nothing before tick `len`. -/
theorem C63_vortex (hb : Bars d N o h l c v) {len : Nat} (hlen : 1 ≤ len) :
    ∃ y z, Runs (noInput fun t => Vortex.next ⟨d, t⟩) (Vortex.new len) unit N (fun t => (y t, z t)) ∧
      SilentBefore len y ∧ SilentBefore len z := by
  have s1 := (((StartsAt.some h).opt2 (StartsAt.some l).prev fun h p => F64.abs (h - p)).sum0 hlen).cast (show _ = len by omega)
  have s2 := (((StartsAt.some l).opt2 (StartsAt.some h).prev fun h p => F64.abs (h - p)).sum0 hlen).cast (show _ = len by omega)
  exact ⟨_, _, C53_vortex d hb.high hb.low (atr_runs (le_refl 1) hb.high hb.low hb.close) (sum_runs d hlen _ N) (sum_runs d hlen _ N)
    (sum_runs d hlen _ N), .safeDiv (.inl s1.silent), .safeDiv (.inl s2.silent)⟩

/-- Carrying the last present value forward. -/
theorem fixNan_runs (x : Nat → Option α) (N : Nat) {s : Nat} (hx : SilentBefore s x) :
    ∃ y, Runs (total FixNan.next) (.ok FixNan.new) x N y ∧ SilentBefore s y ∧ Stays y := by
  let y : Nat → Option α := fun t => Nat.rec (x 0) (fun t p => (x (t + 1)).or p) t
  have hy : ∀ t, y (t + 1) = (x (t + 1)).or (y t) := fun _ => rfl
  refine ⟨y, ?_, ?_, ?_⟩
  · refine Runs.of_trace (fun t => ⟨prev y t⟩) rfl fun t _ => ?_
    cases t with
    | zero =>
      show Except.ok _ = Except.ok _
      show _ = Except.ok (x 0, (⟨x 0⟩ : FixNan α))
      cases h0 : x 0 <;> simp [FixNan.next, prev]
    | succ t =>
      show Except.ok (FixNan.next ⟨y t⟩ (x (t + 1))) = Except.ok ((x (t + 1)).or (y t), (⟨(x (t + 1)).or (y t)⟩ : FixNan α))
      cases h0 : x (t + 1) <;> simp [FixNan.next]
  · intro t
    induction t with
    | zero => exact fun ht => hx 0 ht
    | succ t ih => intro ht; rw [hy, hx _ ht, ih (by omega)]; rfl
  · intro t ht
    rw [hy]
    obtain ⟨p, hp⟩ := Option.isSome_iff_exists.mp ht
    cases x (t + 1) <;> simp [hp]

/-- **C63.** Directional movement index: nothing before the ticks `len` (both lines) and `len + sig - 1` (ADX); once a value is
present it stays present. -/
theorem C63_dmi (hb : Bars d N o h l c v) {len sig : Nat} (hlen : 1 ≤ len) (hsig : 1 ≤ sig) :
    ∃ y, Runs (noInput fun t => Dmi.next ⟨d, t⟩) (Dmi.new len sig) unit N y ∧
      SilentBefore len (fun t => (y t).plus) ∧ SilentBefore len (fun t => (y t).minus) ∧
      SilentBefore (len + sig - 1) (fun t => (y t).adx) ∧
      Stays (fun t => (y t).plus) ∧ Stays (fun t => (y t).minus) ∧ Stays (fun t => (y t).adx) := by
  have htr := startsAt_tr0_false h l c
  have hrt := (htr.rma0 hlen).cast (show _ = len by omega)
  have hup := (StartsAt.some h).opt2 (StartsAt.some h).prev fun a b => (a - b : α)
  have hdn := (StartsAt.some l).prev.opt2 (StartsAt.some l) fun a b => (a - b : α)
  have hp := hup.opt2 hdn fun u w => if fgt u w && fgt u (lit 0) then u else lit 0
  have hm := hup.opt2 hdn fun u w => if fgt w u && fgt w (lit 0) then w else lit 0
  obtain ⟨p, rp, sp, tp⟩ := fixNan_runs (fun t => (safeDiv (rma0 len _ t) (rma0 len (tr0 false h l c) t)).map (· * lit 100)) N
    ((SilentBefore.safeDiv (.inr hrt.silent)).map _)
  obtain ⟨m, rm, sm, tm⟩ := fixNan_runs (fun t => (safeDiv (rma0 len _ t) (rma0 len (tr0 false h l c) t)).map (· * lit 100)) N
    ((SilentBefore.safeDiv (.inr hrt.silent)).map _)
  let dx : Nat → Option α := fun t => opt2 (fun p m => F64.abs (p - m) / (if F64.feq p (-m) then lit 0 else p + m)) (p t) (m t)
  have sdx : SilentBefore len dx := .opt2 (.inl sp) _
  have tdx : Stays dx := fun t ht => by
    simp only [dx, isSome_opt2, Bool.and_eq_true] at ht ⊢
    exact ⟨tp t ht.1, tm t ht.2⟩
  have C := C53_dmi d hb.high hb.low (fun t ht => tr_step hb.high hb.low hb.close ht false) (fun _ _ => rfl) (fun _ _ => rfl)
    (rma_runs d hlen _ N (htr.stays.emaOk _ _ hlen)) (rma_runs d hlen _ N (hp.stays.emaOk _ _ hlen))
    (rma_runs d hlen _ N (hm.stays.emaOk _ _ hlen)) rp rm (rma_runs d hsig dx N (tdx.emaOk _ _ hsig))
  refine ⟨_, C, sp, sm, ?_, tp, tm, ?_⟩
  · exact (sdx.ema0 hsig _).map _
  · intro t ht
    have := tdx.ema0 hsig (rmaAlpha sig) t
    simp only [Option.isSome_map] at ht ⊢
    exact this ht

/-- **C63.** Balance of power: a value on every bar whose high and low differ, never a panic. -/
theorem C63_balance_of_power (hb : Bars d N o h l c v) {t : Nat} (ht : t < N) :
    ∃ y, BalanceOfPower.next ⟨d, t⟩ = .ok y ∧ (y.isSome ↔ F64.feq (h t) (l t) = false) := by
  refine ⟨_, C53_balance_of_power d hb.open_ hb.high hb.low hb.close ht, ?_⟩
  simp only [opt4]
  cases F64.feq (h t) (l t) <;> simp

/-! ## The default configurations -/

/-- **C63.** With its default configuration every bundled indicator runs on complete bars, however many, without a panic, and
has no output before the tick given here (ticks count from 0; `StartsAt`: present from then on). -/
theorem C63_defaults (hb : Bars d N o h l c v) :
    (∃ y z, Runs (noInput fun t => Aroon.next ⟨d, t⟩) Aroon.default unit N (fun t => (y t, z t)) ∧ StartsAt 13 y ∧ StartsAt 13 z) ∧
    (∃ y, Runs (noInput fun t => AwesomeOscillator.defaultNext ⟨d, t⟩) AwesomeOscillator.default unit N y ∧ StartsAt 34 y) ∧
    (∃ y, Runs (noInput fun t => BollingerBandsPercentB.defaultNext ⟨d, t⟩) BollingerBandsPercentB.default unit N y ∧
      SilentBefore 19 y) ∧
    (∃ y, Runs (noInput fun t => BollingerBandsWidth.defaultNext ⟨d, t⟩) BollingerBandsWidth.default unit N y ∧
      SilentBefore 19 y) ∧
    (∃ y, Runs (noInput fun t => ChaikinMoneyFlow.next ⟨d, t⟩) ChaikinMoneyFlow.default unit N y ∧ SilentBefore 19 y) ∧
    (∃ y, Runs (noInput fun t => ChandeKrollStop.next ⟨d, t⟩) ChandeKrollStop.default unit N y ∧
      StartsAt 9 (fun t => (y t).firstHighStop) ∧ StartsAt 9 (fun t => (y t).firstLowStop) ∧
      StartsAt 9 (fun t => (y t).stopLong) ∧ StartsAt 9 (fun t => (y t).stopShort)) ∧
    (∃ y, Runs (noInput fun t => ChandeMomentumOscillator.defaultNext ⟨d, t⟩) ChandeMomentumOscillator.default unit N y ∧
      SilentBefore 9 y) ∧
    (∃ y, Runs (noInput fun t => ChoppinessIndex.next ⟨d, t⟩) ChoppinessIndex.default unit N y ∧ SilentBefore 13 y) ∧
    (∃ y, Runs (noInput fun t => CommodityChannelIndex.defaultNext ⟨d, t⟩) CommodityChannelIndex.default unit N y ∧
      SilentBefore 19 y) ∧
    (∃ y, Runs (noInput fun t => ConnorsRsi.defaultNext ⟨d, t⟩) ConnorsRsi.default unit N y ∧ SilentBefore 100 y) ∧
    (∃ y, Runs (noInput fun t => CoppockCurve.defaultNext ⟨d, t⟩) CoppockCurve.default unit N y ∧ SilentBefore 23 y) ∧
    (∃ y, Runs (noInput fun t => Dmi.next ⟨d, t⟩) Dmi.default unit N y ∧ SilentBefore 14 (fun t => (y t).plus) ∧
      SilentBefore 14 (fun t => (y t).minus) ∧ SilentBefore 27 (fun t => (y t).adx)) ∧
    (∃ y, Runs (noInput fun t => DonchianChannels.next ⟨d, t⟩) DonchianChannels.default unit N y ∧
      StartsAt 19 (fun t => (y t).upper) ∧ StartsAt 19 (fun t => (y t).basis) ∧ StartsAt 19 (fun t => (y t).lower)) ∧
    (∃ y z, Runs (noInput fun t => Macd.defaultNext ⟨d, t⟩) Macd.default unit N (fun t => (y t, z t)) ∧
      StartsAt 25 y ∧ StartsAt 33 z) ∧
    (∃ y, Runs (noInput fun t => PriceOscillator.defaultNext ⟨d, t⟩) PriceOscillator.default unit N y ∧ StartsAt 20 y) ∧
    (∃ y, Runs (noInput fun t => RelativeStrengthIndex.defaultNext ⟨d, t⟩) RelativeStrengthIndex.default unit N y ∧
      StartsAt 14 y) ∧
    (∃ y z, Runs (noInput fun t => RelativeVigorIndex.next ⟨d, t⟩) RelativeVigorIndex.default unit N (fun t => (y t, z t)) ∧
      SilentBefore 12 y ∧ SilentBefore 15 z) ∧
    (∃ y, Runs (noInput fun t => RelativeVolatilityIndex.defaultNext ⟨d, t⟩) RelativeVolatilityIndex.default unit N y ∧
      SilentBefore 14 y) ∧
    (∃ y z, Runs (noInput fun t => StochRsi.defaultNext ⟨d, t⟩) StochRsi.default unit N (fun t => (y t, z t)) ∧
      SilentBefore 16 y ∧ SilentBefore 18 z) ∧
    (∃ y, Runs (noInput fun t => UltimateOscillator.next ⟨d, t⟩) UltimateOscillator.default unit N y ∧ SilentBefore 28 y) ∧
    (∃ y, Runs (noInput fun t => VolumeOscillator.next ⟨d, t⟩) VolumeOscillator.default unit N y ∧ SilentBefore 9 y) ∧
    (∃ y z, Runs (noInput fun t => Vortex.next ⟨d, t⟩) Vortex.default unit N (fun t => (y t, z t)) ∧
      SilentBefore 14 y ∧ SilentBefore 14 z) ∧
    ∃ y, Runs (noInput fun t => WilliamsPercentRank.defaultNext ⟨d, t⟩) WilliamsPercentRank.default unit N y ∧
      SilentBefore 13 y := by
  refine ⟨C63_aroon hb (by omega), C63_awesome_oscillator hb .hl2 .hl2 .sma .sma (by omega) (by omega),
    (C63_bollinger hb .close (by omega) _).1, (C63_bollinger hb .close (by omega) _).2, C63_cmf hb (by omega),
    C63_chande_kroll hb (by omega) (by omega) _, C63_cmo hb .close (by omega), C63_choppiness hb (by omega),
    C63_cci hb .hlc3 (by omega), C63_connors hb .close (by omega) (by omega) (by omega),
    C63_coppock hb .close (by omega) (by omega) (by omega), ?_, C63_donchian hb (by omega),
    C63_macd hb .close .close .ema .ema .ema (by omega) (by omega) (by omega),
    C63_price_oscillator hb .close .sma .sma (by omega) (by omega), C63_rsi hb .close (by omega),
    C63_relative_vigor hb (by omega), C63_relative_volatility hb .close (by omega) (by omega) (by omega),
    C63_stoch_rsi hb .close (by omega) (by omega) (by omega) (by omega),
    C63_ultimate_oscillator hb (by omega) (by omega) (by omega), C63_volume_oscillator hb .ema .ema (by omega) (by omega),
    C63_vortex hb (by omega), C63_williams hb .close (by omega)⟩
  obtain ⟨y, h1, h2, h3, h4, _⟩ := C63_dmi hb (len := 14) (sig := 14) (by omega) (by omega)
  exact ⟨y, h1, h2, h3, h4⟩

/-- The hypothesis can be met: any five series are the bars of a data set. -/
example (o h l c v : Nat → α) : ∃ d, Bars d 500 o h l c v := ⟨_, bars_ofSeries 500 o h l c v⟩

end Pace
