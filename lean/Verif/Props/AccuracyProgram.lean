import Verif.Props.AccuracySignals
import Verif.Props.Position

/-!
# C92: the MACD program in IEEE binary64, from the bars to the equity

The chain of C92 and C83 put together: bars of binary64 prices, averages, line, signals, orders, trades, books.
-/

set_option linter.unusedSectionVars false

namespace Pace
open Spec

section
variable {α K : Type} [F64 α] [Field K] [LinearOrder K] [IsStrictOrderedRing K]

/-- Closed positions of one unit earn at most `2 M` each, if no price exceeds `M`. -/
theorem booked_abs (cfg : StrategyConfig α) (sig : Nat → Option TradeDirection) {f : Nat → K} {M : K} (hM : 0 ≤ M) {N : Nat}
    (hf : ∀ t, t < N → |f t| ≤ M) : ∀ n, n ≤ N → |booked f (deals cfg sig n).1| ≤ 2 * M * n ∧
      ∀ dir e, (deals cfg sig n).2 = some (dir, e) → e < n := by
  intro n
  induction n with
  | zero => intro _; simp [deals, booked]
  | succ n ih =>
    intro hn
    obtain ⟨h1, h2⟩ := ih (by omega)
    have step : |booked f (deals cfg sig n).1| ≤ 2 * M * ((n + 1 : ℕ) : K) := by push_cast; linarith
    unfold deals
    revert h1 h2 step
    rcases deals cfg sig n with ⟨l, x⟩
    intro h1 h2 step
    dsimp only at h1 h2 step ⊢
    rcases order cfg sig n with _ | dir
    · exact ⟨step, fun d e hd => by have := h2 d e hd; omega⟩
    · rcases x with _ | ⟨was, e⟩
      · exact ⟨step, fun d e hd => by simp at hd; omega⟩
      · have he := h2 was e rfl
        dsimp only
        by_cases hdw : dir = was
        · rw [if_pos hdw]
          exact ⟨step, fun d e' hd => by simp at hd; omega⟩
        · rw [if_neg hdw]
          constructor
          · have e1 : booked f (l ++ [⟨was, e, n⟩]) = booked f l + (side was : K) * (f n - f e) := by simp [booked]
            rw [e1]
            have b1 := abs_le.mp (hf n (by omega))
            have b2 := abs_le.mp (hf e (by omega))
            have b3 := abs_le.mp h1
            push_cast
            rw [abs_le]
            cases was <;> simp only [side] <;> push_cast <;> constructor <;> linarith
          · intro d e' hd
            dsimp only at hd
            split at hd
            · simp at hd; omega
            · cases hd

/-- The position depends only on the two switches of the configuration and the signals. -/
theorem held_flags {β : Type} [F64 β] {cfg : StrategyConfig α} {cfg' : StrategyConfig β} (h1 : cfg.onBarClose = cfg'.onBarClose)
    (h2 : cfg.continous = cfg'.continous) (sig : Nat → Option TradeDirection) (n : Nat) : held cfg sig n = held cfg' sig n := by
  induction n with
  | zero => rfl
  | succ n ih =>
    have : order cfg sig n = order cfg' sig n := by unfold order; rw [h1]
    simp only [held, ih, h2, this]

end

/-- Binary64 has room for a million bars and more of amounts up to `2^900`. -/
theorem room_binary64 {k : Nat} (hk : k ≤ 2 ^ 30) {M : ℝ} (hM0 : 0 ≤ M) (hM : M ≤ (2 : ℝ) ^ (900 : ℤ)) : Room b64u b64η ((2 : ℝ) ^ (1023 : ℤ)) k M := by
  obtain ⟨a1, a2, a3⟩ := b64_room (n := 1000 * k) (by omega) hM0 hM
  push_cast at a1 a2 a3
  refine ⟨by linarith, ?_, by omega⟩
  have h0 : (0 : ℝ) < (2 : ℝ) ^ (1023 : ℤ) := Binary64.two_zpow_pos _
  generalize (2 : ℝ) ^ (1023 : ℤ) = T at *
  linarith

/-- **C92.** One unit per trade, prices up to `M`, in IEEE binary64: with given signals the equity is on every tick within `6 (n + 2)`
roundings of the capital plus position times price change, `n` the number of closed trades, a rounding being `2^-53 W + 2^-1075` with `W`
the capital and what can be earned at all. -/
theorem C92_equity_binary64 {d : DataProvider B64} {N : Nat} {o h l c v : Nat → ℝ} {M : ℝ} (hb : PricedBars (Sf.valued _) d N o h l c v M) (hM : 0 ≤ M)
    (hN : N + 2 ≤ 2 ^ 40) {cfg : StrategyConfig B64} (f3 : cfg.buyWithEquity = false) {cap : ℝ} (c1 : cfg.initialCapital.val = Fl.of _ (.fin cap))
    (hW : |cap| + 2 * M * N + 2 * M ≤ (2 : ℝ) ^ (900 : ℤ)) {sig : Nat → Option TradeDirection} {st : Nat → Strategy B64} (H : Backtest cfg d sig N st)
    {t : Nat} (ht : t < N) :
    Near (Sf.valued _) (st t).metrics.equity (cap + earned (fun k => held cfg sig (k + 1)) (fillSeries cfg o c) c t)
      (6 * ((st t).metrics.closedTrades + 2) * (b64u * (|cap| + 2 * M * N + 2 * M) + b64η)) := by
  have fb : FloatBars (Sf.valued _) cfg d N o c cap M := by
    obtain ⟨o', h', l', c', v', k1, k2⟩ := hb.bars
    exact ⟨fun t ht => ⟨o' t, k1.open_ t ht, (k2 t ht).1, (hb.bound t ht).1⟩, fun t ht => ⟨c' t, k1.close t ht, (k2 t ht).2.2.2.1, (hb.bound t ht).2.2.2⟩, c1⟩
  exact (C83_equity_binary64 H fb f3 (W := |cap| + 2 * M * N + 2 * M) (fun n hn => by
    have h1 := (booked_abs cfg sig hM (f := fillSeries cfg o c) (N := N) (fun t ht => (fb.fill ht).2) n hn).1
    have h2 : 2 * M * (n : ℝ) ≤ 2 * M * N := mul_le_mul_of_nonneg_left (by exact_mod_cast hn) (by linarith)
    linarith) hW hN ht).2

/-- **C92.** The MACD program in IEEE binary64 (any averages, price sources, lengths), one unit per trade, on bars of prices up to `M`.
If the exact MACD line is never within `16 + 2 (slack short + slack long)` roundings of 0, then the program trades exactly like the program
in exact arithmetic - same signals on every tick - and its equity is, on every tick, within `6 (n + 2)` roundings of the exact program's
equity, `n` the number of closed trades; a rounding is `2^-53 W + 2^-1075`, `W` the capital and what can be earned at all. -/
theorem C92_macd_binary64 {d : DataProvider B64} {N : Nat} {o h l c v : Nat → ℝ} {M : ℝ} (hb : PricedBars (Sf.valued _) d N o h l c v M) (hM : 0 ≤ M)
    {dx : DataProvider (Ex ℝ)} (hx : ExBars dx N o h l c v)
    {ss sl : SrcKind} (hss : ss ≠ .volume) (hsl : sl ≠ .volume) (ka kb kg : MaKind) {a b g : Nat} (ha : 1 ≤ a) (hb' : 1 ≤ b) (hg : 1 ≤ g)
    (hk : a + b + g + N + 1 ≤ 2 ^ 30)
    (far : ∀ t, t < N → max (maLength ka a) (maLength kb b) ≤ t + 1 → (16 + 2 * (slack ka a N + slack kb b N)) * (b64u * M + b64η) <
      |average ka a 0 (sourceValue ss o h l c v) t - average kb b 0 (sourceValue sl o h l c v) t|)
    {cfg : StrategyConfig B64} {cfgx : StrategyConfig (Ex ℝ)} (f1 : cfg.onBarClose = cfgx.onBarClose) (f2 : cfg.continous = cfgx.continous)
    (f3 : cfg.buyWithEquity = false) (f4 : cfgx.buyWithEquity = false) {cap : ℝ} (c1 : cfg.initialCapital.val = Fl.of _ (.fin cap))
    (c2 : cfgx.initialCapital = fin cap) (hW : |cap| + 2 * M * N + 2 * M ≤ (2 : ℝ) ^ (900 : ℤ)) (rfr : B64) (rfrx : Ex ℝ) :
    ∃ (sig : Nat → Option TradeDirection) (y : Nat → Option B64 × Option B64) (st : Nat → Strategy B64) (tv : Nat → TvMetrics B64)
      (yx : Nat → Option (Ex ℝ) × Option (Ex ℝ)) (stx : Nat → Strategy (Ex ℝ)) (tvx : Nat → TvMetrics (Ex ℝ)),
      Runs (noInput fun t => Program.next (withSrc2 ss sl Macd.next) (fun q y => ThresholdStrategy.next q y.1) ⟨d, t⟩)
        (Program.new (do let s ← Ma.new ka a; let l ← Ma.new kb b; let g ← Ma.new kg g; return ⟨s, l, g⟩) MacdStrategy.new cfg rfr) unit N
        (fun t => (y t, sig t, st t, tv t)) ∧
      Runs (noInput fun t => Program.next (withSrc2 ss sl Macd.next) (fun q y => ThresholdStrategy.next q y.1) ⟨dx, t⟩)
        (Program.new (do let s ← Ma.new ka a; let l ← Ma.new kb b; let g ← Ma.new kg g; return ⟨s, l, g⟩) MacdStrategy.new cfgx rfrx) unit N
        (fun t => (yx t, sig t, stx t, tvx t)) ∧
      ∀ t, t < N → ∃ E : ℝ, (stx t).metrics.equity = fin E ∧ Near (Sf.valued _) (st t).metrics.equity E
        (6 * ((st t).metrics.closedTrades + 2) * (b64u * (|cap| + 2 * M * N + 2 * M) + b64η)) := by
  have hM' : M ≤ (2 : ℝ) ^ (900 : ℤ) := by
    have h1 : (0 : ℝ) ≤ 2 * M * N := by positivity
    have h2 := abs_nonneg cap
    generalize (2 : ℝ) ^ (900 : ℤ) = T at *
    linarith
  obtain ⟨sig, y, st, tv, yx, stx, tvx, -, r1, r2, b1, b2⟩ := C92_macd_program (binary64_accurate ℝ) (binary64_lawful ℝ) hb hM hx hss hsl ka kb kg ha hb' hg
    (k := a + b + g + N + 1) le_rfl (room_binary64 hk hM hM') far cfg cfgx rfr rfrx
  refine ⟨sig, y, st, tv, yx, stx, tvx, r1, r2, fun t ht => ⟨_, (C81_equity b2 hx f4 c2 ht).1, ?_⟩⟩
  have key := C92_equity_binary64 hb hM (by omega) f3 c1 hW b1 ht
  have e1 : fillSeries cfg o c = fillSeries cfgx o c := by unfold fillSeries; rw [f1]
  rw [e1] at key
  simpa only [held_flags f1 f2] using key

end Pace
