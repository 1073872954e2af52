import Verif.Float.Signed
import Verif.Lemmas.Real
import Verif.Props.Ta2
import Verif.Props.Signals
import Verif.Props.Metrics3
import Verif.Props.Content4

/-!
# The float theorems for IEEE floats with signed zeros

The level 1 theorems again, for every type of floats that agrees with a lawful rounding up to the sign of zero (`Valued R α`).
`Sf (Rounding.binary64 ℝ)`, IEEE binary64 with round to nearest even and two zeros, is one.
-/

set_option linter.unusedSectionVars false

namespace Pace
open Spec
section
variable {K : Type} [Field K] [LinearOrder K] [IsStrictOrderedRing K] {R : Rounding K}
variable {α : Type} [F64 α] (V : Valued R α) (L : R.Lawful)
include L

theorem valued_lit_nat_ne_zero {n : Nat} (hn : 1 ≤ n) : V.val (lit (n : ℚ)) ≠ Fl.of R (.fin 0) := by
  rw [V.lit]
  rcases lit_nat_ge_one (R := R) L hn with h | ⟨k, hk, h⟩ <;> rw [h]
  · exact fun hc => by cases hc
  · exact of_fin_ne (by rintro rfl; linarith)

theorem valued_div_nat {a : α} {n : Nat} (hn : 1 ≤ n) : V.val (a / lit (n : ℚ)) = V.val a / lit (n : ℚ) := by
  rw [V.div _ _ (valued_lit_nat_ne_zero V L hn), V.lit]

theorem valued_rmaAlpha {n : Nat} (h : 1 ≤ n) : V.val (rmaAlpha n) = rmaAlpha n ∧
    V.val (lit 1 - rmaAlpha n) = lit 1 - rmaAlpha n := by
  have h1 : V.val (rmaAlpha n) = rmaAlpha n := by
    unfold rmaAlpha
    rw [valued_div_nat V L h, V.lit]
  exact ⟨h1, by rw [V.sub, V.lit, h1]⟩

/-- Smoothing keeps non-negative (or NaN) values non-negative (or NaN). -/
theorem ema0_nn_ieee {len t0 : Nat} (hlen : 1 ≤ len) {a : α} (ha : NN (V.val a)) (ha1 : NN (V.val (lit 1 - a))) {x : Nat → Option α}
    (h0 : ∀ t, t < t0 → x t = none) (hx : ∀ t v, x t = some v → NN (V.val v)) {N : Nat}
    (hp : ∀ t, t0 ≤ t → t < N → (x t).isSome) :
    (∀ t, t + 1 < t0 + len → ema0 len a x t = none) ∧ ∀ t, t < N → ∀ v, ema0 len a x t = some v → NN (V.val v) := by
  have hacc : ∀ t, t + 1 ≤ t0 + len → NN (V.val (acc0 len x t)) := by
    intro t
    induction t with
    | zero => intro _; rw [acc0, V.lit, lit_zero L]; exact nn_fin.mpr (le_refl _)
    | succ t ih =>
      intro ht
      rw [acc0]
      have h1 : NN (V.val (addOpt (acc0 len x t) (x t))) := by
        cases hxt : x t with
        | none => exact ih (by omega)
        | some v =>
          show NN (V.val (acc0 len x t + v))
          rw [V.add]; exact NN.add L (ih (by omega)) (hx t v hxt)
      have h2 : ago x (len - 1) t = none := by
        unfold ago
        split
        · exact h0 _ (by omega)
        · rfl
      rw [h2]; exact h1
  have hnone : ∀ t, t + 1 < t0 + len → ¬ (len ≤ t + 1 ∧ WindowPresent x len t) := by
    rintro t ht ⟨h1, h2⟩
    have := h2 (t + 1 - len) (by omega) (by omega)
    rw [h0 _ (by omega)] at this
    simp at this
  have hbefore : ∀ t, t + 1 < t0 + len → ema0 len a x t = none := by
    intro t ht
    by_cases h1 : len = 1
    · have hxt := h0 t (by omega)
      cases t with
      | zero => simp [ema0, sma0, h1, hxt]
      | succ t => simp [ema0, h1, hxt]
    · cases he : ema0 len a x t with
      | none => rfl
      | some v =>
        obtain ⟨s, h2, h3, h4⟩ := ema0_isSome_seeded (alpha := a) h1 t (by rw [he]; rfl)
        exact absurd ⟨h3, h4⟩ (hnone s (by omega))
  refine ⟨hbefore, ?_⟩
  by_cases h1 : len = 1
  · intro t _ v hv
    cases t with
    | zero => simp [ema0, sma0, h1] at hv; exact hx 0 v hv
    | succ t => simp [ema0, h1] at hv; exact hx _ v hv
  · have hsma : ∀ t, t + 1 ≤ t0 + len → ∀ v, sma0 len x t = some v → NN (V.val v) := by
      intro t ht v hv
      unfold sma0 at hv
      rw [if_neg h1] at hv
      split at hv
      · rw [← Option.some.inj hv, valued_div_nat V L hlen]
        refine NN.div L ?_ (nn_lit_nat L len)
        unfold rawSum0
        cases hxt : x t with
        | none => exact hacc t (by omega)
        | some w =>
          show NN (V.val (acc0 len x t + w))
          rw [V.add]; exact NN.add L (hacc t (by omega)) (hx t w hxt)
      · simp at hv
    intro t
    induction t with
    | zero => intro _ v hv; exact hsma 0 (by omega) v hv
    | succ t ih =>
      intro htN v hv
      rw [ema0, if_neg h1] at hv
      cases he : ema0 len a x t with
      | none =>
        rw [he] at hv
        by_cases ht : t + 1 + 1 ≤ t0 + len
        · exact hsma (t + 1) ht v hv
        · have hpres : ∀ k, t0 ≤ k → k ≤ t → (x k).isSome := fun k h2 h3 => hp k h2 (by omega)
          have hs : Seeded len x t := ⟨t0 + len - 1, by omega, by omega, fun k h2 h3 => hpres k (by omega) (by omega)⟩
          have hok : EmaOk len x (t + 1) := Or.inr fun r hr hs' => by
            obtain ⟨s, h2, h3, h4⟩ := hs'
            have h5 : t0 ≤ s := by
              by_contra hc
              exact hnone s (by omega) ⟨h3, h4⟩
            exact hpres _ (by omega) (by omega)
          have := ema0_seeded (a := a) h1 hok hs
          rw [he] at this; simp at this
      | some p =>
        rw [he] at hv
        cases hxt : x (t + 1) with
        | none => rw [hxt] at hv; simp at hv
        | some w =>
          rw [hxt] at hv
          rw [← Option.some.inj hv]
          dsimp only
          rw [V.add, V.mul, V.mul]
          exact NN.add L (NN.mul L ha (hx _ w hxt)) (NN.mul L ha1 (ih (by omega) p he))

/-- **C33.** The ATR of bars whose lows are not above their highs is NaN or at least 0, for IEEE floats with signed zeros. -/
theorem C33_atr_nonneg_ieee (d : DataProvider α) {N len : Nat} (hlen : 1 ≤ len) {o h l c v : Nat → α}
    (hb : Bars d N o h l c v) (hhl : ∀ t, t < N → F64.le (l t) (h t) = true) :
    ∃ y, Runs (noInput fun t => Atr.next ⟨d, t⟩) (Atr.new len) unit N y ∧
      ∀ t, t < N → ∀ w, y t = some w → V.val w = Fl.of R .nan ∨ F64.le (lit 0) w = true := by
  refine ⟨_, atr_runs hlen hb.high hb.low hb.close, fun t ht w hw => ?_⟩
  let x : Nat → Option α := fun t => if t < N then tr0 true h l c t else none
  have hxe : ∀ t, t < N → tr0 true h l c t = x t := fun t ht => (if_pos ht).symm
  rw [atr0, rma0, ema0_congr len _ (y := x) fun k hk => hxe k (by omega)] at hw
  rw [V.le, V.lit, lit_zero L]
  have hal := valued_rmaAlpha V L hlen
  have han := rmaAlpha_nn (R := R) L hlen
  refine (ema0_nn_ieee V L hlen (t0 := 0) (by rw [hal.1]; exact han.1) (by rw [hal.2]; exact han.2) (x := x) (by simp)
    (fun t v hv => ?_) (N := N) (fun t _ ht => by rw [← hxe t ht]; exact tr0_isSome h l c t)).2 t ht w hw
  have ht : t < N := by
    by_contra hc
    rw [show x t = none from if_neg hc] at hv; simp at hv
  rw [← hxe t ht] at hv
  have hle : ∀ t, t < N → F64.le (V.val (l t)) (V.val (h t)) = true := fun t ht => by rw [← V.le]; exact hhl t ht
  cases t with
  | zero =>
    simp [tr0] at hv
    rw [← hv, V.sub]; exact nn_sub_of_le L (hle 0 ht)
  | succ t =>
    simp [tr0] at hv
    rw [← hv]
    simp only [V.fmax, V.sub, V.abs]
    exact NN.fmax (NN.fmax (nn_sub_of_le L (hle _ ht)) (nn_abs _)) (nn_abs _)

/-- Whatever the sign of the quotient by zero, the RSI formula has the value it has without signed zeros. -/
theorem rsi_value_valued {u dn : α} (hu : NN (V.val u)) (hd : NN (V.val dn)) : V.val (lit 1 + u / dn) ≠ Fl.of R (.fin 0) ∧
    (V.val (lit 100 - lit 100 / (lit 1 + u / dn)) = lit 100 - lit 100 / (lit 1 + V.val u / V.val dn)) := by
  have main : V.val (u / dn) = V.val u / V.val dn → V.val (lit 1 + u / dn) ≠ Fl.of R (.fin 0) := by
    intro e
    rw [V.add, V.lit, e, lit_one L]
    have hq := NN.div L hu hd
    rcases hq.cases with h | h | ⟨k, hk, h⟩ <;> rw [h]
    · exact fun hc => by cases hc
    · exact fun hc => by cases hc
    · intro hc
      have hm := L.mono 1 (1 + k) (by linarith)
      have hc' : R.rnd (1 + k) = .fin 0 := hc
      rw [rnd_one L, hc'] at hm
      have h10 : (1 : K) ≤ 0 := of_decide_eq_true (show decide ((1 : K) ≤ 0) = true from hm)
      linarith
  have fin : V.val (u / dn) = V.val u / V.val dn → V.val (lit 1 + u / dn) ≠ Fl.of R (.fin 0) ∧
      (V.val (lit 100 - lit 100 / (lit 1 + u / dn)) = lit 100 - lit 100 / (lit 1 + V.val u / V.val dn)) := by
    intro e
    refine ⟨main e, ?_⟩
    rw [V.sub, V.div _ _ (main e), V.add, V.lit, V.lit, e]
  by_cases hz : V.val dn = Fl.of R (.fin 0)
  · rcases V.div_zero u dn hz with e | e
    · exact fin e
    · -- the quotient is NaN or an infinity
      have hq : V.val u / V.val dn = Fl.of R .nan ∨ V.val u / V.val dn = Fl.of R .pinf := by
        rw [hz]
        rcases hu.cases with h | h | ⟨k, hk, h⟩ <;> rw [h]
        · exact Or.inl rfl
        · right
          exact (if_neg (lt_irrefl 0) : (if (0 : K) < 0 then Ext.ninf else Ext.pinf) = Ext.pinf)
        · have hd0 : Fl.of R (.fin k) / Fl.of R (.fin 0) = Fl.of R (Fl.signInf k) :=
            (if_pos rfl : (if (0 : K) = 0 then Fl.signInf k else R.rnd (k / 0)) = Fl.signInf k)
          rw [hd0]
          unfold Fl.signInf
          split
          · exact Or.inr rfl
          · rw [if_neg (not_lt.mpr hk)]; exact Or.inl rfl
      rcases hq with h | h
      · refine fin (e.trans ?_)
        rw [h]; rfl
      · have e' : V.val (u / dn) = Fl.of R .ninf := by rw [e, h]; rfl
        have h1 : V.val (lit 1 + u / dn) = Fl.of R .ninf := by rw [V.add, V.lit, e', lit_one L]; rfl
        have hne : V.val (lit 1 + u / dn) ≠ Fl.of R (.fin 0) := by rw [h1]; exact fun hc => by cases hc
        refine ⟨hne, ?_⟩
        rw [V.sub, V.div _ _ hne, h1, h, V.lit, lit_hundred L, lit_one L]
        rfl
  · exact fin (V.div _ _ hz)

theorem rsi_value_range_ieee {u dn : α} (hu : NN (V.val u)) (hd : NN (V.val dn)) :
    V.val (lit 100 - lit 100 / (lit 1 + u / dn)) = Fl.of R .nan ∨
      (F64.le (Fl.of R (.fin 0)) (V.val (lit 100 - lit 100 / (lit 1 + u / dn))) = true ∧
        F64.le (V.val (lit 100 - lit 100 / (lit 1 + u / dn))) (Fl.of R (.fin 100)) = true) := by
  rw [(rsi_value_valued V L hu hd).2]
  exact rsi_value_range L hu hd rfl

/-- **C34.** RSI over IEEE floats with signed zeros, for every input series without a gap after its first value (values may be NaN,
infinite or negative zeros): every `Some` is NaN or lies in [0, 100]. -/
theorem C34_rsi_range_ieee (d : DataProvider α) {len N : Nat} (hlen : 2 ≤ len) (x : Nat → Option α)
    (hx : ∀ t, t + 1 < N → (x t).isSome → (x (t + 1)).isSome) :
    ∃ y, Runs (fun t => Rsi.next ⟨d, t⟩) (Rsi.new len) x N y ∧ ∀ t, t < N → ∀ v, y t = some v →
      V.val v = Fl.of R .nan ∨ (F64.le (lit 0) v = true ∧ F64.le v (lit 100) = true) := by
  refine ⟨_, rsi_runs d hlen x N hx, fun t ht v hv => ?_⟩
  rw [V.le, V.le, V.lit, V.lit, lit_zero L, lit_hundred L]
  have hstart : ∃ t0, (∀ t, t < t0 → ((x t).isSome && (before x t).isSome) = false) ∧
      ∀ t, t0 ≤ t → t < N → ((x t).isSome && (before x t).isSome) = true := by
    by_cases he : ∃ s, s < N ∧ (x s).isSome
    · have hw : ∃ s, (x s).isSome = true := ⟨he.choose, he.choose_spec.2⟩
      have hs1 := Nat.find_spec hw
      have hs2 : ∀ t, t < Nat.find hw → (x t).isSome = false := fun t ht => by
        have := Nat.find_min hw ht; simpa using this
      have hup : ∀ k, Nat.find hw ≤ k → k < N → (x k).isSome = true := by
        intro k hk
        induction k, hk using Nat.le_induction with
        | base => intro _; exact hs1
        | succ k hk ih => intro hkN; exact hx k hkN (ih (by omega))
      refine ⟨Nat.find hw + 1, fun t ht => ?_, fun t h1 h2 => ?_⟩
      · cases t with
        | zero => simp [before]
        | succ t => simp [before, hs2 t (by omega)]
      · cases t with
        | zero => omega
        | succ t => simp [before, hup t (by omega) (by omega), hup (t + 1) (by omega) h2]
    · refine ⟨N, fun t ht => ?_, fun t h1 h2 => by omega⟩
      have : (x t).isSome = false := by
        by_contra hc; exact he ⟨t, ht, by simpa [Option.isSome_iff_ne_none] using hc⟩
      simp [this]
  obtain ⟨t0, h0, h1⟩ := hstart
  have hlen1 : 1 ≤ len := by omega
  have hal := valued_rmaAlpha V L hlen1
  have han := rmaAlpha_nn (R := R) L hlen1
  rw [← hal.2, ← hal.1] at han
  have hnone : ∀ (o : Option α), o.isSome = false → o = none := fun o h => by simpa using h
  have hz : V.val (lit 0) = Fl.of R (.fin 0) := (V.lit 0).trans (lit_zero L)
  have hup : ∀ v, rma0 len (gain0 x) t = some v → NN (V.val v) := by
    refine (ema0_nn_ieee V L hlen1 han.1 han.2 (t0 := t0) (fun t ht => hnone _ (by rw [gain0_isSome]; exact h0 t ht))
      (fun t v hv => ?_) (N := N) (fun t h2 h3 => by rw [gain0_isSome]; exact h1 t h2 h3)).2 t ht
    unfold gain0 at hv
    cases hxt : x t <;> cases hbt : before x t <;> simp [hxt, hbt, opt2] at hv
    rw [← hv, V.fmax, hz]; exact nn_fmax_fin _ (le_refl _)
  have hdn : ∀ v, rma0 len (loss0 x) t = some v → NN (V.val v) := by
    refine (ema0_nn_ieee V L hlen1 han.1 han.2 (t0 := t0) (fun t ht => hnone _ (by rw [loss0_isSome]; exact h0 t ht))
      (fun t v hv => ?_) (N := N) (fun t h2 h3 => by rw [loss0_isSome]; exact h1 t h2 h3)).2 t ht
    unfold loss0 at hv
    cases hxt : x t <;> cases hbt : before x t <;> simp [hxt, hbt, opt2] at hv
    rw [← hv, V.neg, V.fmin, hz]; exact nn_neg_fmin _ (le_refl _)
  unfold rsi0 at hv
  cases hu : rma0 len (gain0 x) t with
  | none => rw [hu] at hv; simp [opt2] at hv
  | some u =>
    cases hd : rma0 len (loss0 x) t with
    | none => rw [hu, hd] at hv; simp [opt2] at hv
    | some dn =>
      rw [hu, hd] at hv
      rw [← Option.some.inj hv]
      exact rsi_value_range_ieee V L (hup u hu) (hdn dn hd)

/-! ## Profits and statistics -/

theorem fsum_nonneg_ieee {l : List α} (h : ∀ v ∈ l, F64.le (Fl.of R (.fin 0)) (V.val v) = true) :
    F64.le (Fl.of R (.fin 0)) (V.val (fsum l)) = true := by
  have e : V.val (fsum l) = fsum (l.map V.val) := by
    induction l using List.reverseRecOn with
    | nil => exact V.lit 0
    | append_singleton l a ih =>
      rw [fsum_snoc, List.map_append, List.map_cons, List.map_nil, fsum_snoc, V.add, ih fun v hv => h v (by simp [hv])]
  rw [e]
  refine fsum_nonneg L fun v hv => ?_
  obtain ⟨w, hw, rfl⟩ := List.mem_map.mp hv
  exact h w hw

variable {cfg : StrategyConfig α} {d : DataProvider α} {sig : Nat → Option TradeDirection} {N : Nat} {st : Nat → Strategy α}

include V in
/-- **C41.** Gross profit and gross loss are at least 0 (so never NaN), for IEEE floats with signed zeros. -/
theorem C41_nonneg_ieee (h : Backtest cfg d sig N st) {t : Nat} (ht : t < N) :
    F64.le (lit 0) (st t).metrics.grossProfit = true ∧ F64.le (lit 0) (st t).metrics.grossLoss = true := by
  have s := C40_statistics h ht
  rw [s.grossProfit, s.grossLoss, V.le, V.le, V.lit, lit_zero L]
  constructor
  · refine fsum_nonneg_ieee V L fun v hv => ?_
    have := (List.mem_filter.mp hv).2
    rw [fgt, V.lt, V.lit, lit_zero L] at this
    generalize V.val v = u at *
    match u, this with
    | .pinf, _ => rfl
    | .fin k, this => exact decide_eq_true (of_decide_eq_true this : (0 : K) < k).le
  · refine fsum_nonneg_ieee V L fun v hv => ?_
    obtain ⟨w, hw, rfl⟩ := List.mem_map.mp hv
    have := (List.mem_filter.mp hw).2
    simp only [Bool.and_eq_true, fgt, V.lt, V.lit, lit_zero L] at this
    replace this := this.2
    rw [V.abs]
    generalize V.val w = u at *
    match u, this with
    | .pinf, _ => rfl
    | .ninf, _ => rfl
    | .fin k, this => exact decide_eq_true (abs_nonneg k)

/-- **C44.** The size of a trade is NaN or at least 0, for IEEE floats with signed zeros. -/
theorem C44_nonneg_ieee (h : Backtest cfg d sig N st) {t : Nat} (ht : t < N) {T : Trade α} (hT : T ∈ (st t).trades) :
    ∃ s, T.fillSize = some s ∧ (V.val s = Fl.of R .nan ∨ F64.le (lit 0) s = true) := by
  cases hb : cfg.buyWithEquity with
  | false =>
    refine ⟨_, (C44_size h ht hT).1 hb, Or.inr ?_⟩
    rw [V.le, V.lit, V.lit, lit_zero L, lit_one L]
    exact decide_eq_true (zero_le_one : (0 : K) ≤ 1)
  | true =>
    obtain ⟨e, p, _, _, h3⟩ := (C44_size h ht hT).2 hb
    refine ⟨_, h3, ?_⟩
    split
    · rw [V.le, V.lit, lit_zero L]; exact Or.inr (decide_eq_true (le_refl (0 : K)))
    · rename_i hn
      simp only [Bool.or_eq_true, not_or, V.le, V.lit, lit_zero L] at hn
      rw [V.le, V.lit, lit_zero L]
      have nn {v : Fl R} (hv : ¬ F64.le v (Fl.of R (.fin 0)) = true) : NN v ∧ v ≠ Fl.of R (.fin 0) := by
        match v, hv with
        | .nan, _ => exact ⟨nn_nan, fun hc => by cases hc⟩
        | .pinf, _ => exact ⟨nn_pinf, fun hc => by cases hc⟩
        | .ninf, hv => exact absurd rfl hv
        | .fin k, hv =>
          have hk : ¬ k ≤ 0 := fun hk => hv (decide_eq_true hk)
          exact ⟨nn_fin.mpr (not_le.mp hk).le, of_fin_ne (by rintro rfl; exact hk (le_refl _))⟩
      rw [V.div _ _ (nn hn.2).2]
      exact NN.div L (nn hn.1).1 (nn hn.2).1

theorem valued_tradePnl (size entry price : α) (b : Bool) :
    V.val (tradePnl size entry price b) = tradePnl (V.val size) (V.val entry) (V.val price) b := by
  unfold tradePnl
  cases b <;> simp [V.mul, V.sub, V.lit, V.neg]

/-- **C45.** The profits of a long and a short trade have opposite values, for IEEE floats with signed zeros, all sizes and prices. -/
theorem C45_antisymmetric_ieee (size entry price : α) :
    V.val (tradePnl size entry price false) = -V.val (tradePnl size entry price true) := by
  rw [valued_tradePnl V L, valued_tradePnl V L]; exact C45_antisymmetric L _ _ _

/-- **C45.** The profit at the entry price is a zero, for IEEE floats with signed zeros, finite sizes and prices. -/
theorem C45_zero_at_entry_ieee (size entry : α) {s e : K} (hs : V.val size = Fl.of R (.fin s)) (he : V.val entry = Fl.of R (.fin e))
    (isLong : Bool) : F64.feq (tradePnl size entry entry isLong) (lit 0) = true := by
  rw [V.feq, valued_tradePnl V L, hs, he, C45_zero_at_entry L, V.lit, lit_zero L]
  exact (fl_feq _ 0).mpr rfl

/-- **C45.** For a finite non-negative size a long trade shows no loss at or above the entry and no gain at or below it, for IEEE
floats with signed zeros. -/
theorem C45_sign_ieee {size entry price : α} {s e p : K} (hs : V.val size = Fl.of R (.fin s)) (he : V.val entry = Fl.of R (.fin e))
    (hp : V.val price = Fl.of R (.fin p)) (h0 : F64.le (lit 0) size = true) :
    (F64.le entry price = true → F64.lt (tradePnl size entry price true) (lit 0) = false) ∧
    (F64.le price entry = true → fgt (tradePnl size entry price true) (lit 0) = false) := by
  rw [V.le, V.lit, lit_zero L, hs] at h0
  have key := C45_sign L (size := s) (entry := e) (price := p) (of_decide_eq_true (show decide ((0 : K) ≤ s) = true from h0))
  rw [fgt, V.le, V.le, V.lt, V.lt, valued_tradePnl V L, V.lit, hs, he, hp]
  exact ⟨fun h => key.1 (of_decide_eq_true (show decide (e ≤ p) = true from h)),
    fun h => key.2 (of_decide_eq_true (show decide (p ≤ e) = true from h))⟩

include V in
/-- **C49.** In runs of at most 2^53 ticks the share of profitable trades lies in [0, 1], for IEEE floats with signed zeros. -/
theorem C49_percent_range_ieee {rfr : α} {tv : Nat → TvMetrics α} (hb : Backtest cfg d sig N st) (h : TvRun d cfg rfr st N tv)
    (hN : N ≤ 2 ^ 53) {t : Nat} (ht : t < N) :
    F64.le (lit 0) (tv t).data.percentProfitable = true ∧ F64.le (tv t).data.percentProfitable (lit 1) = true := by
  have hc : (st t).metrics.closedTrades ≤ t + 1 := by
    rw [closed_exits hb ht]
    exact (List.length_filter_le _ _).trans (by simp)
  have hw : (st t).metrics.winningTrades ≤ (st t).metrics.closedTrades := by
    have := (C40_counts hb ht).1; omega
  rw [(C49_ratios hb h ht).2.2.2.2.1, V.le, V.le, V.lit, V.lit, lit_zero L, lit_one L]
  split
  · rw [V.lit, lit_zero L]
    exact ⟨decide_eq_true le_rfl, decide_eq_true (zero_le_one : (0 : K) ≤ 1)⟩
  · rename_i hne
    rw [valued_div_nat V L (by omega), V.lit]
    generalize (st t).metrics.closedTrades = c at *
    generalize (st t).metrics.winningTrades = w at *
    have lc (n : Nat) (hn : n ≤ 2 ^ 53) : (lit (n : ℚ) : Fl R) = Fl.of R (.fin (n : K)) := by
      have := L.int n (by rw [Nat.abs_cast]; exact_mod_cast hn)
      rw [Int.cast_natCast] at this
      show R.rnd ((n : ℚ) : K) = .fin (n : K)
      rw [Rat.cast_natCast]; exact this
    rw [lc c (by omega), lc w (by omega)]
    have hcK : (0 : K) < c := by exact_mod_cast Nat.pos_of_ne_zero hne
    have hdiv : Fl.of R (.fin (w : K)) / Fl.of R (.fin (c : K)) = Fl.of R (R.rnd ((w : K) / c)) :=
      (if_neg hcK.ne' : (if (c : K) = 0 then Fl.signInf (w : K) else R.rnd ((w : K) / c)) = R.rnd ((w : K) / c))
    rw [hdiv]
    constructor
    · have := L.mono 0 ((w : K) / c) (div_nonneg (Nat.cast_nonneg _) hcK.le)
      rw [rnd_zero L] at this
      exact this
    · have := L.mono ((w : K) / c) 1 (by rw [div_le_one hcK]; exact_mod_cast hw)
      rw [rnd_one L] at this
      exact this

theorem valued_runMax' (a : α) (l : List α) : V.val (runMax' a l) = runMax' (V.val a) (l.map V.val) := by
  unfold runMax'
  induction l generalizing a with
  | nil => rfl
  | cons b l ih => rw [List.foldl_cons, ih, V.fmax]; rfl
theorem valued_runMin' (a : α) (l : List α) : V.val (runMin' a l) = runMin' (V.val a) (l.map V.val) := by
  unfold runMin'
  induction l generalizing a with
  | nil => rfl
  | cons b l ih => rw [List.foldl_cons, ih, V.fmin]; rfl

/-- **C48.** Maximal drawdown and run-up are never NaN, never negative, never decrease and bound every tick so far, for IEEE floats
with signed zeros. -/
theorem C48_monotone_ieee {rfr : α} {tv : Nat → TvMetrics α} (h : TvRun d cfg rfr st N tv) {t : Nat} (ht : t < N) :
    F64.le (lit 0) (tv t).data.maxDrawdown = true ∧ F64.le (lit 0) (tv t).data.maxRunUp = true ∧
    ∀ k, k ≤ t →
      F64.le (tv k).data.maxDrawdown (tv t).data.maxDrawdown = true ∧ F64.le (tv k).data.maxRunUp (tv t).data.maxRunUp = true ∧
      (V.val ((tv k).equityMetrics.netEquityMax - (tv k).equityMetrics.barEquityMin) ≠ Fl.of R .nan →
        F64.le ((tv k).equityMetrics.netEquityMax - (tv k).equityMetrics.barEquityMin) (tv t).data.maxDrawdown = true) ∧
      (V.val ((tv k).equityMetrics.barEquityMax - (tv k).equityMetrics.netEquityMin) ≠ Fl.of R .nan →
        F64.le ((tv k).equityMetrics.barEquityMax - (tv k).equityMetrics.netEquityMin) (tv t).data.maxRunUp = true) := by
  have h0 : NotNan (lit 0 : Fl R) := by
    rw [lit_zero L]; exact fun hh => absurd (show (Ext.fin (0 : K)) = .nan from hh) (by simp)
  have e (f : Nat → α) (t : Nat) : V.val (runMax' (lit 0) ((List.range (t + 1)).map f)) =
      runMax' (lit 0) ((List.range (t + 1)).map fun k => V.val (f k)) := by
    rw [valued_runMax' V L, V.lit, List.map_map]; rfl
  have pos (f : Nat → Fl R) (t : Nat) : F64.le (lit 0) (runMax' (lit 0) ((List.range (t + 1)).map f)) = true :=
    (runMax'_spec (lit 0) _).2 _ (by simp) h0
  have bnd (f : Nat → Fl R) {k t : Nat} (hk : k ≤ t) (hn : NotNan (f k)) :
      F64.le (f k) (runMax' (lit 0) ((List.range (t + 1)).map f)) = true :=
    (runMax'_spec (lit 0) _).2 _ (List.mem_cons_of_mem _ (List.mem_map.mpr ⟨k, List.mem_range.mpr (by omega), rfl⟩)) hn
  have v := C48_values h ht
  refine ⟨by rw [V.le, v.1, e, V.lit]; exact pos _ t, by rw [V.le, v.2.1, e, V.lit]; exact pos _ t, fun k hk => ?_⟩
  have vk := C48_values h (show k < N by omega)
  refine ⟨?_, ?_, ?_, ?_⟩
  · rw [V.le, v.1, vk.1, e, e]; exact runMax'_mono _ hk (fl_le_notNan (pos _ k)).2
  · rw [V.le, v.2.1, vk.2.1, e, e]; exact runMax'_mono _ hk (fl_le_notNan (pos _ k)).2
  · intro hn; rw [V.le, v.1, e]
    exact bnd (fun k => V.val ((tv k).equityMetrics.netEquityMax - (tv k).equityMetrics.barEquityMin)) hk hn
  · intro hn; rw [V.le, v.2.1, e]
    exact bnd (fun k => V.val ((tv k).equityMetrics.barEquityMax - (tv k).equityMetrics.netEquityMin)) hk hn

/-- **C48.** The Cobra equity-curve drawdown is never NaN, never positive, never increases and bounds every tick so far, for IEEE
floats with signed zeros. -/
theorem C48_cobra_monotone_ieee {est : Bool} {sy : Option Int} {year : Nat → Option Int} {co : Nat → CobraMetrics α}
    (h : CobraRun d cfg est sy year st N co) {t : Nat} (ht : t < N) :
    F64.le (co t).data.equityCurveMaxDd (lit 0) = true ∧
    ∀ k, k ≤ t → F64.le (co t).data.equityCurveMaxDd (co k).data.equityCurveMaxDd = true ∧
      (V.val ((co k).equityMetrics.equity / (co k).equityMetrics.equityMax - lit 1) ≠ Fl.of R .nan →
        F64.le (co t).data.equityCurveMaxDd ((co k).equityMetrics.equity / (co k).equityMetrics.equityMax - lit 1) = true) := by
  have h0 : NotNan (lit 0 : Fl R) := by
    rw [lit_zero L]; exact fun hh => absurd (show (Ext.fin (0 : K)) = .nan from hh) (by simp)
  set f : Nat → Fl R := fun k => V.val ((co k).equityMetrics.equity / (co k).equityMetrics.equityMax - lit 1) with hf
  have e (t : Nat) : V.val (runMin' (lit 0) ((List.range (t + 1)).map fun k =>
      (co k).equityMetrics.equity / (co k).equityMetrics.equityMax - lit 1)) = runMin' (lit 0) ((List.range (t + 1)).map f) := by
    rw [valued_runMin' V L, V.lit, List.map_map]; rfl
  have neg (t : Nat) : F64.le (runMin' (lit 0) ((List.range (t + 1)).map f)) (lit 0) = true :=
    (runMin'_spec (lit 0) _).2 _ (by simp) h0
  rw [C48_cobra_values h ht]
  refine ⟨by rw [V.le, e, V.lit]; exact neg t, fun k hk => ⟨?_, fun hn => ?_⟩⟩
  · rw [C48_cobra_values h (show k < N by omega), V.le, e, e]
    have h1 := (runMin'_spec (lit 0) ((List.range (k + 1)).map f)).1
    refine (runMin'_spec (lit 0) ((List.range (t + 1)).map f)).2 _ ?_ (fl_le_notNan (neg k)).1
    rcases List.mem_cons.mp h1 with h1 | h1
    · rw [h1]; simp
    · obtain ⟨j, hj, hj'⟩ := List.mem_map.mp h1
      exact List.mem_cons_of_mem _ (List.mem_map.mpr ⟨j, List.mem_range.mpr (by have := List.mem_range.mp hj; omega), hj'⟩)
  · rw [V.le, e]
    exact (runMin'_spec (lit 0) ((List.range (t + 1)).map f)).2 _
      (List.mem_cons_of_mem _ (List.mem_map.mpr ⟨k, List.mem_range.mpr (by omega), rfl⟩)) hn

theorem valued_fromF64 (v : Option α) : tradeDirectionFromF64 v = tradeDirectionFromF64 (v.map V.val) := by
  rcases v with _ | v
  · rfl
  · simp only [tradeDirectionFromF64, Option.map_some, V.feq, V.lit, V.neg]

/-- **C52.** `trade_direction_from_f64` for IEEE floats with signed zeros: Long exactly for 1, Short exactly for -1. -/
theorem C52_from_f64_ieee (v : Option α) :
    (tradeDirectionFromF64 v = some .long ↔ v.map V.val = some (Fl.of R (.fin 1))) ∧
    (tradeDirectionFromF64 v = some .short ↔ v.map V.val = some (Fl.of R (.fin (-1)))) := by
  rw [valued_fromF64 V L]; exact C52_from_f64 L _

include V in
/-- **C52.** Decoding what `trade_direction_to_f64` wrote gives the direction (or its absence) back, for IEEE floats with signed
zeros. -/
theorem C52_roundtrip_ieee (d : Option TradeDirection) : tradeDirectionFromF64 (some (tradeDirectionToF64 d : α)) = d := by
  rw [valued_fromF64 V L]
  have e : V.val (tradeDirectionToF64 d) = tradeDirectionToF64 d := by
    rcases d with _ | _ | _ <;> simp [tradeDirectionToF64, V.lit, V.neg]
  rw [Option.map_some, e]
  exact C52_roundtrip L d

/-- **C58.** The optional ratios are missing exactly when the denominator is a zero (of either sign), otherwise the quotient, for
IEEE floats with signed zeros. -/
theorem C58_optional_ieee (a b : α) :
    (Metrics.profitFactor a b = none ↔ V.val b = Fl.of R (.fin 0)) ∧
    (Metrics.longNetProfitRatio a b = none ↔ V.val b = Fl.of R (.fin 0)) ∧
    (Metrics.avgWinLossRatio a b = none ↔ V.val b = Fl.of R (.fin 0)) ∧
    (V.val b ≠ Fl.of R (.fin 0) → (Metrics.profitFactor a b).map V.val = some (V.val a / V.val b) ∧
      (Metrics.longNetProfitRatio a b).map V.val = some (-(V.val a / V.val b)) ∧
      (Metrics.avgWinLossRatio a b).map V.val = some (V.val a / V.val b)) := by
  have hz : F64.feq b (lit 0) = true ↔ V.val b = Fl.of R (.fin 0) := by
    rw [V.feq, V.lit]; exact feq_zero L _
  have hneg : V.val b ≠ Fl.of R (.fin 0) → V.val (a / b) * -(lit 1) = -(V.val a / V.val b) := by
    intro h
    have := (C58_optional L (V.val a) (V.val b) 0 0).2.1
    rw [if_neg h] at this
    unfold Metrics.longNetProfitRatio at this
    rw [if_neg (fun hh => h ((feq_zero L _).mp hh))] at this
    rw [V.div _ _ h]
    exact Option.some.inj this
  have hn : ¬ F64.feq b (lit 0) = true ↔ V.val b ≠ Fl.of R (.fin 0) := not_congr hz
  unfold Metrics.profitFactor Metrics.longNetProfitRatio Metrics.avgWinLossRatio
  refine ⟨?_, ?_, ?_, fun h => ?_⟩
  · rw [← hz]; split <;> simp_all
  · rw [← hz]; split <;> simp_all
  · rw [← hz]; split <;> simp_all
  · rw [if_neg (hn.mpr h), if_neg (hn.mpr h)]
    refine ⟨by rw [Option.map_some, V.div _ _ h], ?_, by rw [Option.map_some, V.div _ _ h]⟩
    rw [Option.map_some, V.mul, V.neg, V.lit, hneg h]

theorem valued_sameValue (p v : Option α) : sameValue p v = sameValue (p.map V.val) (v.map V.val) := by
  cases p <;> cases v <;> simp [sameValue, opt2, V.feq]
theorem valued_rises (p v : Option α) : rises p v = rises (p.map V.val) (v.map V.val) := by
  cases p <;> cases v <;> simp [rises, opt2, V.lt, fgt]
theorem valued_streak (x : Nat → Option α) (t : Nat) : streak x t = streak (fun t => (x t).map V.val) t := by
  induction t with
  | zero => unfold streak; cases x 0 <;> rfl
  | succ t ih => rw [streak, streak, ih, valued_sameValue V L, valued_rises V L]

/-- **C62.** The streak of the Connors RSI for IEEE floats with signed zeros: fed a float whose value is the streak of the previous
tick, the code returns a float whose value is the streak of this one. -/
theorem C62_streak_ieee (x : Nat → Option α) {t : Nat} (ht : t < 2 ^ 53) {ud : Option α}
    (hud : ud.map V.val = prev (fun t => some (Fl.of R (.fin (streak x t : K)))) t) :
    (ConnorsRsi.computeUpDown (x t) (prev x t) ud).map V.val = some (Fl.of R (.fin (streak x t : K))) := by
  have h := C62_streak L (fun t => (x t).map V.val) ht
  have e : (fun t => some (Fl.of R (.fin (streak (fun t => (x t).map V.val) t : K)))) =
      fun t => some (Fl.of R (.fin (streak x t : K))) := funext fun t => by rw [← valued_streak V L x t]
  rw [← valued_streak V L x t, e, ← hud] at h
  rw [← h, computeUpDown_eq, computeUpDown_eq]
  have hp : prev (fun t => (x t).map V.val) t = (prev x t).map V.val := by cases t <;> rfl
  have hg : V.val (ud.getD (lit 0)) = (ud.map V.val).getD (lit 0) := by cases ud <;> simp [V.lit]
  rw [hp, ← valued_sameValue V L, ← valued_rises V L, ← hg, fge, fge, V.le, V.le, V.lit]
  split
  · simp [V.lit]
  · split
    · split <;> simp [V.lit, V.add]
    · split <;> simp [V.lit, V.sub, V.neg]

end

/-! ## Binary64 -/

/-- The value of a binary64 float with signed zeros. -/
noncomputable abbrev B64 := Sf (Rounding.binary64 ℝ)

/-- **C34.** RSI in IEEE binary64 (round to nearest even, two zeros, infinities, NaN): for every length at least 2 and every input
without a gap after its first value, `Rsi` does not panic and every `Some` is NaN or lies between 0.0 and 100.0. -/
theorem C34_rsi_range_binary64 (d : DataProvider B64) {len N : Nat} (hlen : 2 ≤ len) (x : Nat → Option B64)
    (hx : ∀ t, t + 1 < N → (x t).isSome → (x (t + 1)).isSome) :
    ∃ y, Runs (fun t => Rsi.next ⟨d, t⟩) (Rsi.new len) x N y ∧ ∀ t, t < N → ∀ v, y t = some v →
      v.val = Fl.of _ .nan ∨ (F64.le (lit 0) v = true ∧ F64.le v (lit 100) = true) :=
  C34_rsi_range_ieee (Sf.valued _) (binary64_lawful ℝ) d hlen x hx

/-- **C49.** The share of profitable trades lies in [0, 1] in IEEE binary64. -/
theorem C49_percent_range_binary64 {cfg : StrategyConfig B64} {d : DataProvider B64} {sig : Nat → Option TradeDirection} {N : Nat}
    {st : Nat → Strategy B64} {rfr : B64} {tv : Nat → TvMetrics B64} (hb : Backtest cfg d sig N st) (h : TvRun d cfg rfr st N tv)
    (hN : N ≤ 2 ^ 53) {t : Nat} (ht : t < N) :
    F64.le (lit 0) (tv t).data.percentProfitable = true ∧ F64.le (tv t).data.percentProfitable (lit 1) = true :=
  C49_percent_range_ieee (Sf.valued _) (binary64_lawful ℝ) hb h hN ht

/-- A run in binary64 with signed zeros: prices 1.1, 1.2, 1.0, 1.0, -0.0 with length 2.  The third output is the double
33.333333333333314 (not the double nearest to 100/3). -/
example : (outputs (fun t => Rsi.next ⟨DataProvider.ofSeries 5 unit' unit' unit' unit' unit', t⟩)
    (fun t => ([some (lit (11 / 10)), some (lit (12 / 10)), some (lit 1), some (lit 1), some (-(lit 0))] :
      List (Option (Sf (Rounding.binary64 ℚ)))).getD t none) 5 (Rsi.new 2)).toOption.map (List.map (Option.map Sf.val))
    = some [none, none, some (Fl.of _ (.fin (586406201480533 / 17592186044416))),
        some (Fl.of _ (.fin (586406201480533 / 17592186044416))), some (Fl.of _ (.fin (163648242273637 / 70368744177664)))] := by
  decide +kernel

end Pace
