import Verif.Props.Compound
import Verif.Props.Accuracy
import Mathlib.Tactic.IntervalCases

/-!
# C83: rounding errors in the books of a backtest

Every rounding with relative error `u` and underflow error `η`, in particular IEEE binary64.
-/

set_option linter.unusedSectionVars false

namespace Pace
open Spec
variable {K : Type} [Field K] [LinearOrder K] [IsStrictOrderedRing K] [RootOps K] {R : Rounding K}
variable {α : Type} [F64 α] {V : Valued R α} {u η top : K} (A : R.Accurate u η top) (L : R.Lawful)

include A L in
/-- A float sum of floats that are within `δ` of given numbers, whose sums never exceed `W`. -/
theorem fsum_near {δ W : K} (hδ : 0 ≤ δ) (hW0 : 0 ≤ W) (l : List (α × K)) (hl : ∀ x ∈ l, Near V x.1 x.2 δ)
    (hW : ∀ p, p <+: l → |(p.map Prod.snd).sum| ≤ W) (hn : (l.length : K) * u ≤ 1)
    (ht : W + (2 * l.length * ((1 + u) * δ + u * W + η) + δ) ≤ top) :
    Near V (fsum (l.map Prod.fst)) (l.map Prod.snd).sum (drift u ((1 + u) * δ + u * W + η) l.length) := by
  have hu := A.u_nonneg
  have hη := A.η_nonneg
  have hD : 0 ≤ (1 + u) * δ + u * W + η := by positivity
  induction l using List.reverseRecOn with
  | nil => exact ⟨0, by simp only [fsum, List.map_nil, List.foldl_nil]; rw [V.lit, lit_zero L], by simp [drift]⟩
  | append_singleton l x ih =>
    have hlen : ((l ++ [x]).length : K) = l.length + 1 := by push_cast [List.length_append, List.length_singleton]; rfl
    rw [hlen] at hn ht
    have hn' : (l.length : K) * u ≤ 1 := by linarith
    have ih := ih (fun y hy => hl y (by simp [hy])) (fun p hp => hW p (hp.trans (List.prefix_append _ _))) hn' (by
      have : 2 * (l.length : K) * ((1 + u) * δ + u * W + η) ≤ 2 * (l.length + 1) * ((1 + u) * δ + u * W + η) := by nlinarith
      linarith)
    have hx := hl x (by simp)
    have hs := hW (l ++ [x]) (List.prefix_refl _)
    have hd := drift_le hu hD hn'
    rw [List.map_append, List.map_append, List.map_singleton, List.map_singleton, fsum_snoc, List.sum_append, List.sum_singleton,
      List.length_append, List.length_singleton]
    rw [List.map_append, List.map_singleton, List.sum_append, List.sum_singleton] at hs
    refine (Near.add A ih hx hs (by nlinarith)).mono (le_of_eq ?_)
    show _ = (1 + u) * drift u _ l.length + _
    ring

/-! ## Sums over the recorded profits -/

theorem prefix_abs_le {β : Type} (k : β → K) (l p : List β) (hp : p <+: l) : |(p.map k).sum| ≤ (l.map fun x => |k x|).sum := by
  obtain ⟨q, rfl⟩ := hp
  have h1 : |(p.map k).sum| ≤ (p.map fun x => |k x|).sum := by
    induction p with
    | nil => simp
    | cons a p ih => simpa using (abs_add_le _ _).trans (add_le_add le_rfl ih)
  have h2 : 0 ≤ (q.map fun x => |k x|).sum := List.sum_nonneg (by simp only [List.mem_map]; rintro _ ⟨y, _, rfl⟩; exact abs_nonneg _)
  rw [List.map_append, List.sum_append]
  linarith

theorem filter_abs_le {β : Type} (k : β → K) (l : List β) (f : β → Bool) :
    ((l.filter f).map fun x => |k x|).sum ≤ (l.map fun x => |k x|).sum := by
  induction l with
  | nil => simp
  | cons a l ih =>
    have := abs_nonneg (k a)
    cases hf : f a <;> simp [hf] <;> linarith

include A L in
/-- The float sum of some of the values. -/
theorem fsum_part {β : Type} (g : β → α) (k : β → K) (l : List β) (f : β → Bool) (hk : ∀ x ∈ l.filter f, V.val (g x) = Fl.of R (.fin (k x)))
    {W : K} (hW : (l.map fun x => |k x|).sum ≤ W) (hn : (l.length : K) * u ≤ 1) (ht : 3 * W + 2 * l.length * η ≤ top) :
    Near V (fsum ((l.filter f).map g)) ((l.filter f).map k).sum (2 * l.length * (u * W + η)) := by
  have hu := A.u_nonneg
  have hη := A.η_nonneg
  have hW0 : 0 ≤ W := (List.sum_nonneg (by simp only [List.mem_map]; rintro _ ⟨y, _, rfl⟩; exact abs_nonneg _)).trans hW
  have hlen : ((l.filter f).length : K) ≤ l.length := by exact_mod_cast List.length_filter_le f l
  have hlu : ((l.filter f).length : K) * u ≤ l.length * u := mul_le_mul_of_nonneg_right hlen hu
  have hle : ((l.filter f).length : K) * η ≤ l.length * η := mul_le_mul_of_nonneg_right hlen hη
  have hluw : ((l.filter f).length : K) * u * W ≤ 1 * W := mul_le_mul_of_nonneg_right (hlu.trans hn) hW0
  have h := fsum_near A L (V := V) le_rfl hW0 ((l.filter f).map fun x => (g x, k x)) ?_ ?_ ?_ ?_
  · simp only [List.map_map, Function.comp_def, List.length_map] at h
    refine h.mono ((drift_le hu (by positivity) (hlu.trans hn)).trans ?_)
    have : 0 ≤ u * W + η := by positivity
    have := mul_le_mul_of_nonneg_right hlen this
    linarith
  · intro x hx
    obtain ⟨y, hy, rfl⟩ := List.mem_map.mp hx
    exact ⟨k y, hk y hy, by simp⟩
  · intro p hp
    obtain ⟨p', rfl⟩ : ∃ p' : List β, p = p'.map fun x => (g x, k x) := by
      obtain ⟨q, hq⟩ := hp
      obtain ⟨a, b, _, h1, _⟩ := List.map_eq_append_iff.mp hq.symm
      exact ⟨a, h1.symm⟩
    have hp' : p'.map k <+: (l.filter f).map k := by
      have := hp.map Prod.snd
      simpa [List.map_map, Function.comp_def] using this
    obtain ⟨q, hq⟩ := hp'
    have := prefix_abs_le (id : K → K) ((l.filter f).map k) (p'.map k) ⟨q, hq⟩
    simp only [List.map_map, Function.comp_def, id] at this ⊢
    exact this.trans ((filter_abs_le k l f).trans hW)
  · rw [List.length_map]; exact hlu.trans hn
  · rw [List.length_map]
    nlinarith

section stats
variable {cfg : StrategyConfig α} {d : DataProvider α} {sig : Nat → Option TradeDirection} {N : Nat} {st : Nat → Strategy α}

theorem val_lt {a : α} {k : K} (h : V.val a = Fl.of R (.fin k)) (L : R.Lawful) : F64.lt a (lit 0) = decide (k < 0) ∧ fgt a (lit 0) = decide (0 < k) := by
  constructor
  · rw [V.lt, h, V.lit, lit_zero L]; rfl
  · rw [fgt, V.lt, h, V.lit, lit_zero L]; rfl

include A L in
/-- **C83.** Whatever the sizes, as long as the recorded profits of the closed trades are finite: each reported sum (net, gross profit, gross
loss, long, short) is within `2 n (u W + η)` of the exact sum of the recorded profits it is about, where `n` is the number of closed trades and
`W` bounds the sum of the absolute profits. -/
theorem C83_statistics (H : Backtest cfg d sig N st) {t : Nat} (ht : t < N) (k : Trade α → K)
    (hk : ∀ T ∈ (st t).trades, T.isClosed = true → V.val T.pnlField = Fl.of R (.fin (k T))) {W : K}
    (hW : (((st t).trades.filter (·.isClosed)).map fun T => |k T|).sum ≤ W)
    (hn : ((st t).metrics.closedTrades : K) * u ≤ 1) (htop : 3 * W + 2 * (st t).metrics.closedTrades * η ≤ top) :
    Near V (st t).metrics.netProfit (((st t).trades.filter (·.isClosed)).map k).sum (2 * (st t).metrics.closedTrades * (u * W + η)) ∧
    Near V (st t).metrics.grossProfit ((((st t).trades.filter (·.isClosed)).filter fun T => 0 < k T).map k).sum
      (2 * (st t).metrics.closedTrades * (u * W + η)) ∧
    Near V (st t).metrics.grossLoss ((((st t).trades.filter (·.isClosed)).filter fun T => k T < 0).map fun T => |k T|).sum
      (2 * (st t).metrics.closedTrades * (u * W + η)) ∧
    Near V (st t).metrics.longNetProfit ((((st t).trades.filter (·.isClosed)).filter fun T => T.direction = .long).map k).sum
      (2 * (st t).metrics.closedTrades * (u * W + η)) ∧
    Near V (st t).metrics.shortNetProfit ((((st t).trades.filter (·.isClosed)).filter fun T => T.direction = .short).map k).sum
      (2 * (st t).metrics.closedTrades * (u * W + η)) := by
  obtain ⟨h1, h2, h3, h4, h5, h6, -, -⟩ := C40_statistics H ht
  rw [h6] at hn htop ⊢
  have hk' : ∀ T ∈ (st t).trades.filter (·.isClosed), V.val T.pnlField = Fl.of R (.fin (k T)) := fun T hT =>
    hk T (List.mem_of_mem_filter hT) (by simpa using (List.mem_filter.mp hT).2)
  generalize (st t).trades.filter (·.isClosed) = l at *
  have part (f : Trade α → Bool) := fsum_part A L (V := V) (·.pnlField) k l f (fun x hx => hk' x (List.mem_of_mem_filter hx)) hW hn htop
  refine ⟨?_, ?_, ?_, ?_, ?_⟩
  · have := part fun _ => true
    rw [List.filter_true] at this
    rw [h1]
    exact this
  · rw [h2, List.filter_map]
    have e : l.filter ((fun p => fgt p (lit 0)) ∘ fun T : Trade α => T.pnlField) = l.filter fun T => decide (0 < k T) :=
      List.filter_congr fun T hT => (val_lt (hk' T hT) L).2
    rw [e]
    exact part _
  · rw [h3, List.filter_map, List.map_map]
    have e : l.filter ((fun p => !fgt p (lit 0) && F64.lt p (lit 0)) ∘ fun T : Trade α => T.pnlField) = l.filter fun T => decide (k T < 0) := by
      refine List.filter_congr fun T hT => ?_
      obtain ⟨e1, e2⟩ := val_lt (hk' T hT) L
      simp only [Function.comp_apply, e1, e2]
      by_cases hneg : k T < 0
      · simp [hneg, hneg.le]
      · simp [hneg]
    rw [e]
    refine fsum_part A L (V := V) (F64.abs ∘ fun T : Trade α => T.pnlField) (fun T => |k T|) l (fun T => decide (k T < 0)) (fun T hT => ?_)
      (by simpa using hW) hn htop
    rw [Function.comp_apply, V.abs, hk' T (List.mem_of_mem_filter hT)]
    rfl
  · rw [h4]; exact part _
  · rw [h5]; exact part _

theorem sum_signs {β : Type} (k : β → K) (l : List β) :
    (l.map k).sum = ((l.filter fun T => 0 < k T).map k).sum - ((l.filter fun T => k T < 0).map fun T => |k T|).sum := by
  induction l with
  | nil => simp
  | cons a l ih =>
    rcases lt_trichotomy (k a) 0 with h | h | h
    · simp only [List.map_cons, List.sum_cons, List.filter_cons, decide_eq_true_eq, h, not_lt.mpr h.le, if_true, if_false, ih, abs_of_neg h]
      ring
    · simp only [List.map_cons, List.sum_cons, List.filter_cons, decide_eq_true_eq, h, lt_irrefl, if_false, ih, zero_add]
    · simp only [List.map_cons, List.sum_cons, List.filter_cons, decide_eq_true_eq, h, not_lt.mpr h.le, if_true, if_false, ih]
      ring

theorem sum_sides (k : Trade α → K) (l : List (Trade α)) :
    (l.map k).sum = ((l.filter fun T => T.direction = .long).map k).sum + ((l.filter fun T => T.direction = .short).map k).sum := by
  induction l with
  | nil => simp
  | cons a l ih =>
    cases h : a.direction <;> simp [h, ih] <;> ring

include A L in
/-- **C83.** In floating point the profit identities hold up to rounding: net profit differs from gross profit minus gross loss, and from long
plus short net profit, by at most `6 n (u W + η)`. -/
theorem C83_identities (H : Backtest cfg d sig N st) {t : Nat} (ht : t < N) (k : Trade α → K)
    (hk : ∀ T ∈ (st t).trades, T.isClosed = true → V.val T.pnlField = Fl.of R (.fin (k T))) {W : K}
    (hW : (((st t).trades.filter (·.isClosed)).map fun T => |k T|).sum ≤ W)
    (hn : ((st t).metrics.closedTrades : K) * u ≤ 1) (htop : 3 * W + 2 * (st t).metrics.closedTrades * η ≤ top) :
    ∃ net gross loss long short : K, V.val (st t).metrics.netProfit = Fl.of R (.fin net) ∧
      V.val (st t).metrics.grossProfit = Fl.of R (.fin gross) ∧ V.val (st t).metrics.grossLoss = Fl.of R (.fin loss) ∧
      V.val (st t).metrics.longNetProfit = Fl.of R (.fin long) ∧ V.val (st t).metrics.shortNetProfit = Fl.of R (.fin short) ∧
      |net - (gross - loss)| ≤ 6 * (st t).metrics.closedTrades * (u * W + η) ∧
      |net - (long + short)| ≤ 6 * (st t).metrics.closedTrades * (u * W + η) := by
  obtain ⟨⟨n, n1, n2⟩, ⟨g, g1, g2⟩, ⟨x, x1, x2⟩, ⟨a, a1, a2⟩, ⟨b, b1, b2⟩⟩ := C83_statistics A L H ht k hk hW hn htop
  refine ⟨n, g, x, a, b, n1, g1, x1, a1, b1, ?_, ?_⟩
  · rw [sum_signs] at n2
    generalize ((((st t).trades.filter (·.isClosed)).filter fun T => 0 < k T).map k).sum = G at *
    generalize ((((st t).trades.filter (·.isClosed)).filter fun T => k T < 0).map fun T => |k T|).sum = X at *
    generalize (st t).metrics.closedTrades * (u * W + η) = E at *
    rw [abs_le] at *
    constructor <;> linarith [n2.1, n2.2, g2.1, g2.2, x2.1, x2.2]
  · rw [sum_sides] at n2
    rw [abs_le] at *
    constructor <;> linarith [n2.1, n2.2, a2.1, a2.2, b2.1, b2.2]

end stats

section unit
variable {cfg : StrategyConfig α} {d : DataProvider α} {sig : Nat → Option TradeDirection} {N : Nat} {st : Nat → Strategy α}

theorem deals_held (cfg : StrategyConfig α) (sig : Nat → Option TradeDirection) (n : Nat) :
    held cfg sig n = match (deals cfg sig n).2 with | none => 0 | some (dir, _) => side dir := by
  induction n with
  | zero => rfl
  | succ n ih =>
    rw [held, ih, deals_succ]
    generalize deals cfg sig n = x
    obtain ⟨l, y⟩ := x
    rcases order cfg sig n with _ | dir
    · rfl
    · rcases y with _ | ⟨was, e⟩
      · simp [moved]
      · simp only [moved, side_ne_zero, if_false, side_inj]
        by_cases hd : dir = was
        · rw [if_pos hd, if_pos hd.symm]
        · rw [if_neg hd, if_neg (fun h => hd h.symm)]
          cases cfg.continous <;> simp

/-- Trade by trade or tick by tick: the same amount. -/
theorem booked_earned (cfg : StrategyConfig α) (sig : Nat → Option TradeDirection) (f : Nat → K) (t : Nat) (q : K) :
    booked f (deals cfg sig (t + 1)).1 + (match (deals cfg sig (t + 1)).2 with | none => 0 | some (dir, e) => (side dir : K) * (q - f e)) =
      (∑ k ∈ Finset.range t, (held cfg sig (k + 1) : K) * (f (k + 1) - f k)) + (held cfg sig (t + 1) : K) * (q - f t) := by
  have step : ∀ n q, booked f (deals cfg sig (n + 1)).1 +
      (match (deals cfg sig (n + 1)).2 with | none => 0 | some (dir, e) => (side dir : K) * (q - f e)) =
      booked f (deals cfg sig n).1 + (match (deals cfg sig n).2 with | none => 0 | some (dir, e) => (side dir : K) * (f n - f e)) +
      (held cfg sig (n + 1) : K) * (q - f n) := by
    intro n q
    rw [deals_held cfg sig (n + 1), deals_succ]
    generalize deals cfg sig n = x
    obtain ⟨l, y⟩ := x
    rcases order cfg sig n with _ | dir
    · rcases y with _ | ⟨was, e⟩
      · simp
      · simp only
        ring
    · rcases y with _ | ⟨was, e⟩
      · simp
      · simp only
        by_cases hd : dir = was
        · rw [if_pos hd]
          simp only
          ring
        · rw [if_neg hd]
          cases cfg.continous <;> simp [booked, add_assoc]
  induction t generalizing q with
  | zero =>
    rw [step]
    simp [deals, booked]
  | succ t ih => rw [step, ih, Finset.sum_range_succ]

/-- Every position is one unit. -/
theorem ledger_unit (hf : cfg.buyWithEquity = false) (n : Nat) :
    (∀ c ∈ (ledger cfg d sig n).closed, c.pos.size = lit 1) ∧ ∀ x ∈ (ledger cfg d sig n).opened, x.size = lit 1 := by
  induction n with
  | zero => simp [ledger]
  | succ n ih =>
    rw [ledger]
    generalize ledger cfg d sig n = L at ih
    obtain ⟨h1, h2⟩ := ih
    rcases order cfg sig n with _ | dir
    · exact ⟨h1, h2⟩
    · cases hx : L.opened with
      | none =>
        simp only [Ledger.tick, hx, Ledger.enter, hf]
        exact ⟨h1, by rintro x ⟨⟩; rfl⟩
      | some x =>
        simp only [Ledger.tick, hx]
        by_cases hd : dir = x.dir
        · rw [if_pos hd]
          exact ⟨h1, fun y hy => h2 y (by rw [hx] at hy ⊢; exact hy)⟩
        · rw [if_neg hd]
          have h1' : ∀ c ∈ L.closed ++ [⟨x, n, fillPrice cfg d n⟩], c.pos.size = lit 1 := by
            intro c hc
            rcases List.mem_append.mp hc with hc | hc
            · exact h1 c hc
            · simp only [List.mem_singleton] at hc
              subst hc
              exact h2 x hx
          cases cfg.continous
          · exact ⟨h1', by simp⟩
          · simp only [Ledger.enter, hf]
            exact ⟨h1', by rintro y ⟨⟩; rfl⟩

include A L in
/-- The profit of one unit is rounded once. -/
theorem unit_near {x : Holding α} {q : α} {e k M : K} (hs : x.size = lit 1) (hp : V.val x.price = Fl.of R (.fin e))
    (hq : V.val q = Fl.of R (.fin k)) (he : |e| ≤ M) (hk : |k| ≤ M) (ht : 2 * M ≤ top) :
    Near V (x.profit q) ((side x.dir : K) * (k - e)) (u * (2 * M) + η) := by
  have hb : |k - e| ≤ 2 * M := by
    have := abs_sub k e
    linarith
  obtain ⟨w, hw, herr⟩ := A.near (k := k + -e) (l := k - e) (e := 0) (b := 2 * M) (by rw [← sub_eq_add_neg]; simp) hb (by linarith)
  rw [zero_add, add_zero] at herr
  have hid : R.rnd w = .fin w := L.idem _ _ hw
  have h1 : V.val (q - x.price) = Fl.of R (.fin w) := by rw [V.sub, hq, hp]; exact hw
  have h2 : V.val ((q - x.price) * x.size) = Fl.of R (.fin w) := by
    rw [V.mul, h1, hs, V.lit, lit_one L]
    show R.rnd (w * 1) = _
    rw [mul_one]; exact hid
  obtain ⟨dir, tick, price, size⟩ := x
  cases dir
  · refine ⟨w, ?_, ?_⟩
    · simp only [Holding.profit]
      rw [V.mul, h2, V.lit, lit_one L]
      show R.rnd (w * 1) = _
      rw [mul_one]; exact hid
    · simpa [side] using herr
  · refine ⟨-w, ?_, ?_⟩
    · simp only [Holding.profit]
      rw [V.mul, h2, V.neg, V.lit, lit_one L]
      show R.rnd (w * -1) = _
      rw [mul_neg_one, L.odd, hid]
      rfl
    · rw [show side TradeDirection.short = -1 from rfl, ← abs_neg]
      rw [show -(-w - (((-1 : ℤ)) : K) * (k - e)) = w - (k - e) by push_cast; ring]
      exact herr

/-- The bars and the capital are finite floats with the values `o`, `c`, `cap`; no price exceeds `M`. -/
structure Spec.FloatBars (V : Valued R α) (cfg : StrategyConfig α) (d : DataProvider α) (N : Nat) (o c : Nat → K) (cap M : K) : Prop where
  open_ : ∀ t, t < N → ∃ a, d.open_[t]? = some (some a) ∧ V.val a = Fl.of R (.fin (o t)) ∧ |o t| ≤ M
  close : ∀ t, t < N → ∃ a, d.close[t]? = some (some a) ∧ V.val a = Fl.of R (.fin (c t)) ∧ |c t| ≤ M
  capital : V.val cfg.initialCapital = Fl.of R (.fin cap)

variable {o c : Nat → K} {cap M : K}

theorem Spec.FloatBars.fill (hb : FloatBars V cfg d N o c cap M) {t : Nat} (ht : t < N) :
    V.val (fillPrice cfg d t) = Fl.of R (.fin (fillSeries cfg o c t)) ∧ |fillSeries cfg o c t| ≤ M := by
  obtain ⟨a, h1, h2, h3⟩ := hb.open_ t ht
  obtain ⟨b, k1, k2, k3⟩ := hb.close t ht
  unfold fillPrice fillSeries
  cases cfg.onBarClose
  · simp only [h1, Bool.false_eq_true, if_false, Option.join_some, Option.getD_some]
    exact ⟨h2, h3⟩
  · simp only [k1, if_true, Option.join_some, Option.getD_some]
    exact ⟨k2, k3⟩

theorem booked_take (cfg : StrategyConfig α) (sig : Nat → Option TradeDirection) (n : Nat) :
    ∀ p, p <+: (deals cfg sig n).1 → ∃ m, m ≤ n ∧ p = (deals cfg sig m).1 := by
  induction n with
  | zero =>
    intro p hp
    exact ⟨0, le_rfl, by simpa [deals] using hp⟩
  | succ n ih =>
    intro p hp
    by_cases he : (deals cfg sig (n + 1)).1 = (deals cfg sig n).1
    · rw [he] at hp
      obtain ⟨m, hm, h⟩ := ih p hp
      exact ⟨m, by omega, h⟩
    · obtain ⟨x, hx⟩ : ∃ x, (deals cfg sig (n + 1)).1 = (deals cfg sig n).1 ++ [x] := by
        rw [deals_succ] at he ⊢
        generalize deals cfg sig n = x at he ⊢
        obtain ⟨l, y⟩ := x
        generalize order cfg sig n = u at he ⊢
        rcases u with _ | dir
        · exact absurd rfl he
        · rcases y with _ | ⟨was, e⟩
          · exact absurd rfl he
          · simp only at he ⊢
            by_cases hd : dir = was
            · rw [if_pos hd] at he
              exact absurd rfl he
            · rw [if_neg hd]
              exact ⟨_, rfl⟩
      rw [hx, List.prefix_concat_iff] at hp
      rcases hp with hp | hp
      · exact ⟨n + 1, le_rfl, by rw [hx, hp]⟩
      · obtain ⟨m, hm, h⟩ := ih p hp
        exact ⟨m, by omega, h⟩

theorem deals_length_le (cfg : StrategyConfig α) (sig : Nat → Option TradeDirection) (n : Nat) : (deals cfg sig n).1.length ≤ n := by
  induction n with
  | zero => simp [deals]
  | succ n ih =>
    rw [deals_succ]
    generalize deals cfg sig n = x at ih ⊢
    obtain ⟨l, y⟩ := x
    simp only at ih ⊢
    rcases order cfg sig n with _ | dir
    · exact ih.trans (Nat.le_succ n)
    · rcases y with _ | ⟨was, e⟩
      · exact ih.trans (Nat.le_succ n)
      · simp only
        by_cases hd : dir = was
        · rw [if_pos hd]
          exact ih.trans (Nat.le_succ n)
        · rw [if_neg hd]
          simpa using ih

include A L in
theorem net_near (H : Backtest cfg d sig N st) (hb : FloatBars V cfg d N o c cap M) (hf : cfg.buyWithEquity = false) {W : K}
    (hW : ∀ n, n ≤ N → |cap| + |booked (fillSeries cfg o c) (deals cfg sig n).1| + 2 * M ≤ W) (hn : ((N : K) + 2) * u ≤ 1)
    (htop : 8 * W + 7 * (N + 2) * η ≤ top) {t : Nat} (ht : t < N) :
    Near V (st t).metrics.netProfit (booked (fillSeries cfg o c) (deals cfg sig (t + 1)).1)
      (drift u (3 * (u * W + η)) (deals cfg sig (t + 1)).1.length) := by
  have hu := A.u_nonneg
  have hη := A.η_nonneg
  have hu1 := A.u_small
  have hM : 0 ≤ M := (abs_nonneg _).trans (hb.fill ht).2
  have hW0 : 0 ≤ W := by
    have := hW 0 (by omega)
    have := abs_nonneg cap
    have := abs_nonneg (booked (fillSeries cfg o c) (deals cfg sig 0).1)
    linarith
  have h2M : 2 * M ≤ W := by
    have := hW 0 (by omega)
    have := abs_nonneg cap
    have := abs_nonneg (booked (fillSeries cfg o c) (deals cfg sig 0).1)
    linarith
  have hNη : 0 ≤ (N + 2 : K) * η := by positivity
  have hd := backtest_done H t ht
  obtain ⟨hc, _⟩ := ledger_onTime cfg d sig (t + 1)
  obtain ⟨hs, _⟩ := ledger_unit (cfg := cfg) (d := d) (sig := sig) hf (t + 1)
  have hnet : (st t).metrics.netProfit = fsum ((ledger cfg d sig (t + 1)).closed.map Closed.profit) := hd.books.netProfit
  have hlen : (ledger cfg d sig (t + 1)).closed.length = (deals cfg sig (t + 1)).1.length := by
    have := congrArg List.length hc
    simpa using this
  have hex := deals_exit_lt cfg sig (t + 1)
  have hent : ∀ n, (∀ x ∈ (deals cfg sig n).1, x.entry < n) ∧ ∀ y ∈ (deals cfg sig n).2, y.2 < n := by
    intro n
    induction n with
    | zero => simp [deals]
    | succ n ih =>
      refine ⟨?_, (deals_exit_lt cfg sig (n + 1)).2⟩
      rw [deals_succ]
      generalize deals cfg sig n = x at ih ⊢
      obtain ⟨l, y⟩ := x
      obtain ⟨h1, h2⟩ := ih
      simp only at h1 h2 ⊢
      have h1' : ∀ x ∈ l, x.entry < n + 1 := fun x hx => (h1 x hx).trans (Nat.lt_succ_self n)
      rcases order cfg sig n with _ | dir
      · exact h1'
      · rcases y with _ | ⟨was, e⟩
        · exact h1'
        · simp only
          by_cases hd : dir = was
          · rw [if_pos hd]; exact h1'
          · rw [if_neg hd]
            intro x hx
            rcases List.mem_append.mp hx with hx | hx
            · exact h1' x hx
            · simp only [List.mem_singleton] at hx
              subst hx
              exact (h2 (was, e) rfl).trans (Nat.lt_succ_self n)
  have hzip : (ledger cfg d sig (t + 1)).closed.map Closed.profit =
      (((ledger cfg d sig (t + 1)).closed.zip (deals cfg sig (t + 1)).1).map fun y =>
        (y.1.profit, (side y.2.dir : K) * (fillSeries cfg o c y.2.exit - fillSeries cfg o c y.2.entry))).map Prod.fst := by
    rw [List.map_map, show (Prod.fst ∘ fun y : Closed α × Deal =>
        (y.1.profit, (side y.2.dir : K) * (fillSeries cfg o c y.2.exit - fillSeries cfg o c y.2.entry))) = Closed.profit ∘ Prod.fst from rfl,
      ← List.map_map, List.map_fst_zip (by rw [hlen])]
  have hsnd : (((ledger cfg d sig (t + 1)).closed.zip (deals cfg sig (t + 1)).1).map fun y =>
        (y.1.profit, (side y.2.dir : K) * (fillSeries cfg o c y.2.exit - fillSeries cfg o c y.2.entry))).map Prod.snd =
      (deals cfg sig (t + 1)).1.map fun x => (side x.dir : K) * (fillSeries cfg o c x.exit - fillSeries cfg o c x.entry) := by
    rw [List.map_map, show (Prod.snd ∘ fun y : Closed α × Deal =>
        (y.1.profit, (side y.2.dir : K) * (fillSeries cfg o c y.2.exit - fillSeries cfg o c y.2.entry))) =
        (fun x : Deal => (side x.dir : K) * (fillSeries cfg o c x.exit - fillSeries cfg o c x.entry)) ∘ Prod.snd from rfl,
      ← List.map_map, List.map_snd_zip (by rw [hlen])]
  have hzl : (((ledger cfg d sig (t + 1)).closed.zip (deals cfg sig (t + 1)).1).map fun y =>
        (y.1.profit, (side y.2.dir : K) * (fillSeries cfg o c y.2.exit - fillSeries cfg o c y.2.entry))).length =
      (deals cfg sig (t + 1)).1.length := by
    rw [List.length_map, List.length_zip, hlen, min_self]
  have hln : ((deals cfg sig (t + 1)).1.length : K) ≤ N := by exact_mod_cast (deals_length_le cfg sig (t + 1)).trans ht
  have hlu : ((deals cfg sig (t + 1)).1.length : K) * u ≤ N * u := mul_le_mul_of_nonneg_right hln hu
  have hle : ((deals cfg sig (t + 1)).1.length : K) * η ≤ N * η := mul_le_mul_of_nonneg_right hln hη
  have hlu1 : ((deals cfg sig (t + 1)).1.length : K) * u ≤ 1 := by linarith
  have hluW : ((deals cfg sig (t + 1)).1.length : K) * u * W ≤ 1 * W := mul_le_mul_of_nonneg_right hlu1 hW0
  have hu2M : u * (2 * M) ≤ u * W := mul_le_mul_of_nonneg_left h2M hu
  have huW : u * W ≤ 1 / 1024 * W := mul_le_mul_of_nonneg_right hu1 hW0
  have hD : (1 + u) * (u * (2 * M) + η) + u * W + η ≤ 3 * (u * W + η) := by
    have h0 : 0 ≤ u * W + η := by positivity
    have : (1 + u) * (u * (2 * M) + η) ≤ 2 * (u * W + η) := mul_le_mul (by linarith) (by linarith) (by positivity) (by norm_num)
    linarith
  have hlD : ((deals cfg sig (t + 1)).1.length : K) * ((1 + u) * (u * (2 * M) + η) + u * W + η) ≤
      (deals cfg sig (t + 1)).1.length * (3 * (u * W + η)) := mul_le_mul_of_nonneg_left hD (Nat.cast_nonneg _)
  have h := fsum_near A L (V := V) (δ := u * (2 * M) + η) (W := W) (by positivity) hW0
    (((ledger cfg d sig (t + 1)).closed.zip (deals cfg sig (t + 1)).1).map fun y =>
        (y.1.profit, (side y.2.dir : K) * (fillSeries cfg o c y.2.exit - fillSeries cfg o c y.2.entry))) ?_ ?_ (by rw [hzl]; exact hlu1)
    (by rw [hzl]; nlinarith)
  · rw [← hzip, ← hnet, hsnd, hzl] at h
    refine Near.mono h ?_
    generalize (deals cfg sig (t + 1)).1.length = m
    induction m with
    | zero => exact le_rfl
    | succ m ih =>
      show (1 + u) * _ + _ ≤ (1 + u) * _ + _
      have := mul_le_mul_of_nonneg_left ih (show 0 ≤ 1 + u by linarith)
      linarith
  · intro y hy
    obtain ⟨⟨a, b⟩, hab, rfl⟩ := List.mem_map.mp hy
    obtain ⟨i, hi, hab'⟩ := List.mem_iff_getElem.mp hab
    have hi1 : i < (ledger cfg d sig (t + 1)).closed.length := by rw [List.length_zip] at hi; omega
    have hi2 : i < (deals cfg sig (t + 1)).1.length := by omega
    rw [List.getElem_zip, Prod.mk.injEq] at hab'
    obtain ⟨rfl, rfl⟩ := hab'
    have hci : ((ledger cfg d sig (t + 1)).closed.map (fun c => (c.pos.dir, c.pos.tick, c.pos.price, c.exitTick, c.exitPrice)))[i]? =
        ((deals cfg sig (t + 1)).1.map (fun y => (y.dir, y.entry, fillPrice cfg d y.entry, y.exit, fillPrice cfg d y.exit)))[i]? := by rw [hc]
    rw [List.getElem?_map, List.getElem?_map, List.getElem?_eq_getElem hi1, List.getElem?_eq_getElem hi2, Option.map_some, Option.map_some,
      Option.some.injEq, Prod.mk.injEq, Prod.mk.injEq, Prod.mk.injEq, Prod.mk.injEq] at hci
    obtain ⟨e1, e2, e3, e4, e5⟩ := hci
    have m1 := List.getElem_mem hi1
    have m2 := List.getElem_mem hi2
    generalize (ledger cfg d sig (t + 1)).closed[i] = a at *
    generalize (deals cfg sig (t + 1)).1[i] = b at *
    obtain ⟨p1, p2⟩ := hb.fill (show b.entry < N by have := (hent (t + 1)).1 b m2; omega)
    obtain ⟨q1, q2⟩ := hb.fill (show b.exit < N by have := hex.1 b m2; omega)
    have := unit_near A L (V := V) (x := a.pos) (q := a.exitPrice) (hs a m1) (by rw [e3]; exact p1) (by rw [e5]; exact q1) p2 q2 (by linarith)
    rw [e1] at this
    exact this
  · intro p hp
    have hp' : p.map Prod.snd <+: (deals cfg sig (t + 1)).1.map fun x => (side x.dir : K) * (fillSeries cfg o c x.exit - fillSeries cfg o c x.entry) := by
      rw [← hsnd]
      exact hp.map _
    obtain ⟨q, hq⟩ := hp'
    obtain ⟨a, b, hab, h1, _⟩ := List.map_eq_append_iff.mp hq.symm
    obtain ⟨m, hm, hma⟩ := booked_take cfg sig (t + 1) a ⟨b, hab.symm⟩
    have := hW m (by omega)
    rw [← hma, booked, h1] at this
    have := abs_nonneg cap
    linarith

include A L in
/-- **C83.** One unit per trade, prices up to `M`, and `W` at least capital plus booked profit plus `2 M` at all times: after every tick the reported
net profit is within `6 n (u W + η)` of the exact one, and the equity within `6 (n + 2) (u W + η)` of capital plus position times price
change, where `n` is the number of closed trades. -/
theorem C83_equity (H : Backtest cfg d sig N st) (hb : FloatBars V cfg d N o c cap M) (hf : cfg.buyWithEquity = false) {W : K}
    (hW : ∀ n, n ≤ N → |cap| + |booked (fillSeries cfg o c) (deals cfg sig n).1| + 2 * M ≤ W) (hn : ((N : K) + 2) * u ≤ 1)
    (htop : 8 * W + 7 * (N + 2) * η ≤ top) {t : Nat} (ht : t < N) :
    Near V (st t).metrics.netProfit (booked (fillSeries cfg o c) (deals cfg sig (t + 1)).1)
      (6 * (st t).metrics.closedTrades * (u * W + η)) ∧
    Near V (st t).metrics.equity (cap + earned (fun k => held cfg sig (k + 1)) (fillSeries cfg o c) c t)
      (6 * ((st t).metrics.closedTrades + 2) * (u * W + η)) := by
  have hu := A.u_nonneg
  have hη := A.η_nonneg
  have hu1 := A.u_small
  have hM : 0 ≤ M := (abs_nonneg _).trans (hb.fill ht).2
  have hWt := hW (t + 1) ht
  have hnet := net_near A L H hb hf hW hn htop ht
  have hd := backtest_done H t ht
  have hct : (st t).metrics.closedTrades = (deals cfg sig (t + 1)).1.length := by
    have h1 := congrArg List.length (ledger_onTime cfg d sig (t + 1)).closed
    rw [List.length_map, List.length_map] at h1
    rw [(C40_statistics H ht).closedTrades, C39_refines H ht, Ledger.trades, List.filter_append]
    rw [← h1]
    have e1 : ((ledger cfg d sig (t + 1)).closed.map Closed.toTrade).filter (·.isClosed) = (ledger cfg d sig (t + 1)).closed.map Closed.toTrade := by
      rw [List.filter_eq_self]
      intro T hT
      obtain ⟨c, _, rfl⟩ := List.mem_map.mp hT
      rfl
    have e2 : ((ledger cfg d sig (t + 1)).opened.map Holding.toTrade).toList.filter (·.isClosed) = [] := by
      cases (ledger cfg d sig (t + 1)).opened <;> simp [Holding.toTrade]
    rw [e1, e2]
    simp
  rw [hct]
  have hln : ((deals cfg sig (t + 1)).1.length : K) ≤ N := by exact_mod_cast (deals_length_le cfg sig (t + 1)).trans ht
  have hto := booked_earned cfg sig (fillSeries cfg o c) t (c t)
  generalize hB : booked (fillSeries cfg o c) (deals cfg sig (t + 1)).1 = B at *
  generalize (deals cfg sig (t + 1)).1.length = m at *
  have hcap := abs_nonneg cap
  have hBn := abs_nonneg B
  have hW0 : 0 ≤ W := by linarith
  have hε : 0 ≤ u * W + η := by positivity
  have hu2M : u * (2 * M) ≤ u * W := mul_le_mul_of_nonneg_left (by linarith) hu
  have huW : u * W ≤ 1 / 1024 * W := mul_le_mul_of_nonneg_right hu1 hW0
  have hmu : ((m + 2 : Nat) : K) * u ≤ 1 := by
    push_cast
    have := mul_le_mul_of_nonneg_right (show (m : K) + 2 ≤ N + 2 by linarith) hu
    linarith
  have hmη : ((m : K) + 2) * η ≤ (N + 2) * η := mul_le_mul_of_nonneg_right (by linarith) hη
  have hd0 := drift_le hu (show 0 ≤ 3 * (u * W + η) by positivity) (k := m) (by push_cast at hmu; nlinarith)
  have hd1 := drift_le hu (show 0 ≤ 3 * (u * W + η) by positivity) (k := m + 1) (by push_cast at hmu ⊢; nlinarith)
  have hd2 := drift_le hu (show 0 ≤ 3 * (u * W + η) by positivity) (k := m + 2) hmu
  have hD1 : drift u (3 * (u * W + η)) (m + 1) = (1 + u) * drift u (3 * (u * W + η)) m + 3 * (u * W + η) := rfl
  have hD2 : drift u (3 * (u * W + η)) (m + 2) = (1 + u) * drift u (3 * (u * W + η)) (m + 1) + 3 * (u * W + η) := rfl
  have hroom : 6 * ((m : K) + 2) * (u * W + η) ≤ 6 * W + 6 * (N + 2) * η := by
    have h1 : ((m : K) + 2) * u * W ≤ 1 * W := mul_le_mul_of_nonneg_right (by push_cast at hmu; linarith) hW0
    nlinarith
  have hm0 : (0 : K) ≤ m := Nat.cast_nonneg m
  push_cast at hd1 hd2
  have hNη : 0 ≤ (N + 2 : K) * η := by positivity
  have hη1 : η ≤ (N + 2 : K) * η := by
    have : (0 : K) ≤ N := Nat.cast_nonneg N
    nlinarith
  refine ⟨hnet.mono (by linarith), ?_⟩
  have hdm0 : 0 ≤ drift u (3 * (u * W + η)) m := drift_nonneg hu (by positivity) m
  have hdm1 : drift u (3 * (u * W + η)) m ≤ drift u (3 * (u * W + η)) (m + 1) := drift_mono hu (by positivity) m
  have hdm2 : drift u (3 * (u * W + η)) (m + 1) ≤ drift u (3 * (u * W + η)) (m + 2) := drift_mono hu (by positivity) (m + 1)
  have hcapN : Near V cfg.initialCapital cap 0 := ⟨cap, hb.capital, by simp⟩
  have hb1 : |cap + B| ≤ |cap| + |B| := abs_add_le _ _
  have hsum : Near V (cfg.initialCapital + (st t).metrics.netProfit) (cap + B) (drift u (3 * (u * W + η)) (m + 1)) := by
    refine (Near.add A hcapN hnet (m := W) (by linarith) (by linarith)).mono ?_
    rw [hD1]
    linarith
  obtain ⟨δ, p, hδ0, hδ, hp, hpe, hpb⟩ : ∃ δ p : K, 0 ≤ δ ∧ δ ≤ u * W + η ∧ Near V (st t).metrics.openProfit p δ ∧
      B + p = earned (fun k => held cfg sig (k + 1)) (fillSeries cfg o c) c t ∧ |p| ≤ 2 * M := by
    have hheld := deals_held cfg sig (t + 1)
    obtain ⟨-, hop⟩ := ledger_onTime cfg d sig (t + 1)
    obtain ⟨-, hsz⟩ := ledger_unit (cfg := cfg) (d := d) (sig := sig) hf (t + 1)
    rcases hy : (deals cfg sig (t + 1)).2 with _ | ⟨dir, e⟩
    · rw [hy] at hto hop
      refine ⟨0, 0, le_rfl, hε, ⟨0, ?_, by simp⟩, ?_, by simpa using hM⟩
      · rw [hd.books.flat (show (ledger cfg d sig (t + 1)).opened = none by simpa using hop), V.lit, lit_zero L]
      · rw [earned]; exact hto
    · rw [hy] at hto hop
      obtain ⟨x, hx, hxe⟩ : ∃ x, (ledger cfg d sig (t + 1)).opened = some x ∧ (x.dir, x.tick, x.price) = (dir, e, fillPrice cfg d e) := by
        simpa [Option.map_eq_some_iff] using hop
      simp only [Prod.mk.injEq] at hxe
      obtain ⟨rfl, -, e3⟩ := hxe
      obtain ⟨q, hq, hoq⟩ := hd.openProfit x hx
      obtain ⟨a, ha1, ha2, ha3⟩ := hb.close t ht
      rw [hq] at ha1
      cases ha1
      obtain ⟨p1, p2⟩ := hb.fill (show e < N by
        have := (deals_exit_lt cfg sig (t + 1)).2 (x.dir, e) (by rw [hy]; rfl)
        omega)
      refine ⟨u * (2 * M) + η, (side x.dir : K) * (c t - fillSeries cfg o c e), by positivity, by linarith, ?_, ?_, ?_⟩
      · rw [hoq]
        exact unit_near A L (hsz x (by rw [hx]; rfl)) (by rw [e3]; exact p1) ha2 p2 ha3 (by linarith)
      · rw [earned]; exact hto
      · have : |c t - fillSeries cfg o c e| ≤ 2 * M := by
          have := abs_sub (c t) (fillSeries cfg o c e)
          linarith
        cases x.dir <;> simp only [side] <;> push_cast
        · rwa [one_mul]
        · rwa [neg_one_mul, abs_neg]
  rw [hd.equity, ← hpe, ← add_assoc]
  have hb2 : |cap + B + p| ≤ W := (abs_add_le _ _).trans (by linarith)
  refine (Near.add A hsum hp (m := W) hb2 (by linarith)).mono ?_
  have : u * δ ≤ u * W + η := by
    have := mul_le_mul_of_nonneg_right hu1 hδ0
    linarith
  have h5 : drift u (3 * (u * W + η)) (m + 1) + δ + u * (W + (drift u (3 * (u * W + η)) (m + 1) + δ)) + η ≤ drift u (3 * (u * W + η)) (m + 2) := by
    rw [hD2]
    linarith
  linarith

end unit

/-! ## IEEE binary64 -/
section binary64
variable {cfg : StrategyConfig B64} {d : DataProvider B64} {sig : Nat → Option TradeDirection} {N : Nat} {st : Nat → Strategy B64}

/-- **C83.** In binary64, for runs of up to `2^40 - 2` bars and amounts `W` up to `2^900`, one unit per trade: net profit and equity are within
`6 n (2^-53 W + 2^-1075)` and `6 (n + 2) (2^-53 W + 2^-1075)` of the exact ones, `n` the number of closed trades. -/
theorem C83_equity_binary64 (H : Backtest cfg d sig N st) {o c : Nat → ℝ} {cap M : ℝ} (hb : FloatBars (Sf.valued _) cfg d N o c cap M)
    (hf : cfg.buyWithEquity = false) {W : ℝ}
    (hW : ∀ n, n ≤ N → |cap| + |booked (fillSeries cfg o c) (deals cfg sig n).1| + 2 * M ≤ W) (hW' : W ≤ (2 : ℝ) ^ (900 : ℤ))
    (hN : N + 2 ≤ 2 ^ 40) {t : Nat} (ht : t < N) :
    Near (Sf.valued _) (st t).metrics.netProfit (booked (fillSeries cfg o c) (deals cfg sig (t + 1)).1)
      (6 * (st t).metrics.closedTrades * (b64u * W + b64η)) ∧
    Near (Sf.valued _) (st t).metrics.equity (cap + earned (fun k => held cfg sig (k + 1)) (fillSeries cfg o c) c t)
      (6 * ((st t).metrics.closedTrades + 2) * (b64u * W + b64η)) := by
  have A : (Rounding.binary64 ℝ).Accurate b64u b64η ((2 : ℝ) ^ (1023 : ℤ)) := binary64_accurate ℝ
  have hM : 0 ≤ M := (abs_nonneg _).trans (hb.fill ht).2
  have hW0 : 0 ≤ W := by
    have := hW 0 (by omega)
    have := abs_nonneg cap
    have := abs_nonneg (booked (fillSeries cfg o c) (deals cfg sig 0).1)
    linarith
  obtain ⟨a1, a2, a3⟩ := b64_room hN hW0 hW'
  push_cast at a1 a2 a3
  have h0 : (0 : ℝ) < (2 : ℝ) ^ (1023 : ℤ) := Binary64.two_zpow_pos _
  refine C83_equity A (binary64_lawful ℝ) H hb hf hW (by linarith) ?_ ht
  have h2 : 2 * W ≤ ((N : ℝ) + 2) * W := mul_le_mul_of_nonneg_right (by have : (0 : ℝ) ≤ N := Nat.cast_nonneg N; linarith) hW0
  generalize (2 : ℝ) ^ (1023 : ℤ) = T at *
  linarith

/-- **C83.** In binary64, whatever the sizes, for up to `2^40` closed trades with finite recorded profits whose absolute values add up to at most
`W <= 2^900`: the profit identities hold up to `6 n (2^-53 W + 2^-1075)`. -/
theorem C83_identities_binary64 (H : Backtest cfg d sig N st) {t : Nat} (ht : t < N) (k : Trade B64 → ℝ)
    (hk : ∀ T ∈ (st t).trades, T.isClosed = true → T.pnlField.val = Fl.of _ (.fin (k T))) {W : ℝ}
    (hW : (((st t).trades.filter (·.isClosed)).map fun T => |k T|).sum ≤ W) (hW' : W ≤ (2 : ℝ) ^ (900 : ℤ))
    (hn : (st t).metrics.closedTrades ≤ 2 ^ 40) :
    ∃ net gross loss long short : ℝ, (st t).metrics.netProfit.val = Fl.of _ (.fin net) ∧
      (st t).metrics.grossProfit.val = Fl.of _ (.fin gross) ∧ (st t).metrics.grossLoss.val = Fl.of _ (.fin loss) ∧
      (st t).metrics.longNetProfit.val = Fl.of _ (.fin long) ∧ (st t).metrics.shortNetProfit.val = Fl.of _ (.fin short) ∧
      |net - (gross - loss)| ≤ 6 * (st t).metrics.closedTrades * (b64u * W + b64η) ∧
      |net - (long + short)| ≤ 6 * (st t).metrics.closedTrades * (b64u * W + b64η) := by
  have A : (Rounding.binary64 ℝ).Accurate b64u b64η ((2 : ℝ) ^ (1023 : ℤ)) := binary64_accurate ℝ
  have hW0 : 0 ≤ W := (List.sum_nonneg (by simp only [List.mem_map]; rintro _ ⟨y, _, rfl⟩; exact abs_nonneg _)).trans hW
  obtain ⟨a1, a2, a3⟩ := b64_room hn hW0 hW'
  obtain ⟨b1, b2, b3⟩ := b64_room (show 3 ≤ 2 ^ 40 by norm_num) hW0 hW'
  push_cast at b2
  have h0 : (0 : ℝ) < (2 : ℝ) ^ (1023 : ℤ) := Binary64.two_zpow_pos _
  refine C83_identities A (binary64_lawful ℝ) (V := Sf.valued _) H ht k hk hW (by linarith) ?_
  generalize (2 : ℝ) ^ (1023 : ℤ) = T at *
  linarith

/-- Five bars in binary64, opens 9, 10, 12, 14, 15. -/
noncomputable def b64Bars : DataProvider B64 :=
  .ofSeries 5 (fun t => some (lit (([9, 10, 12, 14, 15].getD t 0 : Nat) : ℚ))) (fun t => some (lit (([11, 13, 14, 16, 17].getD t 0 : Nat) : ℚ)))
    (fun t => some (lit (([8, 9, 11, 13, 12].getD t 0 : Nat) : ℚ))) (fun t => some (lit (([10, 12, 13, 15, 14].getD t 0 : Nat) : ℚ)))
    (fun _ => some (lit 1))

/-- The run of C81 in binary64 meets the hypotheses with `M = 15` and `W = 132`. -/
theorem b64Unit_run : ∃ (cfg : StrategyConfig B64) (st : Nat → Strategy B64), cfg = ⟨false, true, lit ((100 : Nat) : ℚ), false⟩ ∧
    cfg.buyWithEquity = false ∧ Backtest cfg b64Bars exSig 5 st ∧ FloatBars (Sf.valued _) cfg b64Bars 5 (fun t => ([9, 10, 12, 14, 15].getD t 0 : Nat)) (fun t => ([10, 12, 13, 15, 14].getD t 0 : Nat)) 100 15 ∧
    ∀ n, n ≤ 5 → |(100 : ℝ)| + |booked (fillSeries cfg (fun t => (([9, 10, 12, 14, 15].getD t 0 : Nat) : ℝ))
      (fun t => (([10, 12, 13, 15, 14].getD t 0 : Nat) : ℝ))) (deals cfg exSig n).1| + 2 * 15 ≤ 132 := by
  obtain ⟨st, H⟩ : ∃ st, Backtest (⟨false, true, lit ((100 : Nat) : ℚ), false⟩ : StrategyConfig B64) b64Bars exSig 5 st :=
    C57_strategy_complete _ exSig (bars_ofSeries 5 _ _ _ _ _)
  refine ⟨_, st, rfl, rfl, H, ⟨fun t ht => ?_, fun t ht => ?_, ?_⟩, ?_⟩
  · refine ⟨lit (([9, 10, 12, 14, 15].getD t 0 : Nat) : ℚ), hasCol_hist 5 (fun t => some (lit (([9, 10, 12, 14, 15].getD t 0 : Nat) : ℚ))) t ht, ?_, ?_⟩
    · refine (val_lit_nat (V := Sf.valued _) (binary64_lawful ℝ) ?_).trans rfl
      interval_cases t <;> norm_num
    · interval_cases t <;> norm_num
  · refine ⟨lit (([10, 12, 13, 15, 14].getD t 0 : Nat) : ℚ), hasCol_hist 5 (fun t => some (lit (([10, 12, 13, 15, 14].getD t 0 : Nat) : ℚ))) t ht, ?_, ?_⟩
    · refine (val_lit_nat (V := Sf.valued _) (binary64_lawful ℝ) ?_).trans rfl
      interval_cases t <;> norm_num
    · interval_cases t <;> norm_num
  · refine (val_lit_nat (V := Sf.valued _) (binary64_lawful ℝ) (n := 100) (by norm_num)).trans ?_
    norm_num
  · intro n hn
    have hdl : ∀ n, n ≤ 5 → (deals (⟨false, true, lit ((100 : Nat) : ℚ), false⟩ : StrategyConfig B64) exSig n).1 =
        [[], [], [], [⟨.short, 1, 2⟩], [⟨.short, 1, 2⟩], [⟨.short, 1, 2⟩, ⟨.long, 2, 4⟩]].getD n [] := by
      intro n hn
      interval_cases n <;> simp [deals, order, exSig]
    rw [hdl n hn]
    interval_cases n <;> norm_num [booked, fillSeries, side, abs_le]

end binary64

end Pace
