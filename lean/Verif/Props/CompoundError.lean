import Verif.Props.BookError

/-!
# C83 for equity-sized trades: rounding errors do not compound faster than the equity

With `buy_with_equity = true` the size of a trade is computed from the equity, so that an error in the equity is multiplied by the growth
of every later trade.  But so is the equity itself: the *relative* error grows only linearly with the number of trades.
-/

set_option linter.unusedSectionVars false

namespace Pace
open Spec
variable {K : Type} [Field K] [LinearOrder K] [IsStrictOrderedRing K] [RootOps K] {R : Rounding K}
variable {α : Type} [F64 α] {V : Valued R α} {u η top : K} (A : R.Accurate u η top) (L : R.Lawful)

/-- The numbers stay far from overflow and underflow: amounts up to `W`, prices between `m` and `M`, relative price changes up to `ρ`. -/
structure Spec.FarFromLimits (u η top ρ W m M : K) : Prop where
  change : 0 ≤ ρ
  amount : 0 < W
  price : 0 < m
  amounts : 16 * ((1 + ρ) * W) ≤ top
  prices : 2 * M + ρ * M ≤ top
  sizes : 4 * (W / m) ≤ top
  small_amount : η ≤ u * W
  small_price : M * η ≤ u * W
  small_size : W / m * η ≤ u * W

section one
variable {ρ W m M : K} (F : FarFromLimits u η top ρ W m M)

include A L F in
/-- Entering: the float size times the entry price is the equity up to `8 u W`. -/
theorem size_near {capf real price : α} {cap n p : K} (hcap : V.val capf = Fl.of R (.fin cap)) (hreal : V.val real = Fl.of R (.fin n))
    (hprice : V.val price = Fl.of R (.fin p)) (hpm : m ≤ p) (hpM : p ≤ M) (hw : 5 * (u * W) < cap + n) (hwW : cap + n ≤ W) :
    ∃ z, V.val (if (F64.le (capf + real + lit 0) (lit 0) || F64.le price (lit 0) : Bool) then (lit 0 : α) else (capf + real + lit 0) / price) =
      Fl.of R (.fin z) ∧ |z * p - (cap + n)| ≤ 8 * (u * W) := by
  have hu := A.u_nonneg
  have hη := A.η_nonneg
  have hW0 := F.amount
  have ha : 0 ≤ u * W := mul_nonneg hu hW0.le
  have hua : u * (u * W) ≤ 1 / 1024 * (u * W) := mul_le_mul_of_nonneg_right A.u_small ha
  have haW : u * W ≤ 1 / 1024 * W := mul_le_mul_of_nonneg_right A.u_small hW0.le
  have hs := F.small_amount
  have htop : 16 * W ≤ top := by
    have := mul_nonneg F.change hW0.le
    have := F.amounts
    linarith
  have hp0 : 0 < p := F.price.trans_le hpm
  have h0 : 0 < cap + n := by linarith
  have habs : |cap + n| ≤ W := by rw [abs_of_pos h0]; exact hwW
  have e1 : Near V (capf + real) (cap + n) (2 * (u * W)) := by
    refine (Near.add A (⟨cap, hcap, by simp⟩ : Near V capf cap 0) (⟨n, hreal, by simp⟩ : Near V real n 0) (m := W) habs (by linarith)).mono ?_
    linarith
  have hz : Near V (lit 0 : α) 0 0 := ⟨0, by rw [V.lit, lit_zero L], by simp⟩
  have e2 : Near V (capf + real + lit 0) (cap + n) (5 * (u * W)) := by
    have := Near.add A e1 hz (m := W) (by rw [add_zero]; exact habs) (by linarith)
    rw [add_zero] at this
    refine this.mono ?_
    linarith
  obtain ⟨v, hv, hverr⟩ := e2
  have hv0 : 0 < v := by rw [abs_le] at hverr; linarith
  have c1 : F64.le (capf + real + lit 0) (lit 0 : α) = false := by
    rw [V.le, hv, V.lit, lit_zero L]
    exact decide_eq_false (not_le.mpr hv0)
  have c2 : F64.le price (lit 0 : α) = false := by
    rw [V.le, hprice, V.lit, lit_zero L]
    exact decide_eq_false (not_le.mpr hp0)
  rw [c1, c2]
  have hWp : W / p ≤ W / m := div_le_div_of_nonneg_left hW0.le F.price hpm
  have haW' : 5 * (u * W) / p ≤ W / p := div_le_div_of_nonneg_right (by linarith) hp0.le
  have hsz := F.sizes
  obtain ⟨z, hz1, hz2⟩ := Near.div A hp0 (⟨v, hv, hverr⟩ : Near V (capf + real + lit 0) (cap + n) (5 * (u * W))) hprice (m := W / p)
    (by rw [abs_div, abs_of_pos hp0]; exact div_le_div_of_nonneg_right habs hp0.le) (by
      have : 0 ≤ W / m := (div_pos hW0 F.price).le
      linarith)
  refine ⟨z, hz1, ?_⟩
  have hx : |z * p - (cap + n)| = |z - (cap + n) / p| * p := by
    rw [← abs_of_pos hp0, ← abs_mul, abs_of_pos hp0]
    congr 1
    field_simp
  rw [hx]
  refine (mul_le_mul_of_nonneg_right hz2 hp0.le).trans ?_
  have e3 : (5 * (u * W) / p + u * (W / p + 5 * (u * W) / p) + η) * p = 5 * (u * W) + u * (W + 5 * (u * W)) + p * η := by
    field_simp
  rw [e3]
  have hpη : p * η ≤ M * η := mul_le_mul_of_nonneg_right hpM hη
  have := F.small_price
  linarith

include A L F in
/-- A position for the equity `w` at price `q`: the float profit is `w` times growth minus 1, up to `16 (1 + ρ) u W`. -/
theorem profit_near {x : Holding α} {q : α} {p k z w : K} (hp : V.val x.price = Fl.of R (.fin p)) (hq : V.val q = Fl.of R (.fin k))
    (hs : V.val x.size = Fl.of R (.fin z)) (hpm : m ≤ p) (hpM : p ≤ M) (hw0 : 0 ≤ w) (hwW : w ≤ W) (hz : |z * p - w| ≤ 8 * (u * W))
    (hch : |k - p| ≤ ρ * p) :
    Near V (x.profit q) (w * growth x.dir p k - w) (16 * ((1 + ρ) * (u * W))) := by
  have hu := A.u_nonneg
  have hη := A.η_nonneg
  have hW0 := F.amount
  have hρ := F.change
  have ha : 0 ≤ u * W := mul_nonneg hu hW0.le
  have hua : u * (u * W) ≤ 1 / 1024 * (u * W) := mul_le_mul_of_nonneg_right A.u_small ha
  have haW : u * W ≤ 1 / 1024 * W := mul_le_mul_of_nonneg_right A.u_small hW0.le
  have hsa := F.small_amount
  have hp0 : 0 < p := F.price.trans_le hpm
  have hρa : 0 ≤ ρ * (u * W) := mul_nonneg hρ ha
  have hρW : 0 ≤ ρ * W := mul_nonneg hρ hW0.le
  have hρua : u * (ρ * (u * W)) ≤ 1 / 1024 * (ρ * (u * W)) := mul_le_mul_of_nonneg_right A.u_small hρa
  have hρaW : ρ * (u * W) ≤ 1 / 1024 * (ρ * W) := by
    have := mul_le_mul_of_nonneg_left haW hρ
    linarith
  have htop := F.amounts
  -- the price difference
  have hρp : ρ * p ≤ ρ * M := mul_le_mul_of_nonneg_left hpM hρ
  have hd : Near V (q - x.price) (k - p) (u * (ρ * p) + η) := by
    have hM0 : 0 < M := hp0.trans_le hpM
    refine (Near.sub A (⟨k, hq, by simp⟩ : Near V q k 0) (⟨p, hp, by simp⟩ : Near V x.price p 0) (m := ρ * p) hch ?_).mono (by linarith)
    have := F.prices
    linarith
  -- times the size
  have hzp : |z| * p ≤ 2 * W := by
    have h1 : |z| * p = |z * p| := by rw [abs_mul, abs_of_pos hp0]
    have h2 := abs_add_le (z * p - w) w
    rw [sub_add_cancel, abs_of_nonneg hw0] at h2
    rw [h1]
    linarith
  have hzle : |z| ≤ 2 * (W / p) := by
    rw [← mul_div_assoc, le_div_iff₀ hp0]; exact hzp
  have hzη : |z| * η ≤ 2 * (u * W) := by
    have h1 : W / p ≤ W / m := div_le_div_of_nonneg_left hW0.le F.price hpm
    have h2 := mul_le_mul_of_nonneg_right (hzle.trans (show 2 * (W / p) ≤ 2 * (W / m) by linarith)) hη
    have := F.small_size
    linarith
  have hze : |z| * (u * (ρ * p) + η) ≤ 2 * (ρ * (u * W)) + 2 * (u * W) := by
    have h1 : |z| * (u * (ρ * p)) = u * ρ * (|z| * p) := by ring
    have h2 := mul_le_mul_of_nonneg_left hzp (mul_nonneg hu hρ)
    have h3 : u * ρ * (2 * W) = 2 * (ρ * (u * W)) := by ring
    rw [mul_add, h1]
    linarith
  have hm1 : |(k - p) * z| ≤ 2 * (ρ * W) := by
    rw [abs_mul]
    have h1 := mul_le_mul_of_nonneg_right hch (abs_nonneg z)
    have h2 := mul_le_mul_of_nonneg_left hzp hρ
    calc |k - p| * |z| ≤ ρ * p * |z| := h1
      _ = ρ * (|z| * p) := by ring
      _ ≤ ρ * (2 * W) := h2
      _ = _ := by ring
  have e1 : Near V ((q - x.price) * x.size) ((k - p) * z) (5 * ((1 + ρ) * (u * W))) := by
    have := Near.mul A hd (⟨z, hs, by simp⟩ : Near V x.size z 0) (m := 2 * (ρ * W)) hm1 (by
      rw [mul_zero, mul_zero, zero_add, add_zero]
      linarith)
    refine this.mono ?_
    rw [mul_zero, mul_zero, zero_add, add_zero]
    have h4 := mul_le_mul_of_nonneg_left hze hu
    have h5 : u * (2 * (ρ * W)) = 2 * (ρ * (u * W)) := by ring
    linarith
  -- times the direction
  have e2 : ∀ s : K, (s = 1 ∨ s = -1) → ∀ b : α, V.val b = Fl.of R (.fin s) →
      Near V ((q - x.price) * x.size * b) ((k - p) * z * s) (8 * ((1 + ρ) * (u * W))) := by
    intro s hs1 b hb
    have hs' : |s| = 1 := by rcases hs1 with rfl | rfl <;> simp
    have := Near.mul A e1 (⟨s, hb, by simp⟩ : Near V b s 0) (m := 2 * (ρ * W)) (by rw [abs_mul, hs', mul_one]; exact hm1) (by
      rw [hs', mul_zero, mul_zero, zero_add, add_zero, one_mul]
      linarith)
    refine this.mono ?_
    rw [hs', mul_zero, mul_zero, zero_add, add_zero, one_mul]
    have h5 : u * (2 * (ρ * W)) = 2 * (ρ * (u * W)) := by ring
    have h6 : u * (5 * ((1 + ρ) * (u * W))) = 5 * (u * (u * W)) + 5 * (u * (ρ * (u * W))) := by ring
    linarith
  -- from the float size to the exact one
  have e3 : |(k - p) * z - (k - p) * (w / p)| ≤ 8 * (ρ * (u * W)) := by
    have h1 : (k - p) * z - (k - p) * (w / p) = (k - p) / p * (z * p - w) := by field_simp
    have h2 : |(k - p) / p| ≤ ρ := by rw [abs_div, abs_of_pos hp0, div_le_iff₀ hp0]; exact hch
    rw [h1, abs_mul]
    calc _ ≤ ρ * (8 * (u * W)) := mul_le_mul h2 hz (abs_nonneg _) hρ
      _ = _ := by ring
  have fin : ∀ s : K, (s = 1 ∨ s = -1) → ∀ b : α, V.val b = Fl.of R (.fin s) →
      Near V ((q - x.price) * x.size * b) ((k - p) * (w / p) * s) (16 * ((1 + ρ) * (u * W))) := by
    intro s hs1 b hb
    obtain ⟨y, hy1, hy2⟩ := e2 s hs1 b hb
    refine ⟨y, hy1, ?_⟩
    have hs' : |s| = 1 := by rcases hs1 with rfl | rfl <;> simp
    have h1 : y - (k - p) * (w / p) * s = (y - (k - p) * z * s) + ((k - p) * z - (k - p) * (w / p)) * s := by ring
    have h2 : |((k - p) * z - (k - p) * (w / p)) * s| ≤ 8 * (ρ * (u * W)) := by rw [abs_mul, hs', mul_one]; exact e3
    rw [h1]
    refine (abs_add_le _ _).trans ?_
    linarith
  obtain ⟨dir, tick, price, size⟩ := x
  cases dir
  · have := fin 1 (.inl rfl) (lit 1) (by rw [V.lit, lit_one L])
    have e : (k - p) * (w / p) * 1 = w * growth .long p k - w := by
      simp only [growth]; field_simp
    rw [e] at this
    exact this
  · have := fin (-1) (.inr rfl) (-(lit 1)) (by rw [V.neg, V.lit, lit_one L]; rfl)
    have e : (k - p) * (w / p) * (-1) = w * growth .short p k - w := by
      simp only [growth]; field_simp; ring
    rw [e] at this
    exact this

theorem growth_le {ρ p k : K} (hp : 0 < p) (hch : |k - p| ≤ ρ * p) (dir : TradeDirection) : |growth dir p k| ≤ 1 + ρ := by
  have h : |k / p - 1| ≤ ρ := by
    rw [show k / p - 1 = (k - p) / p by field_simp, abs_div, abs_of_pos hp, div_le_iff₀ hp]; exact hch
  rw [abs_le] at h ⊢
  cases dir <;> simp only [growth] <;> constructor <;> linarith [h.1, h.2]

include A L F in
/-- Closing (or marking) a position: what is added to the books, and the equity after it. -/
theorem trade_near {real prof : α} {cap n w g : K} (hreal : V.val real = Fl.of R (.fin n)) (hw : w = cap + n) (hw0 : 0 ≤ w) (hwW : w ≤ W)
    (hc : |cap| ≤ W) (hg : |g| ≤ 1 + ρ) (hprof : Near V prof (w * g - w) (16 * ((1 + ρ) * (u * W)))) :
    ∃ n', V.val (real + prof) = Fl.of R (.fin n') ∧ |cap + n' - w * g| ≤ 24 * ((1 + ρ) * (u * W)) := by
  have hu := A.u_nonneg
  have hW0 := F.amount
  have ha : 0 ≤ u * W := mul_nonneg hu hW0.le
  have hρ := F.change
  have hρa : 0 ≤ ρ * (u * W) := mul_nonneg hρ ha
  have hρW : 0 ≤ ρ * W := mul_nonneg hρ hW0.le
  have hua : u * (u * W) ≤ 1 / 1024 * (u * W) := mul_le_mul_of_nonneg_right A.u_small ha
  have haW : u * W ≤ 1 / 1024 * W := mul_le_mul_of_nonneg_right A.u_small hW0.le
  have hρua : u * (ρ * (u * W)) ≤ 1 / 1024 * (ρ * (u * W)) := mul_le_mul_of_nonneg_right A.u_small hρa
  have hρaW : ρ * (u * W) ≤ 1 / 1024 * (ρ * W) := by
    have := mul_le_mul_of_nonneg_left haW hρ
    linarith
  have hsa := F.small_amount
  have htop := F.amounts
  have hwg : |w * g| ≤ (1 + ρ) * W := by
    rw [abs_mul, abs_of_nonneg hw0, mul_comm]
    exact mul_le_mul hg hwW hw0 (by linarith)
  have hm : |n + (w * g - w)| ≤ (2 + ρ) * W := by
    have e : n + (w * g - w) = w * g - cap := by rw [hw]; ring
    rw [e]
    have := abs_sub (w * g) cap
    linarith
  obtain ⟨n', h1, h2⟩ := Near.add A (⟨n, hreal, by simp⟩ : Near V real n 0) hprof hm (by linarith)
  refine ⟨n', h1, ?_⟩
  have e : cap + n' - w * g = n' - (n + (w * g - w)) := by rw [hw]; ring
  rw [e]
  refine h2.trans ?_
  have h5 : u * ((2 + ρ) * W) = 2 * (u * W) + ρ * (u * W) := by ring
  have h6 : u * (16 * ((1 + ρ) * (u * W))) = 16 * (u * (u * W)) + 16 * (u * (ρ * (u * W))) := by ring
  linarith

end one

section run
variable {cfg : StrategyConfig α} {d : DataProvider α} {sig : Nat → Option TradeDirection} {N : Nat} {st : Nat → Strategy α}
variable {o c : Nat → K} {cap ρ B w₀ m M : K}

/-- The hypotheses of the error bound for a run in which every trade is for the whole equity: prices between `m` and `M`, each trade's
price changes by at most the fraction `ρ` of its entry price (at its exit, and at every close while it is open), and the exact equity
stays between `w₀ > 0` and `B`. -/
structure Spec.TameRun (cfg : StrategyConfig α) (sig : Nat → Option TradeDirection) (N : Nat) (o c : Nat → K) (cap ρ B w₀ m M : K) : Prop where
  prices : ∀ t, t < N → m ≤ fillSeries cfg o c t ∧ fillSeries cfg o c t ≤ M
  changes : ∀ x ∈ (deals cfg sig N).1, |fillSeries cfg o c x.exit - fillSeries cfg o c x.entry| ≤ ρ * fillSeries cfg o c x.entry
  marks : ∀ t, t < N → ∀ dir e, (deals cfg sig (t + 1)).2 = some (dir, e) → |c t - fillSeries cfg o c e| ≤ ρ * fillSeries cfg o c e
  positive : 0 < w₀
  wealth : ∀ n, n ≤ N → w₀ ≤ wealth cap (fillSeries cfg o c) (deals cfg sig n).1 ∧ wealth cap (fillSeries cfg o c) (deals cfg sig n).1 ≤ B
  worth : ∀ t, t < N → w₀ ≤ worth cap (fillSeries cfg o c) (deals cfg sig (t + 1)) (c t)

theorem deals_prefix (cfg : StrategyConfig α) (sig : Nat → Option TradeDirection) {n N : Nat} (h : n ≤ N) :
    (deals cfg sig n).1 <+: (deals cfg sig N).1 := by
  induction N with
  | zero => obtain rfl : n = 0 := by omega
            exact List.prefix_refl _
  | succ N ih =>
    by_cases hn : n = N + 1
    · subst hn; exact List.prefix_refl _
    · refine (ih (by omega)).trans ?_
      rw [deals_succ]
      rcases order cfg sig N with _ | dir
      · exact List.prefix_refl _
      · rcases (deals cfg sig N).2 with _ | ⟨was, e⟩
        · exact List.prefix_refl _
        · simp only
          split
          · exact List.prefix_refl _
          · exact List.prefix_append _ _

/-- The float books follow the exact compounding: relative error `κ` per closed trade. -/
structure FollowsCompound (V : Valued R α) (cap κ a : K) (f : Nat → K) (L : Ledger α) (x : List Deal × Option (TradeDirection × Nat)) (n : K) :
    Prop where
  realised : V.val L.realised = Fl.of R (.fin n)
  near : |cap + n - wealth cap f x.1| ≤ x.1.length * κ * wealth cap f x.1
  flat : x.2 = none → L.opened = none
  opened : ∀ dir e, x.2 = some (dir, e) → ∃ h z, L.opened = some h ∧ h.dir = dir ∧ V.val h.price = Fl.of R (.fin (f e)) ∧
    V.val h.size = Fl.of R (.fin z) ∧ |z * f e - (cap + n)| ≤ 8 * a

include A L in
theorem follows_compound (hb : FloatBars V cfg d N o c cap M) (hf : cfg.buyWithEquity = true) (Tm : TameRun cfg sig N o c cap ρ B w₀ m M)
    (F : FarFromLimits u η top ρ (2 * B) m M) (hκ : (N + 1) * (48 * ((1 + ρ) * (u * B)) / w₀) ≤ 1 / 2) {n : Nat} (hn : n ≤ N) :
    ∃ k, FollowsCompound V cap (48 * ((1 + ρ) * (u * B)) / w₀) (u * (2 * B)) (fillSeries cfg o c) (ledger cfg d sig n) (deals cfg sig n) k := by
  have hu := A.u_nonneg
  have hρ := F.change
  have hW0 := F.amount
  have hB0 : 0 < B := by linarith
  have hw0 := Tm.positive
  have ha : 0 ≤ u * B := mul_nonneg hu hB0.le
  have hρa : 0 ≤ ρ * (u * B) := mul_nonneg hρ ha
  obtain ⟨hcap0, hcapB⟩ := Tm.wealth 0 (Nat.zero_le _)
  have hcap : |cap| ≤ 2 * B := by
    have e : wealth cap (fillSeries cfg o c) (deals cfg sig 0).1 = cap := rfl
    rw [e] at hcap0 hcapB
    rw [abs_of_pos (hw0.trans_le hcap0)]
    linarith
  generalize hκe : 48 * ((1 + ρ) * (u * B)) / w₀ = κ at *
  have hκw : κ * w₀ = 48 * ((1 + ρ) * (u * B)) := by rw [← hκe]; field_simp
  have hκ0 : 0 ≤ κ := by
    rw [← hκe]
    exact div_nonneg (by nlinarith) hw0.le
  have hκ1 : κ ≤ 1 / 2 := by
    have : (0 : K) ≤ N * κ := mul_nonneg (Nat.cast_nonneg N) hκ0
    linarith
  -- what being near implies
  have small : ∀ {n : Nat}, n ≤ N → ∀ {k : K}, |cap + k - wealth cap (fillSeries cfg o c) (deals cfg sig n).1| ≤
      (deals cfg sig n).1.length * κ * wealth cap (fillSeries cfg o c) (deals cfg sig n).1 →
      5 * (u * (2 * B)) < cap + k ∧ cap + k ≤ 2 * B := by
    intro n hn k hk
    obtain ⟨h1, h2⟩ := Tm.wealth n hn
    have hl : ((deals cfg sig n).1.length : K) * κ ≤ 1 / 2 := by
      have h3 : ((deals cfg sig n).1.length : K) ≤ N := by exact_mod_cast (deals_length_le cfg sig n).trans hn
      have := mul_le_mul_of_nonneg_right h3 hκ0
      linarith
    generalize wealth cap (fillSeries cfg o c) (deals cfg sig n).1 = w at *
    have h4 : ((deals cfg sig n).1.length : K) * κ * w ≤ 1 / 2 * w := mul_le_mul_of_nonneg_right hl (hw0.le.trans h1)
    have h5 : κ * w₀ ≤ 1 / 2 * w₀ := mul_le_mul_of_nonneg_right hκ1 hw0.le
    rw [abs_le] at hk
    constructor <;> nlinarith [hk.1, hk.2]
  -- entering
  have enter : ∀ {n : Nat}, n < N → ∀ {l : List Deal} {k : K} {Lg : Ledger α}, V.val Lg.realised = Fl.of R (.fin k) →
      |cap + k - wealth cap (fillSeries cfg o c) l| ≤ l.length * κ * wealth cap (fillSeries cfg o c) l →
      5 * (u * (2 * B)) < cap + k → cap + k ≤ 2 * B → ∀ dir,
      FollowsCompound V cap κ (u * (2 * B)) (fillSeries cfg o c) (Lg.enter cfg n (fillPrice cfg d n) dir) (l, some (dir, n)) k := by
    intro n hn l k Lg hr hk h1 h2 dir
    obtain ⟨p1, p2⟩ := Tm.prices n hn
    obtain ⟨z, hz1, hz2⟩ := size_near A L F hb.capital hr (hb.fill hn).1 p1 p2 h1 h2
    refine ⟨hr, hk, by simp, ?_⟩
    rintro dir' e ⟨⟩
    refine ⟨_, z, rfl, rfl, (hb.fill hn).1, ?_, hz2⟩
    simp only [hf, if_true]
    exact hz1
  induction n with
  | zero =>
    refine ⟨0, ?_, by simp [deals, Spec.wealth], fun _ => rfl, by simp [deals]⟩
    show V.val (lit 0) = _
    rw [V.lit, lit_zero L]
  | succ n ih =>
    obtain ⟨k, ih⟩ := ih (by omega)
    have sm := small (show n ≤ N by omega) ih.near
    have hwn := Tm.wealth n (by omega)
    have hws := Tm.wealth (n + 1) hn
    have hch : ∀ x ∈ (deals cfg sig (n + 1)).1, |fillSeries cfg o c x.exit - fillSeries cfg o c x.entry| ≤ ρ * fillSeries cfg o c x.entry :=
      fun x hx => Tm.changes x ((deals_prefix cfg sig hn).subset hx)
    have hsm := @small (n + 1) hn
    have hex := (deals_exit_lt cfg sig n).2
    rw [deals_succ] at hws hch hsm
    rw [deals_succ, ledger]
    generalize ledger cfg d sig n = Lg at ih
    generalize deals cfg sig n = x at *
    obtain ⟨l, y⟩ := x
    obtain ⟨h1, h2, h3, h4⟩ := ih
    simp only at h1 h2 h3 h4 hws hch hsm hwn hex ⊢
    rcases ho : order cfg sig n with _ | dir
    · exact ⟨k, h1, h2, h3, h4⟩
    · rcases y with _ | ⟨was, e⟩
      · simp only [Ledger.tick, h3 rfl]
        exact ⟨k, enter (by omega) h1 h2 sm.1 sm.2 dir⟩
      · obtain ⟨hd, z, hx, hdir, hpr, hsz, hz⟩ := h4 was e rfl
        simp only [Ledger.tick, hx, hdir]
        rw [ho] at hws hch hsm
        simp only at hws hch hsm
        by_cases hdw : dir = was
        · rw [if_pos hdw, if_pos hdw]
          exact ⟨k, h1, h2, h3, h4⟩
        · rw [if_neg hdw, if_neg hdw]
          rw [if_neg hdw] at hws hch hsm
          simp only at hws hch hsm
          have he : e < N := by have := hex (was, e) rfl; omega
          have hc1 := hch ⟨was, e, n⟩ (by simp)
          simp only at hc1
          obtain ⟨p1, p2⟩ := Tm.prices e he
          have hp0 := F.price.trans_le p1
          have hpos : 0 < cap + k := by nlinarith [sm.1]
          have hprof := profit_near A L F hpr (hb.fill (show n < N by omega)).1 hsz p1 p2 hpos.le sm.2 hz hc1
          obtain ⟨k', hk1, hk2⟩ := trade_near A L F h1 rfl hpos.le sm.2 hcap (growth_le hp0 hc1 hd.dir) hprof
          have hr (w) : V.val (⟨Lg.closed ++ [⟨hd, n, fillPrice cfg d n⟩], w⟩ : Ledger α).realised = Fl.of R (.fin k') := by
            simp only [Ledger.realised, List.map_append, List.map_cons, List.map_nil, fsum_snoc]
            exact hk1
          have hgrow : wealth cap (fillSeries cfg o c) (l ++ [⟨was, e, n⟩]) =
              wealth cap (fillSeries cfg o c) l * growth hd.dir (fillSeries cfg o c e) (fillSeries cfg o c n) := by
            rw [wealth_snoc, grown, if_pos ⟨hw0.trans_le hwn.1, hp0⟩, hdir]
          have hnear : |cap + k' - wealth cap (fillSeries cfg o c) (l ++ [⟨was, e, n⟩])| ≤
              (l ++ [(⟨was, e, n⟩ : Deal)]).length * κ * wealth cap (fillSeries cfg o c) (l ++ [⟨was, e, n⟩]) := by
            have hg0 : 0 < growth hd.dir (fillSeries cfg o c e) (fillSeries cfg o c n) := by
              have := hw0.trans_le hws.1
              rw [hgrow] at this
              exact (mul_pos_iff_of_pos_left (hw0.trans_le hwn.1)).mp this
            have hloc : 24 * ((1 + ρ) * (u * (2 * B))) ≤ κ * wealth cap (fillSeries cfg o c) (l ++ [⟨was, e, n⟩]) := by
              have := mul_le_mul_of_nonneg_left hws.1 hκ0
              rw [hκw] at this
              linarith
            rw [List.length_append, List.length_singleton]
            push_cast
            rw [hgrow] at hloc ⊢
            generalize growth hd.dir (fillSeries cfg o c e) (fillSeries cfg o c n) = g at *
            generalize wealth cap (fillSeries cfg o c) l = w at *
            have h5 : |(cap + k) * g - w * g| ≤ l.length * κ * (w * g) := by
              rw [← sub_mul, abs_mul, abs_of_pos hg0]
              have := mul_le_mul_of_nonneg_right h2 hg0.le
              linarith
            have h6 := abs_add_le (cap + k' - (cap + k) * g) ((cap + k) * g - w * g)
            rw [sub_add_sub_cancel] at h6
            linarith
          have hs2 := hsm hnear
          cases cfg.continous
          · exact ⟨k', hr none, hnear, fun _ => rfl, by simp⟩
          · exact ⟨k', enter (by omega) (hr none) hnear hs2.1 hs2.2 dir⟩

theorem closedTrades_deals (H : Backtest cfg d sig N st) {t : Nat} (ht : t < N) :
    (st t).metrics.closedTrades = (deals cfg sig (t + 1)).1.length := by
  have h1 := congrArg List.length (C82_timetable H ht)
  have h2 := congrArg (List.filter fun x => x.2.1) (C82_timetable H ht)
  have h3 := congrArg List.length h2
  rw [List.filter_map, List.length_map] at h3
  rw [(C40_statistics H ht).closedTrades]
  refine h3.trans ?_
  rw [List.filter_append, List.length_append]
  have e1 : (((deals cfg sig (t + 1)).1.map fun x => (x.dir, true, some x.entry, some (fillPrice cfg d x.entry), some x.exit,
        some (fillPrice cfg d x.exit))).filter fun x => x.2.1).length = (deals cfg sig (t + 1)).1.length := by
    rw [List.filter_eq_self.mpr, List.length_map]
    intro x hx
    obtain ⟨y, _, rfl⟩ := List.mem_map.mp hx
    rfl
  have e2 : (((deals cfg sig (t + 1)).2.toList.map fun x => (x.1, false, some x.2, some (fillPrice cfg d x.2), (none : Option Nat),
        (none : Option α))).filter fun x => x.2.1).length = 0 := by
    rw [List.length_eq_zero_iff, List.filter_eq_nil_iff]
    intro x hx
    obtain ⟨y, _, rfl⟩ := List.mem_map.mp hx
    simp
  rw [e1, e2, add_zero]

set_option maxHeartbeats 800000 in
include A L in
/-- **C83.** Every trade for the whole equity, on a tame run: after every tick capital plus the reported net profit is within the relative
error `n κ` of the exactly compounded capital, and the reported equity within `(n + 1) κ` of the exact equity, where `n` is the number of
closed trades and `κ = 48 (1 + ρ) u B / w₀`. The relative error grows linearly with the number of trades although the trades compound. -/
theorem C83_compound (H : Backtest cfg d sig N st) (hb : FloatBars V cfg d N o c cap M) (hf : cfg.buyWithEquity = true)
    (Tm : TameRun cfg sig N o c cap ρ B w₀ m M) (F : FarFromLimits u η top ρ (2 * B) m M)
    (hκ : (N + 1) * (48 * ((1 + ρ) * (u * B)) / w₀) ≤ 1 / 2) {t : Nat} (ht : t < N) :
    Near V (st t).metrics.netProfit (wealth cap (fillSeries cfg o c) (deals cfg sig (t + 1)).1 - cap)
      ((st t).metrics.closedTrades * (48 * ((1 + ρ) * (u * B)) / w₀) * wealth cap (fillSeries cfg o c) (deals cfg sig (t + 1)).1) ∧
    Near V (st t).metrics.equity (worth cap (fillSeries cfg o c) (deals cfg sig (t + 1)) (c t))
      (((st t).metrics.closedTrades + 1) * (48 * ((1 + ρ) * (u * B)) / w₀) *
        worth cap (fillSeries cfg o c) (deals cfg sig (t + 1)) (c t)) := by
  have hu := A.u_nonneg
  have hη := A.η_nonneg
  have hρ := F.change
  have hW0 := F.amount
  have hB0 : 0 < B := by linarith
  have hw0 := Tm.positive
  have ha : 0 ≤ u * B := mul_nonneg hu hB0.le
  have hρa : 0 ≤ ρ * (u * B) := mul_nonneg hρ ha
  have hρB : 0 ≤ ρ * B := mul_nonneg hρ hB0.le
  have hua : u * (u * B) ≤ 1 / 1024 * (u * B) := mul_le_mul_of_nonneg_right A.u_small ha
  have haW : u * B ≤ 1 / 1024 * B := mul_le_mul_of_nonneg_right A.u_small hB0.le
  have hρua : u * (ρ * (u * B)) ≤ 1 / 1024 * (ρ * (u * B)) := mul_le_mul_of_nonneg_right A.u_small hρa
  have hρaW : ρ * (u * B) ≤ 1 / 1024 * (ρ * B) := by
    have := mul_le_mul_of_nonneg_left haW hρ
    linarith
  have hsa := F.small_amount
  have htop := F.amounts
  obtain ⟨k, h1, h2, h3, h4⟩ := follows_compound A L (sig := sig) hb hf Tm F hκ (show t + 1 ≤ N from ht)
  have hd := backtest_done H t ht
  have hnet : V.val (st t).metrics.netProfit = Fl.of R (.fin k) := by rw [hd.books.netProfit]; exact h1
  rw [closedTrades_deals H ht]
  obtain ⟨hw1, hw2⟩ := Tm.wealth (t + 1) ht
  have hwo := Tm.worth t ht
  have hlen : ((deals cfg sig (t + 1)).1.length : K) ≤ N := by exact_mod_cast (deals_length_le cfg sig (t + 1)).trans ht
  generalize hκe : 48 * ((1 + ρ) * (u * B)) / w₀ = κ at *
  have hκw : κ * w₀ = 48 * ((1 + ρ) * (u * B)) := by rw [← hκe]; field_simp
  have hκ0 : 0 ≤ κ := by
    rw [← hκe]
    exact div_nonneg (by nlinarith) hw0.le
  have hκ1 : κ ≤ 1 / 2 := by
    have : (0 : K) ≤ N * κ := mul_nonneg (Nat.cast_nonneg N) hκ0
    linarith
  have hloc : 24 * ((1 + ρ) * (u * (2 * B))) ≤ κ * worth cap (fillSeries cfg o c) (deals cfg sig (t + 1)) (c t) := by
    have := mul_le_mul_of_nonneg_left hwo hκ0
    rw [hκw] at this
    linarith
  have hlκ : ((deals cfg sig (t + 1)).1.length : K) * κ ≤ 1 / 2 := by
    have := mul_le_mul_of_nonneg_right hlen hκ0
    linarith
  have hpos : 5 * (u * (2 * B)) < cap + k ∧ cap + k ≤ 2 * B := by
    have h5 : ((deals cfg sig (t + 1)).1.length : K) * κ * wealth cap (fillSeries cfg o c) (deals cfg sig (t + 1)).1 ≤
      1 / 2 * wealth cap (fillSeries cfg o c) (deals cfg sig (t + 1)).1 := mul_le_mul_of_nonneg_right hlκ (hw0.le.trans hw1)
    have h6 : κ * w₀ ≤ 1 / 2 * w₀ := mul_le_mul_of_nonneg_right hκ1 hw0.le
    have h2' := h2
    rw [abs_le] at h2'
    constructor <;> nlinarith [h2'.1, h2'.2]
  have hpos0 : 0 < cap + k := by linarith
  refine ⟨⟨k, hnet, by rw [show k - (wealth cap (fillSeries cfg o c) (deals cfg sig (t + 1)).1 - cap) =
    cap + k - wealth cap (fillSeries cfg o c) (deals cfg sig (t + 1)).1 by ring]; exact h2⟩, ?_⟩
  rw [hd.equity]
  have hsum : Near V (cfg.initialCapital + (st t).metrics.netProfit) (cap + k) (2 * (u * (2 * B))) := by
    refine (Near.add A (⟨cap, hb.capital, by simp⟩ : Near V cfg.initialCapital cap 0) (⟨k, hnet, by simp⟩ : Near V _ k 0) (m := 2 * B)
      (by rw [abs_of_pos hpos0]; exact hpos.2) (by linarith)).mono (by linarith)
  -- the equity is near what the float books would give
  obtain ⟨g, hg, hge, hop⟩ : ∃ g, |g| ≤ 1 + ρ ∧ worth cap (fillSeries cfg o c) (deals cfg sig (t + 1)) (c t) =
      wealth cap (fillSeries cfg o c) (deals cfg sig (t + 1)).1 * g ∧
      Near V (st t).metrics.openProfit ((cap + k) * g - (cap + k)) (16 * ((1 + ρ) * (u * (2 * B)))) := by
    rcases hy : (deals cfg sig (t + 1)).2 with _ | ⟨dir, e⟩
    · refine ⟨1, by rw [abs_one]; linarith, by simp [worth, hy], ⟨0, ?_, ?_⟩⟩
      · rw [hd.books.flat (h3 hy), V.lit, lit_zero L]
      · rw [mul_one, sub_self, sub_self, abs_zero]
        nlinarith
    · obtain ⟨x, z, hx, hdir, hpr, hsz, hz⟩ := h4 dir e hy
      obtain ⟨q, hq, hoq⟩ := hd.openProfit x hx
      obtain ⟨a, ha1, ha2, ha3⟩ := hb.close t ht
      rw [hq] at ha1
      cases ha1
      have he : e < N := by
        have := (deals_exit_lt cfg sig (t + 1)).2 (dir, e) (by rw [hy]; rfl)
        omega
      obtain ⟨p1, p2⟩ := Tm.prices e he
      have hch := Tm.marks t ht dir e hy
      have hp0 := F.price.trans_le p1
      refine ⟨growth x.dir (fillSeries cfg o c e) (c t), growth_le hp0 hch x.dir, ?_, ?_⟩
      · rw [worth, hy]
        simp only
        rw [grown, if_pos ⟨hw0.trans_le hw1, hp0⟩, hdir]
      · rw [hoq]
        exact profit_near A L F hpr ha2 hsz p1 p2 hpos0.le hpos.2 hz hch
  rw [hge] at hwo hloc ⊢
  generalize wealth cap (fillSeries cfg o c) (deals cfg sig (t + 1)).1 = w at *
  have hg0 : 0 < g := (mul_pos_iff_of_pos_left (hw0.trans_le hw1)).mp (hw0.trans_le hwo)
  have hm : |cap + k + ((cap + k) * g - (cap + k))| ≤ (1 + ρ) * (2 * B) := by
    rw [show cap + k + ((cap + k) * g - (cap + k)) = (cap + k) * g by ring, abs_mul, abs_of_pos hpos0, mul_comm]
    exact mul_le_mul hg hpos.2 hpos0.le (by linarith)
  obtain ⟨v, hv1, hv2⟩ := Near.add A hsum hop hm (by linarith)
  refine ⟨v, hv1, ?_⟩
  have h5 : |(cap + k) * g - w * g| ≤ (deals cfg sig (t + 1)).1.length * κ * (w * g) := by
    rw [← sub_mul, abs_mul, abs_of_pos hg0]
    have := mul_le_mul_of_nonneg_right h2 hg0.le
    linarith
  have h6 := abs_add_le (v - (cap + k) * g) ((cap + k) * g - w * g)
  rw [sub_add_sub_cancel] at h6
  have h7 : |v - (cap + k) * g| ≤ 24 * ((1 + ρ) * (u * (2 * B))) := by
    rw [show v - (cap + k) * g = v - (cap + k + ((cap + k) * g - (cap + k))) by ring]
    refine hv2.trans ?_
    have e1 : u * ((1 + ρ) * (2 * B)) = 2 * (u * B) + 2 * (ρ * (u * B)) := by ring
    have e2 : u * (16 * ((1 + ρ) * (u * (2 * B)))) = 32 * (u * (u * B)) + 32 * (u * (ρ * (u * B))) := by ring
    have e3 : u * (2 * (u * (2 * B))) = 4 * (u * (u * B)) := by ring
    linarith
  linarith

end run

/-! ## IEEE binary64 -/
section binary64
variable {cfg : StrategyConfig B64} {d : DataProvider B64} {sig : Nat → Option TradeDirection} {N : Nat} {st : Nat → Strategy B64}
variable {o c : Nat → ℝ} {cap ρ B w₀ : ℝ}

theorem b64_far (hρ : 0 ≤ ρ) (hw : (2 : ℝ) ^ (-100 : ℤ) ≤ w₀) (hwB : w₀ ≤ B) (hB : B ≤ (2 : ℝ) ^ (100 : ℤ))
    (hκ : 48 * ((1 + ρ) * (b64u * B)) / w₀ ≤ 1 / 2) :
    FarFromLimits b64u b64η ((2 : ℝ) ^ (1023 : ℤ)) ρ (2 * B) ((2 : ℝ) ^ (-100 : ℤ)) ((2 : ℝ) ^ (100 : ℤ)) := by
  have two : (2 : ℝ) ≠ 0 := by norm_num
  have hm0 : (0 : ℝ) < (2 : ℝ) ^ (-100 : ℤ) := Binary64.two_zpow_pos _
  have hw0 : 0 < w₀ := hm0.trans_le hw
  have hB0 : 0 < B := hw0.trans_le hwB
  have hu0 : (0 : ℝ) < b64u := Binary64.two_zpow_pos _
  have hη0 : (0 : ℝ) < b64η := Binary64.two_zpow_pos _
  have eu : b64u * (2 : ℝ) ^ (53 : ℤ) = 1 := by unfold b64u; rw [← zpow_add₀ two]; norm_num
  -- the changes are bounded
  have h1 : (1 + ρ) * B ≤ (2 : ℝ) ^ (53 : ℤ) * B := by
    rw [div_le_iff₀ hw0] at hκ
    have h2 : (1 + ρ) * B * b64u ≤ B := by
      have : (1 + ρ) * (b64u * B) = (1 + ρ) * B * b64u := by ring
      rw [this] at hκ
      nlinarith
    have h3 := mul_le_mul_of_nonneg_right h2 (Binary64.two_zpow_pos (K := ℝ) 53).le
    rw [mul_assoc, eu, mul_one] at h3
    linarith
  have hρ1 : 1 + ρ ≤ (2 : ℝ) ^ (53 : ℤ) := le_of_mul_le_mul_right h1 hB0
  have hinv : 2 * B / (2 : ℝ) ^ (-100 : ℤ) = 2 * B * (2 : ℝ) ^ (100 : ℤ) := by
    rw [div_eq_iff hm0.ne', mul_assoc, ← zpow_add₀ two]; norm_num
  have t1 : (2 : ℝ) ^ (100 : ℤ) * (2 : ℝ) ^ (100 : ℤ) = (2 : ℝ) ^ (200 : ℤ) := by rw [← zpow_add₀ two]; norm_num
  have t2 : (2 : ℝ) ^ (53 : ℤ) * (2 : ℝ) ^ (100 : ℤ) = (2 : ℝ) ^ (153 : ℤ) := by rw [← zpow_add₀ two]; norm_num
  have t3 : 64 * (2 : ℝ) ^ (200 : ℤ) ≤ (2 : ℝ) ^ (1023 : ℤ) := by
    have : (64 : ℝ) = (2 : ℝ) ^ (6 : ℤ) := by norm_num
    rw [this, ← zpow_add₀ two]; exact Binary64.two_zpow_mono (by norm_num)
  have t4 : (2 : ℝ) ^ (153 : ℤ) ≤ (2 : ℝ) ^ (200 : ℤ) := Binary64.two_zpow_mono (by norm_num)
  have t5 : (2 : ℝ) ^ (100 : ℤ) ≤ (2 : ℝ) ^ (200 : ℤ) := Binary64.two_zpow_mono (by norm_num)
  have hBB := mul_le_mul_of_nonneg_right hB (Binary64.two_zpow_pos (K := ℝ) 100).le
  -- underflow
  have s1 : 2 * (2 : ℝ) ^ (200 : ℤ) * b64η ≤ b64u * (2 * (2 : ℝ) ^ (-100 : ℤ)) := by
    have e1 : 2 * (2 : ℝ) ^ (200 : ℤ) * b64η = 2 * (2 : ℝ) ^ (-875 : ℤ) := by
      unfold b64η; rw [mul_assoc, ← zpow_add₀ two]; norm_num
    have e2 : b64u * (2 * (2 : ℝ) ^ (-100 : ℤ)) = 2 * (2 : ℝ) ^ (-153 : ℤ) := by
      unfold b64u; rw [mul_left_comm, ← zpow_add₀ two]; norm_num
    rw [e1, e2]
    have : (2 : ℝ) ^ (-875 : ℤ) ≤ (2 : ℝ) ^ (-153 : ℤ) := Binary64.two_zpow_mono (by norm_num)
    linarith
  have s2 : b64u * (2 * (2 : ℝ) ^ (-100 : ℤ)) ≤ b64u * (2 * B) := mul_le_mul_of_nonneg_left (by linarith) hu0.le
  have one : (1 : ℝ) ≤ (2 : ℝ) ^ (100 : ℤ) := by
    have := Binary64.two_zpow_mono (K := ℝ) (show (0 : ℤ) ≤ 100 by norm_num)
    simpa using this
  refine ⟨hρ, by linarith, hm0, ?_, ?_, ?_, ?_, ?_, ?_⟩
  · have := mul_le_mul_of_nonneg_left hB (Binary64.two_zpow_pos (K := ℝ) 53).le
    generalize (2 : ℝ) ^ (1023 : ℤ) = T at *
    linarith
  · have := mul_le_mul_of_nonneg_right hρ1 (Binary64.two_zpow_pos (K := ℝ) 100).le
    generalize (2 : ℝ) ^ (1023 : ℤ) = T at *
    linarith
  · rw [hinv]
    generalize (2 : ℝ) ^ (1023 : ℤ) = T at *
    linarith
  · have := mul_le_mul_of_nonneg_right (one.trans t5) hη0.le
    linarith
  · have := mul_le_mul_of_nonneg_right t5 hη0.le
    have := mul_nonneg (Binary64.two_zpow_pos (K := ℝ) 100).le hη0.le
    linarith
  · rw [hinv]
    have h5 : 2 * B * (2 : ℝ) ^ (100 : ℤ) ≤ 2 * (2 : ℝ) ^ (200 : ℤ) := by linarith
    have := mul_le_mul_of_nonneg_right h5 hη0.le
    linarith

/-- **C83.** In binary64, every trade for the whole equity, prices and exact equity between `2^-100` and `2^100`: the reported equity is
within the relative error `(n + 1) 48 (1 + ρ) (B / w₀) 2^-53` of the exact one, `n` the number of closed trades, `ρ` the largest relative
price change within a trade, `B / w₀` the ratio of the largest to the smallest exact equity of the run. -/
theorem C83_compound_binary64 (H : Backtest cfg d sig N st) (hb : FloatBars (Sf.valued _) cfg d N o c cap ((2 : ℝ) ^ (100 : ℤ)))
    (hf : cfg.buyWithEquity = true) (Tm : TameRun cfg sig N o c cap ρ B w₀ ((2 : ℝ) ^ (-100 : ℤ)) ((2 : ℝ) ^ (100 : ℤ))) (hρ : 0 ≤ ρ)
    (hw : (2 : ℝ) ^ (-100 : ℤ) ≤ w₀) (hB : B ≤ (2 : ℝ) ^ (100 : ℤ)) (hκ : (N + 1) * (48 * ((1 + ρ) * (b64u * B)) / w₀) ≤ 1 / 2)
    {t : Nat} (ht : t < N) :
    Near (Sf.valued _) (st t).metrics.netProfit (wealth cap (fillSeries cfg o c) (deals cfg sig (t + 1)).1 - cap)
      ((st t).metrics.closedTrades * (48 * ((1 + ρ) * (b64u * B)) / w₀) * wealth cap (fillSeries cfg o c) (deals cfg sig (t + 1)).1) ∧
    Near (Sf.valued _) (st t).metrics.equity (worth cap (fillSeries cfg o c) (deals cfg sig (t + 1)) (c t))
      (((st t).metrics.closedTrades + 1) * (48 * ((1 + ρ) * (b64u * B)) / w₀) *
        worth cap (fillSeries cfg o c) (deals cfg sig (t + 1)) (c t)) := by
  have A : (Rounding.binary64 ℝ).Accurate b64u b64η ((2 : ℝ) ^ (1023 : ℤ)) := binary64_accurate ℝ
  obtain ⟨h1, h2⟩ := Tm.wealth 0 (Nat.zero_le _)
  have hw0 := Tm.positive
  have hκ1 : 48 * ((1 + ρ) * (b64u * B)) / w₀ ≤ 1 / 2 := by
    have hu := A.u_nonneg
    have : 0 ≤ 48 * ((1 + ρ) * (b64u * B)) / w₀ := by
      have hB0 : 0 ≤ B := (hw0.le.trans h1).trans h2
      positivity
    have := mul_nonneg (Nat.cast_nonneg (α := ℝ) N) this
    linarith
  exact C83_compound A (binary64_lawful ℝ) H hb hf Tm (b64_far hρ hw (h1.trans h2) hB hκ1) hκ ht

/-- The run of C82 in binary64 meets the hypotheses: it loses a fifth, gains a quarter and is short again at the end; `ρ = 1/4`, the exact
equity is between 80 and 100 after closed trades. -/
theorem b64Compound_run : ∃ (cfg : StrategyConfig B64) (st : Nat → Strategy B64), cfg.buyWithEquity = true ∧ Backtest cfg b64Bars exSig 5 st ∧
    FloatBars (Sf.valued _) cfg b64Bars 5 (fun t => ([9, 10, 12, 14, 15].getD t 0 : Nat)) (fun t => ([10, 12, 13, 15, 14].getD t 0 : Nat)) 100
      ((2 : ℝ) ^ (100 : ℤ)) ∧
    TameRun cfg exSig 5 (fun t => (([9, 10, 12, 14, 15].getD t 0 : Nat) : ℝ)) (fun t => (([10, 12, 13, 15, 14].getD t 0 : Nat) : ℝ)) 100
      (1 / 4) 100 80 ((2 : ℝ) ^ (-100 : ℤ)) ((2 : ℝ) ^ (100 : ℤ)) ∧
    (((5 : Nat) : ℝ) + 1) * (48 * ((1 + 1 / 4) * (b64u * 100)) / 80) ≤ 1 / 2 := by
  obtain ⟨st, H⟩ : ∃ st, Backtest (⟨false, true, lit ((100 : Nat) : ℚ), true⟩ : StrategyConfig B64) b64Bars exSig 5 st :=
    C57_strategy_complete _ exSig (bars_ofSeries 5 _ _ _ _ _)
  have hdl : ∀ n, n ≤ 5 → deals (⟨false, true, lit ((100 : Nat) : ℚ), true⟩ : StrategyConfig B64) exSig n =
      [([], none), ([], none), ([], some (.short, 1)), ([⟨.short, 1, 2⟩], some (.long, 2)), ([⟨.short, 1, 2⟩], some (.long, 2)),
        ([⟨.short, 1, 2⟩, ⟨.long, 2, 4⟩], some (.short, 4))].getD n ([], none) := by
    intro n hn
    interval_cases n <;> simp [deals, order, exSig]
  have hlo : (2 : ℝ) ^ (-100 : ℤ) ≤ 1 := by norm_num
  have hhi : (100 : ℝ) ≤ (2 : ℝ) ^ (100 : ℤ) := by norm_num
  refine ⟨_, st, rfl, H, ⟨fun t ht => ?_, fun t ht => ?_, ?_⟩, ⟨fun t ht => ?_, ?_, fun t ht dir e he => ?_, by norm_num, fun n hn => ?_,
    fun t ht => ?_⟩, ?_⟩
  · refine ⟨lit (([9, 10, 12, 14, 15].getD t 0 : Nat) : ℚ), hasCol_hist 5 (fun t => some (lit (([9, 10, 12, 14, 15].getD t 0 : Nat) : ℚ))) t ht, ?_, ?_⟩
    · refine (val_lit_nat (V := Sf.valued _) (binary64_lawful ℝ) ?_).trans rfl
      interval_cases t <;> norm_num
    · refine le_trans ?_ hhi
      interval_cases t <;> norm_num
  · refine ⟨lit (([10, 12, 13, 15, 14].getD t 0 : Nat) : ℚ), hasCol_hist 5 (fun t => some (lit (([10, 12, 13, 15, 14].getD t 0 : Nat) : ℚ))) t ht, ?_, ?_⟩
    · refine (val_lit_nat (V := Sf.valued _) (binary64_lawful ℝ) ?_).trans rfl
      interval_cases t <;> norm_num
    · refine le_trans ?_ hhi
      interval_cases t <;> norm_num
  · refine (val_lit_nat (V := Sf.valued _) (binary64_lawful ℝ) (n := 100) (by norm_num)).trans ?_
    norm_num
  · refine ⟨hlo.trans ?_, le_trans ?_ hhi⟩ <;> interval_cases t <;> norm_num [fillSeries]
  · rw [hdl 5 (by omega)]
    simp only [List.getD_cons_succ, List.getD_cons_zero, List.mem_cons, List.not_mem_nil, or_false]
    rintro x (rfl | rfl) <;> norm_num [fillSeries, abs_le]
  · rw [hdl (t + 1) (by omega)] at he
    interval_cases t <;> simp at he
    all_goals
      obtain ⟨rfl, rfl⟩ := he
      norm_num [fillSeries, abs_le]
  · rw [hdl n hn]
    interval_cases n <;> norm_num [Spec.wealth, grown, growth, fillSeries]
  · rw [hdl (t + 1) (by omega)]
    interval_cases t <;> norm_num [Spec.worth, Spec.wealth, grown, growth, fillSeries]
  · unfold b64u
    norm_num

end binary64
end Pace
