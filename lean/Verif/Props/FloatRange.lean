import Verif.Props.Ieee
import Verif.Props.Content
import Verif.Props.Accuracy

/-!
# C69: which advertised ranges survive rounding

Level 1' (`Valued R α`, `R.Lawful`): IEEE floats with a monotone rounding that is exact on integers up to 2^53.
-/

set_option linter.unusedSectionVars false

namespace Pace
open Spec

/-! ## Extremes of floats with signed zeros -/

theorem bars0_spec' {α : Type} [F64 α] {better : α → α → Bool} {P : α → Prop} (law : BetterLaw better P) {len t : Nat}
    (hlen : 1 ≤ len) (hl : len ≤ t + 1) {x : Nat → Option α} (hn : ∀ k v, k ≤ t → x k = some v → P v) :
    ∃ dd, dd < len ∧ bars0 better len x t = some (-(dd : Int)) ∧
      ((dd = 0 ∧ ∀ j, j < len → x (t - j) = none) ∨
       ∃ m, x (t - dd) = some m ∧ ∀ j v, j < len → x (t - j) = some v →
          better v m = false ∧ (dd < j → better m v = true)) := by
  obtain ⟨i, h1, h2, h3⟩ := findBest_ok better (win_ne_nil x (t := t) hlen)
  rw [win_length] at h2
  have hget : ∀ j, j < len → (win x len t)[len - 1 - j]? = some (x (t - j)) := by
    intro j hj
    rw [win_getElem?, if_pos (by omega)]
    congr 2; omega
  refine ⟨len - 1 - i, by omega, by simp [bars0, if_pos hl, h1], ?_⟩
  rcases h3 with ⟨m, hm⟩ | ⟨h3, h4⟩
  · right
    have hi := hget (len - 1 - i) (by omega)
    rw [show len - 1 - (len - 1 - i) = i by omega] at hi
    refine ⟨m, by rw [hi] at hm; exact Option.some.inj hm, fun j v hj hv => ?_⟩
    have hb := findBest_best better law (arr := win x len t) (fun v hv => by
      obtain ⟨k, _, hk, hkv⟩ := (mem_win hl).mp hv
      exact hn k v hk hkv) h1 hm (len - 1 - j) v (by rw [hget j hj, hv])
    exact ⟨hb.1, fun hd => hb.2 (by omega)⟩
  · left
    rw [win_length] at h4
    refine ⟨by omega, fun j hj => h3 _ ?_⟩
    exact List.mem_of_getElem? (hget j hj)

section
variable {K : Type} [Field K] [LinearOrder K] [IsStrictOrderedRing K] {R : Rounding K}
variable {α : Type} [F64 α] (V : Valued R α)

theorem maxLaw_ieee : BetterLaw (maxB : α → α → Bool) (fun v => V.val v ≠ Fl.of R .nan) where
  asymm a b ha hb h := by
    unfold maxB at *
    rw [V.lt] at *
    exact (maxLaw R).asymm _ _ ha hb h
  trans a b c ha hb hc h1 h2 := by
    unfold maxB at *
    rw [V.lt] at *
    exact (maxLaw R).trans _ _ _ ha hb hc h1 h2

theorem minLaw_ieee : BetterLaw (minB : α → α → Bool) (fun v => V.val v ≠ Fl.of R .nan) where
  asymm a b ha hb h := by
    unfold minB at *
    rw [V.lt] at *
    exact (minLaw R).asymm _ _ ha hb h
  trans a b c ha hb hc h1 h2 := by
    unfold minB at *
    rw [V.lt] at *
    exact (minLaw R).trans _ _ _ ha hb hc h1 h2

theorem le_of_not_lt_ieee {a b : α} (ha : V.val a ≠ Fl.of R .nan) (hb : V.val b ≠ Fl.of R .nan) (h : F64.lt b a = false) :
    F64.le a b = true := by
  rw [V.le]
  rw [V.lt] at h
  exact fl_le_of_not_lt _ _ ha hb h

/-- **C30**, IEEE floats (two zeros), NaN-free inputs: the output is `None` before tick `len-1` or if the whole window is
missing, and otherwise one of the inputs of the window, not below (above) any of them. -/
theorem C30_ieee (d : DataProvider α) {len : Nat} (hlen : 1 ≤ len)
    (x : Nat → Option α) (N : Nat) (hx : ∀ t v, t < N → x t = some v → V.val v ≠ Fl.of R .nan) :
    ∃ hi lo, Runs (fun t => Highest.next ⟨d, t⟩) (Highest.new len) x N hi ∧
      Runs (fun t => Lowest.next ⟨d, t⟩) (Lowest.new len) x N lo ∧
      ∀ t, t < N →
        (t + 1 < len → hi t = none ∧ lo t = none) ∧
        (len ≤ t + 1 → ((∀ k, t < k + len → k ≤ t → x k = none) ∧ hi t = none ∧ lo t = none) ∨
          ∃ h l, hi t = some h ∧ lo t = some l ∧
            (∃ k, t < k + len ∧ k ≤ t ∧ x k = some h) ∧ (∃ k, t < k + len ∧ k ≤ t ∧ x k = some l) ∧
            ∀ k v, t < k + len → k ≤ t → x k = some v → F64.le v h = true ∧ F64.le l v = true) := by
  refine ⟨_, _, highest_runs d hlen x N, lowest_runs d hlen x N, fun t ht => ⟨fun h => ?_, fun h => ?_⟩⟩
  · simp [highest0, lowest0, show ¬ len ≤ t + 1 by omega]
  · have hP : ∀ v, some v ∈ win x len t → V.val v ≠ Fl.of R .nan := by
      intro v hv
      obtain ⟨k, h1, h2, h3⟩ := (mem_win h).mp hv
      exact hx k v (by omega) h3
    simp only [highest0, lowest0, if_pos h]
    rcases pick_spec maxB (maxLaw_ieee V) (win_ne_nil x (t := t) hlen) hP with ⟨h1, h2⟩ | ⟨m, h1, h2, h3⟩
    · rcases pick_spec minB (minLaw_ieee V) (win_ne_nil x (t := t) hlen) hP with ⟨h1', h2'⟩ | ⟨m', h1', h2', h3'⟩
      · exact Or.inl ⟨fun k hk1 hk2 => h2 _ ((mem_win h).mpr ⟨k, by omega, hk2, rfl⟩), h1, h1'⟩
      · exact absurd (h2 _ h2') (by simp)
    · rcases pick_spec minB (minLaw_ieee V) (win_ne_nil x (t := t) hlen) hP with ⟨h1', h2'⟩ | ⟨m', h1', h2', h3'⟩
      · exact absurd (h2' _ h2) (by simp)
      · refine Or.inr ⟨m, m', h1, h1', ?_, ?_, fun k v hk1 hk2 hk3 => ?_⟩
        · obtain ⟨k, a, b, c⟩ := (mem_win h).mp h2; exact ⟨k, by omega, b, c⟩
        · obtain ⟨k, a, b, c⟩ := (mem_win h).mp h2'; exact ⟨k, by omega, b, c⟩
        · have hm : some v ∈ win x len t := (mem_win h).mpr ⟨k, by omega, hk2, hk3⟩
          exact ⟨le_of_not_lt_ieee V (hP v hm) (hP m h2) (h3 v hm),
            le_of_not_lt_ieee V (hP m' h2') (hP v hm) (h3' v hm)⟩

/-- **C31**, IEEE floats: `HighestBars(len)` and `LowestBars(len)` point at the oldest extreme of the window. -/
theorem C31_ieee (d : DataProvider α) {len N : Nat} (hlen : 1 ≤ len) {x z : Nat → Option α}
    (hx : HasCol d.high N x) (hz : HasCol d.low N z) (hxn : ∀ t v, t < N → x t = some v → V.val v ≠ Fl.of R .nan)
    (hzn : ∀ t v, t < N → z t = some v → V.val v ≠ Fl.of R .nan) :
    ∃ hb lb, Runs (noInput fun t => HighestBars.next ⟨d, t⟩) (HighestBars.new len) unit N hb ∧
      Runs (noInput fun t => LowestBars.next ⟨d, t⟩) (LowestBars.new len) unit N lb ∧ ∀ t, t < N →
      (t + 1 < len → hb t = none ∧ lb t = none) ∧
      (len ≤ t + 1 → ∃ dd ee, dd < len ∧ ee < len ∧ hb t = some (-(dd : Int)) ∧ lb t = some (-(ee : Int)) ∧
        ((dd = 0 ∧ ∀ j, j < len → x (t - j) = none) ∨
         ∃ m, x (t - dd) = some m ∧ ∀ j v, j < len → x (t - j) = some v → F64.le v m = true ∧ (dd < j → F64.lt v m = true)) ∧
        ((ee = 0 ∧ ∀ j, j < len → z (t - j) = none) ∨
         ∃ m, z (t - ee) = some m ∧ ∀ j v, j < len → z (t - j) = some v → F64.le m v = true ∧ (ee < j → F64.lt m v = true))) := by
  refine ⟨_, _, highestBars_runs hlen hx, lowestBars_runs hlen hz, fun t ht => ⟨fun h => ?_, fun hl => ?_⟩⟩
  · rw [bars0, if_neg (by omega), bars0, if_neg (by omega)]; exact ⟨rfl, rfl⟩
  · obtain ⟨dd, h1, h2, h3⟩ := bars0_spec' (maxLaw_ieee V) hlen hl (x := x) (fun k v hk => hxn k v (by omega))
    obtain ⟨ee, g1, g2, g3⟩ := bars0_spec' (minLaw_ieee V) hlen hl (x := z) (fun k v hk => hzn k v (by omega))
    refine ⟨dd, ee, h1, g1, h2, g2, h3.imp id ?_, g3.imp id ?_⟩
    · rintro ⟨m, hm, hb⟩
      exact ⟨m, hm, fun j v hj hv => ⟨le_of_not_lt_ieee V (hxn _ _ (by omega) hv) (hxn _ _ (by omega) hm) (hb j v hj hv).1,
        (hb j v hj hv).2⟩⟩
    · rintro ⟨m, hm, hb⟩
      exact ⟨m, hm, fun j v hj hv => ⟨le_of_not_lt_ieee V (hzn _ _ (by omega) hm) (hzn _ _ (by omega) hv) (hb j v hj hv).1,
        (hb j v hj hv).2⟩⟩

/-! ## Quotients and percentages -/

variable (L : R.Lawful)
include L

theorem rnd_between {k : K} {m n : ℤ} (hm : |m| ≤ 2 ^ 53) (hn : |n| ≤ 2 ^ 53) (h1 : (m : K) ≤ k) (h2 : k ≤ n) :
    ∃ v, R.rnd k = .fin v ∧ (m : K) ≤ v ∧ v ≤ n := by
  have a := L.mono _ _ h1
  have b := L.mono _ _ h2
  rw [L.int m hm] at a
  rw [L.int n hn] at b
  match hk : R.rnd k, L.ne_nan k with
  | .nan, h => exact absurd rfl h
  | .pinf, _ => rw [hk] at b; simp [Ext.le] at b
  | .ninf, _ => rw [hk] at a; simp [Ext.le] at a
  | .fin v, _ =>
    rw [hk] at a b
    exact ⟨v, rfl, of_decide_eq_true a, of_decide_eq_true b⟩

/-- A rounded difference divided by a rounded difference that is at least as large: NaN, or in [-1, 1] with the sign of the dividend. -/
theorem quotient_range {a b : α} {p q : K} (ha : V.val a = Fl.of R (R.rnd p)) (hb : V.val b = Fl.of R (R.rnd q)) (hpq : |p| ≤ q) :
    V.val (a / b) = Fl.of R .nan ∨ ∃ k, V.val (a / b) = Fl.of R (.fin k) ∧ -1 ≤ k ∧ k ≤ 1 ∧ (p ≤ 0 → k ≤ 0) ∧ (0 ≤ p → 0 ≤ k) := by
  obtain ⟨hp1, hp2⟩ := abs_le.mp hpq
  have m1 := L.mono _ _ hp2
  have m2 := L.mono _ _ hp1
  rw [L.odd] at m2
  have s1 : p ≤ 0 → (R.rnd p).le (.fin 0) = true := fun h => by have := L.mono _ _ h; rwa [rnd_zero L] at this
  have s2 : 0 ≤ p → (Ext.fin 0).le (R.rnd p) = true := fun h => by have := L.mono _ _ h; rwa [rnd_zero L] at this
  have nan0 : ∀ b', V.val b' = Fl.of R (.fin 0) → V.val a = Fl.of R (.fin 0) → V.val (a / b') = Fl.of R .nan := by
    intro b' h1 h2
    have e : V.val a / V.val b' = Fl.of R .nan := by
      rw [h1, h2]
      show Fl.div R (.fin 0) (.fin 0) = .nan
      simp [Fl.div, Fl.signInf]
    rcases V.div_zero a b' h1 with h | h
    · rw [h, e]
    · rw [h, e]; rfl
  match hq : R.rnd q, L.ne_nan q with
  | .nan, h => exact absurd rfl h
  | .ninf, _ =>
    rw [hq] at m1 m2
    have h0 : 0 ≤ q := (abs_nonneg _).trans hpq
    have := L.mono _ _ h0
    rw [rnd_zero L, hq] at this
    simp [Ext.le] at this
  | .pinf, _ =>
    have hb0 : V.val b ≠ Fl.of R (.fin 0) := by rw [hb, hq]; intro h; cases h
    rw [V.div _ _ hb0, ha, hb, hq]
    match hp : R.rnd p, L.ne_nan p with
    | .nan, h => exact absurd rfl h
    | .pinf, _ => exact Or.inl rfl
    | .ninf, _ => exact Or.inl rfl
    | .fin v, _ => exact Or.inr ⟨0, rfl, by norm_num, by norm_num, fun _ => le_refl _, fun _ => le_refl _⟩
  | .fin w, _ =>
    rw [hq] at m1 m2 hb
    match hp : R.rnd p, L.ne_nan p with
    | .nan, h => exact absurd rfl h
    | .pinf, _ => rw [hp] at m1; simp [Ext.le] at m1
    | .ninf, _ => rw [hp] at m2; simp [Ext.le, Ext.neg] at m2
    | .fin v, _ =>
      rw [hp] at m1 m2 ha s1 s2
      have h1 : v ≤ w := of_decide_eq_true m1
      have h2 : -w ≤ v := of_decide_eq_true m2
      have t1 : p ≤ 0 → v ≤ 0 := fun h => of_decide_eq_true (s1 h)
      have t2 : 0 ≤ p → 0 ≤ v := fun h => of_decide_eq_true (s2 h)
      by_cases hw : w = 0
      · subst hw
        obtain rfl : v = 0 := by linarith
        exact Or.inl (nan0 b hb ha)
      · have hw0 : 0 < w := lt_of_le_of_ne (by linarith) (Ne.symm hw)
        have hb0 : V.val b ≠ Fl.of R (.fin 0) := by
          rw [hb]; intro h
          exact hw (Ext.fin.inj (show (Ext.fin w : Ext K) = .fin 0 from h))
        have e : V.val (a / b) = Fl.of R (R.rnd (v / w)) := by
          rw [V.div _ _ hb0, ha, hb]
          exact (if_neg hw : (if w = 0 then Fl.signInf v else R.rnd (v / w)) = R.rnd (v / w))
        obtain ⟨k, k1, k2, k3⟩ := rnd_between L (k := v / w) (m := -1) (n := 1) (by norm_num) (by norm_num)
          (by push_cast; rw [le_div_iff₀ hw0]; linarith) (by push_cast; rw [div_le_iff₀ hw0]; linarith)
        push_cast at k2 k3
        refine Or.inr ⟨k, by rw [e, k1], k2, k3, fun h => ?_, fun h => ?_⟩
        · have := L.mono _ _ (show v / w ≤ 0 from div_nonpos_of_nonpos_of_nonneg (t1 h) hw0.le)
          rw [rnd_zero L, k1] at this
          exact of_decide_eq_true this
        · have := L.mono _ _ (show 0 ≤ v / w from div_nonneg (t2 h) hw0.le)
          rw [rnd_zero L, k1] at this
          exact of_decide_eq_true this

/-- NaN or between two literals. -/
theorem range_of {v : α} {k : K} (hv : V.val v = Fl.of R (.fin k)) {m n : ℤ} (hm : |m| ≤ 2 ^ 53) (hn : |n| ≤ 2 ^ 53)
    (h1 : (m : K) ≤ k) (h2 : k ≤ n) : F64.le (lit (m : ℚ)) v = true ∧ F64.le v (lit (n : ℚ)) = true := by
  have lits : ∀ z : ℤ, |z| ≤ 2 ^ 53 → V.val (lit (z : ℚ)) = Fl.of R (.fin (z : K)) := by
    intro z hz
    rw [V.lit]
    have h := L.int z hz
    show R.rnd (((z : ℚ)) : K) = _
    rw [Rat.cast_intCast]
    exact h
  rw [V.le, V.le, lits m hm, lits n hn, hv]
  exact ⟨decide_eq_true h1, decide_eq_true h2⟩

/-- A finite number times 100. -/
theorem times_100 {v : α} {k : K} (hv : V.val v = Fl.of R (.fin k)) {m n : ℤ} (hm : |100 * m| ≤ 2 ^ 53) (hn : |100 * n| ≤ 2 ^ 53)
    (h1 : (m : K) ≤ k) (h2 : k ≤ n) :
    F64.le (lit ((100 * m : ℤ) : ℚ)) (v * lit 100) = true ∧ F64.le (v * lit 100) (lit ((100 * n : ℤ) : ℚ)) = true := by
  have e : V.val (lit 100) = Fl.of R (.fin 100) := by
    rw [V.lit]
    have h := L.int 100 (by norm_num)
    show R.rnd ((100 : ℚ) : K) = _
    push_cast at h ⊢
    exact h
  obtain ⟨w, w1, w2, w3⟩ := rnd_between L (k := k * 100) (m := 100 * m) (n := 100 * n) hm hn
    (by push_cast; linarith) (by push_cast; linarith)
  have hw : V.val (v * lit 100) = Fl.of R (.fin w) := by
    rw [V.mul, hv, e]
    exact w1
  exact range_of V L hw hm hn w2 w3

theorem val_sub {a b : α} {p q : K} (ha : V.val a = Fl.of R (.fin p)) (hb : V.val b = Fl.of R (.fin q)) :
    V.val (a - b) = Fl.of R (R.rnd (p - q)) := by
  rw [V.sub, ha, hb, sub_eq_add_neg]; rfl

omit L in
/-- Finite prices, open and close between low and high. -/
def SoundBars (V : Valued R α) (o h l c : Nat → α) : Prop :=
  ∃ o' h' l' c' : Nat → K, WellFormed o' h' l' c' ∧ ∀ t, V.val (o t) = Fl.of R (.fin (o' t)) ∧ V.val (h t) = Fl.of R (.fin (h' t)) ∧
    V.val (l t) = Fl.of R (.fin (l' t)) ∧ V.val (c t) = Fl.of R (.fin (c' t))

/-- **C69.** Balance of power of sound bars is NaN or between -1 and 1 (NaN only if `high - low` overflows). -/
theorem C69_balance_of_power {d : DataProvider α} {N : Nat} {o h l c v : Nat → α} (hb : Bars d N o h l c v)
    (hs : SoundBars V o h l c) {t : Nat} (ht : t < N) :
    ∃ y, BalanceOfPower.next ⟨d, t⟩ = .ok y ∧ ∀ z, y = some z →
      V.val z = Fl.of R .nan ∨ (F64.le (lit (-1)) z = true ∧ F64.le z (lit 1) = true) := by
  obtain ⟨o', h', l', c', hw, hv⟩ := hs
  refine ⟨_, C53_balance_of_power d hb.open_ hb.high hb.low hb.close ht, fun z hz => ?_⟩
  simp only [opt4, Option.join_some] at hz
  split at hz
  · simp at hz
  · obtain rfl := Option.some.inj hz
    obtain ⟨v1, v2, v3, v4⟩ := hv t
    obtain ⟨w1, w2, w3, w4⟩ := hw t
    rcases quotient_range V L (val_sub V L v4 v1) (val_sub V L v2 v3) (abs_le.mpr ⟨by linarith, by linarith⟩) with hn | ⟨k, k1, k2, k3, _⟩
    · exact Or.inl hn
    · exact Or.inr (by simpa using range_of V L k1 (m := -1) (n := 1) (by norm_num) (by norm_num) (by simpa using k2) (by simpa using k3))

/-- **C69.** Williams %R of the close of sound bars is NaN or between -100 and 0. -/
theorem C69_williams {d : DataProvider α} {N : Nat} {o h l c v : Nat → α} (hb : Bars d N o h l c v)
    (hs : SoundBars V o h l c) {len : Nat} (hlen : 1 ≤ len) :
    ∃ y, Runs (fun t => WilliamsPercentRank.next ⟨d, t⟩) (WilliamsPercentRank.new len) (fun t => some (c t)) N y ∧
      ∀ t, t < N → ∀ z, y t = some z → V.val z = Fl.of R .nan ∨ (F64.le (lit (-100)) z = true ∧ F64.le z (lit 0) = true) := by
  obtain ⟨o', h', l', c', hw, hv⟩ := hs
  have fin_ne : ∀ {a : α} {k : K}, V.val a = Fl.of R (.fin k) → V.val a ≠ Fl.of R .nan := by
    intro a k h hn; rw [h] at hn; cases hn
  obtain ⟨hi, _, r1, _, p1⟩ := C30_ieee V d hlen (fun t => some (h t)) N
    (by rintro t _ _ ⟨⟩; exact fin_ne (hv t).2.1)
  obtain ⟨_, lo, _, r2, p2⟩ := C30_ieee V d hlen (fun t => some (l t)) N
    (by rintro t _ _ ⟨⟩; exact fin_ne (hv t).2.2.1)
  refine ⟨_, C53_williams d hb.high hb.low r1 r2, fun t ht z hz => ?_⟩
  by_cases hl : len ≤ t + 1
  swap
  · rw [((p1 t ht).1 (by omega)).1] at hz
    simp [safeDiv, opt2] at hz
  rcases (p1 t ht).2 hl with ⟨a, _, _⟩ | ⟨u, _, e1, _, ⟨i, i1, i2, i3⟩, _, b1⟩
  · exact absurd (a t (by omega) (le_refl _)) (by simp)
  rcases (p2 t ht).2 hl with ⟨a, _, _⟩ | ⟨_, w, _, e2, _, ⟨j, j1, j2, j3⟩, b2⟩
  · exact absurd (a t (by omega) (le_refl _)) (by simp)
  have le1 := (b1 t _ (by omega) (le_refl _) rfl).1
  have le2 := (b2 t _ (by omega) (le_refl _) rfl).2
  obtain rfl := Option.some.inj i3
  obtain rfl := Option.some.inj j3
  rw [V.le, (hv t).2.1, (hv i).2.1] at le1
  rw [V.le, (hv t).2.2.1, (hv j).2.2.1] at le2
  have le1 : h' t ≤ h' i := of_decide_eq_true le1
  have le2 : l' j ≤ l' t := of_decide_eq_true le2
  obtain ⟨w1, w2, w3, w4⟩ := hw t
  rw [e1, e2] at hz
  simp only [safeDiv, opt2, Option.join_some] at hz
  split at hz
  · simp at hz
  · simp only [Option.map_some, Option.some.injEq] at hz
    subst hz
    rcases quotient_range V L (val_sub V L (hv t).2.2.2 (hv i).2.1) (val_sub V L (hv i).2.1 (hv j).2.2.1)
        (abs_le.mpr ⟨by linarith, by linarith⟩) with hn | ⟨k, k1, k2, _, k4, _⟩
    · left
      rw [V.mul, hn]; rfl
    · right
      have k5 := k4 (by linarith)
      simpa using times_100 V L k1 (m := -1) (n := 0) (by norm_num) (by norm_num) (by simpa using k2) (by simpa using k5)

/-- A count out of a positive total as a percentage. -/
theorem percent_of_count {a : α} {p len : Nat} (ha : V.val a = Fl.of R (.fin (p : K))) (hp : p ≤ len) (hlen : 1 ≤ len) (h53 : len ≤ 2 ^ 53) :
    F64.le (lit 0) (a / lit (len : ℚ) * lit 100) = true ∧ F64.le (a / lit (len : ℚ) * lit 100) (lit 100) = true := by
  have hl0 : (0 : K) < len := by exact_mod_cast hlen
  have e : V.val (lit (len : ℚ)) = Fl.of R (.fin (len : K)) := by
    rw [V.lit]
    have h := L.int len (by rw [abs_of_nonneg (by positivity)]; exact_mod_cast h53)
    show R.rnd (((len : ℚ)) : K) = _
    push_cast at h ⊢
    exact h
  have hne : V.val (lit (len : ℚ)) ≠ Fl.of R (.fin 0) := by
    rw [e]; intro h
    exact hl0.ne' (Ext.fin.inj (show (Ext.fin (len : K) : Ext K) = .fin 0 from h))
  obtain ⟨k, k1, k2, k3⟩ := rnd_between L (k := (p : K) / len) (m := 0) (n := 1) (by norm_num) (by norm_num)
    (by push_cast; positivity) (by push_cast; rw [div_le_one hl0]; exact_mod_cast hp)
  have hk : V.val (a / lit (len : ℚ)) = Fl.of R (.fin k) := by
    rw [V.div _ _ hne, ha, e]
    refine Eq.trans (if_neg hl0.ne' : (if (len : K) = 0 then Fl.signInf (p : K) else R.rnd ((p : K) / len)) = R.rnd ((p : K) / len)) k1
  simpa using times_100 V L hk (m := 0) (n := 1) (by norm_num) (by norm_num) k2 k3

include V in
/-- **C69.** The percent rank of any input (NaN and infinities included) is between 0 and 100, and never NaN. -/
theorem C69_percent_rank (d : DataProvider α) {len : Nat} (hlen : 1 ≤ len) (h53 : len ≤ 2 ^ 53) (x : Nat → Option α) (N : Nat) :
    ∃ y, Runs (fun t => Prank.next ⟨d, t⟩) (Prank.new len) x N y ∧
      ∀ t, t < N → ∀ z, y t = some z → F64.le (lit 0) z = true ∧ F64.le z (lit 100) = true := by
  refine ⟨_, prank_runs d hlen x N, fun t _ z hz => ?_⟩
  unfold prank0 at hz
  split at hz
  · rename_i hl
    cases hx : x t with
    | none => rw [hx] at hz; simp at hz
    | some w =>
      rw [hx] at hz
      simp only [Option.map_some, Option.some.injEq] at hz
      subst hz
      have hc : countLe w (win x len (t - 1)) ≤ len := (List.length_filter_le _ _).trans (by rw [win_length])
      refine percent_of_count V L ?_ hc hlen h53
      rw [V.lit]
      have h := L.int (countLe w (win x len (t - 1)) : ℕ) (by rw [abs_of_nonneg (by positivity)]; exact_mod_cast hc.trans h53)
      show R.rnd (((countLe w (win x len (t - 1)) : ℚ)) : K) = _
      push_cast at h ⊢
      exact h
  · simp at hz

/-- **C69.** Aroon up and down of NaN-free highs and lows are between 0 and 100, and never NaN. -/
theorem C69_aroon {d : DataProvider α} {len N : Nat} (hlen : 1 ≤ len) (h53 : len ≤ 2 ^ 53) {x z : Nat → Option α}
    (hx : HasCol d.high N x) (hz : HasCol d.low N z) (hxn : ∀ t v, t < N → x t = some v → V.val v ≠ Fl.of R .nan)
    (hzn : ∀ t v, t < N → z t = some v → V.val v ≠ Fl.of R .nan) :
    ∃ y, Runs (noInput fun t => Aroon.next ⟨d, t⟩) (Aroon.new len) unit N y ∧ ∀ t, t < N →
      (∀ a, (y t).1 = some a → F64.le (lit 0) a = true ∧ F64.le a (lit 100) = true) ∧
      (∀ a, (y t).2 = some a → F64.le (lit 0) a = true ∧ F64.le a (lit 100) = true) := by
  obtain ⟨hb, lb, r1, r2, p⟩ := C31_ieee V d hlen hx hz hxn hzn
  have val : ∀ q : Nat, q < len → F64.le (lit 0) ((lit ((-(q : Int) : Int) : ℚ) + lit (len : ℚ)) / lit (len : ℚ) * lit 100 : α) = true ∧
      F64.le ((lit ((-(q : Int) : Int) : ℚ) + lit (len : ℚ)) / lit (len : ℚ) * lit 100 : α) (lit 100) = true := by
    intro q hq
    refine percent_of_count V L (p := len - q) ?_ (by omega) hlen h53
    have h1 := L.int (-(q : Int)) (by rw [abs_neg, abs_of_nonneg (by positivity)]; exact_mod_cast hq.le.trans h53)
    have h2 := L.int len (by rw [abs_of_nonneg (by positivity)]; exact_mod_cast h53)
    have h3 := L.int ((len - q : Nat) : Int) (by rw [abs_of_nonneg (by positivity)]; exact_mod_cast (Nat.sub_le _ _).trans h53)
    have e1 : V.val (lit ((-(q : Int) : Int) : ℚ)) = Fl.of R (.fin (-(q : K))) := by
      rw [V.lit]
      show R.rnd ((((-(q : Int) : Int) : ℚ)) : K) = _
      push_cast at h1 ⊢
      exact h1
    have e2 : V.val (lit (len : ℚ)) = Fl.of R (.fin (len : K)) := by
      rw [V.lit]
      show R.rnd (((len : ℚ)) : K) = _
      push_cast at h2 ⊢
      exact h2
    rw [V.add, e1, e2]
    show R.rnd (-(q : K) + len) = _
    rw [show (-(q : K) + len) = (((len - q : Nat) : Int) : K) by push_cast [Nat.cast_sub hq.le]; ring, h3]
    push_cast
    rfl
  refine ⟨_, C53_aroon d hlen hx hz r1 r2, fun t ht => ⟨fun a ha => ?_, fun a ha => ?_⟩⟩
  · by_cases hl : len ≤ t + 1
    · obtain ⟨dd, _, d1, _, d3, _⟩ := (p t ht).2 hl
      simp only [d3, Option.map_some, Option.some.injEq] at ha
      exact ha ▸ val dd d1
    · simp [((p t ht).1 (by omega)).1] at ha
  · by_cases hl : len ≤ t + 1
    · obtain ⟨_, ee, _, d1, _, d3, _⟩ := (p t ht).2 hl
      simp only [d3, Option.map_some, Option.some.injEq] at ha
      exact ha ▸ val ee d1
    · simp [((p t ht).1 (by omega)).2] at ha

/-- **C69.** The stochastic oscillator of finite values inside their bar's range stays between 0 and `100 (1 + 3 u)` where `u` is the
relative rounding error (`2^-53` in binary64), if the ranges neither overflow nor underflow.  It can exceed 100: see
`C69_stoch_over_100`. -/
theorem C69_stoch {u η top : K} (A : R.Accurate u η top) (d : DataProvider α) {len : Nat} (hlen : 1 ≤ len) {v h l : Nat → α} {v' h' l' : Nat → K}
    (N : Nat) (hv : ∀ t, V.val (v t) = Fl.of R (.fin (v' t)) ∧ V.val (h t) = Fl.of R (.fin (h' t)) ∧ V.val (l t) = Fl.of R (.fin (l' t)))
    (hw : ∀ t, l' t ≤ v' t ∧ v' t ≤ h' t) (htop : 200 ≤ top) (hbig : ∀ i j, h' i - l' j ≤ top / 200)
    (hsmall : ∀ i j, h' i = l' j ∨ 2 * η ≤ u * |h' i - l' j|) :
    ∃ y, Runs (fun t => Stoch.next ⟨d, t⟩) (Stoch.new len) (fun t => (some (v t), some (h t), some (l t))) N y ∧
      ∀ t, t < N → ∀ z, y t = some z → ∃ k, V.val z = Fl.of R (.fin k) ∧ 0 ≤ k ∧ k ≤ 100 * (1 + 3 * u) := by
  have fin_ne : ∀ {a : α} {k : K}, V.val a = Fl.of R (.fin k) → V.val a ≠ Fl.of R .nan := by
    intro a k h hn; rw [h] at hn; cases hn
  have zz : F64.feq (Fl.of R (.fin 0)) (Fl.of R (.fin 0)) = true := by
    show (Ext.fin (0 : K)).feq (.fin 0) = true
    simp [Ext.feq]
  have u0 := A.u_nonneg
  have u1 := A.u_small
  refine ⟨_, stoch_runs d hlen (fun t => some (v t)) (fun t => some (h t)) (fun t => some (l t)) N, fun t => ?_⟩
  obtain ⟨hi, _, r1, _, p1⟩ := C30_ieee V d hlen (fun t => some (h t)) N
    (by rintro t _ _ ⟨⟩; exact fin_ne (hv t).2.1)
  obtain ⟨_, lo, _, r2, p2⟩ := C30_ieee V d hlen (fun t => some (l t)) N
    (by rintro t _ _ ⟨⟩; exact fin_ne (hv t).2.2)
  have q1 := r1.unique (highest_runs d hlen _ N)
  have q2 := r2.unique (lowest_runs d hlen _ N)
  have step : ∀ t, t < N → ∀ prev : Option α, (∀ z, prev = some z → ∃ k, V.val z = Fl.of R (.fin k) ∧ 0 ≤ k ∧ k ≤ 100 * (1 + 3 * u)) →
      ∀ z, stochVal (some (v t)) (highest0 len (fun t => some (h t)) t) (lowest0 len (fun t => some (l t)) t) prev = some z →
        ∃ k, V.val z = Fl.of R (.fin k) ∧ 0 ≤ k ∧ k ≤ 100 * (1 + 3 * u) := by
    intro t ht prev hprev z hz
    rw [← q1 t ht, ← q2 t ht] at hz
    by_cases hl : len ≤ t + 1
    swap
    · rw [((p1 t ht).1 (by omega)).1] at hz
      simp [stochVal] at hz
    rcases (p1 t ht).2 hl with ⟨a, _, _⟩ | ⟨_, _, e1, _, ⟨i, i1, i2, i3⟩, _, b1⟩
    · exact absurd (a t (by omega) (le_refl _)) (by simp)
    rcases (p2 t ht).2 hl with ⟨a, _, _⟩ | ⟨_, _, _, e2, _, ⟨j, j1, j2, j3⟩, b2⟩
    · exact absurd (a t (by omega) (le_refl _)) (by simp)
    have le1 := (b1 t _ (by omega) (le_refl _) rfl).1
    have le2 := (b2 t _ (by omega) (le_refl _) rfl).2
    obtain rfl := Option.some.inj i3
    obtain rfl := Option.some.inj j3
    rw [V.le, (hv t).2.1, (hv i).2.1] at le1
    rw [V.le, (hv t).2.2, (hv j).2.2] at le2
    have le1 : h' t ≤ h' i := of_decide_eq_true le1
    have le2 : l' j ≤ l' t := of_decide_eq_true le2
    obtain ⟨w1, w2⟩ := hw t
    rw [e1, e2] at hz
    simp only [stochVal] at hz
    split at hz
    · exact hprev z hz
    · rename_i hne
      obtain rfl := Option.some.inj hz
      have hnum := val_sub V L (hv t).1 (hv j).2.2
      have hden := val_sub V L (hv i).2.1 (hv j).2.2
      have hb := hbig i j
      obtain ⟨b, b1, b2⟩ := A.err (h' i - l' j) (by rw [abs_of_nonneg (by linarith)]; linarith)
      rcases hsmall i j with heq | hs
      · exfalso
        apply hne
        rw [V.feq, hden, V.lit, heq, sub_self, rnd_zero L, lit_zero L]
        exact zz
      · have hden0 : 0 ≤ h' i - l' j := by linarith
        rw [abs_of_nonneg hden0] at b2 hs
        have hpos : 0 < h' i - l' j := by
          rcases hden0.lt_or_eq with h | h
          · exact h
          · exfalso
            apply hne
            rw [V.feq, hden, ← h, V.lit, rnd_zero L, lit_zero L]
            exact zz
        have η0 := A.η_nonneg
        have b3 : |b - (h' i - l' j)| ≤ u * (h' i - l' j) := b2.trans (max_le (le_refl _) (by linarith))
        obtain ⟨b4, b5⟩ := abs_le.mp b3
        have um : u * (h' i - l' j) ≤ 1 / 1024 * (h' i - l' j) := mul_le_mul_of_nonneg_right u1 hden0
        have bpos : 0 < b := by linarith
        have mono := L.mono _ _ (show v' t - l' j ≤ h' i - l' j by linarith)
        have mono0 := L.mono _ _ (show (0 : K) ≤ v' t - l' j by linarith)
        obtain ⟨a, a1, -⟩ := A.err (v' t - l' j) (by rw [abs_of_nonneg (by linarith)]; linarith)
        rw [a1, b1] at mono
        rw [a1, rnd_zero L] at mono0
        have ab : a ≤ b := of_decide_eq_true mono
        have a0 : 0 ≤ a := of_decide_eq_true mono0
        obtain ⟨c, c1, c2⟩ := A.err (100 * a) (by rw [abs_of_nonneg (by positivity)]; linarith)
        rw [abs_of_nonneg (show (0 : K) ≤ 100 * a by positivity)] at c2
        have ub : u * a ≤ u * b := mul_le_mul_of_nonneg_left ab u0
        have c3 : c ≤ 100 * b * (1 + u) := by
          have c4 : |c - 100 * a| ≤ 100 * (u * b) := c2.trans (max_le (by nlinarith) (by nlinarith [mul_nonneg u0 bpos.le]))
          have := (abs_le.mp c4).2
          nlinarith
        have c0 : 0 ≤ c := by
          have := L.mono _ _ (show (0 : K) ≤ 100 * a by positivity)
          rw [c1, rnd_zero L] at this
          exact of_decide_eq_true this
        have q0 : 0 ≤ c / b := div_nonneg c0 bpos.le
        have q3 : c / b ≤ 100 * (1 + u) := by rw [div_le_iff₀ bpos]; linarith
        obtain ⟨k, k1, k2⟩ := A.err (c / b) (by rw [abs_of_nonneg q0]; linarith)
        have h100 : V.val (lit 100) = Fl.of R (.fin 100) := by
          rw [V.lit]
          have h := L.int 100 (by norm_num)
          show R.rnd ((100 : ℚ) : K) = _
          push_cast at h ⊢
          exact h
        have hdne : V.val (h i - l j) ≠ Fl.of R (.fin 0) := by
          rw [hden, b1]; intro h
          exact bpos.ne' (Ext.fin.inj (show (Ext.fin b : Ext K) = .fin 0 from h))
        have hmul : V.val (lit 100 * (v t - l j)) = Fl.of R (.fin c) := by
          rw [V.mul, hnum, h100, a1]; exact c1
        have hval : V.val (lit 100 * (v t - l j) / (h i - l j)) = Fl.of R (.fin k) := by
          rw [V.div _ _ hdne, hmul, hden, b1]
          exact (if_neg bpos.ne' : (if b = 0 then Fl.signInf c else R.rnd (c / b)) = R.rnd (c / b)).trans k1
        refine ⟨k, hval, ?_, ?_⟩
        · have := L.mono _ _ q0
          rw [k1, rnd_zero L] at this
          exact of_decide_eq_true this
        · rw [abs_of_nonneg q0] at k2
          have : |k - c / b| ≤ 100 * (1 + u) * u := k2.trans (max_le
            (by rw [mul_comm u]; exact mul_le_mul_of_nonneg_right q3 u0)
            (A.η_small.trans (mul_le_mul_of_nonneg_right (by linarith) u0)))
          have := (abs_le.mp this).2
          have uu : u * u ≤ 1 / 1024 * u := mul_le_mul_of_nonneg_right u1 u0
          linarith
  induction t with
  | zero => exact fun ht => step 0 ht none (by simp)
  | succ t ih => exact fun ht => step (t + 1) ht _ (ih (by omega))

end

/-! ## Binary64 -/

/-- Bars of rational numbers in binary64. -/
def q64 (q : ℚ) : Sf (Rounding.binary64 ℚ) := lit q

/-- Three bars whose money flow volume keeps a unit that their volume loses. -/
def cmfBars : DataProvider (Sf (Rounding.binary64 ℚ)) :=
  let col (a b c : ℚ) : Nat → Option (Sf (Rounding.binary64 ℚ)) := fun t => some (q64 (([a, b, c]).getD t 0))
  DataProvider.ofSeries 3 (col 0 0 0) (col 3 1 1) (col 0 0 0) (col 2 1 1) (col 10000000000000000 1 1)

/-- **C69.** The money flow of well formed bars can be 2 in binary64: lows 0, highs 3, 1, 1, closes 2, 1, 1 and volumes 10^16, 1, 1
with length 2 (in exact arithmetic the output is 1, and always between -1 and 1). -/
theorem C69_cmf_is_2 : (outputs (noInput fun t => ChaikinMoneyFlow.next ⟨cmfBars, t⟩) unit 3 (ChaikinMoneyFlow.new 2)).toOption.map
    (List.map (Option.map fun v => F64.feq v (q64 2))) = some [none, some false, some true] := by
  decide +kernel

/-- **C69.** The stochastic oscillator can exceed 100 in binary64: value and high 0.69, low 0. -/
theorem C69_stoch_over_100 : (outputs (fun t => Stoch.next ⟨cmfBars, t⟩)
    (fun _ => (some (q64 (69 / 100)), some (q64 (69 / 100)), some (q64 0))) 1 (Stoch.new 1)).toOption.map
      (List.map (Option.map fun v => F64.lt (q64 100) v)) = some [some true] := by
  decide +kernel

/-- **C69.** The same in IEEE binary64: balance of power is NaN or in [-1, 1], Williams %R of the close NaN or in [-100, 0], the percent
rank of anything in [0, 100], and Aroon in [0, 100], for every data set of finite bars with open and close between low and high. -/
theorem C69_ranges_binary64 {d : DataProvider B64} {N : Nat} {o h l c v : Nat → B64} (hb : Bars d N o h l c v)
    (hs : SoundBars (Sf.valued _) o h l c) {len : Nat} (hlen : 1 ≤ len) (h53 : len ≤ 2 ^ 53) (x : Nat → Option B64) :
    (∃ y, Runs (noInput fun t (s : Unit) => (BalanceOfPower.next ⟨d, t⟩).map fun y => (y, s)) (.ok ()) unit N y ∧
      ∀ t, t < N → ∀ z, y t = some z → z.val = Fl.of _ .nan ∨ (F64.le (lit (-1)) z = true ∧ F64.le z (lit 1) = true)) ∧
    (∃ y, Runs (fun t => WilliamsPercentRank.next ⟨d, t⟩) (WilliamsPercentRank.new len) (fun t => some (c t)) N y ∧
      ∀ t, t < N → ∀ z, y t = some z → z.val = Fl.of _ .nan ∨ (F64.le (lit (-100)) z = true ∧ F64.le z (lit 0) = true)) ∧
    (∃ y, Runs (fun t => Prank.next ⟨d, t⟩) (Prank.new len) x N y ∧
      ∀ t, t < N → ∀ z, y t = some z → F64.le (lit 0) z = true ∧ F64.le z (lit 100) = true) ∧
    (∃ y, Runs (noInput fun t => Aroon.next ⟨d, t⟩) (Aroon.new len) unit N y ∧ ∀ t, t < N →
      (∀ a, (y t).1 = some a → F64.le (lit 0) a = true ∧ F64.le a (lit 100) = true) ∧
      (∀ a, (y t).2 = some a → F64.le (lit 0) a = true ∧ F64.le a (lit 100) = true)) := by
  have L := binary64_lawful ℝ
  have fin_ne : ∀ {a : B64} {k : ℝ}, a.val = Fl.of _ (.fin k) → a.val ≠ Fl.of _ .nan := by
    intro a k h hn; rw [h] at hn; cases hn
  refine ⟨?_, C69_williams (Sf.valued _) L hb hs hlen, C69_percent_rank (Sf.valued _) L d hlen h53 x N, ?_⟩
  · have g : ∀ t, ∃ y, t < N → BalanceOfPower.next ⟨d, t⟩ = .ok y ∧ ∀ z, y = some z →
        z.val = Fl.of _ .nan ∨ (F64.le (lit (-1)) z = true ∧ F64.le z (lit 1) = true) := by
      intro t
      by_cases ht : t < N
      · obtain ⟨y, h1, h2⟩ := C69_balance_of_power (Sf.valued _) L hb hs ht
        exact ⟨y, fun _ => ⟨h1, h2⟩⟩
      · exact ⟨none, fun h => absurd h ht⟩
    choose y hy using g
    refine ⟨y, Runs.of_trace (fun _ => ()) rfl fun t ht => ?_, fun t ht => (hy t ht).2⟩
    simp only [noInput, (hy t ht).1]
    rfl
  · obtain ⟨o', h', l', c', hw, hv⟩ := hs
    exact C69_aroon (Sf.valued _) L hlen h53 hb.high hb.low (by rintro t _ _ ⟨⟩; exact fin_ne (hv t).2.1)
      (by rintro t _ _ ⟨⟩; exact fin_ne (hv t).2.2.1)

/-- **C69.** The stochastic oscillator in binary64: with ranges between `2^-1000` and `2^1000` it is a number between 0 and
`100 (1 + 3 * 2^-53)`. -/
theorem C69_stoch_binary64 (d : DataProvider B64) {len : Nat} (hlen : 1 ≤ len) {v h l : Nat → B64} {v' h' l' : Nat → ℝ}
    (N : Nat) (hv : ∀ t, (v t).val = Fl.of _ (.fin (v' t)) ∧ (h t).val = Fl.of _ (.fin (h' t)) ∧ (l t).val = Fl.of _ (.fin (l' t)))
    (hw : ∀ t, l' t ≤ v' t ∧ v' t ≤ h' t) (hbig : ∀ i j, h' i - l' j ≤ (2 : ℝ) ^ (1000 : ℤ))
    (hsmall : ∀ i j, h' i = l' j ∨ (2 : ℝ) ^ (-1000 : ℤ) ≤ |h' i - l' j|) :
    ∃ y, Runs (fun t => Stoch.next ⟨d, t⟩) (Stoch.new len) (fun t => (some (v t), some (h t), some (l t))) N y ∧
      ∀ t, t < N → ∀ z, y t = some z → ∃ k, z.val = Fl.of _ (.fin k) ∧ 0 ≤ k ∧ k ≤ 100 * (1 + 3 * b64u) := by
  have A : (Rounding.binary64 ℝ).Accurate b64u b64η ((2 : ℝ) ^ (1023 : ℤ)) := binary64_accurate ℝ
  have t1 : (2 : ℝ) ^ (1023 : ℤ) = 8388608 * (2 : ℝ) ^ (1000 : ℤ) := by
    rw [show (1023 : ℤ) = 23 + 1000 by norm_num, zpow_add₀ (by norm_num : (2 : ℝ) ≠ 0)]; norm_num
  have t0 : (1 : ℝ) ≤ (2 : ℝ) ^ (1000 : ℤ) := by
    have : (1 : ℝ) = (2 : ℝ) ^ (0 : ℤ) := by norm_num
    rw [this]
    exact Binary64.two_zpow_mono (by norm_num)
  have e : 2 * b64η ≤ b64u * (2 : ℝ) ^ (-1000 : ℤ) := by
    unfold b64η b64u
    rw [← zpow_add₀ (by norm_num : (2 : ℝ) ≠ 0), show (2 : ℝ) * 2 ^ (-1075 : ℤ) = 2 ^ (1 + -1075 : ℤ) by
      rw [zpow_add₀ (by norm_num : (2 : ℝ) ≠ 0), zpow_one]]
    exact Binary64.two_zpow_mono (by norm_num)
  have u0 : 0 ≤ b64u := A.u_nonneg
  refine C69_stoch (Sf.valued _) (binary64_lawful ℝ) A d hlen N hv hw ?_ (fun i j => (hbig i j).trans ?_)
    fun i j => (hsmall i j).imp id fun h => e.trans (mul_le_mul_of_nonneg_left h u0)
  · rw [t1]
    clear t1 e hsmall A hbig
    generalize (2 : ℝ) ^ (1000 : ℤ) = P at *
    linarith
  · rw [t1]
    clear t1 e hsmall A hbig
    generalize (2 : ℝ) ^ (1000 : ℤ) = P at *
    linarith

/-- Sound bars: open 2, high 3, low 1, close alternating between 1 and 3. -/
example : SoundBars (Sf.valued (Rounding.binary64 ℝ)) (fun _ => lit (2 : ℚ)) (fun _ => lit (3 : ℚ)) (fun _ => lit (1 : ℚ))
    (fun t => if t % 2 = 0 then lit (1 : ℚ) else lit (3 : ℚ)) := by
  have e : ∀ n : ℕ, n ≤ 3 → (Sf.valued (Rounding.binary64 ℝ)).val (lit (n : ℚ)) = Fl.of _ (.fin (n : ℝ)) := by
    intro n hn
    rw [(Sf.valued (Rounding.binary64 ℝ)).lit]
    have h := (binary64_lawful ℝ).int n (by rw [abs_of_nonneg (by positivity)]; exact_mod_cast (by omega : n ≤ 2 ^ 53))
    show (Rounding.binary64 ℝ).rnd (((n : ℚ)) : ℝ) = _
    push_cast at h ⊢
    exact h
  have e1 := e 1 (by omega)
  have e2 := e 2 (by omega)
  have e3 := e 3 (by omega)
  push_cast at e1 e2 e3
  refine ⟨fun _ => 2, fun _ => 3, fun _ => 1, fun t => if t % 2 = 0 then 1 else 3, fun t => ?_, fun t => ⟨e2, e3, e1, ?_⟩⟩
  · dsimp only
    split <;> norm_num
  · dsimp only
    split
    · exact e1
    · exact e3

/-- Inputs of `C69_stoch_binary64`: value 2, high 3, low 1. -/
example : ∃ y, Runs (fun t => Stoch.next ⟨DataProvider.ofSeries 5 unit' unit' unit' unit' unit', t⟩) (Stoch.new 3)
      (fun _ => (some (lit (2 : ℚ) : B64), some (lit (3 : ℚ)), some (lit (1 : ℚ)))) 5 y ∧
      ∀ t, t < 5 → ∀ z, y t = some z → ∃ k, z.val = Fl.of _ (.fin k) ∧ 0 ≤ k ∧ k ≤ 100 * (1 + 3 * b64u) := by
  have e : ∀ n : ℕ, n ≤ 3 → (lit (n : ℚ) : B64).val = Fl.of _ (.fin (n : ℝ)) := by
    intro n hn
    have h := (binary64_lawful ℝ).int n (by rw [abs_of_nonneg (by positivity)]; exact_mod_cast (by omega : n ≤ 2 ^ 53))
    show (Rounding.binary64 ℝ).rnd (((n : ℚ)) : ℝ) = _
    push_cast at h ⊢
    exact h
  have e1 := e 1 (by omega)
  have e2 := e 2 (by omega)
  have e3 := e 3 (by omega)
  push_cast at e1 e2 e3
  refine C69_stoch_binary64 _ (by norm_num) (v' := fun _ => 2) (h' := fun _ => 3) (l' := fun _ => 1) 5 (fun t => ⟨e2, e3, e1⟩)
    (fun t => ⟨by norm_num, by norm_num⟩) (fun i j => ?_) fun i j => Or.inr ?_
  · have : (3 - 1 : ℝ) = (2 : ℝ) ^ (1 : ℤ) := by norm_num
    rw [this]
    exact Binary64.two_zpow_mono (by norm_num)
  · have : |(3 - 1 : ℝ)| = (2 : ℝ) ^ (1 : ℤ) := by norm_num
    rw [this]
    exact Binary64.two_zpow_mono (by norm_num)

end Pace
