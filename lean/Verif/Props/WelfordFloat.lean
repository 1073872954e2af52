import Verif.Props.AccuracyWelford
import Verif.Props.Ieee

/-!
# C108: the fast variance in binary64 is never negative and never NaN
-/

set_option linter.unusedSectionVars false

namespace Pace
open Spec

namespace Binary64
variable {K : Type} [Field K] [LinearOrder K] [IsStrictOrderedRing K] [FloorRing K]

theorem representable_multiple {x : K} (h : Representable x) : ∃ m : ℤ, x = m * (2 : K) ^ (-1074 : ℤ) := by
  obtain ⟨m, q, -, hq, -, rfl⟩ := h
  refine ⟨m * 2 ^ (q - -1074).toNat, ?_⟩
  rw [two_zpow_split hq]
  push_cast
  ring

/-- A number rounds to at most its double. -/
theorem mag_double {k : K} (hk : 0 < k) : mag k ≤ 2 * k ∨ lastPlace k = -1074 := by
  rcases le_or_gt (Int.log 2 k - 52) (-1074) with h | h
  · right; unfold lastPlace; exact max_eq_right h
  · left
    have hl : lastPlace k = Int.log 2 k - 52 := max_eq_left h.le
    have e : ((2 ^ 53 : ℤ) : K) * (2 : K) ^ lastPlace k = 2 * (2 : K) ^ Int.log 2 k := by
      rw [hl, show ((2 ^ 53 : ℤ) : K) = (2 : K) ^ (53 : ℤ) by norm_num, ← zpow_add₀ (by norm_num : (2 : K) ≠ 0), show (53 : ℤ) + (Int.log 2 k - 52) = 1 + Int.log 2 k by ring,
        zpow_add₀ (by norm_num : (2 : K) ≠ 0), zpow_one]
    have h1 : k ≤ ((2 ^ 53 : ℤ) : K) * (2 : K) ^ lastPlace k := by
      rw [e]
      have := lt_log (k := k)
      rw [zpow_add₀ (by norm_num : (2 : K) ≠ 0), zpow_one] at this
      linarith
    have h2 := mag_le_of h1
    rw [e] at h2
    linarith [log_le hk]

/-- Half the rounded distance of two binary64 numbers, rounded, is at most the distance. -/
theorem mag_half {x m : K} (hx : Representable x) (hm : Representable m) (h : m < x) {n : Nat} (hn : 2 ≤ n) (hpos : 0 < mag (x - m)) :
    mag (mag (x - m) / n) ≤ x - m := by
  have he : 0 < x - m := by linarith
  have n2 : (2 : K) ≤ n := by exact_mod_cast hn
  have n0 : (0 : K) < n := by linarith
  have hd : 0 < mag (x - m) / n := div_pos hpos n0
  rcases le_or_gt (mag (x - m)) (x - m) with h1 | h1
  · refine le_trans ?_ h1
    have := mag_mono hd (div_le_self hpos.le (show (1 : K) ≤ n by linarith))
    rwa [mag_idem he hpos] at this
  · have hd2 : mag (x - m) / n ≤ mag (x - m) / 2 := div_le_div_of_nonneg_left hpos.le (by norm_num) n2
    have g1 := mag_mono hd hd2
    rcases le_or_gt (Int.log 2 (x - m) - 52) (-1074) with hl | hl
    · -- the distance is exact
      exfalso
      have hp : lastPlace (x - m) = -1074 := by unfold lastPlace; exact max_eq_right hl
      obtain ⟨a, ha⟩ := representable_multiple hx
      obtain ⟨b, hb⟩ := representable_multiple hm
      have e : x - m = ((a - b : ℤ) : K) * (2 : K) ^ lastPlace (x - m) := by
        rw [hp, ha, hb]; push_cast; ring
      have := mag_le_of e.le
      rw [← e] at this
      linarith
    · have hp : lastPlace (x - m) = Int.log 2 (x - m) - 52 := by unfold lastPlace; exact max_eq_left hl.le
      obtain ⟨M, M0, M1, hM⟩ := mag_form he
      have hM0 : 0 < M := by
        rcases lt_or_eq_of_le M0 with h0 | h0
        · exact h0
        · rw [hM, ← h0] at hpos; simp at hpos
      have e2 : mag (x - m) / 2 = (M : K) * (2 : K) ^ (lastPlace (x - m) - 1) := by
        rw [hM, zpow_sub₀ (by norm_num : (2 : K) ≠ 0), zpow_one]
        ring
      have fix : mag (mag (x - m) / 2) = mag (x - m) / 2 := by
        rw [e2]
        exact mag_fixed hM0 M1 (by omega)
      rw [fix] at g1
      rcases mag_double he with g2 | g2
      · linarith
      · omega

theorem round_representable {x : K} (hx : Representable x) (hb : |x| ≤ (2 : K) ^ (1023 : ℤ)) : round x = .fin x := by
  obtain ⟨v, hv, -⟩ := round_error hb
  have := ((binary64_nearest hv).2 x hx).1
  rw [sub_self, abs_zero] at this
  have : x = v := by
    have := abs_nonpos_iff.mp this
    linarith
  rw [hv, ← this]

theorem fin_of_between {a b : K} {v : Ext K} (h1 : (Ext.fin a).le v = true) (h2 : v.le (.fin b) = true) : ∃ w, v = .fin w ∧ a ≤ w ∧ w ≤ b := by
  cases v with
  | fin w => exact ⟨w, rfl, of_decide_eq_true h1, of_decide_eq_true h2⟩
  | nan => cases h1
  | pinf => cases h2
  | ninf => cases h1

/-- One step of the mean, upwards: the new mean lies between the old one and the value. -/
theorem mean_step_up {x m B : K} (hx : Representable x) (hm : Representable m) (hxB : |x| ≤ B) (hmB : |m| ≤ B) (hB : 4 * B ≤ (2 : K) ^ (1023 : ℤ)) (h : m ≤ x)
    {n : Nat} (hn : 2 ≤ n ∨ n = 1 ∧ m = 0) :
    ∃ d q m' e, round (x - m) = .fin d ∧ round (d / n) = .fin q ∧ round (m + q) = .fin m' ∧ round (x - m') = .fin e ∧ Representable m' ∧
      m ≤ m' ∧ m' ≤ x ∧ 0 ≤ d ∧ 0 ≤ e := by
  have B0 : 0 ≤ B := (abs_nonneg _).trans hxB
  have xb : |x| ≤ (2 : K) ^ (1023 : ℤ) := hxB.trans (le_trans (by linarith) hB)
  have mb : |m| ≤ (2 : K) ^ (1023 : ℤ) := hmB.trans (le_trans (by linarith) hB)
  have x1 := abs_le.mp hxB
  have m1 := abs_le.mp hmB
  have nn : ∀ k : K, 0 ≤ k → k ≤ 4 * B → ∃ v, round k = .fin v ∧ 0 ≤ v := fun k k0 kB => by
    obtain ⟨v, hv, -⟩ := round_error (k := k) (by rw [abs_of_nonneg k0]; linarith)
    have := round_nonneg k0
    rw [hv] at this
    exact ⟨v, hv, of_decide_eq_true this⟩
  obtain ⟨d, hd, d0⟩ := nn (x - m) (by linarith) (by linarith)
  have key : ∃ q, round (d / n) = .fin q ∧ 0 ≤ q ∧ q ≤ x - m := by
    rcases hn with hn | ⟨rfl, rfl⟩
    · rcases eq_or_lt_of_le d0 with h0 | h0
      · rw [← h0, zero_div, round_zero]
        exact ⟨0, rfl, le_refl _, by linarith⟩
      · have hlt : m < x := by
          rcases lt_or_eq_of_le h with h' | h'
          · exact h'
          · rw [h', sub_self, round_zero] at hd
            cases hd
            exact absurd h0 (lt_irrefl _)
        obtain ⟨hdm, -⟩ := round_fin_pos (show 0 < x - m by linarith) hd
        have n0 : (0 : K) < n := by exact_mod_cast (by omega : 0 < n)
        have hdn : 0 < d / n := div_pos h0 n0
        have hle := mag_half hx hm hlt hn (by rw [← hdm]; exact h0)
        rw [← hdm] at hle
        refine ⟨mag (d / n), ?_, mag_nonneg hdn.le, hle⟩
        rw [round_pos hdn, if_neg]
        rw [not_le]
        refine lt_of_le_of_lt (hle.trans (le_trans (?_ : x - m ≤ 4 * B) hB)) (zpow_lt_zpow_right₀ (by norm_num) (show (1023 : ℤ) < 1024 by norm_num))
        linarith
    · rw [sub_zero, round_representable hx xb] at hd
      cases hd
      refine ⟨x, ?_, by linarith, by linarith⟩
      rw [Nat.cast_one, div_one]
      exact round_representable hx xb
  obtain ⟨q, hq, q0, q1⟩ := key
  have l1 := round_mono m (m + q) (by linarith)
  have l2 := round_mono (m + q) x (by linarith)
  rw [round_representable hm mb] at l1
  rw [round_representable hx xb] at l2
  obtain ⟨m', hm', b1, b2⟩ := fin_of_between l1 l2
  obtain ⟨e, he, e0⟩ := nn (x - m') (by linarith) (by linarith)
  exact ⟨d, q, m', e, hd, hq, hm', he, (binary64_nearest hm').1, b1, b2, d0, e0⟩

/-- One step of the mean: the new mean lies between the old one and the value, so that both distances have the same sign. -/
theorem mean_step {x m B : K} (hx : Representable x) (hm : Representable m) (hxB : |x| ≤ B) (hmB : |m| ≤ B) (hB : 4 * B ≤ (2 : K) ^ (1023 : ℤ))
    {n : Nat} (hn : 2 ≤ n ∨ n = 1 ∧ m = 0) :
    ∃ d q m' e, round (x - m) = .fin d ∧ round (d / n) = .fin q ∧ round (m + q) = .fin m' ∧ round (x - m') = .fin e ∧ Representable m' ∧
      min m x ≤ m' ∧ m' ≤ max m x ∧ 0 ≤ d * e := by
  rcases le_total m x with h | h
  · obtain ⟨d, q, m', e, h1, h2, h3, h4, h5, h6, h7, h8, h9⟩ := mean_step_up hx hm hxB hmB hB h hn
    exact ⟨d, q, m', e, h1, h2, h3, h4, h5, (min_le_left _ _).trans h6, h7.trans (le_max_right _ _), mul_nonneg h8 h9⟩
  · obtain ⟨d, q, m', e, h1, h2, h3, h4, h5, h6, h7, h8, h9⟩ := mean_step_up (representable_neg hx) (representable_neg hm) (by rwa [abs_neg]) (by rwa [abs_neg]) hB
      (show -m ≤ -x by linarith) (n := n) (by rcases hn with hn | ⟨hn, h0⟩; exacts [Or.inl hn, Or.inr ⟨hn, by rw [h0, neg_zero]⟩])
    have r1 := round_fin_neg h1
    have r2 := round_fin_neg h2
    have r3 := round_fin_neg h3
    have r4 := round_fin_neg h4
    refine ⟨-d, -q, -m', -e, ?_, ?_, ?_, ?_, representable_neg h5, ?_, ?_, by rw [neg_mul_neg]; exact mul_nonneg h8 h9⟩
    · rw [← r1]; congr 1; ring
    · rw [← r2]; congr 1; ring
    · rw [← r3]; congr 1; ring
    · rw [← r4]; congr 1; ring
    · exact (min_le_right _ _).trans (by linarith)
    · exact le_trans (by linarith) (le_max_left _ _)

end Binary64

variable {K : Type} [Field K] [LinearOrder K] [IsStrictOrderedRing K] [LawfulRoots K] {α : Type} [F64 α]

section signs
variable {R : Rounding K} (V : Valued R α) (L : R.Lawful)

/-- The float is 0, positive or infinite. -/
private def Pos (a : α) : Prop := F64.le (Fl.of R (.fin 0)) (V.val a) = true

include L in
private theorem pos_cases {a : α} (h : Pos V a) : (∃ k, V.val a = Fl.of R (.fin k) ∧ 0 ≤ k) ∨ V.val a = Fl.of R .pinf := by
  unfold Pos at h
  generalize V.val a = v at *
  match v, h with
  | .fin k, h => exact Or.inl ⟨k, rfl, of_decide_eq_true h⟩
  | .pinf, _ => exact Or.inr rfl

include L in
private theorem rnd_pos {k : K} (hk : 0 ≤ k) {a : α} (ha : V.val a = Fl.of R (R.rnd k)) : Pos V a := by
  have := L.mono 0 k hk
  rw [show R.rnd 0 = .fin 0 by have := L.int 0 (by norm_num); push_cast at this; exact this] at this
  unfold Pos
  rw [ha]
  exact this

include L in
private theorem pos_add {a b : α} (ha : Pos V a) (hb : Pos V b) : Pos V (a + b) := by
  rcases pos_cases V L ha with ⟨k, h1, h2⟩ | h1 <;> rcases pos_cases V L hb with ⟨l, g1, g2⟩ | g1
  · exact rnd_pos V L (add_nonneg h2 g2) (by rw [V.add, h1, g1]; rfl)
  all_goals (unfold Pos; rw [V.add, h1, g1]; rfl)

include L in
private theorem pos_div {a b : α} (ha : Pos V a) {n : K} (hn : 0 < n) (hb : V.val b = Fl.of R (.fin n)) : Pos V (a / b) := by
  have hne : V.val b ≠ Fl.of R (.fin 0) := by
    rw [hb]; intro h; injection h with h; exact hn.ne' h
  rcases pos_cases V L ha with ⟨k, h1, h2⟩ | h1
  · refine rnd_pos V L (div_nonneg h2 hn.le) ?_
    rw [V.div _ _ hne, h1, hb]
    exact if_neg hn.ne'
  · unfold Pos
    rw [V.div _ _ hne, h1, hb]
    show Ext.le (.fin 0) (if n < 0 then Ext.ninf else Ext.pinf : Ext K) = true
    rw [if_neg (not_lt.mpr hn.le)]
    rfl

include L in
private theorem pos_sqrt {a : α} (ha : Pos V a) : Pos V (F64.sqrt a) := by
  unfold Pos
  rcases pos_cases V L ha with ⟨k, h1, h2⟩ | h1
  · rw [V.sqrt, h1]
    show Ext.le (.fin 0) (if k < 0 then Ext.nan else R.sqrtR k : Ext K) = true
    rw [if_neg (not_lt.mpr h2)]
    exact L.sqrt_nonneg k h2
  · rw [V.sqrt, h1]
    rfl

end signs

section binary
variable [FloorRing K] (V : Valued (Rounding.binary64 K) α)

private theorem welford_pos {x : Nat → α} {p : Nat → K} {N : Nat} (h53 : N ≤ 2 ^ 53) {B : K} (hB : 4 * B ≤ (2 : K) ^ (1023 : ℤ)) (B0 : 0 ≤ B)
    (hx : ∀ i, i < N → V.val (x i) = Fl.of _ (.fin (p i)) ∧ Binary64.Representable (p i) ∧ |p i| ≤ B) {n : Nat} (hn : n ≤ N) :
    (feed WelfordsVar.next WelfordsVar.new (hist x n)).n = n ∧
    (∃ m, V.val (feed WelfordsVar.next WelfordsVar.new (hist x n)).mean = Fl.of _ (.fin m) ∧ Binary64.Representable m ∧ |m| ≤ B ∧ (n = 0 → m = 0)) ∧
    Pos V (feed WelfordsVar.next WelfordsVar.new (hist x n)).deviation := by
  have L := binary64_lawful K
  induction n with
  | zero =>
    have z : V.val (lit 0 : α) = Fl.of _ (.fin 0) := by rw [V.lit, lit_zero L]
    refine ⟨rfl, ⟨0, z, ⟨0, 0, by norm_num, by norm_num, by norm_num, by simp⟩, by simpa using B0, fun _ => rfl⟩, ?_⟩
    show F64.le _ (V.val (lit 0 : α)) = true
    rw [z]
    exact decide_eq_true (le_refl (0 : K))
  | succ n ih =>
    obtain ⟨i1, ⟨m, m1, m2, m3, m4⟩, i3⟩ := ih (by omega)
    rw [hist_succ', feed_snoc, welford_state]
    generalize feed WelfordsVar.next (WelfordsVar.new : WelfordsVar α) (hist x n) = s at *
    obtain ⟨x1, x2, x3⟩ := hx n hn
    obtain ⟨d, q, m', e, h1, h2, h3, h4, h5, h6, h7, h8⟩ := Binary64.mean_step x2 m2 x3 m3 hB (n := n + 1)
      (by rcases Nat.eq_zero_or_pos n with h | h; exacts [Or.inr ⟨by omega, m4 h⟩, Or.inl (by omega)])
    have n0 : (0 : K) < ((n + 1 : Nat) : K) := by exact_mod_cast Nat.succ_pos n
    have vd : V.val (x n - s.mean) = Fl.of _ (.fin d) := by
      rw [V.sub, x1, m1]
      show (Rounding.binary64 K).rnd (p n + -m) = _
      rw [← sub_eq_add_neg]; exact h1
    have vn : V.val (lit ((s.n + 1 : Nat) : ℚ) : α) = Fl.of _ (.fin ((n + 1 : Nat) : K)) := by
      rw [i1]; exact val_lit_nat L (hn.trans h53)
    have vq : V.val ((x n - s.mean) / lit ((s.n + 1 : Nat) : ℚ)) = Fl.of _ (.fin q) := by
      rw [V.div _ _ (by rw [vn]; intro h; injection h with h; exact n0.ne' h), vd, vn]
      exact (if_neg n0.ne').trans h2
    have vm : V.val (s.mean + (x n - s.mean) / lit ((s.n + 1 : Nat) : ℚ)) = Fl.of _ (.fin m') := by
      rw [V.add, m1, vq]; exact h3
    have ve : V.val (x n - (s.mean + (x n - s.mean) / lit ((s.n + 1 : Nat) : ℚ))) = Fl.of _ (.fin e) := by
      rw [V.sub, x1, vm]
      show (Rounding.binary64 K).rnd (p n + -m') = _
      rw [← sub_eq_add_neg]; exact h4
    refine ⟨by show s.n + 1 = _; rw [i1], ⟨m', vm, h5, ?_, by omega⟩, pos_add V L i3 (rnd_pos V L h8 (by rw [V.mul, vd, ve]; rfl))⟩
    have a1 := abs_le.mp x3
    have a2 := abs_le.mp m3
    exact abs_le.mpr ⟨(le_min a2.1 a1.1).trans h6, h7.trans (max_le a2.2 a1.2)⟩

include V in
/-- **C108.** Fed at most `2^53` binary64 numbers of at most `2^1021`, the fast variance and the fast standard deviation, alone and selected by the flag, are on
every tick at least 0, so never NaN. -/
theorem C108_never_negative {x : Nat → α} {N : Nat} (h53 : N ≤ 2 ^ 53)
    (hx : ∀ i, i < N → ∃ p : K, V.val (x i) = Fl.of _ (.fin p) ∧ Binary64.Representable p ∧ |p| ≤ (2 : K) ^ (1021 : ℤ)) :
    ∃ y z : Nat → α, Runs (total WelfordsVar.next) (.ok (WelfordsVar.new : WelfordsVar α)) x N y ∧
      Runs (total Var.next) (.ok (Var.build true : Var α)) x N y ∧
      Runs (total WelfordsStdev.next) (.ok (WelfordsStdev.new : WelfordsStdev α)) x N z ∧
      Runs (total StatStdev.next) (.ok (StatStdev.build true : StatStdev α)) x N z ∧
      ∀ t, t < N → F64.le (lit 0) (y t) = true ∧ F64.le (lit 0) (z t) = true := by
  have L := binary64_lawful K
  obtain ⟨y1, y2, y3, y4⟩ := fast_runs x N
  refine ⟨_, _, y1, y2, y3, y4, fun t ht => ?_⟩
  have hx' : ∀ i, ∃ p : K, i < N → V.val (x i) = Fl.of _ (.fin p) ∧ Binary64.Representable p ∧ |p| ≤ (2 : K) ^ (1021 : ℤ) := fun i => by
    by_cases h : i < N
    · obtain ⟨p, hp⟩ := hx i h; exact ⟨p, fun _ => hp⟩
    · exact ⟨0, fun h' => absurd h' h⟩
  choose p hp using hx'
  have hB : 4 * (2 : K) ^ (1021 : ℤ) ≤ (2 : K) ^ (1023 : ℤ) := le_of_eq (by
    rw [show (1023 : ℤ) = 2 + 1021 by norm_num, zpow_add₀ (by norm_num : (2 : K) ≠ 0)]
    norm_num)
  have key : Pos V (fastVar x t) := by
    obtain ⟨c1, -, -⟩ := welford_pos V h53 hB (Binary64.two_zpow_pos _).le hp (n := t) ht.le
    rcases Nat.eq_zero_or_pos t with h0 | h0
    · subst h0
      rw [show fastVar x 0 = lit 0 from welford_first rfl (x 0)]
      unfold Pos
      rw [V.lit, lit_zero L]
      exact decide_eq_true (le_refl (0 : K))
    · obtain ⟨-, -, c3⟩ := welford_pos V h53 hB (Binary64.two_zpow_pos _).le hp (n := t + 1) ht
      unfold fastVar
      rw [welford_later (by omega), c1, ← feed_snoc, ← hist_succ']
      exact pos_div V L c3 (show (0 : K) < t by exact_mod_cast h0) (divisor L (by omega))
  rw [V.le, V.le, V.lit, lit_zero L]
  exact ⟨key, pos_sqrt V L key⟩

end binary

section default
variable {R : Rounding K} (V : Valued R α) (L : R.Lawful)

include L in
private theorem nan_or_pos_fsum {l : List α} (h : ∀ a ∈ l, V.val a = Fl.of R .nan ∨ Pos V a) : V.val (fsum l) = Fl.of R .nan ∨ Pos V (fsum l) := by
  induction l using List.reverseRecOn with
  | nil =>
    right
    show F64.le _ (V.val (lit 0 : α)) = true
    rw [V.lit, lit_zero L]
    exact decide_eq_true (le_refl (0 : K))
  | append_singleton l a ih =>
    rw [fsum_append]
    rcases ih fun b hb => h b (by simp [hb]) with h1 | h1
    · left; rw [V.add, h1]; rfl
    · rcases h a (by simp) with h2 | h2
      · left
        rw [V.add, h2]
        generalize V.val (fsum l) = v
        match v with
        | .nan => rfl
        | .pinf => rfl
        | .ninf => rfl
        | .fin _ => rfl
      · exact Or.inr (pos_add V L h1 h2)

include L in
private theorem nan_or_pos_sq (a : α) : V.val (sq a) = Fl.of R .nan ∨ Pos V (sq a) := by
  unfold sq
  cases h : (V.val a : Ext K) with
  | nan => left; rw [V.mul, show V.val a = Fl.of R .nan from h]; rfl
  | pinf => right; unfold Pos; rw [V.mul, show V.val a = Fl.of R .pinf from h]; rfl
  | ninf => right; unfold Pos; rw [V.mul, show V.val a = Fl.of R .ninf from h]; rfl
  | fin k => exact Or.inr (rnd_pos V L (mul_self_nonneg k) (by rw [V.mul, show V.val a = Fl.of R (.fin k) from h]; rfl))

include V L in
/-- **C108.** Fed any floats, the default variance and the default standard deviation are on every tick NaN or at least 0. -/
theorem C108_default (x : Nat → α) {N : Nat} (h53 : N ≤ 2 ^ 53) :
    ∃ y z : Nat → α, Runs (total Var.next) (.ok (Var.build false : Var α)) x N y ∧ Runs (total StatStdev.next) (.ok (StatStdev.build false : StatStdev α)) x N z ∧
      ∀ t, t < N → (V.val (y t) = Fl.of R .nan ∨ F64.le (lit 0) (y t) = true) ∧ (V.val (z t) = Fl.of R .nan ∨ F64.le (lit 0) (z t) = true) := by
  obtain ⟨-, r1, r2⟩ := C104_batch x N
  refine ⟨_, _, r1, r2, fun t ht => ?_⟩
  have key : V.val (Stats.var (hist x (t + 1))) = Fl.of R .nan ∨ Pos V (Stats.var (hist x (t + 1))) := by
    unfold Stats.var Stats.varFromMean
    have hs := nan_or_pos_fsum V L (l := (hist x (t + 1)).map fun v => sq (v - Stats.mean (hist x (t + 1)))) fun a ha => by
      obtain ⟨v, -, rfl⟩ := List.mem_map.mp ha
      exact nan_or_pos_sq V L _
    have hl : (hist x (t + 1)).length = t + 1 := hist_length _ _
    have v1 : V.val (lit (((hist x (t + 1)).length : Nat) : ℚ) : α) = Fl.of R (.fin ((t + 1 : Nat) : K)) := by
      rw [hl]; exact val_lit_nat L (by omega)
    have n0 : (0 : K) < ((t + 1 : Nat) : K) := by exact_mod_cast Nat.succ_pos t
    rcases hs with h1 | h1
    · left
      rw [V.div _ _ (by rw [v1]; intro h; injection h with h; exact n0.ne' h), h1]
      rfl
    · exact Or.inr (pos_div V L h1 n0 v1)
  have key2 : V.val (Stats.stdev (hist x (t + 1))) = Fl.of R .nan ∨ Pos V (Stats.stdev (hist x (t + 1))) := by
    unfold Stats.stdev Stats.stdevFromVar
    rcases key with h | h
    · left; rw [V.sqrt, h]; rfl
    · exact Or.inr (pos_sqrt V L h)
  rw [V.le, V.le, V.lit, lit_zero L]
  exact ⟨key, key2⟩

end default

section flat
variable {R : Rounding K} (V : Valued R α) (L : R.Lawful)

include L in
/-- **C108.** Fed the same finite float again and again, the fast variance is on every tick exactly 0, for every lawful rounding. -/
theorem C108_constant {x : Nat → α} {N : Nat} (h53 : N ≤ 2 ^ 53) {c : K} (hc : R.rnd c = .fin c) (hx : ∀ i, i < N → V.val (x i) = Fl.of R (.fin c)) :
    ∃ y : Nat → α, Runs (total WelfordsVar.next) (.ok (WelfordsVar.new : WelfordsVar α)) x N y ∧ Runs (total Var.next) (.ok (Var.build true : Var α)) x N y ∧
      ∀ t, t < N → V.val (y t) = Fl.of R (.fin 0) := by
  obtain ⟨y1, y2, -, -⟩ := fast_runs x N
  refine ⟨_, y1, y2, ?_⟩
  have z : V.val (lit 0 : α) = Fl.of R (.fin 0) := by rw [V.lit, lit_zero L]
  have r0 : R.rnd 0 = .fin 0 := by have := L.int 0 (by norm_num); push_cast at this; exact this
  have inv : ∀ n, n ≤ N → (feed WelfordsVar.next (WelfordsVar.new : WelfordsVar α) (hist x n)).n = n ∧
      V.val (feed WelfordsVar.next (WelfordsVar.new : WelfordsVar α) (hist x n)).mean = Fl.of R (.fin (if n = 0 then 0 else c)) ∧
      V.val (feed WelfordsVar.next (WelfordsVar.new : WelfordsVar α) (hist x n)).deviation = Fl.of R (.fin 0) := by
    intro n
    induction n with
    | zero => exact fun _ => ⟨rfl, z, z⟩
    | succ n ih =>
      intro hn
      obtain ⟨i1, i2, i3⟩ := ih (by omega)
      rw [hist_succ', feed_snoc, welford_state]
      generalize feed WelfordsVar.next (WelfordsVar.new : WelfordsVar α) (hist x n) = s at *
      have x1 := hx n hn
      have n0 : ((n + 1 : Nat) : K) ≠ 0 := Nat.cast_ne_zero.mpr (by omega)
      have vn : V.val (lit ((s.n + 1 : Nat) : ℚ) : α) = Fl.of R (.fin ((n + 1 : Nat) : K)) := by
        rw [i1]; exact val_lit_nat L (hn.trans h53)
      have nz : V.val (lit ((s.n + 1 : Nat) : ℚ) : α) ≠ Fl.of R (.fin 0) := by
        rw [vn]; intro h; injection h with h; exact n0 h
      obtain ⟨d, vd, vm⟩ : ∃ d, V.val (x n - s.mean) = Fl.of R (.fin d) ∧ V.val (s.mean + (x n - s.mean) / lit ((s.n + 1 : Nat) : ℚ)) = Fl.of R (.fin c) := by
        by_cases h0 : n = 0
        · subst h0
          rw [if_pos rfl] at i2
          have vd : V.val (x 0 - s.mean) = Fl.of R (.fin c) := by
            rw [V.sub, x1, i2]
            show R.rnd (c + -0) = _
            rw [neg_zero, add_zero]; exact hc
          refine ⟨c, vd, ?_⟩
          have vq : V.val ((x 0 - s.mean) / lit ((s.n + 1 : Nat) : ℚ)) = Fl.of R (.fin c) := by
            rw [V.div _ _ nz, vd, vn]
            refine (if_neg n0).trans ?_
            rw [zero_add, Nat.cast_one, div_one]; exact hc
          rw [V.add, i2, vq]
          show R.rnd (0 + c) = _
          rw [zero_add]; exact hc
        · rw [if_neg h0] at i2
          have vd : V.val (x n - s.mean) = Fl.of R (.fin 0) := by
            rw [V.sub, x1, i2]
            show R.rnd (c + -c) = _
            rw [add_neg_cancel]; exact r0
          refine ⟨0, vd, ?_⟩
          have vq : V.val ((x n - s.mean) / lit ((s.n + 1 : Nat) : ℚ)) = Fl.of R (.fin 0) := by
            rw [V.div _ _ nz, vd, vn]
            refine (if_neg n0).trans ?_
            rw [zero_div]; exact r0
          rw [V.add, i2, vq]
          show R.rnd (c + 0) = _
          rw [add_zero]; exact hc
      refine ⟨by show s.n + 1 = _; rw [i1], by rw [if_neg (by omega)]; exact vm, ?_⟩
      have ve : V.val (x n - (s.mean + (x n - s.mean) / lit ((s.n + 1 : Nat) : ℚ))) = Fl.of R (.fin 0) := by
        rw [V.sub, x1, vm]
        show R.rnd (c + -c) = _
        rw [add_neg_cancel]; exact r0
      have vp : V.val ((x n - s.mean) * (x n - (s.mean + (x n - s.mean) / lit ((s.n + 1 : Nat) : ℚ)))) = Fl.of R (.fin 0) := by
        rw [V.mul, vd, ve]
        show R.rnd (d * 0) = _
        rw [mul_zero]; exact r0
      show V.val (s.deviation + _ * _) = _
      rw [V.add, i3, vp]
      show R.rnd (0 + 0) = _
      rw [add_zero]; exact r0
  intro t ht
  obtain ⟨c1, -, -⟩ := inv t ht.le
  obtain ⟨-, -, c3⟩ := inv (t + 1) ht
  rcases Nat.eq_zero_or_pos t with h0 | h0
  · subst h0
    rw [show fastVar x 0 = lit 0 from welford_first rfl (x 0)]
    exact z
  · have t0 : (t : K) ≠ 0 := Nat.cast_ne_zero.mpr (by omega)
    have vt := divisor (V := V) L (t := t) (by omega)
    unfold fastVar
    rw [welford_later (by omega), c1, ← feed_snoc, ← hist_succ', V.div _ _ (by rw [vt]; intro h; injection h with h; exact t0 h), c3, vt]
    refine (if_neg t0).trans ?_
    rw [zero_div]; exact r0

end flat

namespace Binary64
variable [FloorRing K]

theorem round_at {k : K} {j m : ℤ} (h1 : (2 : K) ^ (j + 52) ≤ k) (h2 : k < (2 : K) ^ (j + 53)) (hj : -1074 ≤ j) (hj2 : j ≤ 900) (hm : roundEven (k / (2 : K) ^ j) = m) :
    round k = .fin (m * (2 : K) ^ j) := by
  have k0 : 0 < k := lt_of_lt_of_le (two_zpow_pos _) h1
  have hl : Int.log 2 k = j + 52 := by
    have a := (le_log_iff k0 (j + 52)).mpr h1
    have b := (lt_log_iff k0 (j + 53)).mpr h2
    omega
  have hp : lastPlace k = j := by unfold lastPlace; rw [hl]; exact (max_eq_left (by omega)).trans (by omega)
  have e : mag k = m * (2 : K) ^ j := by unfold mag; rw [hp, hm]
  rw [round_pos k0, if_neg, e]
  rw [mag_overflow k0, not_le]
  refine h2.trans_le ?_
  have a : (2 : K) ^ (j + 53) ≤ (2 : K) ^ (1023 : ℤ) := two_zpow_mono (by omega)
  have b : (2 : K) ^ (970 : ℤ) ≤ (2 : K) ^ (1023 : ℤ) := two_zpow_mono (by norm_num)
  have c : (2 : K) ^ (1024 : ℤ) = (2 : K) ^ (1023 : ℤ) + (2 : K) ^ (1023 : ℤ) := by
    rw [show (1024 : ℤ) = 1 + 1023 by norm_num, zpow_add₀ (by norm_num : (2 : K) ≠ 0), zpow_one]
    ring
  rw [c]
  generalize (2 : K) ^ (1023 : ℤ) = P at *
  generalize (2 : K) ^ (970 : ℤ) = Q at *
  linarith

/-- `3 * 7205759403792794` needs 55 bits and lies in the middle of two floats. -/
theorem round_triple : round (21617278211378382 : K) = .fin 21617278211378384 := by
  have h := round_at (k := (21617278211378382 : K)) (j := 2) (m := 5404319552844596) (by norm_num) (by norm_num) (by norm_num) (by norm_num) (by
    have f : ⌊(21617278211378382 : K) / (2 : K) ^ (2 : ℤ)⌋ = 5404319552844595 := by
      rw [Int.floor_eq_iff]; constructor <;> norm_num
    unfold roundEven
    dsimp only
    rw [f, if_neg (by norm_num), if_neg (by norm_num), if_neg (by norm_num)]
    norm_num)
  rw [h]
  norm_num

theorem round_third : round (21617278211378384 / 3 : K) = .fin 7205759403792795 := by
  have h := round_at (k := (21617278211378384 / 3 : K)) (j := 0) (m := 7205759403792795) (by norm_num) (by norm_num) (by norm_num) (by norm_num) (by
    have f : ⌊(21617278211378384 / 3 : K) / (2 : K) ^ (0 : ℤ)⌋ = 7205759403792794 := by
      rw [Int.floor_eq_iff]; constructor <;> norm_num
    unfold roundEven
    dsimp only
    rw [f, if_neg (by norm_num), if_pos (by norm_num)]
    norm_num)
  rw [h]
  norm_num

theorem round_twice : round (14411518807585588 : K) = .fin 14411518807585588 := by
  have h := round_at (k := (14411518807585588 : K)) (j := 1) (m := 7205759403792794) (by norm_num) (by norm_num) (by norm_num) (by norm_num) (by
    rw [show (14411518807585588 : K) / (2 : K) ^ (1 : ℤ) = ((7205759403792794 : ℤ) : K) by norm_num]
    exact roundEven_int _)
  rw [h]
  norm_num

end Binary64

section flat64
variable [FloorRing K] (V : Valued (Rounding.binary64 K) α)

include V in
/-- **C108**, the default mode of a constant series is not 0 in binary64: three times 7205759403792794 (a scaled 0.1) has the mean 7205759403792795 and the
variance 1. -/
theorem C108_default_flat {x : Nat → α} (hx : ∀ i, i < 3 → V.val (x i) = Fl.of _ (.fin 7205759403792794)) :
    ∃ y : Nat → α, Runs (total Var.next) (.ok (Var.build false : Var α)) x 3 y ∧ V.val (y 2) = Fl.of _ (.fin 1) := by
  have L := binary64_lawful K
  obtain ⟨-, r1, -⟩ := C104_batch x 3
  refine ⟨_, r1, ?_⟩
  have int : ∀ n : ℤ, |n| ≤ 2 ^ 53 → ∀ k : K, k = n → (Rounding.binary64 K).rnd k = .fin k := fun n hn k hk => by rw [hk]; exact L.int n hn
  have z : V.val (lit 0 : α) = Fl.of _ (.fin 0) := by rw [V.lit, lit_zero L]
  have v3 : V.val (lit ((3 : Nat) : ℚ) : α) = Fl.of _ (.fin ((3 : Nat) : K)) := val_lit_nat L (by norm_num)
  have ne3 : V.val (lit ((3 : Nat) : ℚ) : α) ≠ Fl.of _ (.fin 0) := by
    rw [v3]; intro h; injection h with h; norm_num at h
  have x0 := hx 0 (by norm_num)
  have x1 := hx 1 (by norm_num)
  have x2 := hx 2 (by norm_num)
  have hm : V.val (Stats.mean [x 0, x 1, x 2]) = Fl.of _ (.fin 7205759403792795) := by
    show V.val ((lit 0 + x 0 + x 1 + x 2) / lit ((3 : Nat) : ℚ)) = _
    have s1 : V.val (lit 0 + x 0) = Fl.of _ (.fin 7205759403792794) := by
      rw [V.add, z, x0]
      show (Rounding.binary64 K).rnd (0 + 7205759403792794) = _
      rw [zero_add]; exact int 7205759403792794 (by norm_num) _ (by norm_num)
    have s2 : V.val (lit 0 + x 0 + x 1) = Fl.of _ (.fin 14411518807585588) := by
      rw [V.add, s1, x1]
      show (Rounding.binary64 K).rnd (7205759403792794 + 7205759403792794) = _
      rw [show (7205759403792794 + 7205759403792794 : K) = 14411518807585588 by norm_num]
      exact Binary64.round_twice
    have s3 : V.val (lit 0 + x 0 + x 1 + x 2) = Fl.of _ (.fin 21617278211378384) := by
      rw [V.add, s2, x2]
      show (Rounding.binary64 K).rnd (14411518807585588 + 7205759403792794) = _
      rw [show (14411518807585588 + 7205759403792794 : K) = 21617278211378382 by norm_num]
      exact Binary64.round_triple
    rw [V.div _ _ ne3, s3, v3]
    refine (if_neg (by norm_num)).trans ?_
    rw [show ((3 : Nat) : K) = 3 by norm_num]
    exact Binary64.round_third
  have hq : ∀ i, i < 3 → V.val (sq (x i - Stats.mean [x 0, x 1, x 2])) = Fl.of _ (.fin 1) := fun i hi => by
    have hd : V.val (x i - Stats.mean [x 0, x 1, x 2]) = Fl.of _ (.fin (-1)) := by
      rw [V.sub, hx i hi, hm]
      show (Rounding.binary64 K).rnd (7205759403792794 + -7205759403792795) = _
      rw [show (7205759403792794 + -7205759403792795 : K) = -1 by norm_num]
      exact int (-1) (by norm_num) _ (by norm_num)
    unfold sq
    rw [V.mul, hd]
    show (Rounding.binary64 K).rnd (-1 * -1) = _
    rw [show (-1 * -1 : K) = 1 by norm_num]
    exact int 1 (by norm_num) _ (by norm_num)
  show V.val (Stats.var [x 0, x 1, x 2]) = _
  unfold Stats.var Stats.varFromMean
  generalize Stats.mean [x 0, x 1, x 2] = μ at *
  show V.val ((lit 0 + sq (x 0 - μ) + sq (x 1 - μ) + sq (x 2 - μ)) / lit ((3 : Nat) : ℚ)) = _
  have s1 : V.val (lit 0 + sq (x 0 - μ)) = Fl.of _ (.fin 1) := by
    rw [V.add, z, hq 0 (by norm_num)]
    show (Rounding.binary64 K).rnd (0 + 1) = _
    rw [zero_add]; exact int 1 (by norm_num) _ (by norm_num)
  have s2 : V.val (lit 0 + sq (x 0 - μ) + sq (x 1 - μ)) = Fl.of _ (.fin 2) := by
    rw [V.add, s1, hq 1 (by norm_num)]
    show (Rounding.binary64 K).rnd (1 + 1) = _
    rw [show (1 + 1 : K) = 2 by norm_num]; exact int 2 (by norm_num) _ (by norm_num)
  have s3 : V.val (lit 0 + sq (x 0 - μ) + sq (x 1 - μ) + sq (x 2 - μ)) = Fl.of _ (.fin 3) := by
    rw [V.add, s2, hq 2 (by norm_num)]
    show (Rounding.binary64 K).rnd (2 + 1) = _
    rw [show (2 + 1 : K) = 3 by norm_num]; exact int 3 (by norm_num) _ (by norm_num)
  rw [V.div _ _ ne3, s3, v3]
  refine (if_neg (by norm_num)).trans ?_
  rw [show (3 : K) / ((3 : Nat) : K) = 1 by norm_num]
  exact int 1 (by norm_num) _ (by norm_num)

end flat64

end Pace
