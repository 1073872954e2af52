import Verif.Props.Flat
import Verif.Props.FloatRange
import Verif.Props.Warmup

/-!
# C84 in floating point: a market that does not move

The parts of C84 that survive rounding, for every type of floats that agrees with a lawful rounding up to the sign of zero
(`Valued R α`), so for IEEE binary64 with signed zeros.
-/

set_option linter.unusedSectionVars false

namespace Pace
open Spec
variable {K : Type} [Field K] [LinearOrder K] [IsStrictOrderedRing K] {R : Rounding K}
variable {α : Type} [F64 α] (V : Valued R α) (L : R.Lawful)

/-! ## Zeros -/

/-- The value is 0 (of either sign). -/
def IsZero (a : α) : Prop := V.val a = Fl.of R (.fin 0)
/-- The value is 0 or NaN. -/
def ZeroNan (a : α) : Prop := V.val a = Fl.of R (.fin 0) ∨ V.val a = Fl.of R .nan

section
variable {V}

theorem IsZero.zeroNan {a : α} (h : IsZero V a) : ZeroNan V a := .inl h

include L

theorem isZero_lit : IsZero V (lit 0 : α) := by
  unfold IsZero; rw [V.lit, lit_zero L]

private theorem fl_zero_add : Fl.of R (.fin 0) + Fl.of R (.fin 0) = Fl.of R (.fin 0) := by
  show R.rnd (0 + 0) = _
  rw [add_zero]; exact rnd_zero L

theorem IsZero.add {a b : α} (ha : IsZero V a) (hb : IsZero V b) : IsZero V (a + b) := by
  unfold IsZero at *; rw [V.add, ha, hb]; exact fl_zero_add L

omit L in
theorem IsZero.neg {a : α} (ha : IsZero V a) : IsZero V (-a) := by
  unfold IsZero at *; rw [V.neg, ha]; show Ext.fin (-0) = _; rw [neg_zero]; rfl

private theorem fl_sub_self (x : Fl R) : x - x = Fl.of R (.fin 0) ∨ x - x = Fl.of R .nan := by
  rcases x with _ | _ | _ | a
  · exact .inr rfl
  · exact .inr rfl
  · exact .inr rfl
  · left; show R.rnd (a + -a) = _
    rw [add_neg_cancel]; exact rnd_zero L

private theorem fl_sub_fin (k : K) : Fl.of R (.fin k) - Fl.of R (.fin k) = Fl.of R (.fin 0) := by
  show R.rnd (k + -k) = _
  rw [add_neg_cancel]; exact rnd_zero L

theorem IsZero.sub {a b : α} (ha : IsZero V a) (hb : IsZero V b) : IsZero V (a - b) := by
  unfold IsZero at *; rw [V.sub, ha, hb]; exact fl_sub_fin L 0

omit L in
theorem IsZero.abs {a : α} (ha : IsZero V a) : IsZero V (F64.abs a) := by
  unfold IsZero at *; rw [V.abs, ha]; show Ext.fin |(0 : K)| = _; rw [abs_zero]; rfl

omit L in
theorem IsZero.fmax {a b : α} (ha : IsZero V a) (hb : IsZero V b) : IsZero V (F64.fmax a b) := by
  unfold IsZero at *; rw [V.fmax, ha, hb]
  show (if decide ((0 : K) ≤ 0) = true then Fl.of R (.fin 0) else Fl.of R (.fin 0)) = _
  split <;> rfl

omit L in
theorem ZeroNan.fmax {a b : α} (ha : ZeroNan V a) (hb : IsZero V b) : IsZero V (F64.fmax a b) := by
  rcases ha with ha | ha
  · exact IsZero.fmax ha hb
  · unfold IsZero at *; rw [V.fmax, ha, hb]; rfl

omit L in
theorem ZeroNan.fmax' {a b : α} (ha : IsZero V a) (hb : ZeroNan V b) : IsZero V (F64.fmax a b) := by
  rcases hb with hb | hb
  · exact IsZero.fmax ha hb
  · unfold IsZero at *; rw [V.fmax, ha, hb]; rfl

omit L in
theorem IsZero.fmin {a b : α} (ha : IsZero V a) (hb : IsZero V b) : IsZero V (F64.fmin a b) := by
  unfold IsZero at *; rw [V.fmin, ha, hb]
  show (if decide ((0 : K) ≤ 0) = true then Fl.of R (.fin 0) else Fl.of R (.fin 0)) = _
  split <;> rfl

omit L in
theorem ZeroNan.fmin {a b : α} (ha : ZeroNan V a) (hb : IsZero V b) : IsZero V (F64.fmin a b) := by
  rcases ha with ha | ha
  · exact IsZero.fmin ha hb
  · unfold IsZero at *; rw [V.fmin, ha, hb]; rfl

omit L in
theorem ZeroNan.fmin' {a b : α} (ha : IsZero V a) (hb : ZeroNan V b) : IsZero V (F64.fmin a b) := by
  rcases hb with hb | hb
  · exact IsZero.fmin ha hb
  · unfold IsZero at *; rw [V.fmin, ha, hb]; rfl

theorem IsZero.mul {a b : α} {q : K} (ha : IsZero V a) (hb : V.val b = Fl.of R (.fin q)) : IsZero V (a * b) := by
  unfold IsZero at *; rw [V.mul, ha, hb]; show R.rnd (0 * q) = _; rw [zero_mul]; exact rnd_zero L

theorem IsZero.mul' {a b : α} {q : K} (ha : V.val a = Fl.of R (.fin q)) (hb : IsZero V b) : IsZero V (a * b) := by
  unfold IsZero at *; rw [V.mul, ha, hb]; show R.rnd (q * 0) = _; rw [mul_zero]; exact rnd_zero L

private theorem fl_zero_div (b : Fl R) : Fl.of R (.fin 0) / b = Fl.of R (.fin 0) ∨ Fl.of R (.fin 0) / b = Fl.of R .nan := by
  rcases b with _ | _ | _ | b
  · exact .inr rfl
  · exact .inl rfl
  · exact .inl rfl
  · by_cases h : b = 0
    · right
      exact (if_pos h : (if b = 0 then Fl.signInf (0 : K) else R.rnd (0 / b)) = _).trans (by simp [Fl.signInf]; rfl)
    · left
      exact (if_neg h : (if b = 0 then Fl.signInf (0 : K) else R.rnd (0 / b)) = _).trans (by rw [zero_div]; exact rnd_zero L)

omit L in
private theorem fl_nan_div (b : Fl R) : Fl.of R .nan / b = Fl.of R .nan := rfl

private theorem div_val (a b : α) : V.val (a / b) = V.val a / V.val b ∨ V.val (a / b) = -(V.val a / V.val b) := by
  by_cases h : V.val b = Fl.of R (.fin 0)
  · exact V.div_zero a b h
  · exact .inl (V.div a b h)

omit L in
private theorem fl_neg_nan : -(Fl.of R .nan) = Fl.of R .nan := rfl
omit L in
private theorem fl_neg_zero : -(Fl.of R (.fin 0)) = Fl.of R (.fin 0) := by
  show Ext.fin (-0) = _; rw [neg_zero]; rfl

theorem ZeroNan.div {a : α} (ha : ZeroNan V a) (b : α) : ZeroNan V (a / b) := by
  have h : V.val a / V.val b = Fl.of R (.fin 0) ∨ V.val a / V.val b = Fl.of R .nan := by
    rcases ha with h | h <;> rw [h]
    · exact fl_zero_div L _
    · exact .inr rfl
  unfold ZeroNan
  rcases div_val L a b with e | e <;> rw [e] <;> rcases h with h | h <;> rw [h]
  · exact .inl rfl
  · exact .inr rfl
  · exact .inl fl_neg_zero
  · exact .inr rfl

/-- 0 divided by anything but 0 and NaN. -/
theorem IsZero.div {a b : α} (ha : IsZero V a) (h0 : V.val b ≠ Fl.of R (.fin 0)) (hn : V.val b ≠ Fl.of R .nan) : IsZero V (a / b) := by
  unfold IsZero at *
  rw [V.div a b h0, ha]
  generalize V.val b = b at h0 hn
  rcases b with _ | _ | _ | b
  · exact absurd rfl hn
  · rfl
  · rfl
  · have h : b ≠ 0 := fun h => h0 (by rw [h]; rfl)
    exact (if_neg h : (if b = 0 then Fl.signInf (0 : K) else R.rnd (0 / b)) = _).trans (by rw [zero_div]; exact rnd_zero L)

/-- 0 or NaN divided by 0 or NaN is NaN. -/
theorem ZeroNan.nan {a b : α} (ha : ZeroNan V a) (hb : ZeroNan V b) : V.val (a / b) = Fl.of R .nan := by
  have h : V.val a / V.val b = Fl.of R .nan := by
    rcases ha with h | h <;> rcases hb with h' | h' <;> rw [h, h']
    · exact (if_pos rfl : (if (0 : K) = 0 then Fl.signInf (0 : K) else R.rnd (0 / 0)) = _).trans (by simp [Fl.signInf]; rfl)
    all_goals rfl
  rcases div_val L a b with e | e <;> rw [e, h]
  rfl

omit L in
private theorem fl_add_nan (a : Fl R) : a + Fl.of R .nan = Fl.of R .nan := by rcases a with _ | _ | _ | a <;> rfl
omit L in
private theorem fl_mul_nan (a : Fl R) : a * Fl.of R .nan = Fl.of R .nan := by rcases a with _ | _ | _ | a <;> rfl
omit L in
private theorem fl_div_nan (a : Fl R) : a / Fl.of R .nan = Fl.of R .nan := by rcases a with _ | _ | _ | a <;> rfl

theorem ZeroNan.add {a b : α} (ha : ZeroNan V a) (hb : ZeroNan V b) : ZeroNan V (a + b) := by
  unfold ZeroNan at *
  rw [V.add]
  rcases hb with h' | h' <;> rw [h']
  · rcases ha with h | h <;> rw [h]
    · exact .inl (fl_zero_add L)
    · exact .inr rfl
  · exact .inr (fl_add_nan _)

private theorem fl_zero_mul (b : Fl R) : Fl.of R (.fin 0) * b = Fl.of R (.fin 0) ∨ Fl.of R (.fin 0) * b = Fl.of R .nan := by
  rcases b with _ | _ | _ | b
  · exact .inr rfl
  · right; show Fl.signInf (0 : K) = _; simp [Fl.signInf]; rfl
  · right; show (Fl.signInf (0 : K)).neg = _; simp [Fl.signInf]; rfl
  · left; show R.rnd (0 * b) = _; rw [zero_mul]; exact rnd_zero L

theorem ZeroNan.mul {a : α} (ha : ZeroNan V a) (b : α) : ZeroNan V (a * b) := by
  unfold ZeroNan at *
  rw [V.mul]
  rcases ha with h | h <;> rw [h]
  · exact fl_zero_mul L _
  · exact .inr rfl

private theorem fl_mul_zero (b : Fl R) : b * Fl.of R (.fin 0) = Fl.of R (.fin 0) ∨ b * Fl.of R (.fin 0) = Fl.of R .nan := by
  rcases b with _ | _ | _ | b
  · exact .inr rfl
  · right; show Fl.signInf (0 : K) = _; simp [Fl.signInf]; rfl
  · right; show (Fl.signInf (0 : K)).neg = _; simp [Fl.signInf]; rfl
  · left; show R.rnd (b * 0) = _; rw [mul_zero]; exact rnd_zero L

theorem ZeroNan.mul' (a : α) {b : α} (hb : ZeroNan V b) : ZeroNan V (a * b) := by
  unfold ZeroNan at *
  rw [V.mul]
  rcases hb with h | h <;> rw [h]
  · exact fl_mul_zero L _
  · exact .inr (fl_mul_nan _)

/-- The difference of two floats with the same value is 0 or NaN. -/
theorem zeroNan_sub {a b : α} (h : V.val a = V.val b) : ZeroNan V (a - b) := by
  unfold ZeroNan; rw [V.sub, h]; exact fl_sub_self L _

/-- The difference of two floats with the same finite value is 0. -/
theorem isZero_sub {a b : α} {k : K} (ha : V.val a = Fl.of R (.fin k)) (hb : V.val b = Fl.of R (.fin k)) : IsZero V (a - b) := by
  unfold IsZero; rw [V.sub, ha, hb]; exact fl_sub_fin L _

theorem IsZero.feq {a : α} (h : IsZero V a) : F64.feq a (lit 0) = true := by
  rw [V.feq, h, V.lit, lit_zero L]
  show decide (Ext.fin (0 : K) = Ext.fin 0) = true
  simp

omit L in
private theorem fl_feq_fin (k : K) : F64.feq (Fl.of R (.fin k)) (Fl.of R (.fin k)) = true := by
  show decide (Ext.fin k = Ext.fin k) = true
  simp

theorem safeDiv_zero {a b : Option α} (h : ∀ w, b = some w → IsZero V w) : safeDiv a b = none := by
  rcases b with _ | b
  · cases a <;> rfl
  rcases a with _ | a
  · rfl
  simp only [safeDiv, opt2, IsZero.feq L (h b rfl), if_true]; rfl

theorem safeDiv_nan {a b : Option α} (ha : ∀ w, a = some w → ZeroNan V w) : ∀ w, safeDiv a b = some w → ZeroNan V w := by
  intro w hw
  rcases b with _ | b
  · cases a <;> cases hw
  rcases a with _ | a
  · cases hw
  simp only [safeDiv, opt2] at hw
  by_cases hc : F64.feq b (lit 0) = true
  · rw [if_pos hc] at hw; cases hw
  · rw [if_neg hc] at hw
    cases hw
    exact ZeroNan.div L (ha a rfl) b

/-! ## Series of zeros -/

omit L in
private theorem ago_all {P : α → Prop} {x : Nat → Option α} (h : ∀ t a, x t = some a → P a) (i t : Nat) :
    ∀ a, ago x i t = some a → P a := by
  intro a ha
  unfold ago at ha
  split at ha
  · exact h _ _ ha
  · cases ha

theorem acc0_zero {x : Nat → Option α} (h : ∀ t a, x t = some a → IsZero V a) (n t : Nat) : IsZero V (acc0 n x t) := by
  induction t with
  | zero => exact isZero_lit L
  | succ t ih =>
    rw [acc0]
    have h1 : IsZero V (addOpt (acc0 n x t) (x t)) := by
      rcases hx : x t with _ | a
      · exact ih
      · exact IsZero.add L ih (h t a hx)
    rcases ha : ago x (n - 1) t with _ | a
    · exact h1
    · exact IsZero.sub L h1 (ago_all h _ _ a ha)

theorem rawSum0_zero {x : Nat → Option α} (h : ∀ t a, x t = some a → IsZero V a) (n t : Nat) : IsZero V (rawSum0 n x t) := by
  rw [rawSum0]
  rcases hx : x t with _ | a
  · exact acc0_zero L h n t
  · exact IsZero.add L (acc0_zero L h n t) (h t a hx)

theorem sum0_zero {x : Nat → Option α} (h : ∀ t a, x t = some a → IsZero V a) (n t : Nat) : ∀ a, sum0 n x t = some a → IsZero V a := by
  intro a ha
  unfold sum0 at ha
  split at ha
  · cases ha; exact rawSum0_zero L h n t
  · cases ha

/-- A positive whole number as a float: at least 1, or overflowed to infinity. -/
theorem lit_nat_pos {n : Nat} (hn : 1 ≤ n) : V.val (lit (n : ℚ) : α) = Fl.of R .pinf ∨ ∃ x : K, 1 ≤ x ∧ V.val (lit (n : ℚ) : α) = Fl.of R (.fin x) := by
  rw [V.lit]
  have e : (lit (n : ℚ) : Fl R) = R.rnd (n : K) := by
    show R.rnd ((n : ℚ) : K) = _; push_cast; rfl
  rw [e]
  have h := L.mono 1 (n : K) (by exact_mod_cast hn)
  rw [rnd_one L] at h
  have hn' := L.ne_nan (n : K)
  generalize R.rnd (n : K) = r at h hn'
  rcases r with _ | _ | _ | r
  · exact absurd rfl hn'
  · exact .inl rfl
  · exact absurd h (by simp [Ext.le])
  · exact .inr ⟨r, by simpa [Ext.le] using h, rfl⟩

theorem sma0_zero {x : Nat → Option α} (h : ∀ t a, x t = some a → IsZero V a) {n : Nat} (hn : 1 ≤ n) (t : Nat) :
    ∀ a, sma0 n x t = some a → IsZero V a := by
  intro a ha
  unfold sma0 at ha
  split at ha
  · exact h _ _ ha
  split at ha
  · cases ha
    refine IsZero.div L (rawSum0_zero L h n t) ?_ ?_
    · rcases lit_nat_pos (V := V) L hn with e | ⟨x, h1, e⟩ <;> rw [e]
      · intro h'; cases h'
      · exact of_fin_ne (by intro h0; rw [h0] at h1; exact absurd h1 (by norm_num))
    · rcases lit_nat_pos (V := V) L hn with e | ⟨x, h1, e⟩ <;> rw [e]
      · intro h'; cases h'
      · intro h'; cases h'
  · cases ha

/-- A float between 0 and 1. -/
private def Frac (V : Valued R α) (a : α) : Prop := ∃ q : K, 0 ≤ q ∧ q ≤ 1 ∧ V.val a = Fl.of R (.fin q)

private theorem rnd_frac {q : K} (h0 : 0 ≤ q) (h1 : q ≤ 1) : ∃ p : K, 0 ≤ p ∧ p ≤ 1 ∧ R.rnd q = .fin p := by
  have a := L.mono 0 q h0
  have b := L.mono q 1 h1
  rw [rnd_zero L] at a
  rw [rnd_one L] at b
  generalize R.rnd q = r at a b
  rcases r with _ | _ | _ | r
  · simp [Ext.le] at a
  · simp [Ext.le] at b
  · simp [Ext.le] at a
  · exact ⟨r, by simpa [Ext.le] using a, by simpa [Ext.le] using b, rfl⟩

private theorem alpha_frac {n : Nat} (hn : 1 ≤ n) : Frac V (rmaAlpha n : α) := by
  have h1 : V.val (lit 1 : α) = Fl.of R (.fin 1) := by rw [V.lit, lit_one L]
  unfold rmaAlpha Frac
  rcases lit_nat_pos (V := V) L hn with e | ⟨x, hx, e⟩
  · refine ⟨0, le_refl _, zero_le_one, ?_⟩
    rw [V.div _ _ (by rw [e]; intro h'; cases h'), e, h1]; rfl
  · have hx0 : x ≠ 0 := by rintro rfl; exact absurd hx (by norm_num)
    obtain ⟨p, p0, p1, ep⟩ := rnd_frac L (q := 1 / x) (by positivity) (by rw [div_le_one (by linarith)]; exact hx)
    refine ⟨p, p0, p1, ?_⟩
    rw [V.div _ _ (by rw [e]; exact of_fin_ne hx0), e, h1]
    exact (if_neg hx0 : (if x = 0 then Fl.signInf (1 : K) else R.rnd (1 / x)) = _).trans ep

private theorem frac_compl {a : α} (h : Frac V a) : Frac V (lit 1 - a) := by
  obtain ⟨q, q0, q1, e⟩ := h
  have h1 : V.val (lit 1 : α) = Fl.of R (.fin 1) := by rw [V.lit, lit_one L]
  obtain ⟨p, p0, p1, ep⟩ := rnd_frac L (q := 1 + -q) (by linarith) (by linarith)
  refine ⟨p, p0, p1, ?_⟩
  rw [V.sub, e, h1]
  exact ep

theorem rma0_zero {x : Nat → Option α} (h : ∀ t a, x t = some a → IsZero V a) {n : Nat} (hn : 1 ≤ n) (t : Nat) :
    ∀ a, rma0 n x t = some a → IsZero V a := by
  have hf := alpha_frac (V := V) L hn
  obtain ⟨q, -, -, e⟩ := hf
  obtain ⟨p, -, -, e'⟩ := frac_compl L (alpha_frac (V := V) L hn)
  induction t with
  | zero => exact sma0_zero L h hn 0
  | succ t ih =>
    intro a ha
    unfold rma0 at ih ha
    rw [ema0] at ha
    split at ha
    · exact h _ _ ha
    · generalize ema0 n (rmaAlpha n) x t = w at ih ha
      rcases w with _ | w
      · exact sma0_zero L h hn _ a ha
      · dsimp only at ha
        obtain ⟨v, hv, rfl⟩ := Option.map_eq_some_iff.mp ha
        exact IsZero.add L (IsZero.mul' L e (h _ _ hv)) (IsZero.mul' L e' (ih w rfl))

private theorem lit_small {n : Nat} (hn : n ≤ 10) : V.val (lit (n : ℚ) : α) = Fl.of R (.fin (n : K)) := by
  rw [V.lit]
  have h := L.int (n : ℤ) (by rw [abs_of_nonneg (by positivity)]; exact_mod_cast hn.trans (by norm_num))
  show R.rnd ((n : ℚ) : K) = _
  have e : (((n : ℚ) : K)) = (((n : ℤ)) : K) := by push_cast; rfl
  rw [e, h]
  push_cast; rfl

theorem swma0_zero {x : Nat → Option α} (h : ∀ t a, x t = some a → IsZero V a) (t : Nat) : ∀ a, swma0 x t = some a → IsZero V a := by
  intro r hr
  unfold swma0 at hr
  by_cases hc : 4 ≤ t + 1
  · rw [if_pos hc] at hr
    rcases hw : allSome (win x 4 t) with _ | l
    · rw [hw] at hr; cases hr
    · rw [hw] at hr
      have hm : ∀ a ∈ l, IsZero V a := fun a ha => by
        have : some a ∈ win x 4 t := by rw [allSome_eq_some.mp hw]; exact List.mem_map_of_mem ha
        obtain ⟨k, _, _, hk⟩ := (mem_win hc).mp this
        exact h _ _ hk
      have lf : ∀ m n : Nat, m ≤ n → 1 ≤ n → n ≤ 10 → ∃ q : K, V.val (lit (m : ℚ) / lit (n : ℚ) : α) = Fl.of R (.fin q) := by
        intro m n hmn hn hn'
        have em : V.val (lit (m : ℚ) : α) = Fl.of R (.fin (m : K)) := lit_small L (by omega)
        have en : V.val (lit (n : ℚ) : α) = Fl.of R (.fin (n : K)) := lit_small L (by omega)
        have hn0 : (n : K) ≠ 0 := by exact_mod_cast (by omega : n ≠ 0)
        have hpos : (0 : K) < n := by exact_mod_cast hn
        obtain ⟨p, _, _, ep⟩ := rnd_frac L (q := (m : K) / n) (by positivity) (by rw [div_le_one hpos]; exact_mod_cast hmn)
        refine ⟨p, ?_⟩
        rw [V.div _ _ (by rw [en]; exact of_fin_ne hn0), em, en]
        exact (if_neg hn0 : (if (n : K) = 0 then Fl.signInf (m : K) else R.rnd (m / n)) = _).trans ep
      obtain ⟨q1, h1⟩ := lf 1 6 (by omega) (by omega) (by omega)
      obtain ⟨q2, h2⟩ := lf 2 6 (by omega) (by omega) (by omega)
      have h1 : V.val (lit 1 / lit 6 : α) = Fl.of R (.fin q1) := by simpa using h1
      have h2 : V.val (lit 2 / lit 6 : α) = Fl.of R (.fin q2) := by simpa using h2
      match l, hr, hm with
      | [a, b, c, e], hr, hm =>
        cases hr
        exact IsZero.add L (IsZero.add L (IsZero.add L (IsZero.add L (isZero_lit L) (IsZero.mul L (hm a (by simp)) h1))
          (IsZero.mul L (hm b (by simp)) h2)) (IsZero.mul L (hm c (by simp)) h2)) (IsZero.mul L (hm e (by simp)) h1)
  · rw [if_neg hc] at hr; cases hr

theorem roc0_zeroNan {x : Nat → α} {c : Fl R} (h : ∀ t, V.val (x t) = c) (n t : Nat) :
    ∀ a, roc0 n (fun t => some (x t)) t = some a → ZeroNan V a := by
  intro a ha
  unfold roc0 lag0 ago at ha
  by_cases hc : n ≤ t
  · simp only [hc, if_true] at ha
    split at ha
    · cases ha
    · cases ha
      exact ZeroNan.div L (ZeroNan.mul' L _ (zeroNan_sub L ((h t).trans (h (t - n)).symm))) _
  · simp only [hc, if_false] at ha
    cases ha

theorem wma0_zeroNan {x : Nat → Option α} (h : ∀ t a, x t = some a → ZeroNan V a) (n t : Nat) :
    ∀ a, wma0 n x t = some a → ZeroNan V a := by
  intro a ha
  unfold wma0 at ha
  by_cases hc : n ≤ t + 1
  · rw [if_pos hc] at ha
    obtain ⟨l, hl, rfl⟩ := Option.map_eq_some_iff.mp ha
    have hm : ∀ a ∈ l.reverse, ZeroNan V a := fun a ha => by
      have : some a ∈ win x n t := by rw [allSome_eq_some.mp hl]; exact List.mem_map_of_mem (List.mem_reverse.mp ha)
      obtain ⟨k, _, _, hk⟩ := (mem_win hc).mp this
      exact h _ _ hk
    refine ZeroNan.div L ?_ _
    unfold wmaFold
    have key : ∀ (L' : List (Nat × α)) (acc : α × α), (∀ p ∈ L', ZeroNan V p.2) → ZeroNan V acc.1 →
        ZeroNan V (L'.foldl (fun acc iv =>
          let weight : α := lit (((n - iv.1) * n : Nat) : ℚ)
          (acc.1 + iv.2 * weight, acc.2 + weight)) acc).1 := by
      intro L'
      induction L' with
      | nil => intro acc _ h; exact h
      | cons p L' ih =>
        intro acc h1 h2
        rw [List.foldl_cons]
        exact ih _ (fun q hq => h1 q (List.mem_cons_of_mem _ hq)) (ZeroNan.add L h2 (ZeroNan.mul L (h1 p (by simp)) _))
    refine key _ _ (fun p hp => ?_) (isZero_lit L).zeroNan
    exact hm _ (List.of_mem_zip hp).2
  · rw [if_neg hc] at ha; cases ha

end

/-! ## Values -/

/-- The four prices of every bar have the value `k`. -/
def Spec.StandsStill (k : K) (o h l c : Nat → α) : Prop :=
  ∀ t, V.val (o t) = Fl.of R (.fin k) ∧ V.val (h t) = Fl.of R (.fin k) ∧ V.val (l t) = Fl.of R (.fin k) ∧ V.val (c t) = Fl.of R (.fin k)

/-- Missing or NaN. -/
def Spec.NotNumber (y : Option α) : Prop := ∀ a, y = some a → V.val a = Fl.of R .nan

section
variable {V} {d : DataProvider α} {N : Nat} {o h l c v : Nat → α} {k : K} (hb : Bars d N o h l c v) (hk : StandsStill V k o h l c)
include L hb hk

private theorem still_src {s : SrcKind} (hs : s ≠ .volume) :
    ∃ (x : Nat → α) (w : Fl R), (∀ t, t < N → Src.next ⟨d, t⟩ s = .ok (some (x t))) ∧ ∀ t, V.val (x t) = w := by
  have ne : ∀ n : Nat, 1 ≤ n → n ≤ 10 → V.val (lit (n : ℚ) : α) ≠ Fl.of R (.fin 0) := fun n h1 h2 => by
    rw [lit_small L h2]; exact of_fin_ne (by exact_mod_cast (by omega : n ≠ 0))
  cases s with
  | open_ => exact ⟨o, _, fun t ht => ctx_barOpen hb.open_ ht, fun t => (hk t).1⟩
  | high => exact ⟨h, _, fun t ht => ctx_barHigh hb.high ht, fun t => (hk t).2.1⟩
  | low => exact ⟨l, _, fun t ht => ctx_barLow hb.low ht, fun t => (hk t).2.2.1⟩
  | close => exact ⟨c, _, fun t ht => ctx_barClose hb.close ht, fun t => (hk t).2.2.2⟩
  | volume => exact absurd rfl hs
  | ohlc4 =>
    refine ⟨fun t => ohlc4 (o t) (h t) (l t) (c t), (Fl.of R (.fin k) + Fl.of R (.fin k) + Fl.of R (.fin k) + Fl.of R (.fin k)) / lit 4, fun t ht => by
      simp [Src.next, ctx_barOpen hb.open_ ht, ctx_barHigh hb.high ht, ctx_barLow hb.low ht, ctx_barClose hb.close ht], fun t => ?_⟩
    have := ne 4 (by omega) (by omega)
    have : V.val (lit 4 : α) ≠ Fl.of R (.fin 0) := by simpa using this
    show V.val (Pace.ohlc4 (o t) (h t) (l t) (c t)) = _
    rw [Pace.ohlc4, V.div _ _ this, V.add, V.add, V.add, V.lit, (hk t).1, (hk t).2.1, (hk t).2.2.1, (hk t).2.2.2]
  | hlc3 =>
    refine ⟨fun t => hlc3 (h t) (l t) (c t), (Fl.of R (.fin k) + Fl.of R (.fin k) + Fl.of R (.fin k)) / lit 3, fun t ht => by
      simp [Src.next, ctx_barHigh hb.high ht, ctx_barLow hb.low ht, ctx_barClose hb.close ht], fun t => ?_⟩
    have := ne 3 (by omega) (by omega)
    have : V.val (lit 3 : α) ≠ Fl.of R (.fin 0) := by simpa using this
    show V.val (Pace.hlc3 (h t) (l t) (c t)) = _
    rw [Pace.hlc3, V.div _ _ this, V.add, V.add, V.lit, (hk t).2.1, (hk t).2.2.1, (hk t).2.2.2]
  | hl2 =>
    refine ⟨fun t => hl2 (h t) (l t), (Fl.of R (.fin k) + Fl.of R (.fin k)) / lit 2, fun t ht => by
      simp [Src.next, ctx_barHigh hb.high ht, ctx_barLow hb.low ht], fun t => ?_⟩
    have := ne 2 (by omega) (by omega)
    have : V.val (lit 2 : α) ≠ Fl.of R (.fin 0) := by simpa using this
    show V.val (Pace.hl2 (h t) (l t)) = _
    rw [Pace.hl2, V.div _ _ this, V.add, V.lit, (hk t).2.1, (hk t).2.2.1]

omit L hb hk in
private theorem pick_val {x : Nat → α} {w : Fl R} (hx : ∀ t, V.val (x t) = w) (better : α → α → Bool) {n : Nat} (t : Nat) :
    ∀ a, pick better (win (fun t => some (x t)) n t) = some a → V.val a = w := by
  intro a ha
  unfold pick at ha
  split at ha
  · rename_i i _
    rcases hi : (win (fun t => some (x t)) n t)[i]? with _ | b
    · rw [hi] at ha; cases ha
    · rw [hi] at ha
      have hm := List.mem_of_getElem? hi
      simp only [win, List.mem_map] at hm
      obtain ⟨j, _, rfl⟩ := hm
      cases ha
      exact hx _
  · cases ha

omit L hb hk in
private theorem highest_val {x : Nat → α} {w : Fl R} (hx : ∀ t, V.val (x t) = w) (n t : Nat) :
    (∀ a, highest0 n (fun t => some (x t)) t = some a → V.val a = w) ∧ (∀ a, lowest0 n (fun t => some (x t)) t = some a → V.val a = w) := by
  unfold highest0 lowest0
  by_cases hc : n ≤ t + 1
  · rw [if_pos hc, if_pos hc]; exact ⟨pick_val hx _ t, pick_val hx _ t⟩
  · rw [if_neg hc, if_neg hc]; constructor <;> (intro a ha; cases ha)

omit hb in
private theorem range_zero (t : Nat) (a : α) : opt2 (· - ·) (highest0 t (fun t => some (h t)) N) (lowest0 t (fun t => some (l t)) N) = some a →
    IsZero V a := by
  have h1 := (highest_val (fun t => (hk t).2.1) t N).1
  have h2 := (highest_val (fun t => (hk t).2.2.1) t N).2
  generalize highest0 t (fun t => some (h t)) N = A at h1
  generalize lowest0 t (fun t => some (l t)) N = B at h2
  rcases A with _ | A
  · intro h; cases h
  rcases B with _ | B
  · intro h; cases h
  intro h
  cases h
  exact isZero_sub L (h1 A rfl) (h2 B rfl)

omit hb in
private theorem tr0_zero (na : Bool) (t : Nat) : ∀ a, tr0 na h l c t = some a → IsZero V a := by
  intro a ha
  cases t with
  | zero =>
    cases na
    · cases ha
    · cases ha; exact isZero_sub L (hk 0).2.1 (hk 0).2.2.1
  | succ t =>
    cases ha
    exact ((isZero_sub L (hk _).2.1 (hk _).2.2.1).fmax (isZero_sub L (hk _).2.1 (hk _).2.2.2).abs).fmax
      (isZero_sub L (hk _).2.2.1 (hk _).2.2.2).abs

omit L hb hk in
private theorem none_fixNan (N : Nat) : Runs (total (FixNan.next (α := α))) (.ok FixNan.new) (fun _ => none) N (fun _ => none) :=
  Runs.of_trace (fun _ => FixNan.new) rfl fun _ _ => rfl

omit L hb hk in
private theorem none_rma (d : DataProvider α) {n : Nat} (hn : 1 ≤ n) (N : Nat) :
    Runs (fun t => Rma.next ⟨d, t⟩) (Rma.new n) (fun _ => none) N (fun _ => none) := by
  have hs : Stays (fun _ : Nat => (none : Option α)) := fun t ht => by cases ht
  refine (rma_runs d hn _ N (hs.emaOk _ _ hn)).congr fun t ht => ?_
  clear ht
  have hsma : ∀ t, sma0 n (fun _ => (none : Option α)) t = none := fun t => by
    unfold sma0
    split
    · rfl
    · rw [if_neg]
      rintro ⟨_, h2⟩
      have := h2 t (le_refl _) (by omega)
      cases this
  unfold rma0
  induction t with
  | zero => exact hsma 0
  | succ t ih =>
    rw [ema0]
    split
    · rfl
    · rw [ih]; exact hsma _

omit L hb hk in
private theorem swma_none (t : Nat) : swma0 (fun _ => (none : Option α)) t = none := by
  unfold swma0
  split
  · rw [win_const]; rfl
  · rfl

/-- **C84, floats.** The indicators of C84 whose denominator is exactly 0 in a market that does not move, whatever the rounding: they never
have a value.  (Bollinger %B, the commodity channel index and the relative volatility index are not among them: their denominator is the
rounding error of an average.) -/
theorem C84_ieee_undefined {s : SrcKind} (hs : s ≠ .volume) {n m q : Nat} (hn : 2 ≤ n) (hm : 1 ≤ m) (hq : 1 ≤ q) :
    (∀ t, t < N → BalanceOfPower.next ⟨d, t⟩ = .ok none) ∧
    Runs (noInput fun t => withSrc s WilliamsPercentRank.next ⟨d, t⟩) (WilliamsPercentRank.new m) unit N (fun _ => none) ∧
    Runs (noInput fun t => withSrc s ChandeMomentumOscillator.next ⟨d, t⟩) (ChandeMomentumOscillator.new n) unit N (fun _ => none) ∧
    Runs (noInput fun t => ChoppinessIndex.next ⟨d, t⟩) (ChoppinessIndex.new m) unit N (fun _ => none) ∧
    Runs (noInput fun t => Vortex.next ⟨d, t⟩) (Vortex.new m) unit N (fun _ => (none, none)) ∧
    Runs (noInput fun t => UltimateOscillator.next ⟨d, t⟩) (UltimateOscillator.new n m q) unit N (fun _ => none) ∧
    Runs (noInput fun t => RelativeVigorIndex.next ⟨d, t⟩) (RelativeVigorIndex.new m) unit N (fun _ => (none, none)) ∧
    Runs (noInput fun t => Dmi.next ⟨d, t⟩) (Dmi.new m q) unit N (fun _ => ⟨none, none, none⟩) := by
  obtain ⟨x, w, hx, hw⟩ := still_src L hb hk hs
  have h1 : 1 ≤ n := by omega
  have atr1 := atr_runs (le_refl 1) hb.high hb.low hb.close
  have atr1z : ∀ t a, atr0 1 h l c t = some a → IsZero V a := rma0_zero L (tr0_zero L hk true) (le_refl 1)
  refine ⟨fun t ht => ?_, ?_, ?_, ?_, ?_, ?_, ?_, ?_⟩
  · rw [C53_balance_of_power d hb.open_ hb.high hb.low hb.close ht]
    have : F64.feq (h t) (l t) = true := by rw [V.feq, (hk t).2.1, (hk t).2.2.1]; exact fl_feq_fin k
    simp [opt4, this]
  · refine withSrc_runs hx ((C53_williams d hb.high hb.low (highest_runs d hm _ N) (lowest_runs d hm _ N)).congr fun t _ => ?_)
    rw [safeDiv_zero L (range_zero L hk m)]; rfl
  · refine withSrc_runs hx ((C53_cmo d hn (sum_runs d h1 _ N) (sum_runs d h1 _ N)).congr fun t _ => ?_)
    have e1 : ∀ t a, opt2 (fun a p => F64.fmax (lit 0) (a - p)) (some (x t)) (prev (fun t => some (x t)) t) = some a → IsZero V a := by
      intro t a ha
      cases t with
      | zero => cases ha
      | succ t => cases ha; exact ZeroNan.fmax' (isZero_lit L) (zeroNan_sub L ((hw _).trans (hw _).symm))
    have e2 : ∀ t a, opt2 (fun a p => F64.abs (F64.fmin (lit 0) (a - p))) (some (x t)) (prev (fun t => some (x t)) t) = some a → IsZero V a := by
      intro t a ha
      cases t with
      | zero => cases ha
      | succ t => cases ha; exact (ZeroNan.fmin' (isZero_lit L) (zeroNan_sub L ((hw _).trans (hw _).symm))).abs
    have z1 := sum0_zero L e1 n t
    have z2 := sum0_zero L e2 n t
    generalize sum0 n (fun t => opt2 (fun a p => F64.fmax (lit 0) (a - p)) (some (x t)) (prev (fun t => some (x t)) t)) t = A at z1 ⊢
    generalize sum0 n (fun t => opt2 (fun a p => F64.abs (F64.fmin (lit 0) (a - p))) (some (x t)) (prev (fun t => some (x t)) t)) t = B at z2 ⊢
    rcases A with _ | A
    · rfl
    rcases B with _ | B
    · rfl
    have : F64.feq A (-B) = true := by
      rw [V.feq, z1 A rfl, (z2 B rfl).neg]; exact fl_feq_fin 0
    simp only [opt2, this, if_true]; rfl
  · refine (C53_choppiness d hb.high hb.low atr1 (sum_runs d hm _ N) (highest_runs d hm _ N) (lowest_runs d hm _ N)).congr fun t _ => ?_
    have hz := range_zero (N := t) L hk m
    generalize highest0 m (fun t => some (h t)) t = A at hz
    generalize lowest0 m (fun t => some (l t)) t = B at hz
    rcases sum0 m (atr0 1 h l c) t with _ | S
    · rfl
    rcases A with _ | A
    · rfl
    rcases B with _ | B
    · rfl
    simp only [opt3, IsZero.feq L (hz _ rfl), if_true]; rfl
  · refine (C53_vortex d hb.high hb.low atr1 (sum_runs d hm _ N) (sum_runs d hm _ N) (sum_runs d hm _ N)).congr fun t _ => ?_
    rw [safeDiv_zero L (sum0_zero L atr1z m t), safeDiv_zero L (sum0_zero L atr1z m t)]
  · refine (C53_ultimate_oscillator d hb.high hb.low hb.close (fun _ _ => rfl) (fun _ _ => rfl) (sum_runs d h1 _ N) (sum_runs d h1 _ N)
      (sum_runs d hm _ N) (sum_runs d hm _ N) (sum_runs d hq _ N) (sum_runs d hq _ N)).congr fun t _ => ?_
    have e : ∀ t a, opt3 (fun h l p => F64.fmax h p - F64.fmin l p) (some (h t)) (some (l t)) (prev (fun t => some (c t)) t) = some a →
        IsZero V a := by
      intro t a ha
      cases t with
      | zero => cases ha
      | succ t =>
        cases ha
        refine isZero_sub (k := k) L ?_ ?_
        · rw [V.fmax, (hk _).2.1, (hk _).2.2.2]
          show (if decide (k ≤ k) = true then Fl.of R (.fin k) else Fl.of R (.fin k)) = _
          split <;> rfl
        · rw [V.fmin, (hk _).2.2.1, (hk _).2.2.2]
          show (if decide (k ≤ k) = true then Fl.of R (.fin k) else Fl.of R (.fin k)) = _
          split <;> rfl
    rw [safeDiv_zero L (sum0_zero L e n t)]; rfl
  · have e : ∀ t a, opt2 (· - ·) (some (h t)) (some (l t)) = some a → IsZero V a := by
      intro t a ha
      cases ha
      exact isZero_sub L (hk _).2.1 (hk _).2.2.1
    have z : ∀ t, ∀ a, sum0 m (swma0 fun t => opt2 (· - ·) (some (h t)) (some (l t))) t = some a → IsZero V a := sum0_zero L (swma0_zero L e) m
    refine (C53_relative_vigor d hb.open_ hb.high hb.low hb.close (swma_runs d _ N) (swma_runs d _ N) (sum_runs d hm _ N)
      (sum_runs d hm _ N) ((swma_runs d (fun _ => none) N).input_congr fun t _ => ?_)).congr fun t _ => ?_
    · exact (safeDiv_zero L (z t)).symm
    · rw [safeDiv_zero L (z t), swma_none]
  · have htr := startsAt_tr0_false h l c
    have hup := (StartsAt.some h).opt2 (StartsAt.some h).prev fun a b => (a - b : α)
    have hdn := (StartsAt.some l).prev.opt2 (StartsAt.some l) fun a b => (a - b : α)
    have hp := hup.opt2 hdn fun u w => if fgt u w && fgt u (lit 0) then u else lit 0
    have hm' := hup.opt2 hdn fun u w => if fgt w u && fgt w (lit 0) then w else lit 0
    have z := rma0_zero L (tr0_zero L hk false) hm
    exact C53_dmi d hb.high hb.low (fun t ht => tr_step hb.high hb.low hb.close ht false) (fun _ _ => rfl) (fun _ _ => rfl)
      (rma_runs d hm _ N (htr.stays.emaOk _ _ hm)) (rma_runs d hm _ N (hp.stays.emaOk _ _ hm))
      (rma_runs d hm _ N (hm'.stays.emaOk _ _ hm))
      ((none_fixNan N).input_congr fun t _ => by rw [safeDiv_zero L (z t)]; rfl)
      ((none_fixNan N).input_congr fun t _ => by rw [safeDiv_zero L (z t)]; rfl)
      ((none_rma d hq N).input_congr fun t _ => rfl)

omit hb hk in
private theorem rsi_nan {x : Nat → α} {w : Fl R} (hx : ∀ t, V.val (x t) = w) {n : Nat} (hn : 2 ≤ n) (t : Nat) :
    NotNumber V (rsi0 n (fun t => some (x t)) t) := by
  have e1 : ∀ t a, gain0 (fun t => some (x t)) t = some a → IsZero V a := by
    intro t a ha
    cases t with
    | zero => cases ha
    | succ t => cases ha; exact ZeroNan.fmax (zeroNan_sub L ((hx _).trans (hx _).symm)) (isZero_lit L)
  have e2 : ∀ t a, loss0 (fun t => some (x t)) t = some a → IsZero V a := by
    intro t a ha
    cases t with
    | zero => cases ha
    | succ t => cases ha; exact (ZeroNan.fmin (zeroNan_sub L ((hx _).trans (hx _).symm)) (isZero_lit L)).neg
  have z1 := rma0_zero L e1 (show 1 ≤ n by omega) t
  have z2 := rma0_zero L e2 (show 1 ≤ n by omega) t
  intro a ha
  unfold rsi0 at ha
  generalize rma0 n (gain0 fun t => some (x t)) t = A at z1 ha
  generalize rma0 n (loss0 fun t => some (x t)) t = B at z2 ha
  rcases A with _ | A
  · cases ha
  rcases B with _ | B
  · cases ha
  cases ha
  have q : V.val (A / B) = Fl.of R .nan := ZeroNan.nan L (z1 A rfl).zeroNan (z2 B rfl).zeroNan
  have q1 : V.val (lit 1 + A / B) = Fl.of R .nan := by rw [V.add, q]; exact fl_add_nan _
  have q2 : V.val (lit 100 / (lit 1 + A / B)) = Fl.of R .nan := by
    rw [V.div _ _ (by rw [q1]; intro h'; cases h'), q1]; exact fl_div_nan _
  rw [V.sub, q2]
  exact fl_add_nan (V.val (lit 100))

omit L hb hk in
private theorem nan_plus {a : α} (b : α) (h : V.val a = Fl.of R .nan) : V.val (a + b) = Fl.of R .nan := by rw [V.add, h]; rfl
omit hb hk in
private theorem nan_div_left {a : α} (b : α) (h : V.val a = Fl.of R .nan) : V.val (a / b) = Fl.of R .nan := by
  rcases div_val L a b with e | e <;> rw [e, h] <;> rfl

omit hb hk in
private theorem stoch_nan {m : Nat} {r : Nat → Option α} (h : ∀ t, NotNumber V (r t)) (t : Nat) : NotNumber V (stoch0 m r r r t) := by
  have step : ∀ w hi lo prev : Option α, NotNumber V w → NotNumber V prev → NotNumber V (stochVal w hi lo prev) := by
    intro w hi lo prev hw hp a ha
    rcases w with _ | w
    · cases ha
    rcases hi with _ | hi
    · cases ha
    rcases lo with _ | lo
    · cases ha
    unfold stochVal at ha
    dsimp only at ha
    by_cases hc : F64.feq (hi - lo) (lit 0) = true
    · rw [if_pos hc] at ha; exact hp a ha
    · rw [if_neg hc] at ha
      cases ha
      refine nan_div_left L _ ?_
      rw [V.mul, V.sub, hw w rfl]
      exact fl_mul_nan (V.val (lit 100))
  have hnone : NotNumber V none := fun a ha => by cases ha
  induction t with
  | zero => exact step _ _ _ _ (h 0) hnone
  | succ t ih => exact step _ _ _ _ (h _) ih

omit hb hk in
private theorem sma_nan {a : Nat} (ha : 1 ≤ a) {r : Nat → Option α} (h : ∀ t, NotNumber V (r t)) (t : Nat) : NotNumber V (sma0 a r t) := by
  intro y hy
  unfold sma0 at hy
  by_cases h1 : a = 1
  · rw [if_pos h1] at hy; exact h t y hy
  · rw [if_neg h1] at hy
    by_cases h2 : a ≤ t + 1 ∧ WindowPresent r a t
    · rw [if_pos h2] at hy
      have hp : (r t).isSome := h2.2 t (le_refl _) (by omega)
      obtain ⟨w, hw⟩ := Option.isSome_iff_exists.mp hp
      cases hy
      refine nan_div_left L _ ?_
      rw [rawSum0, hw]
      show V.val (acc0 a r t + w) = _
      rw [V.add, h t w hw]; exact fl_add_nan _
    · rw [if_neg h2] at hy; cases hy

/-- **C84, floats.** In a market that does not move the relative strength index is NaN from its first value (tick `n`) on, and neither the
stochastic RSI nor the Connors RSI is ever a number. -/
theorem C84_ieee_nan {s : SrcKind} (hs : s ≠ .volume) {n m a b : Nat} (hn : 2 ≤ n) (hm : 1 ≤ m) (ha : 1 ≤ a) (hb' : 1 ≤ b) :
    (∃ y, Runs (noInput fun t => withSrc s Rsi.next ⟨d, t⟩) (Rsi.new n) unit N y ∧ StartsAt n y ∧ ∀ t, NotNumber V (y t)) ∧
    (∃ y, Runs (noInput fun t => withSrc s StochRsi.next ⟨d, t⟩) (StochRsi.new n m a b) unit N y ∧
      ∀ t, NotNumber V (y t).1 ∧ NotNumber V (y t).2) ∧
    (2 ≤ m → ∃ y, Runs (noInput fun t => withSrc s ConnorsRsi.next ⟨d, t⟩) (ConnorsRsi.new n m a) unit N y ∧ ∀ t, NotNumber V (y t)) := by
  obtain ⟨x, w, hx, hw⟩ := still_src L hb hk hs
  have hst : StartsAt 0 (fun t => some (x t)) := .some x
  have hr := rsi_runs d hn (fun t => some (x t)) N fun t _ _ => rfl
  have nr := rsi_nan L hw hn
  refine ⟨⟨_, withSrc_runs hx hr, (hst.rsi0 (len := n) (by omega)).cast (Nat.zero_add n), nr⟩, ?_, fun hm2 => ?_⟩
  · have n1 := stoch_nan (m := m) L nr
    have n2 := sma_nan L ha n1
    exact ⟨_, withSrc_runs hx (C53_stoch_rsi d hr (stoch_runs d hm _ _ _ N) (sma_runs d ha _ N) (sma_runs d hb' _ N)), fun t =>
      ⟨n2 t, sma_nan L hb' n2 t⟩⟩
  · let xs : Nat → Option α := fun t => some (x t)
    let ud : Nat → Option α := fun t => Nat.rec (ConnorsRsi.computeUpDown (xs 0) none none)
      (fun t p => ConnorsRsi.computeUpDown (xs (t + 1)) (xs t) p) t
    have hud : ∀ t, ud t = ConnorsRsi.computeUpDown (xs t) (prev xs t) (prev ud t) := fun t => by cases t <;> rfl
    have hsome : ∀ t, (ud t).isSome := fun t => by
      rw [hud]; unfold ConnorsRsi.computeUpDown
      dsimp only
      split
      · rfl
      · repeat' split
        all_goals rfl
    refine ⟨_, withSrc_runs hx (connors_runs d (ud := ud) (fun t _ => hud t) hr
      (rsi_runs d hm2 ud N fun t _ _ => hsome (t + 1)) (roc_runs 1 (le_refl _) _ N) (prank_runs d ha _ N)), fun t y hy => ?_⟩
    have := nr t
    generalize rsi0 n (fun t => some (x t)) t = A at this hy
    generalize rsi0 m ud t = B at hy
    generalize prank0 a (roc0 1 fun t => some (x t)) t = C at hy
    rcases A with _ | A
    · cases hy
    rcases B with _ | B
    · cases hy
    rcases C with _ | C
    · cases hy
    cases hy
    exact nan_div_left L _ (nan_plus _ (nan_plus _ (this A rfl)))

/-- **C84, floats.** In a market that does not move every number Chaikin money flow and the Coppock curve ever show is 0 (of either sign);
both may be NaN (a volume or a sum of prices may overflow), and Chaikin money flow may be missing. -/
theorem C84_ieee_zero {s : SrcKind} (hs : s ≠ .volume) {g a b : Nat} (hg : 1 ≤ g) (ha : 1 ≤ a) (hb' : 1 ≤ b) :
    (∃ y, Runs (noInput fun t => ChaikinMoneyFlow.next ⟨d, t⟩) (ChaikinMoneyFlow.new g) unit N y ∧
      ∀ t w, y t = some w → V.val w = Fl.of R (.fin 0) ∨ V.val w = Fl.of R .nan) ∧
    (∃ y, Runs (noInput fun t => withSrc s CoppockCurve.next ⟨d, t⟩) (CoppockCurve.new g a b) unit N y ∧
      ∀ t w, y t = some w → V.val w = Fl.of R (.fin 0) ∨ V.val w = Fl.of R .nan) := by
  obtain ⟨x, w, hx, hw⟩ := still_src L hb hk hs
  constructor
  · have e : ∀ t a, opt4 (fun h l c v => if F64.feq c h && F64.feq c l || F64.feq h l then lit 0
        else (lit 2 * c - l - h) / (h - l) * v) (some (h t)) (some (l t)) (some (c t)) (some (v t)) = some a → IsZero V a := by
      intro t a ha
      have : F64.feq (h t) (l t) = true := by rw [V.feq, (hk t).2.1, (hk t).2.2.1]; exact fl_feq_fin k
      simp only [opt4, this, Bool.or_true, if_true] at ha
      cases ha
      exact isZero_lit L
    exact ⟨_, C53_cmf d hb.high hb.low hb.close hb.volume (sum_runs d hg _ N) (sum_runs d hg _ N), fun t =>
      safeDiv_nan L fun a ha => (sum0_zero L e g t a ha).zeroNan⟩
  · have z : ∀ t w, opt2 (· + ·) (roc0 a (fun t => some (x t)) t) (roc0 b (fun t => some (x t)) t) = some w → ZeroNan V w := by
      intro t r hr
      have z1 := roc0_zeroNan L hw a t
      have z2 := roc0_zeroNan L hw b t
      generalize roc0 a (fun t => some (x t)) t = A at z1 hr
      generalize roc0 b (fun t => some (x t)) t = B at z2 hr
      rcases A with _ | A
      · cases hr
      rcases B with _ | B
      · cases hr
      cases hr
      exact ZeroNan.add L (z1 A rfl) (z2 B rfl)
    exact ⟨_, withSrc_runs hx (C53_coppock d (roc_runs a ha _ N) (roc_runs b hb' _ N) (wma_runs d hg _ N)), wma0_zeroNan L z g⟩

/-- **C84, floats.** In a market that does not move both Aroon lines are the same number, from tick `n - 1` on. -/
theorem C84_ieee_aroon {n : Nat} (hn : 1 ≤ n) :
    Runs (noInput fun t => Aroon.next ⟨d, t⟩) (Aroon.new n) unit N (fun t =>
      (startAt (n - 1) (fun _ => (lit ((1 - n : Int) : ℚ) + lit (n : ℚ)) / lit (n : ℚ) * lit 100) t,
       startAt (n - 1) (fun _ => (lit ((1 - n : Int) : ℚ) + lit (n : ℚ)) / lit (n : ℚ) * lit 100) t)) := by
  obtain ⟨hi, lo, r1, r2, h12⟩ := C31_ieee V d hn hb.high hb.low
    (fun t w _ hw => by cases hw; rw [(hk t).2.1]; intro h'; cases h')
    (fun t w _ hw => by cases hw; rw [(hk t).2.2.1]; intro h'; cases h')
  refine (C53_aroon d hn hb.high hb.low r1 r2).congr fun t ht => ?_
  have irr : ∀ a b : α, V.val a = Fl.of R (.fin k) → V.val b = Fl.of R (.fin k) → F64.lt a b = true → False := by
    intro a b h1 h2 h3
    rw [V.lt, h1, h2] at h3
    have : decide (k < k) = true := h3
    simp at this
  obtain ⟨h1, h2⟩ := h12 t ht
  by_cases hc : t < n - 1
  · rw [(h1 (by omega)).1, (h1 (by omega)).2]
    simp [startAt, hc]
  · obtain ⟨p, q, hp, hq, e1, e2, h3, h4⟩ := h2 (by omega)
    have ep : p = n - 1 := by
      rcases h3 with ⟨_, h3⟩ | ⟨w, hw, h3⟩
      · have := h3 0 (by omega); cases this
      · by_contra hne
        have := (h3 (n - 1) _ (by omega) rfl).2 (by omega)
        cases hw
        exact irr _ _ (hk _).2.1 (hk _).2.1 this
    have eq : q = n - 1 := by
      rcases h4 with ⟨_, h4⟩ | ⟨w, hw, h4⟩
      · have := h4 0 (by omega); cases this
      · by_contra hne
        have := (h4 (n - 1) _ (by omega) rfl).2 (by omega)
        cases hw
        exact irr _ _ (hk _).2.2.1 (hk _).2.2.1 this
    have e : (-((n - 1 : Nat) : Int)) = 1 - (n : Int) := by rw [Nat.cast_sub hn]; push_cast; ring
    rw [e1, e2, ep, eq, e]
    simp [startAt, hc]

end

/-! ## No signals, no trades -/

/-- All numbers of the series are zeros: the others are missing or NaN. -/
def Spec.OnlyZeros (N : Nat) (y : Nat → Option α) : Prop :=
  ∀ t w, t < N → y t = some w → V.val w = Fl.of R (.fin 0) ∨ V.val w = Fl.of R .nan

section
variable {V} {N : Nat}

private theorem fl_no_cross (p w θ : Fl R) (hp : p = Fl.of R (.fin 0) ∨ p = Fl.of R .nan) (hw : w = Fl.of R (.fin 0) ∨ w = Fl.of R .nan) :
    (F64.lt θ w && F64.le p θ) = false ∧ (F64.lt w θ && F64.le θ p) = false := by
  rcases hp with rfl | rfl <;> rcases hw with rfl | rfl <;> rcases θ with _ | _ | _ | θ <;> try exact ⟨rfl, rfl⟩
  on_goal 2 =>
    show (decide (θ < 0) && false) = false ∧ (decide (0 < θ) && false) = false
    simp
  show (decide (θ < 0) && decide (0 ≤ θ)) = false ∧ (decide (0 < θ) && decide (θ ≤ 0)) = false
  constructor
  · by_cases h : θ < 0
    · simp [h]
    · simp [h]
  · by_cases h : 0 < θ
    · simp [h]
    · simp [h]

private theorem zeros_over {y : Nat → Option α} (h : OnlyZeros V N y) (θ : α) {t : Nat} (ht : t < N) :
    over0 y (fun _ => some θ) t = false ∧ under0 y (fun _ => some θ) t = false := by
  cases t with
  | zero => exact ⟨rfl, rfl⟩
  | succ t =>
    unfold over0 under0
    show (match y t, some θ, y (t + 1), some θ with
      | some pa, some pb, some a, some b => F64.lt b a && F64.le pa pb
      | _, _, _, _ => false) = false ∧ (match y t, some θ, y (t + 1), some θ with
      | some pa, some pb, some a, some b => F64.lt a b && F64.le pb pa
      | _, _, _, _ => false) = false
    have h1 := h t
    have h2 := h (t + 1)
    generalize y t = A at h1
    generalize y (t + 1) = B at h2
    rcases A with _ | A
    · exact ⟨rfl, rfl⟩
    rcases B with _ | B
    · exact ⟨rfl, rfl⟩
    dsimp only
    rw [V.lt, V.le, V.lt, V.le]
    exact fl_no_cross _ _ _ (h1 A (by omega) rfl) (h2 B ht rfl)

private theorem lt_self (V : Valued R α) (a : α) : F64.lt a a = false := by
  rw [V.lt]
  generalize V.val a = x
  rcases x with _ | _ | _ | x <;> try rfl
  show decide (x < x) = false
  simp

private theorem same_lines (V : Valued R α) (a : Nat → Option α) (t : Nat) : cross0 a a t = none := by
  have : over0 a a t = false ∧ under0 a a t = false := by
    unfold over0 under0
    generalize before a t = A
    generalize a t = B
    rcases A with _ | A
    · exact ⟨rfl, rfl⟩
    rcases B with _ | B
    · exact ⟨rfl, rfl⟩
    dsimp only
    rw [lt_self V]
    exact ⟨rfl, rfl⟩
  simp [cross0, this.1, this.2]

/-- **C84, floats.** No threshold, whatever its value (even 0, an infinity or NaN), is ever crossed by a series all of whose numbers are
zeros of either sign, even with values missing or NaN in between; and two lines that are the same never cross. -/
theorem C84_ieee_no_signal :
    (∀ (over under : α) {y : Nat → Option α}, OnlyZeros V N y →
      Runs (total ThresholdStrategy.next) (.ok (ThresholdStrategy.mk' over under)) y N (fun _ => none)) ∧
    (∀ a : Nat → Option α, Runs (total CrossStrategy.next) (.ok .new) (fun t => (a t, a t)) N (fun _ => none)) ∧
    (∀ a : Nat → Option α, Runs (total AroonStrategy.next) (.ok .new) (fun t => (a t, a t)) N (fun _ => none)) ∧
    (∀ (strong : α) (y : Nat → DmiData α), (∀ t, (y t).plus = (y t).minus) →
      Runs (total DmiStrategy.next) (.ok (.new strong)) y N (fun _ => none)) := by
  refine ⟨fun over under y h => ?_, fun a => ?_, fun a => ?_, fun strong y h => ?_⟩
  · refine Impl.runs (Inv := fun t s => ThreshInv over y t s.crossOver ∧ ThreshInv under y t s.crossUnder) ⟨⟨rfl, rfl⟩, ?_⟩
    rintro t s ht ⟨h1, h2⟩
    obtain ⟨s1, e1, g1⟩ := threshOver_step h1
    obtain ⟨s2, e2, g2⟩ := threshUnder_step h2
    refine ⟨⟨s1, s2⟩, ?_, g1, g2⟩
    simp only [total, ThresholdStrategy.next, e1, e2, (zeros_over h over ht).1, (zeros_over h under ht).2]
    rfl
  · refine Impl.runs (Inv := CrossInv a a) ⟨rfl, fun t s _ h => ?_⟩
    obtain ⟨s', h1, h2⟩ := cross_step h
    exact ⟨s', by simp only [total, CrossStrategy.next, h1, same_lines V, Option.map_none], h2⟩
  · refine (aroonStrategy_runs a a N).congr fun t _ => ?_
    have : ∀ t, aroonArmed a a t = false := fun t => by
      induction t with
      | zero => rw [aroonArmed, same_lines V]; rfl
      | succ t ih => rw [aroonArmed, same_lines V, ih]; rfl
    rw [aroonSignal0, this]; rfl
  · set a := fun t => (y t).plus with ha
    have e : (fun t => (y t).minus) = a := funext fun t => (h t).symm
    refine Impl.runs (Inv := fun t s => s.thresholdStrongTrend = strong ∧ CrossInv a a t s.cross) ⟨⟨rfl, rfl⟩, fun t s _ hI => ?_⟩
    obtain ⟨s', h1, h2⟩ := cross_step hI.2
    refine ⟨{ s with cross := s' }, ?_, hI.1, h2⟩
    simp only [total, DmiStrategy.next]
    rw [show Cross.next s.cross ((y t).plus, (y t).minus) = (cross0 a a t, s') by
      rw [← h t]; exact h1, same_lines V]
    simp

end

/-- The program (indicator `ind`, signals `sgn`) runs through the bars without panic, never signals, never trades, all its totals stay 0 and
its equity the initial capital (plus two zeros): for every configuration. -/
def Spec.NeverTrades {S Q O : Type} (d : DataProvider α) (N : Nat) (ind : Ctx α → S → Res (O × S)) (ind0 : Res S)
    (sgn : Q → O → Option TradeDirection × Q) (q0 : Q) : Prop :=
  ∀ (cfg : StrategyConfig α) (rfr : α), ∃ (y : Nat → O) (st : Nat → Strategy α) (tv : Nat → TvMetrics α),
    Runs (noInput fun t => Program.next ind sgn ⟨d, t⟩) (Program.new ind0 q0 cfg rfr) unit N (fun t => (y t, none, st t, tv t)) ∧
    ∀ t, t < N → (st t).trades = [] ∧ (st t).metrics.netProfit = lit 0 ∧ (st t).metrics.openProfit = lit 0 ∧
      (st t).metrics.equity = cfg.initialCapital + lit 0 + lit 0

section
variable {V} {d : DataProvider α} {N : Nat} {o h l c v : Nat → α} {k : K}

theorem neverTrades {S Q O : Type} (hb : Bars d N o h l c v) {ind : Ctx α → S → Res (O × S)} {ind0 : Res S}
    {sgn : Q → O → Option TradeDirection × Q} {q0 : Q} {y : Nat → O} (hy : Runs (noInput fun t => ind ⟨d, t⟩) ind0 unit N y)
    (hs : Runs (total sgn) (.ok q0) y N (fun _ => none)) : NeverTrades d N ind ind0 sgn q0 := by
  intro cfg rfr
  obtain ⟨st, tv, h1, _, h2⟩ := C65_program hb hy hs cfg rfr
  refine ⟨y, st, tv, h2, fun t ht => ?_⟩
  have h := C84_idle h1 (fun _ _ => rfl) ht
  exact ⟨h.1, h.2.1, h.2.2.1, h.2.2.2.2.2.2⟩

private theorem total_first {Q A B O : Type} {next : Q → A → O × Q} {q : Q} {y : Nat → A × B} {z : Nat → O}
    (h : Runs (total next) (.ok q) (fun t => (y t).1) N z) : Runs (total fun q (p : A × B) => next q p.1) (.ok q) y N z := by
  obtain ⟨s, h0, hs⟩ := h.trace
  exact Runs.of_trace s h0 fun t ht => hs t ht

/-- **C84, floats.** In a market that does not move these strategies never trade, in IEEE arithmetic as in exact arithmetic, whatever their
thresholds and lengths, the price source and the configuration of the backtest.  (The strategies on Bollinger %B, the commodity channel
index, the relative volatility index, MACD, the awesome and the price oscillator are left out: their indicators show the rounding errors of
averages.) -/
theorem C84_ieee_sits_out (L : R.Lawful) (hb : Bars d N o h l c v) (hk : StandsStill V k o h l c) {s : SrcKind} (hs : s ≠ .volume) {n m p q : Nat}
    (hn : 2 ≤ n) (hm : 1 ≤ m) (hp : 1 ≤ p) (hq : 1 ≤ q) (a b strong : α) :
    let rule := ThresholdStrategy.next (α := α)
    let at' := ThresholdStrategy.mk' a b
    NeverTrades d N (fun c (s : Unit) => do return (← BalanceOfPower.next c, s)) (.ok ()) rule at' ∧
    NeverTrades d N (withSrc s WilliamsPercentRank.next) (WilliamsPercentRank.new m) rule at' ∧
    NeverTrades d N (withSrc s ChandeMomentumOscillator.next) (ChandeMomentumOscillator.new n) rule at' ∧
    NeverTrades d N (withSrc s CoppockCurve.next) (CoppockCurve.new q m p) rule at' ∧
    NeverTrades d N ChaikinMoneyFlow.next (ChaikinMoneyFlow.new q) rule at' ∧
    NeverTrades d N (withSrc s Rsi.next) (Rsi.new n) rule at' ∧
    NeverTrades d N (withSrc s StochRsi.next) (StochRsi.new n m p q) (fun q y => rule q y.1) at' ∧
    (2 ≤ m → NeverTrades d N (withSrc s ConnorsRsi.next) (ConnorsRsi.new n m p) rule at') ∧
    NeverTrades d N Vortex.next (Vortex.new m) CrossStrategy.next .new ∧
    NeverTrades d N RelativeVigorIndex.next (RelativeVigorIndex.new m) CrossStrategy.next .new ∧
    NeverTrades d N Dmi.next (Dmi.new m p) DmiStrategy.next (.new strong) ∧
    NeverTrades d N Aroon.next (Aroon.new m) AroonStrategy.next .new := by
  intro rule at'
  obtain ⟨u1, u2, u3, -, u5, -, u7, -⟩ := C84_ieee_undefined L hb hk hs hn hm hp
  obtain ⟨-, -, -, -, -, -, -, u8⟩ := C84_ieee_undefined L hb hk hs hn hm hp
  obtain ⟨⟨y1, w1, -, w1'⟩, ⟨y2, w2, w2'⟩, w3⟩ := C84_ieee_nan L hb hk hs hn hm hp hq
  obtain ⟨⟨z1, v1, v1'⟩, -⟩ := C84_ieee_zero L hb hk hs hq hm hp
  obtain ⟨-, ⟨z2, v2, v2'⟩⟩ := C84_ieee_zero L hb hk hs hq hm hp
  obtain ⟨n1, n2, n3, n4⟩ := C84_ieee_no_signal (V := V) (N := N)
  have N1 : ∀ {y : Nat → Option α}, OnlyZeros V N y → Runs (total rule) (.ok at') y N (fun _ => none) := n1 a b
  have hnone : OnlyZeros V N (fun _ : Nat => (none : Option α)) := fun t w _ hw => by cases hw
  have hnan : ∀ {y : Nat → Option α}, (∀ t, NotNumber V (y t)) → OnlyZeros V N y := fun h t w _ hw => .inr (h t w hw)
  refine ⟨neverTrades hb ?_ (N1 hnone), neverTrades hb u2 (N1 hnone), neverTrades hb u3 (N1 hnone),
    neverTrades hb v2 (N1 fun t w _ hw => v2' t w hw), neverTrades hb v1 (N1 fun t w _ hw => v1' t w hw), neverTrades hb w1 (N1 (hnan w1')),
    neverTrades hb w2 (total_first (N1 (hnan fun t => (w2' t).1))), fun h => ?_, neverTrades hb u5 (n2 _), neverTrades hb u7 (n2 _),
    neverTrades hb u8 (n4 strong _ fun _ => rfl), neverTrades hb (C84_ieee_aroon L hb hk hm) (n3 _)⟩
  · exact Runs.of_trace (fun _ => ()) rfl fun t ht => by simp [noInput, u1 t ht]
  · obtain ⟨y, e1, e2⟩ := w3 h
    exact neverTrades hb e1 (N1 (hnan e2))

end

/-- The hypotheses are met by binary64: 100 bars at price 5. -/
example : ∃ (d : DataProvider (Sf (Rounding.binary64 ℝ))) (o h l c v : Nat → Sf (Rounding.binary64 ℝ)) (k : ℝ),
    Bars d 100 o h l c v ∧ StandsStill (Sf.valued _) k o h l c ∧ (Rounding.binary64 ℝ).Lawful :=
  ⟨_, _, _, _, _, fun _ => lit 7, 5, bars_ofSeries 100 (fun _ => lit 5) (fun _ => lit 5) (fun _ => lit 5) (fun _ => lit 5) _,
    fun t => by
      have : (Sf.valued (Rounding.binary64 ℝ)).val (lit ((5 : Nat) : ℚ)) = Fl.of _ (.fin ((5 : Nat) : ℝ)) := lit_small (binary64_lawful ℝ) (by omega)
      have : (Sf.valued (Rounding.binary64 ℝ)).val (lit 5) = Fl.of _ (.fin 5) := by simpa using this
      exact ⟨this, this, this, this⟩, binary64_lawful ℝ⟩

end Pace
