import Verif.Num
import Verif.Model.Context
import Verif.Spec.Series

/-!
# Specification vocabulary: changing the unit of prices, money and quantities

Nothing here refers to indicators or strategies.
-/

namespace Pace

/-- A linear map `f` that the arithmetic cannot tell: `f` commutes with sums, with multiplication by and division by a pure number, and
keeps zero apart from the other numbers. -/
structure Linear (α : Type) [F64 α] where
  f : α → α
  add : ∀ a b, f (a + b) = f a + f b
  sub : ∀ a b, f (a - b) = f a - f b
  neg : ∀ a, f (-a) = -f a
  feq : ∀ a b, F64.feq (f a) (f b) = F64.feq a b
  zero : f (lit 0) = lit 0
  mul_num : ∀ a b, f a * b = f (a * b)
  num_mul : ∀ a b, a * f b = f (a * b)
  div_num : ∀ a b, f a / b = f (a / b)

/-- `f` multiplies every float by a positive number, and the arithmetic cannot tell: it is linear and leaves comparisons and ratios
alone. -/
structure Dilation (α : Type) [F64 α] extends Linear α where
  abs : ∀ a, F64.abs (f a) = f (F64.abs a)
  fmax : ∀ a b, F64.fmax (f a) (f b) = f (F64.fmax a b)
  fmin : ∀ a b, F64.fmin (f a) (f b) = f (F64.fmin a b)
  lt : ∀ a b, F64.lt (f a) (f b) = F64.lt a b
  le : ∀ a b, F64.le (f a) (f b) = F64.le a b
  ratio : ∀ a b, f a / f b = a / b

/-- `f` keeps the order of the numbers, so that comparisons come out the same. -/
structure Increasing (α : Type) [F64 α] where
  f : α → α
  lt : ∀ a b, F64.lt (f a) (f b) = F64.lt a b
  le : ∀ a b, F64.le (f a) (f b) = F64.le a b

/-- A change of units: `price` for prices, `size` for quantities, `money` for amounts of money, `money2` for squares of amounts of money.
Money is price times quantity. -/
structure Units (α : Type) [F64 α] where
  price : Dilation α
  size : Dilation α
  money : Dilation α
  worth : ∀ a b, price.f a * size.f b = money.f (a * b)
  buys : ∀ a b, money.f a / price.f b = size.f (a / b)
  money2 : α → α
  square : ∀ a b, money.f a * money.f b = money2 (a * b)
  add2 : ∀ a b, money2 a + money2 b = money2 (a + b)
  zero2 : money2 (lit 0) = lit 0
  div2 : ∀ a b, money2 a / b = money2 (a / b)
  sqrt2 : ∀ a, F64.sqrt (money2 a) = money.f (F64.sqrt a)

/-- The same bars in other units of price and volume. -/
def DataProvider.rescale {α : Type} (price volume : α → α) (d : DataProvider α) : DataProvider α :=
  { d with
    open_ := d.open_.map (Option.map price)
    high := d.high.map (Option.map price)
    low := d.low.map (Option.map price)
    close := d.close.map (Option.map price)
    volume := d.volume.map (Option.map volume) }

/-! ## Components and units -/

/-- Fed the inputs converted by `input`, on the bars converted by `price` and `volume`, the component panics on exactly the same tick, and
otherwise returns its outputs converted by `output`. -/
def Spec.Commutes {α S I O : Type} (price volume : α → α) (input : I → I) (output : O → O) (next : Ctx α → S → I → Res (O × S)) (new : Res S) :
    Prop :=
  ∀ (d : DataProvider α) (x : Nat → I) (N : Nat),
    outputs (fun t => next ⟨d.rescale price volume, t⟩) (fun t => input (x t)) N new =
      (outputs (fun t => next ⟨d, t⟩) x N new).map (List.map output)

/-- The same for a component that reads nothing but the bars. -/
def Spec.BarsCommute {α S O : Type} (price volume : α → α) (output : O → O) (next : Ctx α → S → Res (O × S)) (new : Res S) : Prop :=
  ∀ (d : DataProvider α) (N : Nat),
    outputs (noInput fun t => next ⟨d.rescale price volume, t⟩) unit N new =
      (outputs (noInput fun t => next ⟨d, t⟩) unit N new).map (List.map output)

/-! ## Which arithmetics have dilations -/

/-- Multiplication of a float by a positive number, without rounding. -/
def Ext.scale {K : Type} [Mul K] (k : K) : Ext K → Ext K
  | .fin a => .fin (k * a)
  | e => e

/-- Rounding commutes with multiplication by `k` (and so does the square root, with `k * k` inside): true of every `k` without
rounding, and of the powers of the base when the exponent range is unbounded. -/
structure Rounding.Homogeneous {K : Type} [Field K] [LinearOrder K] (R : Rounding K) (k : K) : Prop where
  pos : 0 < k
  rnd : ∀ a, R.rnd (k * a) = (R.rnd a).scale k
  sqrt : ∀ a, 0 ≤ a → R.sqrtR (k * k * a) = (R.sqrtR a).scale k

section
variable {K : Type} [Field K] [LinearOrder K] [IsStrictOrderedRing K] {R : Rounding K}

theorem Rounding.Homogeneous.mul {k m : K} (hk : R.Homogeneous k) (hm : R.Homogeneous m) : R.Homogeneous (k * m) where
  pos := mul_pos hk.pos hm.pos
  rnd a := by
    rw [mul_assoc, hk.rnd, hm.rnd]
    cases R.rnd a <;> simp [Ext.scale, mul_assoc]
  sqrt a ha := by
    rw [show k * m * (k * m) * a = k * k * (m * m * a) by ring, hk.sqrt _ (mul_nonneg (mul_self_nonneg m) ha), hm.sqrt _ ha]
    cases R.sqrtR a <;> simp [Ext.scale, mul_assoc]

theorem signInf_scale {k : K} (hk : 0 < k) (a : K) : Fl.signInf (k * a) = Fl.signInf a := by
  have h1 : 0 < k * a ↔ 0 < a := mul_pos_iff_of_pos_left hk
  have h2 : k * a < 0 ↔ a < 0 := by
    rw [← not_le, ← not_le, mul_nonneg_iff_of_pos_left hk]
  simp only [Fl.signInf, h1, h2]

theorem signInf_scaled {k : K} (a : K) : (Fl.signInf a).scale k = Fl.signInf a := by
  unfold Fl.signInf; split
  · rfl
  · split <;> rfl

theorem scale_neg {k : K} (e : Ext K) : (e.neg).scale k = (e.scale k).neg := by
  cases e <;> simp [Ext.scale, Ext.neg]

theorem fl_add_scale {k : K} (h : R.Homogeneous k) (a b : Ext K) : Fl.add R (a.scale k) (b.scale k) = (Fl.add R a b).scale k := by
  cases a <;> cases b <;> simp [Fl.add, Ext.scale]
  rw [← mul_add, h.rnd]; rfl

theorem scale_fin (k a : K) : (Ext.fin a).scale k = .fin (k * a) := rfl
theorem scale_pinf (k : K) : (Ext.pinf : Ext K).scale k = .pinf := rfl
theorem scale_ninf (k : K) : (Ext.ninf : Ext K).scale k = .ninf := rfl
theorem scale_nan (k : K) : (Ext.nan : Ext K).scale k = .nan := rfl

theorem fl_mul_scale {k : K} (h : R.Homogeneous k) (a b : Ext K) : Fl.mul R (a.scale k) b = (Fl.mul R a b).scale k := by
  cases a <;> cases b <;>
    simp only [Fl.mul, scale_fin, scale_pinf, scale_ninf, scale_nan, signInf_scale h.pos, signInf_scaled, scale_neg, mul_assoc, h.rnd]

theorem fl_mul_comm (a b : Ext K) : Fl.mul R a b = Fl.mul R b a := by
  cases a <;> cases b <;> simp [Fl.mul, mul_comm]

theorem fl_sub_scale {k : K} (h : R.Homogeneous k) (a b : Ext K) :
    Fl.add R (a.scale k) (b.scale k).neg = (Fl.add R a b.neg).scale k := by
  rw [← scale_neg]; exact fl_add_scale h a _

theorem fl_mul_scale_right {k : K} (h : R.Homogeneous k) (a b : Ext K) : Fl.mul R a (b.scale k) = (Fl.mul R a b).scale k := by
  rw [fl_mul_comm, fl_mul_scale h, fl_mul_comm]

theorem scale_scale (k m : K) (e : Ext K) : (e.scale m).scale k = e.scale (k * m) := by
  cases e <;> simp [Ext.scale, mul_assoc]

theorem fl_mul_scale_both {k m : K} (hk : R.Homogeneous k) (hm : R.Homogeneous m) (a b : Ext K) :
    Fl.mul R (a.scale k) (b.scale m) = (Fl.mul R a b).scale (k * m) := by
  rw [fl_mul_scale hk, fl_mul_scale_right hm, scale_scale]

theorem fl_div_scale {k : K} (h : R.Homogeneous k) (a b : Ext K) : Fl.div R (a.scale k) b = (Fl.div R a b).scale k := by
  cases a <;> cases b <;>
    simp only [Fl.div, scale_fin, scale_pinf, scale_ninf, scale_nan, mul_zero, signInf_scale h.pos, mul_div_assoc, h.rnd]
  · split <;> rfl
  · split <;> rfl
  · split
    · rw [signInf_scaled]
    · rfl

theorem fl_div_scale_right {k : K} (h : R.Homogeneous k) (a b : Ext K) :
    Fl.div R (a.scale k) (b.scale k) = Fl.div R a b := by
  have hk := h.pos.ne'
  have h2 : ∀ b, k * b < 0 ↔ b < 0 := fun b => by
    rw [← not_le, ← not_le, mul_nonneg_iff_of_pos_left h.pos]
  cases a <;> cases b <;> simp only [Fl.div, Ext.scale, h2, mul_eq_zero, hk, false_or, signInf_scale h.pos, mul_div_mul_left _ _ hk]

theorem fl_buys {k m : K} (hk : R.Homogeneous k) (hm : R.Homogeneous m) (a b : Ext K) :
    Fl.div R (a.scale (k * m)) (b.scale k) = (Fl.div R a b).scale m := by
  rw [← scale_scale, fl_div_scale_right hk, fl_div_scale hm]

theorem fl_sqrt_scale {k : K} (h : R.Homogeneous k) (a : Ext K) : Fl.sqrt R (a.scale (k * k)) = (Fl.sqrt R a).scale k := by
  have h2 : ∀ b, k * k * b < 0 ↔ b < 0 := fun b => by
    rw [← not_le, ← not_le, mul_nonneg_iff_of_pos_left (mul_pos h.pos h.pos)]
  cases a <;> simp only [Fl.sqrt, scale_fin, scale_pinf, scale_ninf, scale_nan, h2]
  split
  · rfl
  · rename_i b hb
    exact h.sqrt b (not_lt.mp hb)

/-- The dilation by `k`. -/
def Dilation.of {k : K} (h : R.Homogeneous k) : Dilation (Fl R) where
  f := Ext.scale k
  add a b := (fl_add_scale h a b).symm
  sub a b := (fl_sub_scale h a b).symm
  neg a := scale_neg a
  abs a := by
    show Fl.abs (Ext.scale k a) = Ext.scale k (Fl.abs a)
    cases a <;> simp [Fl.abs, Ext.scale, abs_mul, abs_of_pos h.pos]
  fmax a b := by
    show Fl.fmax (Ext.scale k a) (Ext.scale k b) = Ext.scale k (Fl.fmax a b)
    cases a <;> cases b <;> simp [Fl.fmax, Ext.scale, Ext.le, mul_le_mul_iff_right₀ h.pos]
    split <;> rfl
  fmin a b := by
    show Fl.fmin (Ext.scale k a) (Ext.scale k b) = Ext.scale k (Fl.fmin a b)
    cases a <;> cases b <;> simp [Fl.fmin, Ext.scale, Ext.le, mul_le_mul_iff_right₀ h.pos]
    split <;> rfl
  lt a b := by
    show Ext.lt (Ext.scale k a) (Ext.scale k b) = Ext.lt a b
    cases a <;> cases b <;> simp [Ext.lt, Ext.scale, mul_lt_mul_iff_right₀ h.pos]
  le a b := by
    show Ext.le (Ext.scale k a) (Ext.scale k b) = Ext.le a b
    cases a <;> cases b <;> simp [Ext.le, Ext.scale, mul_le_mul_iff_right₀ h.pos]
  feq a b := by
    show Ext.feq (Ext.scale k a) (Ext.scale k b) = Ext.feq a b
    cases a <;> cases b <;> simp [Ext.feq, Ext.scale, h.pos.ne']
  zero := by
    show Ext.scale k (R.rnd ((0 : ℚ) : K)) = R.rnd ((0 : ℚ) : K)
    rw [← h.rnd, Rat.cast_zero, mul_zero]
  mul_num a b := fl_mul_scale h a b
  num_mul a b := fl_mul_scale_right h a b
  div_num a b := fl_div_scale h a b
  ratio a b := fl_div_scale_right h a b

/-- Prices in units of `1/k`, quantities in units of `1/m`. -/
def Units.of {k m : K} (hk : R.Homogeneous k) (hm : R.Homogeneous m) : Units (Fl R) where
  price := .of hk
  size := .of hm
  money := .of (hk.mul hm)
  worth a b := fl_mul_scale_both hk hm a b
  buys a b := fl_buys hk hm a b
  money2 := Ext.scale (k * m * (k * m))
  square a b := fl_mul_scale_both (hk.mul hm) (hk.mul hm) a b
  add2 a b := fl_add_scale ((hk.mul hm).mul (hk.mul hm)) a b
  zero2 := (Dilation.of ((hk.mul hm).mul (hk.mul hm))).zero
  div2 a b := fl_div_scale ((hk.mul hm).mul (hk.mul hm)) a b
  sqrt2 a := fl_sqrt_scale (hk.mul hm) a

theorem sqrt_scale [LawfulRoots K] {k a : K} (hk : 0 < k) (ha : 0 ≤ a) : RootOps.sqrt (k * k * a) = k * RootOps.sqrt a := by
  have h1 := LawfulRoots.sqrt_mul_self (k * k * a) (mul_nonneg (mul_self_nonneg k) ha)
  have h2 := LawfulRoots.sqrt_mul_self a ha
  have h3 := LawfulRoots.sqrt_nonneg (k * k * a)
  have h4 := mul_nonneg hk.le (LawfulRoots.sqrt_nonneg a)
  exact (mul_self_inj h3 h4).mp (by rw [h1, mul_mul_mul_comm, h2])

/-- Without rounding every positive factor is a change of units. -/
theorem exact_homogeneous [LawfulRoots K] {k : K} (hk : 0 < k) : (Rounding.exact K).Homogeneous k where
  pos := hk
  rnd _ := rfl
  sqrt _ ha := congrArg Ext.fin (sqrt_scale hk ha)

end
end Pace
