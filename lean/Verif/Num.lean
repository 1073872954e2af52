import Mathlib.Algebra.Order.Field.Basic
import Mathlib.Data.Rat.Cast.Defs
import Mathlib.Data.Rat.Cast.CharZero
import Mathlib.Tactic.Linarith
import Mathlib.Tactic.Ring
import Mathlib.Tactic.NormNum
import Mathlib.Tactic.FieldSimp
import Mathlib.Tactic.Positivity

/-!
# Numbers

Level 0: `class F64`, the operations of Rust's `f64` used by the code, without any law.
Level 1: `Fl R`, IEEE-style values over an ordered field with an arbitrary rounding `R`.
Level 2: `Ex K`, the same with exact arithmetic.
-/

set_option linter.unusedSectionVars false

namespace Pace

/-- The operations of Rust's `f64` that the code uses.  No laws are assumed: a theorem stated for every
`[F64 α]` holds for IEEE binary64. -/
class F64 (α : Type) extends Add α, Sub α, Mul α, Div α, Neg α where
  /-- `f64::abs` -/
  abs : α → α
  /-- `f64::sqrt` -/
  sqrt : α → α
  /-- `f64::log10` -/
  log10 : α → α
  /-- `f64::max` -/
  fmax : α → α → α
  /-- `f64::min` -/
  fmin : α → α → α
  /-- `<` -/
  lt : α → α → Bool
  /-- `<=` -/
  le : α → α → Bool
  /-- `==` -/
  feq : α → α → Bool
  /-- float literals, and `n as f64` -/
  ofRat : ℚ → α

/-- A float literal, or `n as f64`. -/
def lit {α : Type} [F64 α] (q : ℚ) : α := F64.ofRat q

/-- `a > b` in Rust is `b < a`. -/
def fgt {α : Type} [F64 α] (a b : α) : Bool := F64.lt b a
/-- `a >= b` in Rust is `b <= a`. -/
def fge {α : Type} [F64 α] (a b : α) : Bool := F64.le b a

/-- `x.powi(2)` / `x.powf(2.0)`: modelled as `x * x` (what LLVM emits for a constant exponent 2). -/
def sq {α : Type} [F64 α] (x : α) : α := x * x

/-- `iter().sum::<f64>()`: left fold of `+` from `0.0`. -/
def fsum {α : Type} [F64 α] (l : List α) : α := l.foldl (· + ·) (lit 0)

/-- Extended numbers: the value classes of a float. -/
inductive Ext (K : Type) where
  | nan
  | pinf
  | ninf
  | fin (k : K)
  deriving DecidableEq, Repr

/-- A way of rounding exact results to floats.  `rnd` may overflow to an infinity. -/
structure Rounding (K : Type) where
  rnd : K → Ext K
  /-- rounded square root of a non-negative number -/
  sqrtR : K → Ext K
  /-- rounded decimal logarithm of a positive number -/
  log10R : K → Ext K

/-- Floats over `K` with rounding `R`. -/
def Fl {K : Type} (_R : Rounding K) : Type := Ext K

instance {K : Type} [DecidableEq K] (R : Rounding K) : DecidableEq (Fl R) :=
  inferInstanceAs (DecidableEq (Ext K))

/-- A float given by its value class. -/
def Fl.of {K : Type} (R : Rounding K) (e : Ext K) : Fl R := e

namespace Ext
variable {K : Type}

/-- order on non-NaN values; false when a NaN is involved -/
def le [LE K] [DecidableLE K] : Ext K → Ext K → Bool
  | nan, _ => false
  | _, nan => false
  | ninf, _ => true
  | _, pinf => true
  | fin a, fin b => decide (a ≤ b)
  | _, _ => false

def feq [DecidableEq K] : Ext K → Ext K → Bool
  | nan, _ => false
  | _, nan => false
  | a, b => decide (a = b)

def lt [LT K] [DecidableLT K] : Ext K → Ext K → Bool
  | nan, _ => false
  | _, nan => false
  | ninf, ninf => false
  | ninf, _ => true
  | pinf, _ => false
  | fin _, pinf => true
  | fin a, fin b => decide (a < b)
  | fin _, ninf => false

def neg [Neg K] : Ext K → Ext K
  | nan => nan
  | pinf => ninf
  | ninf => pinf
  | fin k => fin (-k)

end Ext

section inst
variable {K : Type} [Field K] [LinearOrder K]

namespace Fl
variable (R : Rounding K)

def add : Ext K → Ext K → Ext K
  | .nan, _ => .nan
  | _, .nan => .nan
  | .pinf, .ninf => .nan
  | .ninf, .pinf => .nan
  | .pinf, _ => .pinf
  | _, .pinf => .pinf
  | .ninf, _ => .ninf
  | _, .ninf => .ninf
  | .fin a, .fin b => R.rnd (a + b)

/-- infinity with the sign of a field element; NaN for 0 (used for `inf * x`, and `x / 0`) -/
def signInf (k : K) : Ext K := if 0 < k then .pinf else if k < 0 then .ninf else .nan

def mul : Ext K → Ext K → Ext K
  | .nan, _ => .nan
  | _, .nan => .nan
  | .pinf, .pinf => .pinf
  | .pinf, .ninf => .ninf
  | .ninf, .pinf => .ninf
  | .ninf, .ninf => .pinf
  | .pinf, .fin b => signInf b
  | .ninf, .fin b => (signInf b).neg
  | .fin a, .pinf => signInf a
  | .fin a, .ninf => (signInf a).neg
  | .fin a, .fin b => R.rnd (a * b)

/-- Division.  A zero divisor counts as `+0` (the sign of zero is not modelled). -/
def div : Ext K → Ext K → Ext K
  | .nan, _ => .nan
  | _, .nan => .nan
  | .fin a, .fin b => if b = 0 then signInf a else R.rnd (a / b)
  | .fin _, _ => .fin 0
  | .pinf, .fin b => if b < 0 then .ninf else .pinf
  | .ninf, .fin b => if b < 0 then .pinf else .ninf
  | _, _ => .nan

def abs : Ext K → Ext K
  | .nan => .nan
  | .pinf => .pinf
  | .ninf => .pinf
  | .fin k => .fin |k|

def sqrt : Ext K → Ext K
  | .nan => .nan
  | .pinf => .pinf
  | .ninf => .nan
  | .fin k => if k < 0 then .nan else R.sqrtR k

def log10 : Ext K → Ext K
  | .nan => .nan
  | .pinf => .pinf
  | .ninf => .nan
  | .fin k => if k < 0 then .nan else if k = 0 then .ninf else R.log10R k

/-- `f64::max`: a NaN operand is ignored. -/
def fmax (a b : Ext K) : Ext K :=
  match a, b with
  | .nan, b => b
  | a, .nan => a
  | a, b => if a.le b then b else a

/-- `f64::min`: a NaN operand is ignored. -/
def fmin (a b : Ext K) : Ext K :=
  match a, b with
  | .nan, b => b
  | a, .nan => a
  | a, b => if a.le b then a else b

end Fl

instance Fl.instF64 (R : Rounding K) : F64 (Fl R) where
  add := Fl.add R
  sub a b := Fl.add R a (Ext.neg b)
  mul := Fl.mul R
  div := Fl.div R
  neg := Ext.neg
  abs := Fl.abs
  sqrt := Fl.sqrt R
  log10 := Fl.log10 R
  fmax := Fl.fmax
  fmin := Fl.fmin
  lt := Ext.lt
  le := Ext.le
  feq := Ext.feq
  ofRat q := R.rnd (q : K)

end inst

/-- Square root and logarithm on a field, without laws. -/
class RootOps (K : Type) where
  sqrt : K → K
  log10 : K → K

/-- Exact arithmetic: no rounding, no overflow. -/
def Rounding.exact (K : Type) [RootOps K] : Rounding K where
  rnd := .fin
  sqrtR k := .fin (RootOps.sqrt k)
  log10R k := .fin (RootOps.log10 k)

/-- Level 2 numbers. -/
abbrev Ex (K : Type) [RootOps K] := Fl (Rounding.exact K)

/-- A finite level 2 number. -/
def fin {K : Type} [RootOps K] (k : K) : Ex K := Ext.fin k

section exact
variable {K : Type} [Field K] [LinearOrder K] [RootOps K]

@[simp] theorem fin_inj {a b : K} : (fin a : Ex K) = fin b ↔ a = b := by
  constructor
  · intro h; exact Ext.fin.inj h
  · rintro rfl; rfl
@[simp] theorem fin_add (a b : K) : (fin a + fin b : Ex K) = fin (a + b) := rfl
@[simp] theorem fin_sub (a b : K) : (fin a - fin b : Ex K) = fin (a - b) := by
  show Ext.fin (a + -b) = Ext.fin (a - b); rw [sub_eq_add_neg]
@[simp] theorem fin_mul (a b : K) : (fin a * fin b : Ex K) = fin (a * b) := rfl
@[simp] theorem fin_neg (a : K) : (-fin a : Ex K) = fin (-a) := rfl
theorem fin_div (a b : K) (h : b ≠ 0) : (fin a / fin b : Ex K) = fin (a / b) := by
  exact (if_neg h : (if b = 0 then Fl.signInf a else Ext.fin (a / b)) = Ext.fin (a / b))
theorem fin_div_zero (a : K) : (fin a / fin 0 : Ex K) = Fl.signInf a := by
  exact (if_pos rfl : (if (0 : K) = 0 then Fl.signInf a else Ext.fin (a / 0)) = Fl.signInf a)
@[simp] theorem fin_abs (a : K) : F64.abs (fin a : Ex K) = fin |a| := rfl
@[simp] theorem fin_lit (q : ℚ) : (lit q : Ex K) = fin (q : K) := rfl
@[simp] theorem fin_lt (a b : K) : F64.lt (fin a : Ex K) (fin b) = decide (a < b) := rfl
@[simp] theorem fin_le (a b : K) : F64.le (fin a : Ex K) (fin b) = decide (a ≤ b) := rfl
@[simp] theorem fin_fgt (a b : K) : fgt (fin a : Ex K) (fin b) = decide (b < a) := rfl
@[simp] theorem fin_fge (a b : K) : fge (fin a : Ex K) (fin b) = decide (b ≤ a) := rfl
@[simp] theorem fin_feq (a b : K) : F64.feq (fin a : Ex K) (fin b) = decide (a = b) := by
  show decide (Ext.fin a = Ext.fin b) = _; simp
@[simp] theorem fin_fmax (a b : K) : F64.fmax (fin a : Ex K) (fin b) = fin (max a b) := by
  show (if decide (a ≤ b) = true then Ext.fin b else Ext.fin a) = Ext.fin (max a b)
  by_cases h : a ≤ b
  · simp [h]
  · simp [h, le_of_not_ge h]
@[simp] theorem fin_fmin (a b : K) : F64.fmin (fin a : Ex K) (fin b) = fin (min a b) := by
  show (if decide (a ≤ b) = true then Ext.fin a else Ext.fin b) = Ext.fin (min a b)
  by_cases h : a ≤ b
  · simp [h]
  · simp [h, le_of_not_ge h]
theorem fin_sqrt (a : K) (h : 0 ≤ a) : F64.sqrt (fin a : Ex K) = fin (RootOps.sqrt a) := by
  exact (if_neg (not_lt.mpr h) :
    (if a < 0 then Ext.nan else Ext.fin (RootOps.sqrt a)) = Ext.fin (RootOps.sqrt a))
theorem fin_log10 (a : K) (h : 0 < a) : F64.log10 (fin a : Ex K) = fin (RootOps.log10 a) := by
  exact (by rw [if_neg (not_lt.mpr h.le), if_neg h.ne'] :
    (if a < 0 then Ext.nan else if a = 0 then Ext.ninf else Ext.fin (RootOps.log10 a))
      = Ext.fin (RootOps.log10 a))
@[simp] theorem fin_sq (a : K) : sq (fin a : Ex K) = fin (a * a) := rfl

theorem fsum_fin_aux (l : List K) (s : K) :
    (l.map (fin : K → Ex K)).foldl (· + ·) (fin s) = fin (s + l.sum) := by
  induction l generalizing s with
  | nil => simp
  | cons a l ih => simp [ih, add_assoc]

@[simp] theorem fsum_fin (l : List K) : fsum (l.map (fin : K → Ex K)) = fin l.sum := by
  rw [fsum, fin_lit, fsum_fin_aux]; simp

end exact

/-- Laws of square root used at level 2. -/
class LawfulRoots (K : Type) [Field K] [LinearOrder K] extends RootOps K where
  sqrt_nonneg : ∀ x : K, 0 ≤ sqrt x
  sqrt_mul_self : ∀ x : K, 0 ≤ x → sqrt x * sqrt x = x

/-- A computable square root on ℚ, exact on squares of rationals; `log10` is a dummy.  Used only to evaluate
concrete witnesses; no law is claimed of it. -/
instance : RootOps ℚ where
  sqrt q := mkRat (Int.ofNat (Nat.sqrt q.num.toNat)) (Nat.sqrt q.den)
  log10 _ := 0

/-- Laws of a rounding under which the range theorems (level 1) are proved: IEEE roundings of binary64
satisfy them. -/
structure Rounding.Lawful {K : Type} [Field K] [LinearOrder K] (R : Rounding K) : Prop where
  ne_nan : ∀ k, R.rnd k ≠ .nan
  mono : ∀ a b, a ≤ b → (R.rnd a).le (R.rnd b) = true
  odd : ∀ a, R.rnd (-a) = (R.rnd a).neg
  idem : ∀ a b, R.rnd a = .fin b → R.rnd b = .fin b
  int : ∀ n : ℤ, |n| ≤ 2 ^ 53 → R.rnd n = .fin n
  sqrt_nonneg : ∀ k, 0 ≤ k → (Ext.fin 0).le (R.sqrtR k) = true

end Pace
