import Verif.Float.Binary64
import Verif.Lemmas.NonNeg

/-!
# Signed zeros

`Fl R` has only one zero.  `Sf R` has two, with the sign rules of IEEE 754: `-0.0` compares equal to `0.0`, but dividing by it
flips the sign of the infinity.  `Valued R α` says that a type of floats `α` agrees with `Fl R` once the sign of zero is
forgotten, except that a quotient by zero may have either sign.  `Sf.valued` proves this of `Sf R`; theorems stated for every
`Valued R α` therefore hold of IEEE floats with signed zeros.
-/

set_option linter.unusedSectionVars false

namespace Pace
variable {K : Type} [Field K] [LinearOrder K]

/-- Floats with a sign of zero: `negZero` counts only if the value is 0. -/
structure Sf (R : Rounding K) where
  val : Fl R
  negZero : Bool

namespace Sf
variable (R : Rounding K)

/-- The sign bit (of a NaN: taken as 0, it is never looked at). -/
def sign (a : Sf R) : Bool :=
  match (a.val : Ext K) with
  | .nan => false
  | .pinf => false
  | .ninf => true
  | .fin k => if k = 0 then a.negZero else decide (k < 0)

/-- Addition.  An exact sum 0 is `-0` only if both operands are negative zeros; a sum that underflows keeps its sign. -/
def add (a b : Sf R) : Sf R :=
  ⟨a.val + b.val, match (a.val : Ext K), (b.val : Ext K) with
    | .fin x, .fin y => if x + y = 0 then sign R a && sign R b else decide (x + y < 0)
    | _, _ => false⟩

def neg (a : Sf R) : Sf R := ⟨-a.val, !a.negZero⟩

/-- Product and quotient have the exclusive or of the signs. -/
def mul (a b : Sf R) : Sf R := ⟨a.val * b.val, sign R a != sign R b⟩

/-- Division: `Fl.div` divides by `+0`; a divisor `-0` flips the sign of the (infinite) result. -/
def div (a b : Sf R) : Sf R :=
  ⟨if b.val = Fl.of R (.fin 0) ∧ b.negZero = true then -(a.val / b.val) else a.val / b.val, sign R a != sign R b⟩

/-- Rust leaves open which zero `max(-0.0, 0.0)` returns; here the second operand. -/
def fmax (a b : Sf R) : Sf R := ⟨F64.fmax a.val b.val, if b.val = Fl.of R (.fin 0) then b.negZero else a.negZero⟩
def fmin (a b : Sf R) : Sf R := ⟨F64.fmin a.val b.val, if b.val = Fl.of R (.fin 0) then b.negZero else a.negZero⟩

instance : F64 (Sf R) where
  add := Sf.add R
  sub a b := Sf.add R a (Sf.neg R b)
  mul := Sf.mul R
  div := Sf.div R
  neg := Sf.neg R
  abs a := ⟨F64.abs a.val, false⟩
  sqrt a := ⟨F64.sqrt a.val, a.negZero⟩
  log10 a := ⟨F64.log10 a.val, false⟩
  fmax := Sf.fmax R
  fmin := Sf.fmin R
  lt a b := F64.lt a.val b.val
  le a b := F64.le a.val b.val
  feq a b := F64.feq a.val b.val
  ofRat q := ⟨F64.ofRat q, decide (q < 0)⟩

end Sf

/-- The floats `α` have the values `Fl R`, up to the sign of zero: forgetting it commutes with every operation, except that a
quotient by zero may come out negated. -/
structure Valued (R : Rounding K) (α : Type) [F64 α] where
  val : α → Fl R
  add : ∀ a b, val (a + b) = val a + val b
  sub : ∀ a b, val (a - b) = val a - val b
  mul : ∀ a b, val (a * b) = val a * val b
  neg : ∀ a, val (-a) = -val a
  div : ∀ a b, val b ≠ Fl.of R (.fin 0) → val (a / b) = val a / val b
  div_zero : ∀ a b, val b = Fl.of R (.fin 0) → val (a / b) = val a / val b ∨ val (a / b) = -(val a / val b)
  abs : ∀ a, val (F64.abs a) = F64.abs (val a)
  sqrt : ∀ a, val (F64.sqrt a) = F64.sqrt (val a)
  log10 : ∀ a, val (F64.log10 a) = F64.log10 (val a)
  fmax : ∀ a b, val (F64.fmax a b) = F64.fmax (val a) (val b)
  fmin : ∀ a b, val (F64.fmin a b) = F64.fmin (val a) (val b)
  lt : ∀ a b, F64.lt a b = F64.lt (val a) (val b)
  le : ∀ a b, F64.le a b = F64.le (val a) (val b)
  feq : ∀ a b, F64.feq a b = F64.feq (val a) (val b)
  lit : ∀ q, val (lit q) = lit q

/-- IEEE floats with signed zeros. -/
def Sf.valued (R : Rounding K) : Valued R (Sf R) where
  val := Sf.val
  add _ _ := rfl
  sub _ _ := rfl
  mul _ _ := rfl
  neg _ := rfl
  div a b h := by
    exact (if_neg (fun hc => h hc.1) :
      (if b.val = Fl.of R (.fin 0) ∧ b.negZero = true then -(a.val / b.val) else a.val / b.val) = a.val / b.val)
  div_zero a b _ := by
    show (if b.val = Fl.of R (.fin 0) ∧ b.negZero = true then -(a.val / b.val) else a.val / b.val) = _ ∨
      (if b.val = Fl.of R (.fin 0) ∧ b.negZero = true then -(a.val / b.val) else a.val / b.val) = _
    split
    · exact Or.inr rfl
    · exact Or.inl rfl
  abs _ := rfl
  sqrt _ := rfl
  log10 _ := rfl
  fmax _ _ := rfl
  fmin _ _ := rfl
  lt _ _ := rfl
  le _ _ := rfl
  feq _ _ := rfl
  lit _ := rfl

/-- The floats with one zero. -/
def Valued.unsigned (R : Rounding K) : Valued R (Fl R) where
  val := id
  add _ _ := rfl
  sub _ _ := rfl
  mul _ _ := rfl
  neg _ := rfl
  div _ _ _ := rfl
  div_zero _ _ _ := Or.inl rfl
  abs _ := rfl
  sqrt _ := rfl
  log10 _ := rfl
  fmax _ _ := rfl
  fmin _ _ := rfl
  lt _ _ := rfl
  le _ _ := rfl
  feq _ _ := rfl
  lit _ := rfl

/-- `1 / -0.0` is minus infinity, although `-0.0 == 0.0`; `0.0 + -0.0` is `0.0`, `-0.0 + -0.0` is `-0.0`. -/
example :
    let z : Sf (Rounding.binary64 ℚ) := -(lit 0)
    (lit 1 / z).val = Fl.of _ .ninf ∧ F64.feq z (lit 0) = true ∧ (lit 0 + z).negZero = false ∧ (z + z).negZero = true := by
  decide +kernel

end Pace
