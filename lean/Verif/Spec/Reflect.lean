import Verif.Spec.Mirror

/-!
# Specification vocabulary: the market seen upside down

`DataProvider.mirror` (Spec/Mirror.lean) negates every price, so that the high becomes the low.
-/

namespace Pace

/-- Arithmetic that treats the two signs alike: rounding is symmetric about zero, and zero has no sign. -/
structure SignSymmetric (α : Type) [F64 α] : Prop where
  neg_neg : ∀ a : α, - -a = a
  neg_add : ∀ a b : α, -(a + b) = -a + -b
  neg_sub : ∀ a b : α, -(a - b) = -a - -b
  sub_rev : ∀ a b : α, -a - -b = b - a
  add_comm : ∀ a b : α, a + b = b + a
  add_neg : ∀ a b : α, a + -b = a - b
  feq_neg : ∀ a b : α, F64.feq (-a) (-b) = F64.feq a b
  feq_comm : ∀ a b : α, F64.feq a b = F64.feq b a
  neg_zero : -(lit 0 : α) = lit 0
  neg_mul : ∀ a b : α, -a * b = -(a * b)
  mul_neg : ∀ a b : α, a * -b = -(a * b)
  neg_div : ∀ a b : α, -a / b = -(a / b)
  /-- Division by a number that is not zero. -/
  div_neg : ∀ a b : α, F64.feq b (lit 0) = false → a / -b = -(a / b)
  abs_neg : ∀ a : α, F64.abs (-a) = F64.abs a
  fmax_neg : ∀ a b : α, F64.fmax (-a) (-b) = -F64.fmin a b
  fmin_neg : ∀ a b : α, F64.fmin (-a) (-b) = -F64.fmax a b
  fmax_right_comm : ∀ a b c : α, F64.fmax (F64.fmax a b) c = F64.fmax (F64.fmax a c) b
  lt_neg : ∀ a b : α, F64.lt (-a) (-b) = F64.lt b a
  le_neg : ∀ a b : α, F64.le (-a) (-b) = F64.le b a
  abs_fmax : ∀ a : α, F64.abs (F64.fmax (lit 0) a) = F64.fmax (lit 0) a
  lt_trans : ∀ a b c : α, F64.lt a b = true → F64.lt b c = true → F64.lt a c = true
  le_trans : ∀ a b c : α, F64.le a b = true → F64.le b c = true → F64.le a c = true
  not_le : ∀ a b : α, F64.lt a b = true → F64.le b a = false
  lt_asymm : ∀ a b : α, F64.lt a b = true → F64.lt b a = false
  one_pos : F64.le (lit 1 : α) (lit 0) = false

/-- The source that reads the mirrored bars as `k` reads the original ones: high and low change places. -/
def SrcKind.mirror : SrcKind → SrcKind
  | .high => .low
  | .low => .high
  | k => k

namespace Spec

/-- Whenever `next` runs on the bars `d` with inputs `x` and returns `y`, `next'` runs on the mirrored bars with the inputs converted by
`input` and returns `y` converted by `output`. -/
def Mirrors {α S S' I I' O O' : Type} [Neg α] (input : I → I') (output : O → O') (next : Ctx α → S → I → Res (O × S)) (new : Res S)
    (next' : Ctx α → S' → I' → Res (O' × S')) (new' : Res S') : Prop :=
  ∀ (d : DataProvider α) (x : Nat → I) (N : Nat) (y : Nat → O),
    Runs (fun t => next ⟨d, t⟩) new x N y → Runs (fun t => next' ⟨d.mirror, t⟩) new' (fun t => input (x t)) N (fun t => output (y t))

/-- The same for components that read nothing but the bars. -/
def BarsMirror {α S S' O O' : Type} [Neg α] (output : O → O') (next : Ctx α → S → Res (O × S)) (new : Res S)
    (next' : Ctx α → S' → Res (O' × S')) (new' : Res S') : Prop :=
  ∀ (d : DataProvider α) (N : Nat) (y : Nat → O),
    Runs (noInput fun t => next ⟨d, t⟩) new unit N y → Runs (noInput fun t => next' ⟨d.mirror, t⟩) new' unit N (fun t => output (y t))

end Spec

section
variable {K : Type} [Field K] [LinearOrder K] [IsStrictOrderedRing K] {R : Rounding K}

private theorem neg_fin (a : K) : (Ext.fin a).neg = .fin (-a) := rfl
private theorem neg_pinf : (Ext.pinf : Ext K).neg = .ninf := rfl
private theorem neg_ninf : (Ext.ninf : Ext K).neg = .pinf := rfl
private theorem neg_nan : (Ext.nan : Ext K).neg = .nan := rfl
private theorem ext_neg_neg (a : Ext K) : a.neg.neg = a := by
  cases a <;> simp only [neg_fin, neg_pinf, neg_ninf, neg_nan, _root_.neg_neg]
private theorem signInf_neg (a : K) : Fl.signInf (-a) = (Fl.signInf a).neg := by
  rcases lt_trichotomy a 0 with h | h | h
  · simp [Fl.signInf, h, h.not_gt, Ext.neg]
  · simp [Fl.signInf, h, Ext.neg]
  · simp [Fl.signInf, h, h.not_gt, Ext.neg]

private theorem fl_neg_add (L : R.Lawful) (a b : Ext K) : (Fl.add R a b).neg = Fl.add R a.neg b.neg := by
  cases a <;> cases b <;> simp only [Fl.add, neg_fin, neg_pinf, neg_ninf, neg_nan]
  rw [← L.odd, _root_.neg_add]
private theorem fl_add_comm (a b : Ext K) : Fl.add R a b = Fl.add R b a := by
  cases a <;> cases b <;> simp only [Fl.add, _root_.add_comm]
private theorem fl_neg_mul (L : R.Lawful) (a b : Ext K) : Fl.mul R a.neg b = (Fl.mul R a b).neg := by
  cases a <;> cases b <;> simp only [Fl.mul, neg_fin, neg_pinf, neg_ninf, neg_nan, signInf_neg, ext_neg_neg, _root_.neg_mul, L.odd]
private theorem fl_sub_rev (a b : Ext K) : Fl.add R a.neg b.neg.neg = Fl.add R b a.neg := by rw [ext_neg_neg, fl_add_comm]
private theorem fl_mul_neg (L : R.Lawful) (a b : Ext K) : Fl.mul R a b.neg = (Fl.mul R a b).neg := by
  rw [fl_mul_comm, fl_neg_mul L, fl_mul_comm]
private theorem fl_neg_div (L : R.Lawful) (a b : Ext K) : Fl.div R a.neg b = (Fl.div R a b).neg := by
  cases a <;> cases b <;> simp only [Fl.div, neg_fin, neg_pinf, neg_ninf, neg_nan, _root_.neg_zero]
  · split <;> rfl
  · split <;> rfl
  · split
    · exact signInf_neg _
    · rw [_root_.neg_div, L.odd]
private theorem fl_div_neg (L : R.Lawful) (a b : Ext K) (h : Ext.feq b (.fin 0) = false) : Fl.div R a b.neg = (Fl.div R a b).neg := by
  cases a <;> cases b <;> simp only [Fl.div, neg_fin, neg_pinf, neg_ninf, neg_nan, _root_.neg_zero]
  all_goals
    rename_i x
    have hx : x ≠ 0 := by simpa [Ext.feq] using h
  · rcases lt_or_gt_of_ne hx with h' | h'
    · simp [h', h'.not_gt, Ext.neg]
    · simp [h', h'.not_gt, Ext.neg]
  · rcases lt_or_gt_of_ne hx with h' | h'
    · simp [h', h'.not_gt, Ext.neg]
    · simp [h', h'.not_gt, Ext.neg]
  · simp only [neg_eq_zero, hx, if_false]
    rw [_root_.div_neg, L.odd]
private theorem fl_fmax_neg (a b : Ext K) : Fl.fmax a.neg b.neg = (Fl.fmin a b).neg := by
  cases a <;> cases b <;> simp [Fl.fmax, Fl.fmin, neg_fin, neg_pinf, neg_ninf, neg_nan, Ext.le]
  rename_i a b
  by_cases h : b ≤ a
  · by_cases h' : a ≤ b
    · simp [le_antisymm h h', neg_fin]
    · simp [h, h', neg_fin]
  · simp [h, (not_le.mp h).le, neg_fin]
private theorem fl_fmin_neg (a b : Ext K) : Fl.fmin a.neg b.neg = (Fl.fmax a b).neg := by
  have := fl_fmax_neg a.neg b.neg
  rw [ext_neg_neg, ext_neg_neg] at this
  rw [this, ext_neg_neg]
private theorem fl_fmax_right_comm (a b c : Ext K) : Fl.fmax (Fl.fmax a b) c = Fl.fmax (Fl.fmax a c) b := by
  have key (a b c : K) : max (max a b) c = max (max a c) b := max_right_comm a b c
  have hm (a b : K) : Fl.fmax (.fin a) (.fin b) = .fin (max a b) := by
    simp only [Fl.fmax, Ext.le, decide_eq_true_eq, max_def]; split <;> rfl
  have n1 (x : Ext K) : Fl.fmax .nan x = x := by cases x <;> rfl
  have n2 (x : Ext K) : Fl.fmax x .nan = x := by cases x <;> rfl
  have i0 : Fl.fmax (.ninf : Ext K) .ninf = .ninf := rfl
  have i1 (x : K) : Fl.fmax .ninf (.fin x) = .fin x := rfl
  have i2 (x : K) : Fl.fmax (.fin x) .ninf = .fin x := rfl
  have p1 (x : Ext K) : Fl.fmax .pinf x = .pinf := by cases x <;> rfl
  have p2 (x : Ext K) : Fl.fmax x .pinf = .pinf := by cases x <;> rfl
  cases a <;> cases b <;> cases c <;> simp only [n1, n2, i0, i1, i2, p1, p2, hm, key, max_comm]

private theorem fl_abs_fmax (a : Ext K) : Fl.abs (Fl.fmax (.fin 0) a) = Fl.fmax (.fin 0) a := by
  cases a with
  | fin a =>
    by_cases h : 0 ≤ a
    · have e : Fl.fmax (.fin 0) (.fin a) = .fin a := by simp [Fl.fmax, Ext.le, h]
      rw [e]; simp [Fl.abs, abs_of_nonneg h]
    · have e : Fl.fmax (.fin 0) (.fin a) = .fin 0 := by simp [Fl.fmax, Ext.le, h]
      rw [e]; simp [Fl.abs]
  | _ => simp [Fl.fmax, Fl.abs, Ext.le]

theorem signSymmetric (L : R.Lawful) : SignSymmetric (Fl R) where
  neg_neg a := ext_neg_neg a
  neg_add a b := fl_neg_add L a b
  neg_sub a b := fl_neg_add L a b.neg
  sub_rev a b := fl_sub_rev a b
  add_comm a b := fl_add_comm a b
  add_neg _ _ := rfl
  feq_neg a b := by
    show Ext.feq a.neg b.neg = Ext.feq a b
    cases a <;> cases b <;> simp [Ext.feq, Ext.neg]
  feq_comm a b := by
    show Ext.feq a b = Ext.feq b a
    cases a <;> cases b <;> simp [Ext.feq, eq_comm]
  neg_zero := by
    show (R.rnd ((0 : ℚ) : K)).neg = R.rnd ((0 : ℚ) : K)
    rw [← L.odd, Rat.cast_zero, _root_.neg_zero]
  neg_mul a b := fl_neg_mul L a b
  mul_neg a b := fl_mul_neg L a b
  neg_div a b := fl_neg_div L a b
  div_neg a b h := fl_div_neg L a b (by
    have : (lit 0 : Fl R) = Ext.fin 0 := by
      show R.rnd ((0 : ℚ) : K) = _
      have := L.int 0 (by norm_num)
      simpa using this
    rw [this] at h; exact h)
  abs_neg a := by
    show Fl.abs a.neg = Fl.abs a
    cases a <;> simp [Fl.abs, Ext.neg]
  fmax_neg a b := fl_fmax_neg a b
  fmin_neg a b := fl_fmin_neg a b
  fmax_right_comm a b c := fl_fmax_right_comm a b c
  lt_neg a b := by
    show Ext.lt a.neg b.neg = Ext.lt b a
    cases a <;> cases b <;> simp [Ext.lt, Ext.neg]
  le_neg a b := by
    show Ext.le a.neg b.neg = Ext.le b a
    cases a <;> cases b <;> simp [Ext.le, Ext.neg]
  abs_fmax a := by
    have : (lit 0 : Fl R) = Ext.fin 0 := by
      show R.rnd ((0 : ℚ) : K) = _
      have := L.int 0 (by norm_num)
      simpa using this
    rw [this]
    exact fl_abs_fmax a
  lt_trans a b c := by
    show Ext.lt a b = true → Ext.lt b c = true → Ext.lt a c = true
    cases a <;> cases b <;> cases c <;> simp [Ext.lt]
    exact fun h h' => h.trans h'
  le_trans a b c := by
    show Ext.le a b = true → Ext.le b c = true → Ext.le a c = true
    cases a <;> cases b <;> cases c <;> simp [Ext.le]
    exact fun h h' => h.trans h'
  not_le a b := by
    show Ext.lt a b = true → Ext.le b a = false
    cases a <;> cases b <;> simp [Ext.lt, Ext.le]
  lt_asymm a b := by
    show Ext.lt a b = true → Ext.lt b a = false
    cases a <;> cases b <;> simp [Ext.lt]
    exact fun h => h.le
  one_pos := by
    have e0 : (lit 0 : Fl R) = Ext.fin 0 := by
      show R.rnd ((0 : ℚ) : K) = _
      have := L.int 0 (by norm_num)
      simpa using this
    have e1 : (lit 1 : Fl R) = Ext.fin 1 := by
      show R.rnd ((1 : ℚ) : K) = _
      have := L.int 1 (by norm_num)
      simpa using this
    rw [e0, e1]
    show Ext.le (.fin (1 : K)) (.fin 0) = false
    simp [Ext.le]

end
end Pace
