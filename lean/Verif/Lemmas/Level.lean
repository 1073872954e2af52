import Verif.Spec.Level
import Verif.Lemmas.Schedule
import Verif.Lemmas.UnitsContent
import Verif.Lemmas.SeriesCongr
import Verif.Lemmas.TaExact2

/-!
# Adding the same amount to all prices: the arithmetic and the averages
-/

set_option linter.unusedSectionVars false
set_option linter.unusedSimpArgs false

namespace Pace
open Spec
variable {K : Type} [Field K] [LinearOrder K] [IsStrictOrderedRing K]

/-! ## Arithmetic -/

def Ext.shift (k : K) : Ext K → Ext K
  | .fin a => .fin (a + k)
  | e => e

section
variable {K : Type} [Field K] [LinearOrder K] [IsStrictOrderedRing K] [RootOps K]
theorem shift_fin (k a : K) : (Ext.fin a).shift k = .fin (a + k) := rfl
theorem shift_pinf (k : K) : (Ext.pinf : Ext K).shift k = .pinf := rfl
theorem shift_ninf (k : K) : (Ext.ninf : Ext K).shift k = .ninf := rfl
theorem shift_nan (k : K) : (Ext.nan : Ext K).shift k = .nan := rfl
theorem neg_fin (a : K) : (Ext.fin a).neg = .fin (-a) := rfl
theorem neg_pinf : (Ext.pinf : Ext K).neg = .ninf := rfl
theorem neg_ninf : (Ext.ninf : Ext K).neg = .pinf := rfl
theorem neg_nan : (Ext.nan : Ext K).neg = .nan := rfl

theorem raise_eq (k : K) (a : Ex K) : raise k a = Ext.shift k a := by
  show Fl.add _ a (Ext.fin k) = Ext.shift k a
  cases a <;> rfl

theorem shift_zero (a : Ext K) : a.shift 0 = a := by cases a <;> simp [Ext.shift]
theorem shift_neg (c : K) (a : Ext K) : (a.shift c).neg = a.neg.shift (-c) := by
  cases a <;> simp only [shift_fin, shift_pinf, shift_ninf, shift_nan, neg_fin, neg_pinf, neg_ninf, neg_nan, neg_add]
theorem shift_add (c d : K) (a b : Ext K) :
    Fl.add (Rounding.exact K) (a.shift c) (b.shift d) = (Fl.add (Rounding.exact K) a b).shift (c + d) := by
  cases a <;> cases b <;> simp only [shift_fin, shift_pinf, shift_ninf, shift_nan, Fl.add, Rounding.exact, add_add_add_comm]
theorem signInf_shift (c a : K) : (Fl.signInf a).shift c = Fl.signInf a := by
  unfold Fl.signInf; split
  · rfl
  · split <;> rfl
theorem shift_mul (c w : K) (a : Ext K) :
    Fl.mul (Rounding.exact K) (a.shift c) (.fin w) = (Fl.mul (Rounding.exact K) a (.fin w)).shift (c * w) := by
  cases a <;> simp only [shift_fin, shift_pinf, shift_ninf, shift_nan, Fl.mul, Rounding.exact, add_mul, signInf_shift]
  rw [← neg_neg (c * w), ← shift_neg, signInf_shift]
theorem shift_div (c : K) {w : K} (hw : w ≠ 0) (a : Ext K) :
    Fl.div (Rounding.exact K) (a.shift c) (.fin w) = (Fl.div (Rounding.exact K) a (.fin w)).shift (c / w) := by
  cases a <;> simp only [shift_fin, shift_pinf, shift_ninf, shift_nan, Fl.div, Rounding.exact, add_div, if_neg hw]
  · split <;> rfl
  · split <;> rfl

theorem raise_zero (a : Ex K) : raise 0 a = a := by rw [raise_eq]; exact shift_zero a
theorem raise_add (c d : K) (a b : Ex K) : raise c a + raise d b = raise (c + d) (a + b) := by
  simp only [raise_eq]; exact shift_add c d a b
theorem raise_neg (c : K) (a : Ex K) : -(raise c a) = raise (-c) (-a) := by simp only [raise_eq]; exact shift_neg c a
theorem sub_neg' (a b : Ex K) : a - b = a + -b := rfl
theorem raise_sub (c d : K) (a b : Ex K) : raise c a - raise d b = raise (c - d) (a - b) := by
  rw [sub_neg', raise_neg, raise_add, sub_neg', sub_eq_add_neg]
/-- The difference of two prices does not change. -/
theorem raise_diff (c : K) (a b : Ex K) : raise c a - raise c b = a - b := by rw [raise_sub, sub_self, raise_zero]
theorem raise_mul (c w : K) (a : Ex K) : raise c a * fin w = raise (c * w) (a * fin w) := by
  simp only [raise_eq]; exact shift_mul c w a
theorem ex_mul_comm (a b : Ex K) : a * b = b * a := fl_mul_comm a b
theorem mul_raise (c w : K) (a : Ex K) : fin w * raise c a = raise (w * c) (fin w * a) := by
  rw [ex_mul_comm, raise_mul, ex_mul_comm, mul_comm c w]
theorem raise_div (c : K) {w : K} (hw : w ≠ 0) (a : Ex K) : raise c a / fin w = raise (c / w) (a / fin w) := by
  simp only [raise_eq]; exact shift_div c hw a
theorem raise_add_right (c : K) (a b : Ex K) : raise c a + b = raise c (a + b) := by
  have := raise_add c 0 a b
  rwa [raise_zero, add_zero] at this
theorem raise_sub_right (c : K) (a b : Ex K) : raise c a - b = raise c (a - b) := by
  have := raise_sub c 0 a b
  rwa [raise_zero, sub_zero] at this
theorem raise_lt (c : K) (a b : Ex K) : F64.lt (raise c a) (raise c b) = F64.lt a b := by
  simp only [raise_eq]
  show Ext.lt (Ext.shift c a) (Ext.shift c b) = Ext.lt a b
  cases a <;> cases b <;> simp [Ext.lt, Ext.shift]
theorem raise_le (c : K) (a b : Ex K) : F64.le (raise c a) (raise c b) = F64.le a b := by
  simp only [raise_eq]
  show Ext.le (Ext.shift c a) (Ext.shift c b) = Ext.le a b
  cases a <;> cases b <;> simp [Ext.le, Ext.shift]
theorem raise_feq (c : K) (a b : Ex K) : F64.feq (raise c a) (raise c b) = F64.feq a b := by
  simp only [raise_eq]
  show Ext.feq (Ext.shift c a) (Ext.shift c b) = Ext.feq a b
  cases a <;> cases b <;> simp [Ext.feq, Ext.shift]
theorem raise_fmax (c : K) (a b : Ex K) : F64.fmax (raise c a) (raise c b) = raise c (F64.fmax a b) := by
  simp only [raise_eq]
  show Fl.fmax (Ext.shift c a) (Ext.shift c b) = Ext.shift c (Fl.fmax a b)
  cases a <;> cases b <;> simp [Fl.fmax, Ext.shift, Ext.le]
  split <;> rfl
theorem raise_fmin (c : K) (a b : Ex K) : F64.fmin (raise c a) (raise c b) = raise c (F64.fmin a b) := by
  simp only [raise_eq]
  show Fl.fmin (Ext.shift c a) (Ext.shift c b) = Ext.shift c (Fl.fmin a b)
  cases a <;> cases b <;> simp [Fl.fmin, Ext.shift, Ext.le]
  split <;> rfl

/-- Adding the same amount keeps the order. -/
def raiseI (k : K) : Increasing (Ex K) := ⟨raise k, raise_lt k, raise_le k⟩

end

/-! ## Two runs side by side -/

section
variable {α S I O : Type}

/-- Why a component commutes with a conversion: related states stay related. -/
structure Lift (p v : α → α) (input : I → I) (output : O → O) (next : Ctx α → S → I → Res (O × S)) (new : Res S) : Type where
  Rel : Nat → S → S → Prop
  follows : ∀ (c : Ctx α) (s s' : S) (x : I), Rel c.index s s' →
    Alike (fun q q' => q'.1 = output q.1 ∧ Rel (c.index + 1) q.2 q'.2) (next c s x) (next (c.rescale p v) s' (input x))
  init : ∀ s, new = .ok s → Rel 0 s s

theorem Lift.alike {p v : α → α} {input : I → I} {output : O → O} {next : Ctx α → S → I → Res (O × S)} {new : Res S}
    (L : Lift p v input output next new) (d : DataProvider α) (x : Nat → I) : ∀ n t s s', L.Rel t s s' →
      Alike (fun q q' => q'.1 = q.1.map output) (runFrom (fun t => next ⟨d, t⟩) x t n s)
        (runFrom (fun t => next ⟨d.rescale p v, t⟩) (fun t => input (x t)) t n s') := by
  intro n
  induction n with
  | zero => intro t s s' _; exact rfl
  | succ n ih =>
    intro t s s' h
    simp only [runFrom]
    refine (L.follows ⟨d, t⟩ s s' (x t) h).bind ?_
    rintro ⟨o, s1⟩ ⟨o', s1'⟩ ⟨h1, h2⟩
    refine (ih (t + 1) s1 s1' h2).bind ?_
    rintro ⟨os, s2⟩ ⟨os', s2'⟩ h3
    have h1 : o' = output o := h1
    have h3 : os' = os.map output := h3
    show o' :: os' = (o :: os).map output
    rw [h1, h3, List.map_cons]

theorem Lift.commutes {p v : α → α} {input : I → I} {output : O → O} {next : Ctx α → S → I → Res (O × S)} {new : Res S}
    (L : Lift p v input output next new) : Commutes p v input output next new := by
  intro d x N
  cases hn : new with
  | error e => rfl
  | ok s0 =>
    have h := L.alike d x N 0 s0 s0 (L.init s0 hn)
    simp only [outputs, run, Res.ok_bind]
    cases e1 : runFrom (fun t => next ⟨d, t⟩) x 0 N s0 with
    | error e =>
      cases e2 : runFrom (fun t => next ⟨d.rescale p v, t⟩) (fun t => input (x t)) 0 N s0 with
      | error e' => rw [e1, e2] at h; exact congrArg Except.error (Eq.symm h)
      | ok q' => rw [e1, e2] at h; exact h.elim
    | ok q =>
      cases e2 : runFrom (fun t => next ⟨d.rescale p v, t⟩) (fun t => input (x t)) 0 N s0 with
      | error e' => rw [e1, e2] at h; exact h.elim
      | ok q' => rw [e1, e2] at h; exact congrArg Except.ok h

theorem Lift.bars {p v : α → α} {input : Unit → Unit} {output : O → O} {next : Ctx α → S → Res (O × S)} {new : Res S}
    (L : Lift p v input output (barsOnly next) new) : BarsCommute p v output next new := by
  intro d N
  exact L.commutes d unit N

/-- A component whose states correspond one to one. -/
def Lift.of {p v : α → α} {input : I → I} {output : O → O} {next : Ctx α → S → I → Res (O × S)} {new : Res S} (f : S → S)
    (h0 : new.map f = new) (h : ∀ (c : Ctx α) s x, next (c.rescale p v) (f s) (input x) = (next c s x).map fun q => (output q.1, f q.2)) :
    Lift p v input output next new where
  Rel _ s s' := s' = f s
  follows c s s' x e := by
    rw [e, h]
    cases next c s x with
    | error e => exact rfl
    | ok q => exact ⟨rfl, rfl⟩
  init s hs := by
    rw [hs] at h0
    exact (Except.ok.inj h0).symm

/-- A component that reads nothing of the bars, fed the same inputs. -/
def Lift.same {p v : α → α} {next : Ctx α → S → I → Res (O × S)} {new : Res S}
    (h : ∀ (c : Ctx α) s x, next (c.rescale p v) s x = next c s x) : Lift p v id id next new :=
  .of id (by cases new <;> rfl) fun c s x => by
    rw [show next (c.rescale p v) (id s) (id x) = next c s x from h c s x]
    cases next c s x <;> rfl

end
end Pace
