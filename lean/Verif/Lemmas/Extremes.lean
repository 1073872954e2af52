import Verif.Spec.Metrics

/-! # `f64::min` / `f64::max` folds over floats (any rounding) -/

set_option linter.unusedSectionVars false

namespace Pace
open Spec
variable {K : Type} [Field K] [LinearOrder K] {R : Rounding K}

/-- Not a NaN. -/
def NotNan (v : Fl R) : Prop := v ≠ Fl.of R .nan

theorem fl_le_refl {a : Fl R} (h : NotNan a) : F64.le a a = true := by
  match a, h with
  | .nan, h => exact absurd rfl h
  | .pinf, _ => rfl
  | .ninf, _ => rfl
  | .fin k, _ => exact decide_eq_true le_rfl

theorem fl_le_trans {a b c : Fl R} (h1 : F64.le a b = true) (h2 : F64.le b c = true) : F64.le a c = true := by
  match a, b, c with
  | .nan, _, _ => exact absurd h1 (by simp [F64.le, Ext.le])
  | .pinf, .nan, _ => exact absurd h1 (by simp [F64.le, Ext.le])
  | .ninf, .nan, _ => exact absurd h1 (by simp [F64.le, Ext.le])
  | .fin _, .nan, _ => exact absurd h1 (by simp [F64.le, Ext.le])
  | .pinf, .ninf, _ => exact absurd h1 (by simp [F64.le, Ext.le])
  | .fin _, .ninf, _ => exact absurd h1 (by simp [F64.le, Ext.le])
  | .pinf, .fin _, _ => exact absurd h1 (by simp [F64.le, Ext.le])
  | _, .pinf, .nan => exact absurd h2 (by simp [F64.le, Ext.le])
  | _, .pinf, .ninf => exact absurd h2 (by simp [F64.le, Ext.le])
  | _, .pinf, .fin _ => exact absurd h2 (by simp [F64.le, Ext.le])
  | .pinf, .pinf, .pinf => rfl
  | .ninf, .pinf, .pinf => rfl
  | .fin _, .pinf, .pinf => rfl
  | .ninf, .ninf, .nan => exact absurd h2 (by simp [F64.le, Ext.le])
  | .ninf, .fin _, .nan => exact absurd h2 (by simp [F64.le, Ext.le])
  | .ninf, _, .pinf => rfl
  | .ninf, _, .ninf => rfl
  | .ninf, _, .fin _ => rfl
  | .fin _, .fin _, .nan => exact absurd h2 (by simp [F64.le, Ext.le])
  | .fin _, .fin _, .ninf => exact absurd h2 (by simp [F64.le, Ext.le])
  | .fin _, .fin _, .pinf => rfl
  | .fin a, .fin b, .fin c =>
    exact decide_eq_true (le_trans (of_decide_eq_true h1 : a ≤ b) (of_decide_eq_true h2 : b ≤ c))

theorem fl_le_total {a b : Fl R} (ha : NotNan a) (hb : NotNan b) (h : F64.le a b = false) : F64.le b a = true := by
  match a, b with
  | .nan, _ => exact absurd rfl ha
  | .pinf, .nan => exact absurd rfl hb
  | .ninf, .nan => exact absurd rfl hb
  | .fin _, .nan => exact absurd rfl hb
  | .ninf, .ninf => rfl
  | .ninf, .pinf => exact absurd h (by simp [F64.le, Ext.le])
  | .ninf, .fin _ => exact absurd h (by simp [F64.le, Ext.le])
  | .pinf, .pinf => rfl
  | .fin _, .pinf => exact absurd h (by simp [F64.le, Ext.le])
  | .pinf, .ninf => rfl
  | .fin _, .ninf => rfl
  | .pinf, .fin _ => rfl
  | .fin a, .fin b => exact decide_eq_true (le_of_not_ge (of_decide_eq_false h))

theorem fl_le_notNan {a b : Fl R} (h : F64.le a b = true) : NotNan a ∧ NotNan b := by
  constructor
  · rintro rfl; exact absurd h (by simp [F64.le, Fl.of, Ext.le])
  · rintro rfl; revert h; match a with
    | .nan => simp [F64.le, Ext.le]
    | .pinf => simp [F64.le, Fl.of, Ext.le]
    | .ninf => simp [F64.le, Fl.of, Ext.le]
    | .fin _ => simp [F64.le, Fl.of, Ext.le]

theorem fmin_nan_left (b : Fl R) : F64.fmin (Fl.of R .nan) b = b := rfl
theorem fmin_nan_right (a : Fl R) : F64.fmin a (Fl.of R .nan) = a := by
  match a with
  | .nan => rfl
  | .pinf => rfl
  | .ninf => rfl
  | .fin _ => rfl
theorem fmax_nan_left (b : Fl R) : F64.fmax (Fl.of R .nan) b = b := rfl
theorem fmax_nan_right (a : Fl R) : F64.fmax a (Fl.of R .nan) = a := by
  match a with
  | .nan => rfl
  | .pinf => rfl
  | .ninf => rfl
  | .fin _ => rfl

theorem fmin_eq {a b : Fl R} (ha : NotNan a) (hb : NotNan b) : F64.fmin a b = if F64.le a b then a else b := by
  match a, b with
  | .nan, _ => exact absurd rfl ha
  | .pinf, .nan => exact absurd rfl hb
  | .ninf, .nan => exact absurd rfl hb
  | .fin _, .nan => exact absurd rfl hb
  | .ninf, .ninf => rfl
  | .ninf, .pinf => rfl
  | .ninf, .fin _ => rfl
  | .pinf, .pinf => rfl
  | .fin _, .pinf => rfl
  | .pinf, .ninf => rfl
  | .fin _, .ninf => rfl
  | .pinf, .fin _ => rfl
  | .fin a, .fin b => rfl

theorem fmax_eq {a b : Fl R} (ha : NotNan a) (hb : NotNan b) : F64.fmax a b = if F64.le a b then b else a := by
  match a, b with
  | .nan, _ => exact absurd rfl ha
  | .pinf, .nan => exact absurd rfl hb
  | .ninf, .nan => exact absurd rfl hb
  | .fin _, .nan => exact absurd rfl hb
  | .ninf, .ninf => rfl
  | .ninf, .pinf => rfl
  | .ninf, .fin _ => rfl
  | .pinf, .pinf => rfl
  | .fin _, .pinf => rfl
  | .pinf, .ninf => rfl
  | .fin _, .ninf => rfl
  | .pinf, .fin _ => rfl
  | .fin a, .fin b => rfl

theorem fmin_sel (a b : Fl R) : F64.fmin a b = a ∨ F64.fmin a b = b := by
  by_cases ha : a = Fl.of R .nan
  · subst ha; exact Or.inr rfl
  · by_cases hb : b = Fl.of R .nan
    · subst hb; exact Or.inl (fmin_nan_right a)
    · rw [fmin_eq ha hb]; split
      · exact Or.inl rfl
      · exact Or.inr rfl

theorem fmax_sel (a b : Fl R) : F64.fmax a b = a ∨ F64.fmax a b = b := by
  by_cases ha : a = Fl.of R .nan
  · subst ha; exact Or.inr rfl
  · by_cases hb : b = Fl.of R .nan
    · subst hb; exact Or.inl (fmax_nan_right a)
    · rw [fmax_eq ha hb]; split
      · exact Or.inr rfl
      · exact Or.inl rfl

theorem fmin_le_left {a : Fl R} (ha : NotNan a) (b : Fl R) : F64.le (F64.fmin a b) a = true := by
  by_cases hb : b = Fl.of R .nan
  · subst hb; rw [fmin_nan_right]; exact fl_le_refl ha
  · rw [fmin_eq ha hb]; split
    · exact fl_le_refl ha
    · rename_i h; exact fl_le_total ha hb (by simpa using h)
theorem fmin_le_right (a : Fl R) {b : Fl R} (hb : NotNan b) : F64.le (F64.fmin a b) b = true := by
  by_cases ha : a = Fl.of R .nan
  · subst ha; exact fl_le_refl hb
  · rw [fmin_eq ha hb]; split
    · assumption
    · exact fl_le_refl hb
theorem le_fmax_left {a : Fl R} (ha : NotNan a) (b : Fl R) : F64.le a (F64.fmax a b) = true := by
  by_cases hb : b = Fl.of R .nan
  · subst hb; rw [fmax_nan_right]; exact fl_le_refl ha
  · rw [fmax_eq ha hb]; split
    · assumption
    · exact fl_le_refl ha
theorem le_fmax_right (a : Fl R) {b : Fl R} (hb : NotNan b) : F64.le b (F64.fmax a b) = true := by
  by_cases ha : a = Fl.of R .nan
  · subst ha; exact fl_le_refl hb
  · rw [fmax_eq ha hb]; split
    · exact fl_le_refl hb
    · rename_i h; exact fl_le_total ha hb (by simpa using h)

/-- A fold of a selection below both arguments is a least element. -/
theorem fold_least {f : Fl R → Fl R → Fl R} {le : Fl R → Fl R → Prop} (hsel : ∀ a b, f a b = a ∨ f a b = b)
    (hl : ∀ a b, NotNan a → le (f a b) a) (hr : ∀ a b, NotNan b → le (f a b) b) (htr : ∀ a b c, le a b → le b c → le a c)
    (hrf : ∀ a, NotNan a → le a a) (hnn : ∀ a b, le a b → NotNan a) (a : Fl R) (l : List (Fl R)) :
    l.foldl f a ∈ a :: l ∧ ∀ v ∈ a :: l, NotNan v → le (l.foldl f a) v := by
  induction l using List.reverseRecOn with
  | nil => simp only [List.foldl_nil, List.mem_singleton, true_and]; rintro v rfl h; exact hrf _ h
  | append_singleton l b ih =>
    obtain ⟨h1, h2⟩ := ih
    rw [List.foldl_append, List.foldl_cons, List.foldl_nil]
    constructor
    · rcases hsel (l.foldl f a) b with h | h <;> rw [h]
      · simp only [List.mem_cons, List.mem_append] at h1 ⊢; tauto
      · simp
    · intro v hv hn
      have hv' : v ∈ a :: l ∨ v = b := by
        simp only [List.mem_cons, List.mem_append, List.not_mem_nil, or_false] at hv ⊢; tauto
      rcases hv' with hv | rfl
      · have := h2 v hv hn
        exact htr _ _ _ (hl _ b (hnn _ _ this)) this
      · exact hr _ _ hn

theorem runMin_spec (a : Fl R) (l : List (Fl R)) :
    runMin a l ∈ a :: l ∧ ∀ v ∈ a :: l, NotNan v → F64.le (runMin a l) v = true :=
  fold_least (le := fun a b => F64.le a b = true) fmin_sel (fun _ b h => fmin_le_left h b) (fun a _ h => fmin_le_right a h)
    (fun _ _ _ => fl_le_trans) (fun _ => fl_le_refl) (fun _ _ h => (fl_le_notNan h).1) a l
theorem runMax_spec (a : Fl R) (l : List (Fl R)) :
    runMax a l ∈ a :: l ∧ ∀ v ∈ a :: l, NotNan v → F64.le v (runMax a l) = true :=
  fold_least (le := fun a b => F64.le b a = true) fmax_sel (fun _ b h => le_fmax_left h b) (fun a _ h => le_fmax_right a h)
    (fun _ _ _ h1 h2 => fl_le_trans h2 h1) (fun _ => fl_le_refl) (fun _ _ h => (fl_le_notNan h).2) a l
theorem runMin'_spec (a : Fl R) (l : List (Fl R)) :
    runMin' a l ∈ a :: l ∧ ∀ v ∈ a :: l, NotNan v → F64.le (runMin' a l) v = true :=
  fold_least (le := fun a b => F64.le a b = true) (fun a b => (fmin_sel b a).symm) (fun _ b h => fmin_le_right b h)
    (fun a _ h => fmin_le_left h a) (fun _ _ _ => fl_le_trans) (fun _ => fl_le_refl) (fun _ _ h => (fl_le_notNan h).1) a l
theorem runMax'_spec (a : Fl R) (l : List (Fl R)) :
    runMax' a l ∈ a :: l ∧ ∀ v ∈ a :: l, NotNan v → F64.le v (runMax' a l) = true :=
  fold_least (le := fun a b => F64.le b a = true) (fun a b => (fmax_sel b a).symm) (fun _ b h => le_fmax_right b h)
    (fun a _ h => le_fmax_left h a) (fun _ _ _ h1 h2 => fl_le_trans h2 h1) (fun _ => fl_le_refl)
    (fun _ _ h => (fl_le_notNan h).2) a l

end Pace
