import Verif.Props.FlatFloat
import Verif.Props.Trend

/-!
# C87 in floating point: a market that only rises, or only falls
-/

set_option linter.unusedSectionVars false

namespace Pace
open Spec
variable {K : Type} [Field K] [LinearOrder K] [IsStrictOrderedRing K] {R : Rounding K}
variable {α : Type} [F64 α] {V : Valued R α} (L : R.Lawful)

/-- The value is the number `q`, or it is NaN. -/
def Spec.NumberOrNan (V : Valued R α) (q : K) (a : α) : Prop := V.val a = Fl.of R (.fin q) ∨ V.val a = Fl.of R .nan

private theorem rnd_zero' (L : R.Lawful) : R.rnd 0 = .fin 0 := by
  have := L.int 0 (by norm_num)
  simpa using this
private theorem fl_diff_nonneg (L : R.Lawful) (v p : Fl R) (h : F64.lt v p = false) : F64.lt (v - p) (Fl.of R (.fin 0)) = false := by
  rcases v with _ | _ | _ | v <;> rcases p with _ | _ | _ | p <;> try rfl
  all_goals first | exact Bool.noConfusion h | skip
  have h' : ¬ v < p := of_decide_eq_false h
  have hm := L.mono 0 (v + -p) (by linarith)
  rw [rnd_zero' L] at hm
  show Ext.lt (R.rnd (v + -p)) (.fin 0) = false
  generalize R.rnd (v + -p) = w at hm
  rcases w with _ | _ | _ | w <;> try rfl
  · exact Bool.noConfusion hm
  · have : (0 : K) ≤ w := of_decide_eq_true hm
    exact decide_eq_false (not_lt.mpr this)
private theorem fl_diff_nonpos (L : R.Lawful) (v p : Fl R) (h : F64.lt p v = false) : F64.lt (Fl.of R (.fin 0)) (v - p) = false := by
  rcases v with _ | _ | _ | v <;> rcases p with _ | _ | _ | p <;> try rfl
  all_goals first | exact Bool.noConfusion h | skip
  have h' : ¬ p < v := of_decide_eq_false h
  have hm := L.mono (v + -p) 0 (by linarith)
  rw [rnd_zero' L] at hm
  show Ext.lt (.fin 0) (R.rnd (v + -p)) = false
  generalize R.rnd (v + -p) = w at hm
  rcases w with _ | _ | _ | w <;> try rfl
  · exact Bool.noConfusion hm
  · have : w ≤ (0 : K) := of_decide_eq_true hm
    exact decide_eq_false (not_lt.mpr this)
private theorem fl_fmin_zero (a : Fl R) (h : F64.lt a (Fl.of R (.fin 0)) = false) : F64.fmin a (Fl.of R (.fin 0)) = Fl.of R (.fin 0) := by
  rcases a with _ | _ | _ | a <;> try rfl
  · exact Bool.noConfusion h
  · have h' : ¬ a < 0 := of_decide_eq_false h
    show (if decide (a ≤ (0 : K)) = true then Fl.of R (.fin a) else Fl.of R (.fin 0)) = _
    by_cases hc : a ≤ 0
    · rw [le_antisymm hc (not_lt.mp h')]; split <;> rfl
    · exact if_neg (by simpa using hc)
private theorem fl_fmax_zero (a : Fl R) (h : F64.lt (Fl.of R (.fin 0)) a = false) : F64.fmax a (Fl.of R (.fin 0)) = Fl.of R (.fin 0) := by
  rcases a with _ | _ | _ | a <;> try rfl
  · exact Bool.noConfusion h
  · have h' : ¬ 0 < a := of_decide_eq_false h
    show (if decide (a ≤ (0 : K)) = true then Fl.of R (.fin 0) else Fl.of R (.fin a)) = _
    exact if_pos (by simpa using h')

section
variable {x : Nat → α}

include L

private theorem loss0_rises (V : Valued R α) (hr : ∀ t, F64.lt (x (t + 1)) (x t) = false) :
    ∀ t a, loss0 (fun t => some (x t)) t = some a → IsZero V a := by
  intro t a ha
  cases t with
  | zero => cases ha
  | succ t =>
    cases ha
    refine IsZero.neg ?_
    have := hr t
    rw [V.lt] at this
    unfold IsZero
    rw [V.fmin, V.sub, V.lit, lit_zero L]
    exact fl_fmin_zero _ (fl_diff_nonneg L _ _ this)

private theorem gain0_falls (V : Valued R α) (hr : ∀ t, F64.lt (x t) (x (t + 1)) = false) :
    ∀ t a, gain0 (fun t => some (x t)) t = some a → IsZero V a := by
  intro t a ha
  cases t with
  | zero => cases ha
  | succ t =>
    cases ha
    have := hr t
    rw [V.lt] at this
    show IsZero V (F64.fmax (x (t + 1) - x t) (lit 0))
    unfold IsZero
    rw [V.fmax, V.sub, V.lit, lit_zero L]
    exact fl_fmax_zero _ (fl_diff_nonpos L _ _ this)

omit L in
private theorem fl_over_zero (u w : Fl R) (hw : w = u / Fl.of R (.fin 0) ∨ w = -(u / Fl.of R (.fin 0))) :
    w = Fl.of R .nan ∨ w = Fl.of R .pinf ∨ w = Fl.of R .ninf := by
  have key : u / Fl.of R (.fin 0) = Fl.of R .nan ∨ u / Fl.of R (.fin 0) = Fl.of R .pinf ∨ u / Fl.of R (.fin 0) = Fl.of R .ninf := by
    rcases u with _ | _ | _ | u
    · exact .inl rfl
    · exact .inr (.inl (if_neg (lt_irrefl (0 : K)) : (if (0 : K) < 0 then Fl.of R .ninf else Fl.of R .pinf) = _))
    · exact .inr (.inr (if_neg (lt_irrefl (0 : K)) : (if (0 : K) < 0 then Fl.of R .pinf else Fl.of R .ninf) = _))
    · have e : Fl.of R (.fin u) / Fl.of R (.fin 0) = Fl.of R (Fl.signInf u) :=
        (if_pos rfl : (if (0 : K) = 0 then Fl.signInf u else R.rnd (u / 0)) = _)
      show Fl.of R (.fin u) / Fl.of R (.fin 0) = _ ∨ Fl.of R (.fin u) / Fl.of R (.fin 0) = _ ∨ Fl.of R (.fin u) / Fl.of R (.fin 0) = _
      rw [e]
      unfold Fl.signInf
      by_cases h : 0 < u
      · rw [if_pos h]; exact .inr (.inl rfl)
      · rw [if_neg h]
        by_cases h' : u < 0
        · rw [if_pos h']; exact .inr (.inr rfl)
        · rw [if_neg h']; exact .inl rfl
  rcases hw with rfl | rfl
  · exact key
  · rcases key with h | h | h <;> rw [h]
    · exact .inl rfl
    · exact .inr (.inr rfl)
    · exact .inr (.inl rfl)

private theorem hundred_val (V : Valued R α) : V.val (lit 100 : α) = Fl.of R (.fin 100) := by rw [V.lit, lit_hundred L]
private theorem one_val (V : Valued R α) : V.val (lit 1 : α) = Fl.of R (.fin 1) := by rw [V.lit, lit_one L]

private theorem hundred_sub_zero : Fl.of R (.fin 100) - Fl.of R (.fin 0) = Fl.of R (.fin 100) := by
  show R.rnd (100 + -0) = _
  rw [neg_zero, add_zero]; exact rnd_hundred L
private theorem hundred_sub_self : Fl.of R (.fin 100) - Fl.of R (.fin 100) = Fl.of R (.fin 0) := by
  show R.rnd (100 + -100) = _
  rw [add_neg_cancel]; exact rnd_zero' L
private theorem one_add_zero : Fl.of R (.fin 1) + Fl.of R (.fin 0) = Fl.of R (.fin 1) := by
  show R.rnd (1 + 0) = _
  rw [add_zero]; exact rnd_one L
private theorem hundred_div_one : Fl.of R (.fin 100) / Fl.of R (.fin 1) = Fl.of R (.fin 100) := 
  (if_neg one_ne_zero : (if (1 : K) = 0 then Fl.signInf (100 : K) else R.rnd (100 / 1)) = _).trans (by rw [div_one]; exact rnd_hundred L)

/-- The last step of the relative strength index when the average loss is 0. -/
private theorem rsi_hundred (V : Valued R α) (u : α) {w : α} (hw : IsZero V w) : NumberOrNan V 100 (lit 100 - lit 100 / (lit 1 + u / w)) := by
  have h := fl_over_zero (V.val u) (V.val (u / w)) (by
    have := V.div_zero u w hw
    rw [show V.val w = Fl.of R (.fin 0) from hw] at this
    exact this)
  have e1 : V.val (lit 1 + u / w) = Fl.of R .nan ∨ V.val (lit 1 + u / w) = Fl.of R .pinf ∨ V.val (lit 1 + u / w) = Fl.of R .ninf := by
    rw [V.add, one_val L]
    rcases h with h | h | h <;> rw [h]
    · exact .inl rfl
    · exact .inr (.inl rfl)
    · exact .inr (.inr rfl)
  unfold NumberOrNan
  rw [V.sub, hundred_val L]
  rcases e1 with e | e | e <;> rw [V.div _ _ (by rw [e]; intro h'; cases h'), hundred_val L, e]
  · exact .inr rfl
  · exact .inl (hundred_sub_zero L)
  · exact .inl (hundred_sub_zero L)

/-- The last step of the relative strength index when the average gain is 0. -/
private theorem rsi_nought (V : Valued R α) {u : α} (w : α) (hu : IsZero V u) : NumberOrNan V 0 (lit 100 - lit 100 / (lit 1 + u / w)) := by
  have h := ZeroNan.div L hu.zeroNan w
  have e1 : V.val (lit 1 + u / w) = Fl.of R .nan ∨ V.val (lit 1 + u / w) = Fl.of R (.fin 1) := by
    rw [V.add, one_val L]
    rcases h with h | h <;> rw [h]
    · exact .inr (one_add_zero L)
    · exact .inl rfl
  unfold NumberOrNan
  rw [V.sub, hundred_val L]
  rcases e1 with e | e
  · rw [V.div _ _ (by rw [e]; intro h'; cases h'), hundred_val L, e]
    exact .inr rfl
  · rw [V.div _ _ (by rw [e]; exact of_fin_ne one_ne_zero), hundred_val L, e, hundred_div_one L]
    exact .inl (hundred_sub_self L)

end

section
variable {d : DataProvider α} {N : Nat}

/-- **C87, floats.** While the price never falls the relative strength index is, from its first value on, exactly 100 or NaN (NaN as long as
it has not risen), and while it never rises exactly 0 or NaN: for every series of floats, even with infinities, NaN and zeros of either sign,
every length and price source. -/
theorem C87_ieee_rsi (V : Valued R α) (L : R.Lawful) {s : SrcKind} {x : Nat → α} (hx : ∀ t, t < N → Src.next ⟨d, t⟩ s = .ok (some (x t)))
    {n : Nat} (hn : 2 ≤ n) :
    ∃ y, Runs (noInput fun t => withSrc s Rsi.next ⟨d, t⟩) (Rsi.new n) unit N y ∧ StartsAt n y ∧
      ((∀ t, F64.lt (x (t + 1)) (x t) = false) → ∀ t w, y t = some w → NumberOrNan V 100 w) ∧
      ((∀ t, F64.lt (x t) (x (t + 1)) = false) → ∀ t w, y t = some w → NumberOrNan V 0 w) := by
  have hst : StartsAt 0 (fun t => some (x t)) := .some x
  refine ⟨_, withSrc_runs hx (rsi_runs d hn (fun t => some (x t)) N fun t _ _ => rfl),
    (hst.rsi0 (len := n) (by omega)).cast (Nat.zero_add n), fun hr t w hw => ?_, fun hr t w hw => ?_⟩
  · have z := rma0_zero L (loss0_rises L V hr) (show 1 ≤ n by omega) t
    unfold rsi0 at hw
    generalize rma0 n (gain0 fun t => some (x t)) t = A at hw
    generalize rma0 n (loss0 fun t => some (x t)) t = B at z hw
    rcases A with _ | A
    · cases hw
    rcases B with _ | B
    · cases hw
    cases hw
    exact rsi_hundred L V A (z B rfl)
  · have z := rma0_zero L (gain0_falls L V hr) (show 1 ≤ n by omega) t
    unfold rsi0 at hw
    generalize rma0 n (gain0 fun t => some (x t)) t = A at z hw
    generalize rma0 n (loss0 fun t => some (x t)) t = B at hw
    rcases A with _ | A
    · cases hw
    rcases B with _ | B
    · cases hw
    cases hw
    exact rsi_nought L V B (z A rfl)

/-! ## Lines that do not move do not cross -/

private theorem fl_no_cross' (q : K) (p w θ : Fl R) (hp : p = Fl.of R (.fin q) ∨ p = Fl.of R .nan) (hw : w = Fl.of R (.fin q) ∨ w = Fl.of R .nan) :
    (F64.lt θ w && F64.le p θ) = false ∧ (F64.lt w θ && F64.le θ p) = false := by
  rcases hp with rfl | rfl <;> rcases hw with rfl | rfl <;> rcases θ with _ | _ | _ | θ <;> try exact ⟨rfl, rfl⟩
  on_goal 2 =>
    show (decide (θ < q) && false) = false ∧ (decide (q < θ) && false) = false
    simp
  show (decide (θ < q) && decide (q ≤ θ)) = false ∧ (decide (q < θ) && decide (θ ≤ q)) = false
  constructor
  · by_cases h : θ < q
    · simp [h]
    · simp [h]
  · by_cases h : q < θ
    · simp [h]
    · simp [h]

private theorem const_over {q : K} {y : Nat → Option α} (h : ∀ t w, t < N → y t = some w → NumberOrNan V q w) (θ : α) {t : Nat} (ht : t < N) :
    over0 y (fun _ => some θ) t = false ∧ under0 y (fun _ => some θ) t = false := by
  cases t with
  | zero => exact ⟨rfl, rfl⟩
  | succ t =>
    unfold over0 under0
    show (match y t, some θ, y (t + 1), some θ with
      | some pa, some pb, some a, some b => F64.lt b a && F64.le pa pb
      | _, _, _, _ => false) = false ∧ (match y t, some θ, y (t + 1), some θ with
      | some pa, some pb, some a, some b => F64.lt a b && F64.le pb pa
      | _, _, _, _ => false) = false
    have h1 := h t
    have h2 := h (t + 1)
    generalize y t = A at h1
    generalize y (t + 1) = B at h2
    rcases A with _ | A
    · exact ⟨rfl, rfl⟩
    rcases B with _ | B
    · exact ⟨rfl, rfl⟩
    dsimp only
    rw [V.lt, V.le, V.lt, V.le]
    exact fl_no_cross' q _ _ _ (h1 A (by omega) rfl) (h2 B ht rfl)

private theorem fl_lt_not_le (p q : Fl R) : (F64.lt q p && F64.le p q) = false := by
  rcases p with _ | _ | _ | p <;> rcases q with _ | _ | _ | q <;> try rfl
  show (decide (q < p) && decide (p ≤ q)) = false
  by_cases h : q < p
  · simp [h]
  · simp [h]

private theorem const_cross (V : Valued R α) (p q : α) (z : Nat) (t : Nat) :
    cross0 (startAt z fun _ => p) (startAt z fun _ => q) t = none := by
  have : over0 (startAt z fun _ => p) (startAt z fun _ => q) t = false ∧ under0 (startAt z fun _ => p) (startAt z fun _ => q) t = false := by
    unfold over0 under0
    have g : ∀ (r : α) (t : Nat), startAt z (fun _ => r) t = none ∨ startAt z (fun _ => r) t = some r := fun r t => by
      by_cases h : t < z
      · exact .inl (if_pos h)
      · exact .inr (if_neg h)
    have g' : ∀ (r : α) (t : Nat), before (startAt z fun _ => r) t = none ∨ before (startAt z fun _ => r) t = some r := fun r t => by
      cases t with
      | zero => exact .inl rfl
      | succ t => exact g r t
    rcases g' p t with e1 | e1 <;> rcases g' q t with e2 | e2 <;> rcases g p t with e3 | e3 <;> rcases g q t with e4 | e4 <;>
      rw [e1, e2, e3, e4] <;> try exact ⟨rfl, rfl⟩
    dsimp only
    rw [V.lt, V.le, V.lt, V.le]
    exact ⟨fl_lt_not_le _ _, fl_lt_not_le _ _⟩
  simp [cross0, this.1, this.2]

/-- **C87, floats.** No threshold, whatever its value, is crossed by a series all of whose numbers are the same, even with values missing or
NaN in between; and two lines that keep their values do not cross. -/
theorem C87_ieee_no_signal (V : Valued R α) :
    (∀ (q : K) (over under : α) {y : Nat → Option α}, (∀ t w, t < N → y t = some w → NumberOrNan V q w) →
      Runs (total ThresholdStrategy.next) (.ok (ThresholdStrategy.mk' over under)) y N (fun _ => none)) ∧
    (∀ (p q : α) (z : Nat), Runs (total AroonStrategy.next) (.ok .new) (fun t => (startAt z (fun _ => p) t, startAt z (fun _ => q) t)) N
      (fun _ => none)) := by
  refine ⟨fun q over under y h => ?_, fun p q z => ?_⟩
  · refine Impl.runs (Inv := fun t s => ThreshInv over y t s.crossOver ∧ ThreshInv under y t s.crossUnder) ⟨⟨rfl, rfl⟩, ?_⟩
    rintro t s ht ⟨h1, h2⟩
    obtain ⟨s1, e1, g1⟩ := threshOver_step h1
    obtain ⟨s2, e2, g2⟩ := threshUnder_step h2
    refine ⟨⟨s1, s2⟩, ?_, g1, g2⟩
    simp only [total, ThresholdStrategy.next, e1, e2, (const_over h over ht).1, (const_over h under ht).2]
    rfl
  · refine (aroonStrategy_runs _ _ N).congr fun t _ => ?_
    have : ∀ t, aroonArmed (startAt z fun _ => p) (startAt z fun _ => q) t = false := fun t => by
      induction t with
      | zero => rw [aroonArmed, const_cross V]; rfl
      | succ t ih => rw [aroonArmed, const_cross V, ih]; rfl
    rw [aroonSignal0, this]; rfl

/-! ## Aroon -/

private theorem fl_lt_ne_nan (a b : Fl R) (h : F64.lt a b = true) : a ≠ Fl.of R .nan ∧ b ≠ Fl.of R .nan := by
  rcases a with _ | _ | _ | a <;> rcases b with _ | _ | _ | b <;> first | exact Bool.noConfusion h | (constructor <;> (intro e; cases e))

private theorem fl_lt_tr (a b c : Fl R) (h : F64.lt a b = true) (h' : F64.lt b c = true) : F64.lt a c = true := by
  rcases a with _ | _ | _ | a <;> rcases b with _ | _ | _ | b <;> rcases c with _ | _ | _ | c <;>
    first | rfl | exact Bool.noConfusion h | exact Bool.noConfusion h' | skip
  exact decide_eq_true (lt_trans (of_decide_eq_true h) (of_decide_eq_true h'))

private theorem mono_lt (V : Valued R α) {x : Nat → α} (h : ∀ t, F64.lt (x t) (x (t + 1)) = true) {i j : Nat} (hij : i < j) :
    F64.lt (x i) (x j) = true := by
  induction j with
  | zero => omega
  | succ j ih =>
    rcases Nat.lt_or_ge i j with h1 | h1
    · rw [V.lt]
      exact fl_lt_tr _ _ _ (by rw [← V.lt]; exact ih h1) (by rw [← V.lt]; exact h j)
    · obtain rfl : i = j := by omega
      exact h i

private theorem anti_lt (V : Valued R α) {x : Nat → α} (h : ∀ t, F64.lt (x (t + 1)) (x t) = true) {i j : Nat} (hij : i < j) :
    F64.lt (x j) (x i) = true := by
  induction j with
  | zero => omega
  | succ j ih =>
    rcases Nat.lt_or_ge i j with h1 | h1
    · rw [V.lt]
      exact fl_lt_tr _ _ _ (by rw [← V.lt]; exact h j) (by rw [← V.lt]; exact ih h1)
    · obtain rfl : i = j := by omega
      exact h i

/-- **C87, floats.** While highs and lows only rise, or only fall, both Aroon lines keep the value they have at their first tick: the line of
the side that moves is what the arithmetic makes of `n / n * 100`, the other one of `(n - (n - 1)) / n * 100`. -/
theorem C87_ieee_aroon (V : Valued R α) {o h l c v : Nat → α} (hb : Bars d N o h l c v) {n : Nat} (hn : 1 ≤ n) :
    let top : α := (lit 0 + lit (n : ℚ)) / lit (n : ℚ) * lit 100
    let bottom : α := (lit ((1 - n : Int) : ℚ) + lit (n : ℚ)) / lit (n : ℚ) * lit 100
    ((∀ t, F64.lt (h t) (h (t + 1)) = true ∧ F64.lt (l t) (l (t + 1)) = true) →
      Runs (noInput fun t => Aroon.next ⟨d, t⟩) (Aroon.new n) unit N
        (fun t => (startAt (n - 1) (fun _ => top) t, startAt (n - 1) (fun _ => bottom) t))) ∧
    ((∀ t, F64.lt (h (t + 1)) (h t) = true ∧ F64.lt (l (t + 1)) (l t) = true) →
      Runs (noInput fun t => Aroon.next ⟨d, t⟩) (Aroon.new n) unit N
        (fun t => (startAt (n - 1) (fun _ => bottom) t, startAt (n - 1) (fun _ => top) t))) := by
  intro top bottom
  have nn : (-((n - 1 : Nat) : Int)) = 1 - (n : Int) := by rw [Nat.cast_sub hn]; push_cast; ring
  have nz : ((-((0 : Nat) : Int) : Int) : ℚ) = 0 := by simp
  have asym : ∀ a b : α, F64.lt a b = true → F64.le b a = true → False := fun a b h1 h2 => by
    rw [V.lt] at h1; rw [V.le] at h2
    have := fl_lt_not_le (V.val b) (V.val a)
    rw [h1, h2] at this; cases this
  have asym' : ∀ a b : α, F64.lt a b = true → F64.lt b a = true → False := fun a b h1 h2 => by
    rw [V.lt] at h1 h2
    have := fl_lt_tr _ _ _ h1 h2
    generalize V.val a = w at this
    rcases w with _ | _ | _ | w
    · cases this
    · cases this
    · cases this
    · exact absurd (of_decide_eq_true this) (lt_irrefl w)
  constructor
  · intro hr
    obtain ⟨hi, lo, r1, r2, h12⟩ := C31_ieee V d hn hb.high hb.low
      (fun t w _ hw => by
        cases hw
        have := (hr t).1; rw [V.lt] at this
        exact (fl_lt_ne_nan _ _ this).1)
      (fun t w _ hw => by
        cases hw
        have := (hr t).2; rw [V.lt] at this
        exact (fl_lt_ne_nan _ _ this).1)
    refine (C53_aroon d hn hb.high hb.low r1 r2).congr fun t ht => ?_
    obtain ⟨h1, h2⟩ := h12 t ht
    by_cases hc : t < n - 1
    · rw [(h1 (by omega)).1, (h1 (by omega)).2]
      simp [startAt, hc]
    · obtain ⟨p, q, hp, hq, e1, e2, h3, h4⟩ := h2 (by omega)
      have ep : p = 0 := by
        rcases h3 with ⟨_, h3⟩ | ⟨w, hw, h3⟩
        · have := h3 0 (by omega); cases this
        · by_contra hne
          cases hw
          exact asym _ _ (mono_lt V (fun t => (hr t).1) (show t - p < t by omega)) (h3 0 _ (by omega) rfl).1
      have eq : q = n - 1 := by
        rcases h4 with ⟨_, h4⟩ | ⟨w, hw, h4⟩
        · have := h4 0 (by omega); cases this
        · by_contra hne
          have := (h4 (n - 1) _ (by omega) rfl).2 (by omega)
          cases hw
          exact asym' _ _ this (mono_lt V (fun t => (hr t).2) (by omega))
      rw [e1, e2, ep, eq, nn]
      simp only [startAt, hc, if_false]
      simp [top, bottom]
  · intro hr
    obtain ⟨hi, lo, r1, r2, h12⟩ := C31_ieee V d hn hb.high hb.low
      (fun t w _ hw => by
        cases hw
        have := (hr t).1; rw [V.lt] at this
        exact (fl_lt_ne_nan _ _ this).2)
      (fun t w _ hw => by
        cases hw
        have := (hr t).2; rw [V.lt] at this
        exact (fl_lt_ne_nan _ _ this).2)
    refine (C53_aroon d hn hb.high hb.low r1 r2).congr fun t ht => ?_
    obtain ⟨h1, h2⟩ := h12 t ht
    by_cases hc : t < n - 1
    · rw [(h1 (by omega)).1, (h1 (by omega)).2]
      simp [startAt, hc]
    · obtain ⟨p, q, hp, hq, e1, e2, h3, h4⟩ := h2 (by omega)
      have eq : q = 0 := by
        rcases h4 with ⟨_, h3⟩ | ⟨w, hw, h3⟩
        · have := h3 0 (by omega); cases this
        · by_contra hne
          cases hw
          exact asym _ _ (anti_lt V (fun t => (hr t).2) (show t - q < t by omega)) (h3 0 _ (by omega) rfl).1
      have ep : p = n - 1 := by
        rcases h3 with ⟨_, h4⟩ | ⟨w, hw, h4⟩
        · have := h4 0 (by omega); cases this
        · by_contra hne
          have := (h4 (n - 1) _ (by omega) rfl).2 (by omega)
          cases hw
          exact asym' _ _ this (anti_lt V (fun t => (hr t).1) (by omega))
      rw [e1, e2, ep, eq, nn]
      simp only [startAt, hc, if_false]
      simp [top, bottom]

/-- **C87, floats.** In IEEE arithmetic too the RSI strategy never trades while the price never falls, or never rises, whatever its thresholds,
and neither does the Aroon strategy while highs and lows only rise, or only fall: for every configuration of the backtest. -/
theorem C87_ieee_sits_out (V : Valued R α) (L : R.Lawful) {o h l c v : Nat → α} (hb : Bars d N o h l c v) {s : SrcKind} {x : Nat → α}
    (hx : ∀ t, t < N → Src.next ⟨d, t⟩ s = .ok (some (x t))) {n m : Nat} (hn : 2 ≤ n) (hm : 1 ≤ m) (a b : α) :
    ((∀ t, F64.lt (x (t + 1)) (x t) = false) ∨ (∀ t, F64.lt (x t) (x (t + 1)) = false) →
      NeverTrades d N (withSrc s Rsi.next) (Rsi.new n) ThresholdStrategy.next (ThresholdStrategy.mk' a b)) ∧
    ((∀ t, F64.lt (h t) (h (t + 1)) = true ∧ F64.lt (l t) (l (t + 1)) = true) ∨
      (∀ t, F64.lt (h (t + 1)) (h t) = true ∧ F64.lt (l (t + 1)) (l t) = true) →
      NeverTrades d N Aroon.next (Aroon.new m) AroonStrategy.next .new) := by
  obtain ⟨n1, n2⟩ := C87_ieee_no_signal (N := N) V
  obtain ⟨y, h1, -, h2, h3⟩ := C87_ieee_rsi V L hx hn
  obtain ⟨g1, g2⟩ := C87_ieee_aroon V hb hm
  refine ⟨fun hr => neverTrades hb h1 ?_, fun hr => ?_⟩
  · rcases hr with hr | hr
    · exact n1 100 a b fun t w _ hw => h2 hr t w hw
    · exact n1 0 a b fun t w _ hw => h3 hr t w hw
  · rcases hr with hr | hr
    · exact neverTrades hb (g1 hr) (n2 _ _ _)
    · exact neverTrades hb (g2 hr) (n2 _ _ _)

end

end Pace
