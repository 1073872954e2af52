import Verif.Model.Snapshot
import Verif.Lemmas.NonNeg
import Verif.Lemmas.Real
import Mathlib.Tactic.Linarith

/-!
# Snapshot assertions (C76)
-/

set_option linter.unusedSectionVars false

namespace Pace
open ArraySnapshot

/-- The two series differ at index `i`. -/
def Spec.DiffersAt {T : Type} (cmp : T → T → Bool) (a e : List T) (i : Nat) : Prop := ∃ x y, a[i]? = some x ∧ e[i]? = some y ∧ cmp x y = false

/-- Two optional floats are both missing, or both present and less than 0.00001 apart. -/
def Spec.Close {K : Type} [Field K] [LinearOrder K] [RootOps K] : Option (Ex K) → Option (Ex K) → Prop
  | none, none => True
  | some a, some b => ∃ x y : K, a = fin x ∧ b = fin y ∧ |x - y| < 1 / 100000
  | _, _ => False

open Spec

section
variable {T : Type} {s : ArraySnapshot T} {cmp : T → T → Bool} {e : List T}

private theorem loop_spec (s : ArraySnapshot T) (cmp : T → T → Bool) (as es : List T) (hl : as.length = es.length) (i : Nat) :
    ((∀ j, ¬ DiffersAt cmp as es j) ∧ (loop s cmp i as es).2 = .ok () ∧ ∀ k, .mismatch k ∉ (loop s cmp i as es).1) ∨
    ∃ j, DiffersAt cmp as es j ∧ (∀ k, k < j → ¬ DiffersAt cmp as es k) ∧
      (loop s cmp i as es).2 = (if s.debugMode then .ok () else .error .explicit) ∧
      (∀ k, .mismatch k ∈ (loop s cmp i as es).1 ↔ k = i + j) := by
  induction as generalizing es i with
  | nil => exact Or.inl ⟨fun j ⟨x, y, h, _⟩ => by simp at h, by simp [loop], by simp [loop]⟩
  | cons a as ih =>
    cases es with
    | nil => simp at hl
    | cons e es =>
      have hl' : as.length = es.length := by simpa using hl
      by_cases hc : cmp a e = true
      · have hs (j : Nat) : DiffersAt cmp (a :: as) (e :: es) (j + 1) ↔ DiffersAt cmp as es j := by simp [DiffersAt]
        have h0 : ¬ DiffersAt cmp (a :: as) (e :: es) 0 := by simp [DiffersAt, hc]
        have e2 : (loop s cmp i (a :: as) (e :: es)).2 = (loop s cmp (i + 1) as es).2 := by simp [loop, hc]
        have e1 (k : Nat) : .mismatch k ∈ (loop s cmp i (a :: as) (e :: es)).1 ↔ .mismatch k ∈ (loop s cmp (i + 1) as es).1 := by
          simp only [loop, hc, Bool.not_true, Bool.false_eq_true, if_false, List.mem_append]
          constructor
          · rintro (h | h)
            · split at h <;> simp at h
            · exact h
          · exact Or.inr
        rcases ih es hl' (i + 1) with ⟨h1, h2, h3⟩ | ⟨j, h1, h2, h3, h4⟩
        · refine Or.inl ⟨fun j => ?_, by rw [e2, h2], fun k => by rw [e1]; exact h3 k⟩
          cases j with
          | zero => exact h0
          | succ j => rw [hs]; exact h1 j
        · refine Or.inr ⟨j + 1, (hs j).mpr h1, fun k hk => ?_, by rw [e2, h3], fun k => by rw [e1, h4]; omega⟩
          cases k with
          | zero => exact h0
          | succ k => rw [hs]; exact h2 k (by omega)
      · have hc : cmp a e = false := by simpa using hc
        refine Or.inr ⟨0, ⟨a, e, rfl, rfl, hc⟩, by simp, ?_, ?_⟩
        · simp only [loop, hc]
          cases s.debugMode <;> rfl
        · simp [loop, hc]

/-- **C76.** An assertion passes exactly if the two series are equally long and equal, in the sense of the comparison, at every index. -/
theorem C76_passes (hd : s.debugMode = false) :
    (s.assertIter e cmp).2 = .ok () ↔ s.actual.length = e.length ∧ ∀ i, ¬ DiffersAt cmp s.actual e i := by
  unfold assertIter
  by_cases hl : s.actual.length = e.length
  · rw [if_neg (by simpa using hl)]
    rcases loop_spec s cmp s.actual e hl 0 with ⟨h1, h2, _⟩ | ⟨j, h1, _, h3, _⟩
    · exact ⟨fun _ => ⟨hl, h1⟩, fun _ => h2⟩
    · rw [h3, hd]
      simp only [Bool.false_eq_true, if_false, reduceCtorEq, false_iff, not_and, not_forall, not_not]
      exact fun _ => ⟨j, h1⟩
  · rw [if_pos (by simpa using hl)]
    simp [hl]

/-- **C76.** In debug mode differing values do not fail: only the lengths must agree. -/
theorem C76_debug (hd : s.debugMode = true) : (s.assertIter e cmp).2 = .ok () ↔ s.actual.length = e.length := by
  unfold assertIter
  by_cases hl : s.actual.length = e.length
  · rw [if_neg (by simpa using hl)]
    rcases loop_spec s cmp s.actual e hl 0 with ⟨_, h2, _⟩ | ⟨j, _, _, h3, _⟩
    · simp [h2, hl]
    · simp [h3, hd, hl]
  · rw [if_pos (by simpa using hl)]
    simp [hl]

/-- **C76.** Of series of the same length exactly the first index where they differ is reported, in either mode. -/
theorem C76_reports_first (hl : s.actual.length = e.length) (k : Nat) :
    .mismatch k ∈ (s.assertIter e cmp).1 ↔ DiffersAt cmp s.actual e k ∧ ∀ j, j < k → ¬ DiffersAt cmp s.actual e j := by
  unfold assertIter
  rw [if_neg (by simpa using hl)]
  rcases loop_spec s cmp s.actual e hl 0 with ⟨h1, _, h3⟩ | ⟨j, h1, h2, _, h4⟩
  · exact ⟨fun h => absurd h (h3 k), fun h => absurd h.1 (h1 k)⟩
  · rw [h4, Nat.zero_add]
    constructor
    · rintro rfl; exact ⟨h1, h2⟩
    · rintro ⟨g1, g2⟩
      rcases Nat.lt_trichotomy k j with h | h | h
      · exact absurd g1 (h2 k h)
      · exact h
      · exact absurd h1 (g2 j h)

private theorem loop_cons_lines (s : ArraySnapshot T) (cmp : T → T → Bool) (a e : T) (as es : List T) (hc : cmp a e = true) (i k : Nat) :
    .value k ∈ (loop s cmp i (a :: as) (e :: es)).1 ↔ (k = i ∧ s.debugMode = true ∧ ∀ m, s.printMaxIndex = some m → i < m) ∨
      .value k ∈ (loop s cmp (i + 1) as es).1 := by
  obtain ⟨dbg, mx, act⟩ := s
  simp only [loop, hc, Bool.not_true, Bool.false_eq_true, if_false, List.mem_append]
  refine or_congr ?_ Iff.rfl
  cases dbg <;> cases mx with
  | none => simp
  | some m => by_cases h : i < m <;> simp [h]

private theorem loop_lines (s : ArraySnapshot T) (cmp : T → T → Bool) (as es : List T) (hl : as.length = es.length) (i k : Nat) :
    .value k ∈ (loop s cmp i as es).1 ↔ ∃ j, k = i + j ∧ s.debugMode = true ∧ j < as.length ∧ (∀ l, l ≤ j → ¬ DiffersAt cmp as es l) ∧
      ∀ m, s.printMaxIndex = some m → k < m := by
  induction as generalizing es i with
  | nil => simp [loop]
  | cons a as ih =>
    cases es with
    | nil => simp at hl
    | cons e es =>
      have hl' : as.length = es.length := by simpa using hl
      by_cases hc : cmp a e = true
      · have hs (j : Nat) : DiffersAt cmp (a :: as) (e :: es) (j + 1) ↔ DiffersAt cmp as es j := by simp [DiffersAt]
        have h0 : ¬ DiffersAt cmp (a :: as) (e :: es) 0 := by simp [DiffersAt, hc]
        rw [loop_cons_lines s cmp a e as es hc, ih es hl' (i + 1)]
        constructor
        · rintro (⟨rfl, h2, h5⟩ | ⟨j, h1, h2, h3, h4, h5⟩)
          · exact ⟨0, rfl, h2, by simp, fun l hl => by rw [Nat.le_zero.mp hl]; exact h0, h5⟩
          · refine ⟨j + 1, by omega, h2, by simpa using h3, fun l hl => ?_, h5⟩
            cases l with
            | zero => exact h0
            | succ l => rw [hs]; exact h4 l (by omega)
        · rintro ⟨j, h1, h2, h3, h4, h5⟩
          cases j with
          | zero =>
            have hk : k = i := by omega
            exact Or.inl ⟨hk, h2, hk ▸ h5⟩
          | succ j =>
            right
            refine ⟨j, by omega, h2, by simpa using h3, fun l hl => ?_, h5⟩
            rw [← hs]; exact h4 (l + 1) (by omega)
      · have hc : cmp a e = false := by simpa using hc
        have : DiffersAt cmp (a :: as) (e :: es) 0 := ⟨a, e, rfl, rfl, hc⟩
        constructor
        · simp [loop, hc]
        · rintro ⟨j, _, _, _, h, _⟩
          exact absurd this (h 0 (Nat.zero_le _))

/-- **C76.** In debug mode, and only then, the values before the first difference are listed, up to the index limit if there is one. -/
theorem C76_debug_lines (hl : s.actual.length = e.length) (k : Nat) :
    .value k ∈ (s.assertIter e cmp).1 ↔ s.debugMode = true ∧ k < s.actual.length ∧ (∀ l, l ≤ k → ¬ DiffersAt cmp s.actual e l) ∧
      ∀ m, s.printMaxIndex = some m → k < m := by
  unfold assertIter
  rw [if_neg (by simpa using hl), loop_lines s cmp s.actual e hl]
  constructor
  · rintro ⟨j, h, r⟩
    have : k = j := by omega
    subst this; exact r
  · exact fun r => ⟨k, by omega, r⟩

/-- **C76.** Pushing values one by one records them in order. -/
theorem C76_push (l : List T) : (l.foldl push (ArraySnapshot.new : ArraySnapshot T)).actual = l ∧
    (l.foldl push (ArraySnapshot.new : ArraySnapshot T)).debugMode = false := by
  induction l using List.reverseRecOn with
  | nil => exact ⟨rfl, rfl⟩
  | append_singleton l a ih => simp [push, ih]

/-- **C76.** `actual` replaces everything recorded before; what is pushed afterwards is appended to it, and neither changes the mode. -/
theorem C76_actual (s : ArraySnapshot T) (v l : List T) : (l.foldl push (s.setActual v)).actual = v ++ l ∧
    (l.foldl push (s.setActual v)).debugMode = s.debugMode ∧ (l.foldl push (s.setActual v)).printMaxIndex = s.printMaxIndex := by
  induction l using List.reverseRecOn with
  | nil => exact ⟨by simp [setActual], rfl, rfl⟩
  | append_singleton l a ih => simp [push, ih]

end

/-! ## The element types -/

section
variable {K : Type} [Field K] [LinearOrder K] [IsStrictOrderedRing K] [RootOps K]

theorem floatCompare_iff (a e : Ex K) : floatCompare a e = true ↔ Close (some a) (some e) := by
  have lit5 : (lit (1 / 100000) : Ex K) = fin (1 / 100000) := by simp
  have hfin (x y : K) : floatCompare (fin x : Ex K) (fin y) = true ↔ |x - y| < 1 / 100000 := by
    unfold floatCompare compareWithPrecision
    rw [lit5, fin_sub, fin_abs, fin_lt, decide_eq_true_eq]
  have hno {a e : Ex K} (h : (∀ x, a ≠ fin x) ∨ (∀ y, e ≠ fin y)) : ¬ Close (some a) (some e) := by
    rintro ⟨x, y, h1, h2, _⟩
    exact h.elim (fun h => h x h1) (fun h => h y h2)
  match a, e with
  | .fin x, .fin y =>
    refine (hfin x y).trans ⟨fun h => ⟨x, y, rfl, rfl, h⟩, ?_⟩
    rintro ⟨x', y', h1, h2, h⟩
    have h1 : x = x' := fin_inj.mp h1
    have h2 : y = y' := fin_inj.mp h2
    rw [h1, h2]; exact h
  | .nan, _ => exact iff_of_false (by cases ‹Ex K› <;> exact Bool.false_ne_true) (hno (Or.inl fun x h => by cases h))
  | .pinf, e => exact iff_of_false (by cases e <;> exact Bool.false_ne_true) (hno (Or.inl fun x h => by cases h))
  | .ninf, e => exact iff_of_false (by cases e <;> exact Bool.false_ne_true) (hno (Or.inl fun x h => by cases h))
  | .fin x, .nan => exact iff_of_false Bool.false_ne_true (hno (Or.inr fun x h => by cases h))
  | .fin x, .pinf => exact iff_of_false Bool.false_ne_true (hno (Or.inr fun x h => by cases h))
  | .fin x, .ninf => exact iff_of_false Bool.false_ne_true (hno (Or.inr fun x h => by cases h))

theorem optFloatCompare_iff (a e : Option (Ex K)) : optFloatCompare a e = true ↔ Close a e := by
  cases a <;> cases e
  · exact iff_of_true rfl trivial
  · exact iff_of_false (by simp [optFloatCompare]) id
  · exact iff_of_false (by simp [optFloatCompare]) id
  · exact floatCompare_iff _ _

private theorem passes_forall₂ {T : Type} {s : ArraySnapshot T} (hd : s.debugMode = false) (e : List T) {cmp : T → T → Bool}
    {R : T → T → Prop} (hR : ∀ a b, cmp a b = true ↔ R a b) : (s.assertIter e cmp).2 = .ok () ↔ List.Forall₂ R s.actual e := by
  rw [C76_passes hd, List.forall₂_iff_get]
  refine and_congr Iff.rfl ⟨fun h i h1 h2 => ?_, fun h i ⟨x, y, h1, h2, h3⟩ => ?_⟩
  · rw [← hR]
    by_contra hc
    exact h i ⟨_, _, List.getElem?_eq_getElem h1, List.getElem?_eq_getElem h2, by simpa using hc⟩
  · obtain ⟨l1, e1⟩ := List.getElem?_eq_some_iff.mp h1
    obtain ⟨l2, e2⟩ := List.getElem?_eq_some_iff.mp h2
    have := h i l1 l2
    simp only [List.get_eq_getElem, e1, e2] at this
    rw [← hR] at this
    rw [this] at h3
    cases h3

/-- **C76.** A snapshot of optional numbers passes exactly if both series have the same length and at every index both values are
missing, or both are (finite) numbers less than 0.00001 apart.  In particular a NaN or infinite output never matches, not even itself. -/
theorem C76_floats {s : ArraySnapshot (Option (Ex K))} (hd : s.debugMode = false) (e : List (Option (Ex K))) :
    (s.assertIter e optFloatCompare).2 = .ok () ↔ List.Forall₂ Close s.actual e :=
  passes_forall₂ hd e optFloatCompare_iff

/-- **C76.** The comparisons of tuples compare every component (two missing tuples match, a missing one and a present one do not) ... -/
theorem C76_tuples (a b a' b' : Option (Ex K)) (f f' : Bool) (p p' : Option (Ex K × Ex K))
    (t t' : Option (Option (Ex K) × Option (Ex K) × Option (Ex K))) (q q' : Option (Option (Ex K) × Option (Ex K) × Option (Ex K) × Option (Ex K))) :
    (tripleBoolCompare (a, b, f) (a', b', f') = true ↔ Close a a' ∧ Close b b' ∧ f = f') ∧
    (pairCompare p p' = true ↔ Option.Rel (fun x y => Close (some x.1) (some y.1) ∧ Close (some x.2) (some y.2)) p p') ∧
    (optTripleCompare t t' = true ↔ Option.Rel (fun x y => Close x.1 y.1 ∧ Close x.2.1 y.2.1 ∧ Close x.2.2 y.2.2) t t') ∧
    (optQuadCompare q q' = true ↔
      Option.Rel (fun x y => Close x.1 y.1 ∧ Close x.2.1 y.2.1 ∧ Close x.2.2.1 y.2.2.1 ∧ Close x.2.2.2 y.2.2.2) q q') := by
  refine ⟨?_, ?_, ?_, ?_⟩
  · simp only [tripleBoolCompare, Bool.and_eq_true, optFloatCompare_iff, decide_eq_true_eq, and_assoc]
  · cases p <;> cases p' <;> simp [pairCompare, floatCompare_iff]
  · cases t <;> cases t' <;> simp [optTripleCompare, optFloatCompare_iff, and_assoc]
  · cases q <;> cases q' <;> simp [optQuadCompare, optFloatCompare_iff, and_assoc]

/-- **C76.** ... except that of pairs of optional numbers, which looks at the first component only: an assertion on such pairs passes
exactly if at every index both pairs are missing or the first components are close, whatever the second ones are. -/
theorem C76_second_ignored {s : ArraySnapshot (Option (Option (Ex K) × Option (Ex K)))} (hd : s.debugMode = false)
    (e : List (Option (Option (Ex K) × Option (Ex K)))) :
    (s.assertIter e optPairCompare).2 = .ok () ↔ List.Forall₂ (Option.Rel fun x y => Close x.1 y.1) s.actual e :=
  passes_forall₂ hd e fun a b => by cases a <;> cases b <;> simp [optPairCompare, optFloatCompare_iff]

/-- **C76.** Snapshots of optional integers, booleans and trade directions pass exactly if the series are the same. -/
theorem C76_equal {β : Type} [DecidableEq β] {s : ArraySnapshot (Option β)} (hd : s.debugMode = false) (e : List (Option β)) :
    (s.assertIter e optEqCompare).2 = .ok () ↔ s.actual = e := by
  rw [passes_forall₂ hd e (R := Eq) fun a b => by cases a <;> cases b <;> simp [optEqCompare], List.forall₂_eq_eq_eq]

/-- **C76.** A fresh snapshot checks strictly; after `debug_mode` or `debug_mode_max m` the recorded values are still the same, values that
differ no longer fail the test, and the values before the first difference are listed, with `debug_mode_max m` only the first `m`. -/
theorem C76_modes {T : Type} {s : ArraySnapshot T} (cmp : T → T → Bool) (e : List T) (m : Nat) :
    s.debug.actual = s.actual ∧ (s.debugMax m).actual = s.actual ∧
    ((s.debug.assertIter e cmp).2 = .ok () ↔ s.actual.length = e.length) ∧
    (((s.debugMax m).assertIter e cmp).2 = .ok () ↔ s.actual.length = e.length) ∧
    (s.actual.length = e.length → s.printMaxIndex = none → ∀ k,
      (.value k ∈ (s.debug.assertIter e cmp).1 ↔ k < s.actual.length ∧ ∀ l, l ≤ k → ¬ DiffersAt cmp s.actual e l)) ∧
    (s.actual.length = e.length → ∀ k,
      (.value k ∈ ((s.debugMax m).assertIter e cmp).1 ↔ k < s.actual.length ∧ (∀ l, l ≤ k → ¬ DiffersAt cmp s.actual e l) ∧ k < m)) := by
  refine ⟨rfl, rfl, C76_debug rfl, C76_debug rfl, fun hl hp k => ?_, fun hl k => ?_⟩
  · rw [C76_debug_lines (s := s.debug) hl]
    simp [debug, hp]
  · rw [C76_debug_lines (s := s.debugMax m) hl]
    simp [debugMax, debug]

/-- **C76.** Series of different lengths fail before anything is printed, in either mode. -/
theorem C76_lengths {T : Type} {s : ArraySnapshot T} {cmp : T → T → Bool} {e : List T} (hl : s.actual.length ≠ e.length) :
    s.assertIter e cmp = ([], .error .assertFailed) := by
  unfold assertIter; rw [if_pos hl]

/-- A snapshot that matches although every second component is wrong. -/
example : ((⟨false, none, [some (some (fin 1), some (fin 2)), some (none, some (fin 5))]⟩ : ArraySnapshot (Option (Option (Ex ℚ) × Option (Ex ℚ)))).assertIter
    [some (some (fin 1), none), some (none, some (fin 7))] optPairCompare) = ([], .ok ()) := by decide +kernel

/-- A snapshot that fails at index 1. -/
example : ((⟨false, none, [some (fin 1), some (fin 2), none]⟩ : ArraySnapshot (Option (Ex ℚ))).assertIter
    [some (fin 1), some (fin (21 / 10)), none] optFloatCompare) = ([.mismatch 1], .error .explicit) := by decide +kernel

end
end Pace
