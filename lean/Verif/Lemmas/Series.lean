import Verif.Spec.Series
import Mathlib.Tactic.Linarith
import Mathlib.Data.List.Basic

/-! # Lemmas on runs, windows and histories -/

namespace Pace
variable {S I O β γ : Type}

/-! ## Runs and invariants -/

/-- `Inv` witnesses that `step` started in `s` returns `y` on inputs `x` for `N` ticks. -/
structure Impl (step : Nat → S → I → Res (O × S)) (s : S) (x : Nat → I) (N : Nat) (y : Nat → O)
    (Inv : Nat → S → Prop) : Prop where
  init : Inv 0 s
  step : ∀ t s, t < N → Inv t s → ∃ s', step t s (x t) = .ok (y t, s') ∧ Inv (t + 1) s'

theorem Impl.runs {step : Nat → S → I → Res (O × S)} {s : S} {x : Nat → I} {N : Nat} {y : Nat → O}
    {Inv : Nat → S → Prop} (h : Impl step s x N y Inv) : Runs step (.ok s) x N y :=
  outputs_eq Inv N s h.init h.step

theorem runFrom_append (step : Nat → S → I → Res (O × S)) (x : Nat → I) (m : Nat) :
    ∀ n t s, runFrom step x t (n + m) s =
      (do let (a, s') ← runFrom step x t n s
          let (b, s'') ← runFrom step x (t + n) m s'
          return (a ++ b, s'')) := by
  intro n
  induction n with
  | zero =>
    intro t s
    simp only [Nat.zero_add, runFrom, Res.ok_bind, Nat.add_zero, List.nil_append]
    cases runFrom step x t m s <;> rfl
  | succ n ih =>
    intro t s
    rw [show n + 1 + m = (n + m) + 1 by omega]
    simp only [runFrom]
    cases h : step t s (x t) with
    | error e => rfl
    | ok p =>
      simp only [Res.ok_bind, ih, show t + 1 + n = t + (n + 1) by omega]
      cases runFrom step x (t + 1) n p.2 with
      | error e => rfl
      | ok q =>
        simp only [Res.ok_bind, Res.pure_eq]
        cases runFrom step x (t + (n + 1)) m q.2 <;> rfl

theorem runFrom_length (step : Nat → S → I → Res (O × S)) (x : Nat → I) :
    ∀ n t s os s', runFrom step x t n s = .ok (os, s') → os.length = n := by
  intro n
  induction n with
  | zero => intro t s os s' h; simp [runFrom] at h; simp [h.1.symm]
  | succ n ih =>
    intro t s os s' h
    simp only [runFrom] at h
    cases h1 : step t s (x t) with
    | error e => simp [h1] at h
    | ok p =>
      simp only [h1, Res.ok_bind] at h
      cases h2 : runFrom step x (t + 1) n p.2 with
      | error e => simp [h2] at h
      | ok q =>
        simp only [h2, Res.ok_bind, Res.pure_eq, Except.ok.injEq, Prod.mk.injEq] at h
        rw [← h.1, List.length_cons, ih _ _ _ _ (show _ = Except.ok (q.1, q.2) from h2)]

/-- A successful run yields an invariant: the state reached by the run. -/
theorem Runs.impl {step : Nat → S → I → Res (O × S)} {s0 : Res S} {x : Nat → I} {N : Nat}
    {y : Nat → O} (h : Runs step s0 x N y) :
    ∃ s Inv, s0 = .ok s ∧ Impl step s x N y Inv := by
  unfold Runs outputs at h
  cases hs0 : s0 with
  | error e => simp [hs0] at h
  | ok s =>
    refine ⟨s, fun t s' => runFrom step x 0 t s = .ok ((List.range t).map y, s'), rfl, ?_, ?_⟩
    · simp [runFrom]
    · intro t s1 htN h1
      simp only [hs0, Res.ok_bind, run] at h
      cases hN : runFrom step x 0 N s with
      | error e => simp [hN] at h
      | ok p =>
        simp only [hN, Res.ok_bind, Res.pure_eq, Except.ok.injEq] at h
        obtain ⟨m, rfl⟩ : ∃ m, N = t + (1 + m) := ⟨N - t - 1, by omega⟩
        have h2 := hN
        rw [runFrom_append, h1] at h2
        simp only [Res.ok_bind, Res.pure_eq, Nat.zero_add] at h2
        cases h3 : runFrom step x t (1 + m) s1 with
        | error e => simp [h3] at h2
        | ok q =>
          simp only [h3, Res.ok_bind, Except.ok.injEq] at h2
          rw [show 1 + m = m + 1 by omega] at h3
          simp only [runFrom] at h3
          cases h4 : step t s1 (x t) with
          | error e => simp [h4] at h3
          | ok r =>
            simp only [h4, Res.ok_bind] at h3
            cases h5 : runFrom step x (t + 1) m r.2 with
            | error e => simp [h5] at h3
            | ok u =>
              simp only [h5, Res.ok_bind, Res.pure_eq, Except.ok.injEq] at h3
              have key : r.1 = y t := by
                have e1 : p.1 = (List.range t).map y ++ (r.1 :: u.1) := by
                  rw [← h2, ← h3]
                rw [h] at e1
                have := congrArg (fun l => l[t]?) e1
                simp [show t < t + (1 + m) by omega] at this
                exact this.symm
              refine ⟨r.2, by rw [← key], ?_⟩
              rw [runFrom_append, h1]
              simp [runFrom, h4, List.range_succ, key]

theorem Runs.exists_state {step : Nat → S → I → Res (O × S)} {s0 : Res S} {x : Nat → I} {N : Nat}
    {y : Nat → O} (h : Runs step s0 x N y) : ∃ s, s0 = .ok s := by
  obtain ⟨s, _, hs, _⟩ := h.impl; exact ⟨s, hs⟩

theorem Runs.congr {step : Nat → S → I → Res (O × S)} {s0 : Res S} {x : Nat → I} {N : Nat}
    {y y' : Nat → O} (h : Runs step s0 x N y) (hy : ∀ t, t < N → y t = y' t) :
    Runs step s0 x N y' := by
  unfold Runs at *
  rw [h]
  congr 1
  apply List.map_congr_left
  intro t ht
  exact hy t (List.mem_range.mp ht)

/-- The k-th observed output. -/
theorem Runs.get {step : Nat → S → I → Res (O × S)} {s0 : Res S} {x : Nat → I} {N : Nat}
    {y : Nat → O} (h : Runs step s0 x N y) {os : List O} (ho : outputs step x N s0 = .ok os)
    {t : Nat} (ht : t < N) : os[t]? = some (y t) := by
  rw [h] at ho
  simp only [Except.ok.injEq] at ho
  simp [← ho, ht]

theorem Runs.unique {step : Nat → S → I → Res (O × S)} {s0 : Res S} {x : Nat → I} {N : Nat}
    {y y' : Nat → O} (h : Runs step s0 x N y) (h' : Runs step s0 x N y') :
    ∀ t, t < N → y t = y' t := by
  intro t ht
  have := h'.get h ht
  simpa [ht] using this

/-! ## Histories and windows -/

@[simp] theorem hist_length (x : Nat → β) (n : Nat) : (hist x n).length = n := by simp [hist]
@[simp] theorem hist_zero (x : Nat → β) : hist x 0 = [] := rfl
theorem hist_succ (x : Nat → β) (n : Nat) : hist x n ++ [x n] = hist x (n + 1) := by
  simp [hist, List.range_succ]
theorem hist_succ' (x : Nat → β) (n : Nat) : hist x (n + 1) = hist x n ++ [x n] :=
  (hist_succ x n).symm
theorem hist_getElem? (x : Nat → β) (n i : Nat) :
    (hist x n)[i]? = if i < n then some (x i) else none := by
  simp only [hist, List.getElem?_map]
  split
  · rename_i h; simp [h]
  · rename_i h; simp [h]
theorem hist_map (f : β → γ) (x : Nat → β) (n : Nat) : (hist x n).map f = hist (fun t => f (x t)) n := by
  simp [hist]
theorem hist_congr {x y : Nat → β} {n : Nat} (h : ∀ t, t < n → x t = y t) : hist x n = hist y n := by
  apply List.map_congr_left
  intro t ht; exact h t (List.mem_range.mp ht)

@[simp] theorem win_length (x : Nat → β) (n t : Nat) : (win x n t).length = n := by simp [win]
theorem win_eq_drop (x : Nat → β) {n t : Nat} (h : n ≤ t + 1) :
    win x n t = (hist x (t + 1)).drop (t + 1 - n) := by
  apply List.ext_getElem?
  intro i
  simp only [win, hist, List.getElem?_map, List.getElem?_drop]
  by_cases hi : i < n
  · rw [List.getElem?_range hi, List.getElem?_range (by omega)]; rfl
  · rw [List.getElem?_eq_none (by simp; omega), List.getElem?_eq_none (by simp; omega)]; rfl
theorem win_map (f : β → γ) (x : Nat → β) (n t : Nat) :
    (win x n t).map f = win (fun t => f (x t)) n t := by
  simp [win]
theorem win_congr {x y : Nat → β} {n t : Nat} (hn : n ≤ t + 1)
    (h : ∀ k, t + 1 - n ≤ k → k ≤ t → x k = y k) : win x n t = win y n t := by
  apply List.map_congr_left
  intro i hi
  have := List.mem_range.mp hi
  exact h _ (by omega) (by omega)
theorem win_full (x : Nat → β) (t : Nat) : win x (t + 1) t = hist x (t + 1) := by
  rw [win_eq_drop x (le_refl _)]; simp
theorem mem_win {x : Nat → β} {n t : Nat} (hn : n ≤ t + 1) {b : β} :
    b ∈ win x n t ↔ ∃ k, t + 1 - n ≤ k ∧ k ≤ t ∧ x k = b := by
  simp only [win, List.mem_map, List.mem_range]
  constructor
  · rintro ⟨i, hi, rfl⟩; exact ⟨_, by omega, by omega, rfl⟩
  · rintro ⟨k, h1, h2, rfl⟩; exact ⟨k - (t + 1 - n), by omega, by congr 1; omega⟩
theorem win_getElem? (x : Nat → β) (n t i : Nat) :
    (win x n t)[i]? = if i < n then some (x (t + 1 - n + i)) else none := by
  simp only [win, List.getElem?_map]
  split
  · rename_i h; simp [h]
  · rename_i h; simp [h]

/-- Sliding the window: drop the oldest, append the newest. -/
theorem win_succ (x : Nat → β) {n t : Nat} (h : n ≤ t + 1) :
    win x (n + 1) (t + 1) = win x n t ++ [x (t + 1)] := by
  rw [win_eq_drop x (by omega), win_eq_drop x h, hist_succ' x (t + 1),
    List.drop_append_of_le_length (by simp)]
  congr 2; omega
theorem win_cons (x : Nat → β) {n t : Nat} (h : n + 1 ≤ t + 1) :
    win x (n + 1) t = x (t - n) :: win x n t := by
  simp only [win, List.range_succ_eq_map, List.map_cons, List.map_map]
  congr 1
  · congr 1; omega
  · apply List.map_congr_left
    intro i _
    simp only [Function.comp]
    congr 1; omega

/-! ## allSome -/

@[simp] theorem allSome_nil : allSome ([] : List (Option β)) = some [] := rfl
@[simp] theorem allSome_none (l : List (Option β)) : allSome (none :: l) = none := rfl
@[simp] theorem allSome_some (b : β) (l : List (Option β)) :
    allSome (some b :: l) = (allSome l).map (b :: ·) := rfl

theorem allSome_eq_some {l : List (Option β)} {v : List β} :
    allSome l = some v ↔ l = v.map some := by
  induction l generalizing v with
  | nil => cases v <;> simp
  | cons a l ih =>
    cases a with
    | none => cases v <;> simp
    | some b =>
      cases v with
      | nil => simp
      | cons c v => simp [ih, and_comm]

@[simp] theorem allSome_map_some (v : List β) : allSome (v.map some) = some v :=
  allSome_eq_some.mpr rfl

theorem allSome_eq_none {l : List (Option β)} : allSome l = none ↔ none ∈ l := by
  induction l with
  | nil => simp
  | cons a l ih => cases a <;> simp [ih]

theorem allSome_isSome {l : List (Option β)} : (allSome l).isSome ↔ ∀ o ∈ l, o.isSome := by
  induction l with
  | nil => simp
  | cons a l ih => cases a <;> simp [ih]

theorem allSome_map (f : β → γ) (l : List (Option β)) :
    allSome (l.map (Option.map f)) = (allSome l).map (List.map f) := by
  induction l with
  | nil => rfl
  | cons a l ih =>
    cases a with
    | none => rfl
    | some b => simp [ih, Option.map_map, Function.comp_def]

end Pace
