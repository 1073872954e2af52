import Verif.Model.Common
import Verif.Lemmas.Series

/-! # Lemmas on the caches and the window validator -/

namespace Pace
variable {β α : Type}

theorem foldl_cache (N : Nat) (vs : List β) :
    vs.foldl WindowCache.next (WindowCache.new N) = ⟨N, vs⟩ := by
  have : ∀ (l acc : List β), l.foldl WindowCache.next ⟨N, acc⟩ = ⟨N, acc ++ l⟩ := by
    intro l
    induction l with
    | nil => simp
    | cons a l ih => intro acc; simp [WindowCache.next, ih]
  simpa [WindowCache.new] using this vs []

theorem foldl_icache (vs : List β) :
    vs.foldl IncrementalCache.next IncrementalCache.new = ⟨vs⟩ := by
  have : ∀ (l acc : List β), l.foldl IncrementalCache.next ⟨acc⟩ = ⟨acc ++ l⟩ := by
    intro l
    induction l with
    | nil => simp
    | cons a l ih => intro acc; simp [IncrementalCache.next, ih]
  simpa [IncrementalCache.new] using this vs []

theorem cache_all (N : Nat) (vs : List β) :
    (⟨N, vs⟩ : WindowCache β).all = .ok (vs.drop (vs.length - N)) := by
  unfold WindowCache.all
  by_cases h : vs.length < N
  · simp [h, slice, show vs.length - N = 0 by omega]
  · simp only [h, if_false, usub_of_le (Nat.le_of_not_lt h), Res.ok_bind, slice]
    rw [if_pos (by omega)]; simp

theorem cache_get (N i : Nat) (vs : List β) :
    (⟨N, vs⟩ : WindowCache β).get i =
      if i < vs.length then .ok (vs.reverse[i]?) else .error .underflow := by
  unfold WindowCache.get
  by_cases h0 : 1 ≤ vs.length
  · by_cases h : i < vs.length
    · simp only [usub_of_le h0, Res.ok_bind, usub_of_le (show i ≤ vs.length - 1 by omega), if_pos h,
        List.getElem?_reverse h]; rfl
    · simp only [usub_of_le h0, Res.ok_bind, usub_of_lt (show vs.length - 1 < i by omega), if_neg h]
      rfl
  · simp only [usub_of_lt (Nat.lt_of_not_le h0), Res.error_bind]
    rw [if_neg (by omega)]

theorem cache_first {N : Nat} (hN : 1 ≤ N) (vs : List β) :
    (⟨N, vs⟩ : WindowCache β).first =
      .ok (if N ≤ vs.length then vs[vs.length - N]? else none) := by
  unfold WindowCache.first
  by_cases h : vs.length < N
  · simp [h, Nat.not_le.mpr h]
  · have h' := Nat.le_of_not_lt h
    simp only [h, if_false, usub_of_le hN, Res.ok_bind, cache_get, h', if_true]
    rw [if_pos (by omega), List.getElem?_reverse (by omega)]
    congr 2; omega

/-! ## A cache holding the history of a series -/

theorem cache_hist_next (N : Nat) (x : Nat → β) (t : Nat) :
    (⟨N, hist x t⟩ : WindowCache β).next (x t) = ⟨N, hist x (t + 1)⟩ := by
  simp [WindowCache.next, hist_succ]

@[simp] theorem cache_hist_isFilled (N : Nat) (x : Nat → β) (t : Nat) :
    (⟨N, hist x t⟩ : WindowCache β).isFilled = decide (N ≤ t) := by
  simp [WindowCache.isFilled]

theorem cache_hist_all {N t : Nat} (x : Nat → β) (h : N ≤ t + 1) :
    (⟨N, hist x (t + 1)⟩ : WindowCache β).all = .ok (win x N t) := by
  rw [cache_all, win_eq_drop x h]; simp

theorem cache_hist_all_short {N t : Nat} (x : Nat → β) (h : t + 1 ≤ N) :
    (⟨N, hist x (t + 1)⟩ : WindowCache β).all = .ok (hist x (t + 1)) := by
  rw [cache_all]; simp [show t + 1 - N = 0 by omega]

@[simp] theorem cache_hist_last (N : Nat) (x : Nat → Option α) (t : Nat) :
    (⟨N, hist x (t + 1)⟩ : WindowCache (Option α)).lastUnwrapped = x t := by
  simp [WindowCache.lastUnwrapped, WindowCache.last, hist_succ', WindowCache.normalizeValue]

theorem cache_hist_first {N : Nat} (hN : 1 ≤ N) (x : Nat → Option α) (t : Nat) :
    (⟨N, hist x (t + 1)⟩ : WindowCache (Option α)).firstUnwrapped = .ok (ago x (N - 1) t) := by
  simp only [WindowCache.firstUnwrapped, cache_first hN, Res.ok_bind, hist_length, Res.pure_eq]
  congr 1
  unfold ago
  by_cases h : N ≤ t + 1
  · rw [if_pos h, if_pos (by omega), hist_getElem?, if_pos (by omega)]
    simp only [WindowCache.normalizeValue]
    congr 1; omega
  · rw [if_neg h, if_neg (by omega)]; rfl

/-! ## WindowValidator -/

/-- State of a validator after `t` ticks. -/
structure ValidatorInv (x : Nat → Option α) (len t : Nat) (s : WindowValidator) : Prop where
  len : s.length = len
  none : s.wasNone = false → ∀ k, k < t → (x k).isSome
  last : s.wasNone = true → s.lastNoneIndex < t ∧ x s.lastNoneIndex = .none ∧
    ∀ k, s.lastNoneIndex < k → k < t → (x k).isSome

theorem WindowPresent.iff_win {x : Nat → Option α} {len t : Nat} (h : len ≤ t + 1) :
    WindowPresent x len t ↔ ∀ o ∈ win x len t, o.isSome := by
  constructor
  · intro hp o ho
    obtain ⟨k, h1, h2, rfl⟩ := (mem_win h).mp ho
    exact hp k h2 (by omega)
  · intro hp k h1 h2
    exact hp _ ((mem_win h).mpr ⟨k, by omega, h1, rfl⟩)

theorem WindowPresent.allSome {x : Nat → Option α} {len t : Nat} (h : len ≤ t + 1)
    (hp : WindowPresent x len t) : ∃ v, allSome (win x len t) = some v :=
  Option.isSome_iff_exists.mp (allSome_isSome.mpr ((WindowPresent.iff_win h).mp hp))

theorem not_windowPresent_allSome {x : Nat → Option α} {len t : Nat} (h : len ≤ t + 1)
    (hp : ¬ WindowPresent x len t) : Pace.allSome (win x len t) = none := by
  by_contra hc
  exact hp ((WindowPresent.iff_win h).mpr (allSome_isSome.mp
    (Option.isSome_iff_ne_none.mpr hc)))

theorem validator_init (x : Nat → Option α) {len : Nat} (h : 1 ≤ len) :
    ∃ s, WindowValidator.new len = .ok s ∧ ValidatorInv x len 0 s :=
  ⟨⟨len, 0, false⟩, by simp [WindowValidator.new, h],
    ⟨rfl, by intro _ k hk; omega, by simp⟩⟩

theorem validator_step {d : DataProvider α} {x : Nat → Option α} {len t : Nat}
    (hlen : 1 ≤ len) {s : WindowValidator} (h : ValidatorInv x len t s) :
    ∃ s', s.next ⟨d, t⟩ (x t) = .ok (decide (WindowPresent x len t), s') ∧
      ValidatorInv x len (t + 1) s' := by
  obtain ⟨h1, h2, h3⟩ := h
  unfold WindowValidator.next
  cases hx : x t with
  | none =>
    refine ⟨{ s with lastNoneIndex := t, wasNone := true }, ?_, ⟨h1, by simp, ?_⟩⟩
    · have : ¬ WindowPresent x len t := fun hp => by
        have := hp t (le_refl _) (by omega); simp [hx] at this
      simp [this]
    · intro _
      refine ⟨by simp, hx, ?_⟩
      intro k hk1 hk2
      simp only at hk1; omega
  | some v =>
    cases hw : s.wasNone with
    | false =>
      refine ⟨s, ?_, ⟨h1, ?_, ?_⟩⟩
      · have : WindowPresent x len t := fun k hk _ => by
          rcases Nat.lt_or_ge k t with hkt | hkt
          · exact h2 hw k hkt
          · rw [show k = t by omega, hx]; rfl
        simp [this]
      · intro _ k hk
        rcases Nat.lt_or_ge k t with hkt | hkt
        · exact h2 hw k hkt
        · rw [show k = t by omega, hx]; rfl
      · intro hw'; rw [hw] at hw'; simp at hw'
    | true =>
      obtain ⟨h4, h5, h6⟩ := h3 hw
      have hpres : ∀ k, s.lastNoneIndex < k → k ≤ t → (x k).isSome := fun k hk1 hk2 => by
        rcases Nat.lt_or_ge k t with hkt | hkt
        · exact h6 k hk1 hkt
        · rw [show k = t by omega, hx]; rfl
      refine ⟨s, ?_, ⟨h1, ?_, ?_⟩⟩
      · have hiff : (len ≤ t - s.lastNoneIndex) ↔ WindowPresent x len t := by
          constructor
          · intro hl k hk1 hk2
            exact hpres k (by omega) hk1
          · intro hp
            by_contra hc
            have := hp s.lastNoneIndex (by omega) (by omega)
            rw [h5] at this; simp at this
        simp [usub_of_le h4.le, h1, hiff]
      · intro hw'; rw [hw] at hw'; simp at hw'
      · intro _
        exact ⟨by omega, h5, fun k hk1 hk2 => hpres k hk1 (by omega)⟩

end Pace
