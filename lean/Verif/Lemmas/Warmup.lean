import Verif.Spec.Warmup
import Verif.Lemmas.TaRuns2
import Verif.Lemmas.Trace

/-!
# When the outputs of the ta components become available

For every number type: nothing here depends on the values, only on which inputs are present.
-/

set_option linter.unusedSectionVars false

namespace Pace
open Spec
variable {α β γ δ : Type} [F64 α]

theorem Spec.StartsAt.some (x : Nat → β) : StartsAt 0 (fun t => some (x t)) := fun t => by simp

theorem Spec.StartsAt.silent {s : Nat} {y : Nat → Option β} (h : StartsAt s y) : SilentBefore s y := fun t ht => by
  have := h t
  cases e : y t with
  | none => rfl
  | some v => rw [e] at this; simp at this; omega

theorem Spec.StartsAt.stays {s : Nat} {y : Nat → Option β} (h : StartsAt s y) : Stays y := fun t ht => by
  rw [h] at *; omega

theorem Spec.StartsAt.map {s : Nat} {y : Nat → Option β} (h : StartsAt s y) (f : Nat → β → γ) :
    StartsAt s (fun t => (y t).map (f t)) := fun t => by simp [h t]

theorem Spec.StartsAt.congr {s : Nat} {y : Nat → Option β} {z : Nat → Option γ} (h : StartsAt s y)
    (e : ∀ t, (z t).isSome = (y t).isSome) : StartsAt s z := fun t => by rw [e]; exact h t

theorem isSome_opt2 (f : β → γ → δ) (a : Option β) (b : Option γ) : (opt2 f a b).isSome = (a.isSome && b.isSome) := by
  cases a <;> cases b <;> rfl
theorem isSome_opt3 {ε : Type} (f : β → γ → δ → ε) (a : Option β) (b : Option γ) (c : Option δ) :
    (opt3 f a b c).isSome = (a.isSome && b.isSome && c.isSome) := by
  cases a <;> cases b <;> cases c <;> rfl

theorem Spec.StartsAt.opt2 {s r : Nat} {y : Nat → Option β} {z : Nat → Option γ} (h : StartsAt s y) (g : StartsAt r z)
    (f : β → γ → δ) : StartsAt (max s r) (fun t => Pace.opt2 f (y t) (z t)) := fun t => by
  rw [isSome_opt2, Bool.and_eq_true, h, g]; omega

theorem Spec.StartsAt.opt3 {ε : Type} {s r q : Nat} {y : Nat → Option β} {z : Nat → Option γ} {w : Nat → Option δ} (h : StartsAt s y)
    (g : StartsAt r z) (k : StartsAt q w) (f : β → γ → δ → ε) :
    StartsAt (max s (max r q)) (fun t => Pace.opt3 f (y t) (z t) (w t)) := fun t => by
  rw [isSome_opt3, Bool.and_eq_true, Bool.and_eq_true, h, g, k]; omega

theorem Spec.StartsAt.prev {s : Nat} {y : Nat → Option β} (h : StartsAt s y) : StartsAt (s + 1) (Spec.prev y) := fun t => by
  cases t with
  | zero => simp [Spec.prev]
  | succ t => rw [Spec.prev, h]; omega

theorem Spec.StartsAt.cast {s r : Nat} {y : Nat → Option β} (h : StartsAt s y) (e : s = r) : StartsAt r y := e ▸ h

theorem Spec.SilentBefore.mono {s r : Nat} {y : Nat → Option β} (h : SilentBefore s y) (hr : r ≤ s) : SilentBefore r y :=
  fun t ht => h t (by omega)

theorem Spec.SilentBefore.bind {s : Nat} {y : Nat → Option β} (h : SilentBefore s y) (f : Nat → β → Option γ) :
    SilentBefore s (fun t => (y t).bind (f t)) := fun t ht => by simp [h t ht]

theorem Spec.SilentBefore.map {s : Nat} {y : Nat → Option β} (h : SilentBefore s y) (f : Nat → β → γ) :
    SilentBefore s (fun t => (y t).map (f t)) := fun t ht => by simp [h t ht]

theorem Spec.SilentBefore.opt2_left {s : Nat} {y : Nat → Option β} (h : SilentBefore s y) (z : Nat → Option γ) (f : Nat → β → γ → δ) :
    SilentBefore s (fun t => Pace.opt2 (f t) (y t) (z t)) := fun t ht => by
  show Pace.opt2 _ _ _ = none
  rw [h t ht]; cases z t <;> rfl

theorem Spec.SilentBefore.opt2_right {s : Nat} {z : Nat → Option γ} (h : SilentBefore s z) (y : Nat → Option β) (f : Nat → β → γ → δ) :
    SilentBefore s (fun t => Pace.opt2 (f t) (y t) (z t)) := fun t ht => by
  show Pace.opt2 _ _ _ = none
  rw [h t ht]; cases y t <;> rfl

theorem Spec.SilentBefore.join {s : Nat} {y : Nat → Option (Option β)} (h : SilentBefore s y) :
    SilentBefore s (fun t => (y t).join) := fun t ht => by simp [h t ht]

theorem Spec.SilentBefore.safeDiv_left {s : Nat} {y : Nat → Option α} (h : SilentBefore s y) (z : Nat → Option α) :
    SilentBefore s (fun t => safeDiv (y t) (z t)) := (h.opt2_left z (fun _ => _)).join

theorem Spec.SilentBefore.safeDiv_right {s : Nat} {z : Nat → Option α} (h : SilentBefore s z) (y : Nat → Option α) :
    SilentBefore s (fun t => safeDiv (y t) (z t)) := (h.opt2_right y (fun _ => _)).join

theorem Spec.SilentBefore.prev {s : Nat} {y : Nat → Option β} (h : SilentBefore s y) : SilentBefore (s + 1) (Spec.prev y) := fun t ht => by
  cases t with
  | zero => rfl
  | succ t => exact h t (by omega)

/-! ## Windows -/

theorem windowPresent_startsAt {s len : Nat} {x : Nat → Option α} (h : StartsAt s x) (hlen : 1 ≤ len) (t : Nat) :
    (len ≤ t + 1 ∧ WindowPresent x len t) ↔ s + len - 1 ≤ t := by
  constructor
  · rintro ⟨h1, h2⟩
    have := (h (t + 1 - len)).mp (h2 _ (by omega) (by omega))
    omega
  · intro h1
    exact ⟨by omega, fun k hk hk' => (h k).mpr (by omega)⟩

theorem windowPresent_silent {s len : Nat} {x : Nat → Option α} (h : SilentBefore s x) (hlen : 1 ≤ len) {t : Nat}
    (ht : t < s + len - 1) : ¬ (len ≤ t + 1 ∧ WindowPresent x len t) := by
  rintro ⟨h1, h2⟩
  have := h2 (t + 1 - len) (by omega) (by omega)
  rw [h _ (by omega)] at this; simp at this

theorem Spec.StartsAt.sma0 {s len : Nat} {x : Nat → Option α} (h : StartsAt s x) (hlen : 1 ≤ len) :
    StartsAt (s + len - 1) (Pace.sma0 len x) := fun t => by
  unfold Pace.sma0
  split
  · next e => subst e; rw [h]; omega
  · rw [← windowPresent_startsAt h hlen t]; split <;> simp_all

theorem Spec.SilentBefore.sma0 {s len : Nat} {x : Nat → Option α} (h : SilentBefore s x) (hlen : 1 ≤ len) :
    SilentBefore (s + len - 1) (Pace.sma0 len x) := fun t ht => by
  unfold Pace.sma0
  split
  · next e => subst e; exact h t (by omega)
  · rw [if_neg (windowPresent_silent h hlen ht)]

theorem Spec.StartsAt.sum0 {s len : Nat} {x : Nat → Option α} (h : StartsAt s x) (hlen : 1 ≤ len) :
    StartsAt (s + len - 1) (Pace.sum0 len x) := fun t => by
  unfold Pace.sum0
  rw [← windowPresent_startsAt h hlen t]; split <;> simp_all

theorem Spec.SilentBefore.sum0 {s len : Nat} {x : Nat → Option α} (h : SilentBefore s x) (hlen : 1 ≤ len) :
    SilentBefore (s + len - 1) (Pace.sum0 len x) := fun t ht => by
  unfold Pace.sum0
  rw [if_neg (windowPresent_silent h hlen ht)]

theorem Spec.Stays.emaOk {x : Nat → Option α} (h : Stays x) (len N : Nat) (hlen : 1 ≤ len) : EmaOk len x N := by
  refine Or.inr fun t _ ⟨s, h1, h2, h3⟩ => ?_
  have h0 : (x s).isSome := h3 s (le_refl _) (by omega)
  clear h2 h3
  have : ∀ k, (x (s + k)).isSome := fun k => by
    induction k with
    | zero => exact h0
    | succ k ih => exact h _ ih
  have := this (t + 1 - s)
  rwa [show s + (t + 1 - s) = t + 1 by omega] at this

theorem Spec.StartsAt.ema0 {s len : Nat} {x : Nat → Option α} (h : StartsAt s x) (hlen : 1 ≤ len) (a : α) :
    StartsAt (s + len - 1) (Pace.ema0 len a x) := fun t => by
  by_cases h1 : len = 1
  · subst h1
    cases t with
    | zero => exact h.sma0 hlen 0
    | succ t => rw [Pace.ema0, if_pos rfl, h]; omega
  · have hs := h.sma0 (α := α) hlen
    induction t with
    | zero => exact hs 0
    | succ t ih =>
      rw [Pace.ema0, if_neg h1]
      cases e : Pace.ema0 len a x t with
      | none => exact hs (t + 1)
      | some p =>
        rw [e] at ih
        simp at ih
        simp only [Option.isSome_map, h (t + 1)]
        omega

theorem Spec.SilentBefore.ema0 {s len : Nat} {x : Nat → Option α} (h : SilentBefore s x) (hlen : 1 ≤ len) (a : α) :
    SilentBefore (s + len - 1) (Pace.ema0 len a x) := fun t => by
  have hs := h.sma0 (α := α) hlen
  induction t with
  | zero => exact hs 0
  | succ t ih =>
    intro ht
    rw [Pace.ema0]
    split
    · next e => subst e; exact h _ (by omega)
    · rw [ih (by omega)]; exact hs _ ht

theorem Spec.Stays.ema0 {len : Nat} {x : Nat → Option α} (h : Stays x) (hlen : 1 ≤ len) (a : α) : Stays (Pace.ema0 len a x) := fun t ht => by
  by_cases h1 : len = 1
  · subst h1
    have : (x t).isSome := by
      cases t with
      | zero => simpa [Pace.ema0, Pace.sma0] using ht
      | succ t => simpa [Pace.ema0] using ht
    rw [Pace.ema0, if_pos rfl]; exact h t this
  · obtain ⟨p, hp⟩ := Option.isSome_iff_exists.mp ht
    obtain ⟨v, hv⟩ := (h.emaOk len (t + 2) hlen).input (t := t + 1) (alpha := a) h1 (by omega) hp
    rw [Pace.ema0, if_neg h1, hp, hv]; rfl

theorem Spec.StartsAt.rma0 {s len : Nat} {x : Nat → Option α} (h : StartsAt s x) (hlen : 1 ≤ len) :
    StartsAt (s + len - 1) (Pace.rma0 len x) := h.ema0 hlen _

theorem allSome_win_isSome {s len : Nat} {x : Nat → Option α} (h : StartsAt s x) (hlen : 1 ≤ len) {t : Nat} (hl : len ≤ t + 1) :
    (allSome (win x len t)).isSome ↔ s + len - 1 ≤ t := by
  rw [allSome_isSome]
  constructor
  · intro ha
    have := ha (x (t + 1 - len)) ((mem_win hl).mpr ⟨_, le_refl _, by omega, rfl⟩)
    rw [h] at this; omega
  · intro hs o ho
    obtain ⟨k, h1, h2, rfl⟩ := (mem_win hl).mp ho
    rw [h]; omega

theorem Spec.StartsAt.wma0 {s len : Nat} {x : Nat → Option α} (h : StartsAt s x) (hlen : 1 ≤ len) :
    StartsAt (s + len - 1) (Pace.wma0 len x) := fun t => by
  unfold Pace.wma0
  split
  · next hl => rw [Option.isSome_map, allSome_win_isSome h hlen hl]
  · simp; omega

theorem allSome_win_silent {s len : Nat} {x : Nat → Option α} (h : SilentBefore s x) (hlen : 1 ≤ len) {t : Nat} (hl : len ≤ t + 1)
    (ht : t < s + len - 1) : allSome (win x len t) = none :=
  allSome_eq_none.mpr ((mem_win hl).mpr ⟨t + 1 - len, le_refl _, by omega, h _ (by omega)⟩)

theorem Spec.SilentBefore.wma0 {s len : Nat} {x : Nat → Option α} (h : SilentBefore s x) (hlen : 1 ≤ len) :
    SilentBefore (s + len - 1) (Pace.wma0 len x) := fun t ht => by
  unfold Pace.wma0
  split
  · next hl => rw [allSome_win_silent h hlen hl ht]; rfl
  · rfl

theorem Spec.StartsAt.swma0 {s : Nat} {x : Nat → Option α} (h : StartsAt s x) : StartsAt (s + 3) (Pace.swma0 x) := fun t => by
  unfold Pace.swma0
  split
  · next hl =>
    have h1 := allSome_win_isSome h (by omega) hl
    rw [show s + 4 - 1 = s + 3 by omega] at h1
    rw [← h1]
    cases e : allSome (win x 4 t) with
    | none => simp
    | some v =>
      have h2 : v.length = 4 := by
        rw [allSome_eq_some] at e
        have := congrArg List.length e
        simp [win] at this; omega
      match v, h2 with
      | [a, b, c, e], _ => simp
  · simp; omega

theorem Spec.SilentBefore.swma0 {s : Nat} {x : Nat → Option α} (h : SilentBefore s x) : SilentBefore (s + 3) (Pace.swma0 x) := fun t ht => by
  unfold Pace.swma0
  split
  · next hl => rw [allSome_win_silent h (by omega) hl (by omega)]
  · rfl

theorem Spec.StartsAt.dev0 {s len : Nat} {x : Nat → Option α} (h : StartsAt s x) (hlen : 2 ≤ len) :
    StartsAt (s + len - 1) (Pace.dev0 len x) := fun t => by
  unfold Pace.dev0
  rw [if_neg (by omega), Option.isSome_map]
  exact h.sma0 (by omega) t

theorem Spec.StartsAt.stdev0 {s len : Nat} {b : Bool} {x : Nat → Option α} (h : StartsAt s x) (hlen : 2 ≤ len) :
    StartsAt (s + len - 1) (Pace.stdev0 len b x) := fun t => by
  unfold Pace.stdev0
  rw [if_neg (by omega), Option.isSome_map]
  exact h.sma0 (by omega) t

theorem Spec.StartsAt.prank0 {s len : Nat} {x : Nat → Option α} (h : StartsAt s x) : StartsAt (max s len) (Pace.prank0 len x) := fun t => by
  unfold Pace.prank0
  split
  · rw [Option.isSome_map, h]; omega
  · simp; omega

theorem Spec.SilentBefore.prank0 {s len : Nat} {x : Nat → Option α} (h : SilentBefore s x) : SilentBefore (max s len) (Pace.prank0 len x) :=
  fun t ht => by
  unfold Pace.prank0
  split
  · rw [h t (by omega)]; rfl
  · rfl

theorem Spec.SilentBefore.lag0 {s len : Nat} {x : Nat → Option α} (h : SilentBefore s x) (f : α → α → α) :
    SilentBefore (s + len) (Pace.lag0 f len x) := fun t ht => by
  unfold Pace.lag0 ago
  split
  · rename_i a b hm _
    split at hm
    · rw [h _ (by omega)] at hm; simp at hm
    · simp at hm
  · rfl

theorem Spec.StartsAt.rsi0 {s len : Nat} {x : Nat → Option α} (h : StartsAt s x) (hlen : 1 ≤ len) :
    StartsAt (s + len) (Pace.rsi0 len x) := by
  have hb : StartsAt (s + 1) (before x) := by rw [before_eq]; exact h.prev
  have hg : StartsAt (max s (s + 1)) (gain0 x) := h.opt2 hb _
  have hl : StartsAt (max s (s + 1)) (loss0 x) := h.opt2 hb _
  exact ((hg.rma0 hlen).opt2 (hl.rma0 hlen) _).cast (by omega)

theorem startsAt_atr0 (h l c : Nat → α) {len : Nat} (hlen : 1 ≤ len) : StartsAt (len - 1) (atr0 len h l c) := by
  have : StartsAt 0 (tr0 true h l c) := fun t => by simp [tr0_isSome]
  exact (this.rma0 hlen).cast (by omega)

theorem startsAt_tr0_false (h l c : Nat → α) : StartsAt 1 (tr0 false h l c) := fun t => by
  cases t <;> simp [tr0]

theorem Spec.SilentBefore.opt3 {ε : Type} {s : Nat} {y : Nat → Option β} {z : Nat → Option γ} {w : Nat → Option δ}
    (h : SilentBefore s y ∨ SilentBefore s z ∨ SilentBefore s w) (f : Nat → β → γ → δ → ε) :
    SilentBefore s (fun t => opt3 (f t) (y t) (z t) (w t)) := fun t ht => by
  show Pace.opt3 (f t) (y t) (z t) (w t) = none
  rcases h with h | h | h <;> rw [h t ht]
  · rfl
  · cases y t <;> rfl
  · cases y t <;> cases z t <;> rfl

theorem Spec.SilentBefore.opt2 {s : Nat} {y : Nat → Option β} {z : Nat → Option γ} (h : SilentBefore s y ∨ SilentBefore s z)
    (f : Nat → β → γ → δ) : SilentBefore s (fun t => opt2 (f t) (y t) (z t)) := by
  rcases h with h | h
  · exact h.opt2_left z f
  · exact h.opt2_right y f

theorem Spec.SilentBefore.safeDiv {s : Nat} {y z : Nat → Option α} (h : SilentBefore s y ∨ SilentBefore s z) :
    SilentBefore s (fun t => Spec.safeDiv (y t) (z t)) := by
  rcases h with h | h
  · exact h.safeDiv_left z
  · exact h.safeDiv_right y

theorem pick_isSome (better : α → α → Bool) {l : List (Option α)} (h : l ≠ []) :
    (pick better l).isSome ↔ ∃ o ∈ l, o.isSome := by
  obtain ⟨i, h1, h2, h3⟩ := findBest_ok better h
  simp only [pick, h1]
  rcases h3 with ⟨m, hm⟩ | ⟨hn, _⟩
  · simp only [hm]
    exact ⟨fun _ => ⟨some m, List.mem_of_getElem? hm, rfl⟩, fun _ => rfl⟩
  · have : l[i]? = some none := by
      rw [List.getElem?_eq_getElem h2, hn _ (List.getElem_mem h2)]
    rw [this]
    constructor
    · intro h; simp at h
    · rintro ⟨o, ho, hs⟩; rw [hn o ho] at hs; simp at hs

theorem startsAt_pick (better : α → α → Bool) {s len : Nat} {x : Nat → Option α} (h : StartsAt s x) (hlen : 1 ≤ len) :
    StartsAt (max s (len - 1)) (fun t => if len ≤ t + 1 then pick better (win x len t) else none) := fun t => by
  dsimp only
  split
  · next hl =>
    rw [pick_isSome better (win_ne_nil x hlen)]
    constructor
    · rintro ⟨o, ho, hs⟩
      obtain ⟨k, h1, h2, rfl⟩ := (mem_win hl).mp ho
      have := (h k).mp hs
      omega
    · intro hs
      exact ⟨x t, (mem_win hl).mpr ⟨t, by omega, le_refl _, rfl⟩, (h t).mpr (by omega)⟩
  · simp; omega

theorem Spec.StartsAt.highest0 {s len : Nat} {x : Nat → Option α} (h : StartsAt s x) (hlen : 1 ≤ len) :
    StartsAt (max s (len - 1)) (Pace.highest0 len x) := startsAt_pick maxB h hlen
theorem Spec.StartsAt.lowest0 {s len : Nat} {x : Nat → Option α} (h : StartsAt s x) (hlen : 1 ≤ len) :
    StartsAt (max s (len - 1)) (Pace.lowest0 len x) := startsAt_pick minB h hlen

theorem startsAt_bars0 (better : α → α → Bool) (x : Nat → Option α) {len : Nat} (hlen : 1 ≤ len) :
    StartsAt (len - 1) (bars0 better len x) := fun t => by
  unfold bars0
  split
  · next hl =>
    obtain ⟨i, h1, _⟩ := findBest_ok better (win_ne_nil x hlen (t := t))
    rw [h1]; simp; omega
  · simp; omega

theorem Spec.SilentBefore.stoch0 {s len : Nat} {v h l : Nat → Option α} (hv : SilentBefore s v) :
    SilentBefore (max s (len - 1)) (Pace.stoch0 len v h l) := fun t => by
  induction t with
  | zero =>
    intro ht
    rw [stoch0_eq]
    by_cases h1 : 0 < s
    · rw [hv 0 h1]; rfl
    · have : Pace.highest0 len h 0 = none := by unfold Pace.highest0; rw [if_neg (by omega)]
      rw [this]; cases v 0 <;> rfl
  | succ t ih =>
    intro ht
    have ih := ih (by omega)
    rw [stoch0_eq]
    simp only [before, ih]
    by_cases h1 : t + 1 < s
    · rw [hv _ h1]; rfl
    · have : Pace.highest0 len h (t + 1) = none := by unfold Pace.highest0; rw [if_neg (by omega)]
      rw [this]; cases v (t + 1) <;> rfl

theorem isSome_opt4 {ε ζ : Type} (f : β → γ → δ → ε → ζ) (a : Option β) (b : Option γ) (c : Option δ) (e : Option ε) :
    (opt4 f a b c e).isSome = (a.isSome && b.isSome && c.isSome && e.isSome) := by
  cases a <;> cases b <;> cases c <;> cases e <;> rfl

end Pace
