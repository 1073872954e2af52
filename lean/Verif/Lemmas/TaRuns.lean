import Verif.Lemmas.Cache
import Verif.Lemmas.FindMax
import Verif.Model.Ta

/-!
# Level 0 refinements of the ta components

For each component: the series it computes (same float operations in the same order, but as a function of the input
series), an invariant, the initial state and the step.
-/

namespace Pace
set_option linter.unusedSectionVars false
variable {α : Type} [F64 α]

/-! ## The running sum shared by Sma and Sum -/

/-- The running sum before tick `t`: each tick adds its input and subtracts the one leaving the window. -/
def acc0 (len : Nat) (x : Nat → Option α) : Nat → α
  | 0 => lit 0
  | t + 1 => subOpt (addOpt (acc0 len x t) (x t)) (ago x (len - 1) t)

/-- The sum reported at tick `t`. -/
def rawSum0 (len : Nat) (x : Nat → Option α) (t : Nat) : α := addOpt (acc0 len x t) (x t)

/-! ## Sma -/

def sma0 (len : Nat) (x : Nat → Option α) (t : Nat) : Option α :=
  if len = 1 then x t
  else if len ≤ t + 1 ∧ WindowPresent x len t then some (rawSum0 len x t / lit (len : ℚ)) else none

def SmaInv (len : Nat) (x : Nat → Option α) (t : Nat) (s : Sma α) : Prop :=
  s.length = len ∧ (len ≠ 1 → s.lengthF64 = lit (len : ℚ) ∧ s.sum = acc0 len x t ∧
    s.inputCache = ⟨len, hist x t⟩ ∧ ValidatorInv x len t s.batchValidator)

theorem sma_init (x : Nat → Option α) {len : Nat} (h : 1 ≤ len) :
    ∃ s, Sma.new len = .ok s ∧ SmaInv len x 0 s := by
  obtain ⟨v, hv, hI⟩ := validator_init x h
  refine ⟨_, by simp [Sma.new, h, hv]; rfl, rfl, fun _ => ⟨rfl, rfl, rfl, hI⟩⟩

theorem sma_step {d : DataProvider α} {x : Nat → Option α} {len t : Nat} (hlen : 1 ≤ len) {s : Sma α}
    (h : SmaInv len x t s) :
    ∃ s', s.next ⟨d, t⟩ (x t) = .ok (sma0 len x t, s') ∧ SmaInv len x (t + 1) s' := by
  obtain ⟨h1, h2⟩ := h
  by_cases hl : len = 1
  · exact ⟨s, by simp [Sma.next, h1, hl, sma0], h1, fun h => absurd hl h⟩
  · obtain ⟨ha, hb, hc, hd⟩ := h2 hl
    obtain ⟨v, hv1, hv2⟩ := validator_step (d := d) hlen hd
    refine ⟨{ s with sum := acc0 len x (t + 1), inputCache := ⟨len, hist x (t + 1)⟩,
                     batchValidator := v }, ?_, h1, fun _ => ⟨ha, rfl, rfl, hv2⟩⟩
    unfold Sma.next
    simp only [h1, hl, if_false, hc, cache_hist_next, hv1, Res.ok_bind, cache_hist_isFilled,
      cache_hist_first hlen, cache_hist_last, hb, ha, Res.pure_eq]
    by_cases hf : len ≤ t + 1 ∧ WindowPresent x len t
    · simp [sma0, hl, hf, rawSum0, acc0]
    · simp [sma0, hl, hf, acc0]

theorem sma_runs (d : DataProvider α) {len : Nat} (hlen : 1 ≤ len) (x : Nat → Option α) (N : Nat) :
    Runs (fun t => Sma.next ⟨d, t⟩) (Sma.new len) x N (sma0 len x) := by
  obtain ⟨s, hs, hI⟩ := sma_init x hlen
  rw [hs]
  exact Impl.runs ⟨hI, fun t s _ h => sma_step hlen h⟩

/-! ## Sum -/

def sum0 (len : Nat) (x : Nat → Option α) (t : Nat) : Option α :=
  if len ≤ t + 1 ∧ WindowPresent x len t then some (rawSum0 len x t) else none

def SumInv (len : Nat) (x : Nat → Option α) (t : Nat) (s : Sum α) : Prop :=
  s.length = len ∧ s.sum = acc0 len x t ∧ s.inputCache = ⟨len, hist x t⟩ ∧
    ValidatorInv x len t s.batchValidator

theorem sum_init (x : Nat → Option α) {len : Nat} (h : 1 ≤ len) :
    ∃ s, Sum.new len = .ok s ∧ SumInv len x 0 s := by
  obtain ⟨v, hv, hI⟩ := validator_init x h
  refine ⟨_, by simp [Sum.new, h, hv]; rfl, rfl, rfl, rfl, hI⟩

theorem sum_step {d : DataProvider α} {x : Nat → Option α} {len t : Nat} (hlen : 1 ≤ len) {s : Sum α}
    (h : SumInv len x t s) :
    ∃ s', s.next ⟨d, t⟩ (x t) = .ok (sum0 len x t, s') ∧ SumInv len x (t + 1) s' := by
  obtain ⟨h1, hb, hc, hd⟩ := h
  obtain ⟨v, hv1, hv2⟩ := validator_step (d := d) hlen hd
  refine ⟨{ s with sum := acc0 len x (t + 1), inputCache := ⟨len, hist x (t + 1)⟩,
                   batchValidator := v }, ?_, h1, rfl, rfl, hv2⟩
  unfold Sum.next
  simp only [hc, cache_hist_next, hv1, Res.ok_bind, cache_hist_isFilled,
    cache_hist_first hlen, cache_hist_last, hb, Res.pure_eq]
  by_cases hf : len ≤ t + 1 ∧ WindowPresent x len t
  · simp [sum0, hf, rawSum0, acc0]
  · simp [sum0, hf, acc0]

theorem sum_runs (d : DataProvider α) {len : Nat} (hlen : 1 ≤ len) (x : Nat → Option α) (N : Nat) :
    Runs (fun t => Sum.next ⟨d, t⟩) (Sum.new len) x N (sum0 len x) := by
  obtain ⟨s, hs, hI⟩ := sum_init x hlen
  rw [hs]
  exact Impl.runs ⟨hI, fun t s _ h => sum_step hlen h⟩

/-! ## Ema, Rma -/

/-- Some tick up to `t` saw a complete window of present inputs. -/
def Seeded (len : Nat) (x : Nat → Option α) (t : Nat) : Prop :=
  ∃ s, s ≤ t ∧ len ≤ s + 1 ∧ WindowPresent x len s

/-- No input is missing after the seed (before tick `N`): what an `Ema` of length > 1 needs in order not to panic. -/
def EmaOk (len : Nat) (x : Nat → Option α) (N : Nat) : Prop :=
  len = 1 ∨ ∀ t, t + 1 < N → Seeded len x t → (x (t + 1)).isSome

/-- The output of the previous tick. -/
def before {β : Type} (y : Nat → Option β) : Nat → Option β
  | 0 => none
  | t + 1 => y t

/-- The values of a recursive series that restarts from `seed` whenever there is no previous output. -/
def ema0 (len : Nat) (alpha : α) (x : Nat → Option α) : Nat → Option α
  | 0 => sma0 len x 0
  | t + 1 =>
    if len = 1 then x (t + 1)
    else match ema0 len alpha x t with
    | some p => (x (t + 1)).map fun v => alpha * v + (lit 1 - alpha) * p
    | none => sma0 len x (t + 1)

def EmaInv (len : Nat) (alpha : α) (x : Nat → Option α) (t : Nat) (s : Ema α) : Prop :=
  s.length = len ∧ s.alpha = alpha ∧ (len ≠ 1 → s.prevValue = before (ema0 len alpha x) t ∧
    (before (ema0 len alpha x) t = none → SmaInv len x t s.sma))

theorem ema_init (x : Nat → Option α) {len : Nat} (alpha : α) (h : 1 ≤ len) :
    ∃ s, Ema.withAlpha len alpha = .ok s ∧ EmaInv len alpha x 0 s := by
  obtain ⟨v, hv, hI⟩ := sma_init x h
  exact ⟨_, by simp [Ema.withAlpha, h, hv]; rfl, rfl, rfl, fun _ => ⟨rfl, fun _ => hI⟩⟩

theorem sma0_none_of_lt {len t : Nat} (x : Nat → Option α) (h1 : len ≠ 1) (h : t + 1 < len) :
    sma0 len x t = none := by
  unfold sma0; rw [if_neg h1, if_neg (by omega)]

theorem ema0_isSome_seeded {len : Nat} (h1 : len ≠ 1) {alpha : α} {x : Nat → Option α} :
    ∀ t, (ema0 len alpha x t).isSome → Seeded len x t := by
  have hs : ∀ t, (sma0 len x t).isSome → Seeded len x t := by
    intro t h
    unfold sma0 at h
    rw [if_neg h1] at h
    split at h
    · rename_i hp; exact ⟨t, le_refl _, hp⟩
    · simp at h
  intro t
  induction t with
  | zero => exact hs 0
  | succ t ih =>
    intro h
    unfold ema0 at h
    rw [if_neg h1] at h
    cases hp : ema0 len alpha x t with
    | none => rw [hp] at h; exact hs _ h
    | some p =>
      obtain ⟨s, hs1, hs2⟩ := ih (by rw [hp]; rfl)
      exact ⟨s, by omega, hs2⟩

theorem ema0_seeded {len : Nat} (h1 : len ≠ 1) {a : α} {x : Nat → Option α} {t : Nat}
    (hok : EmaOk len x (t + 1)) (hs : Seeded len x t) : (ema0 len a x t).isSome := by
  induction t with
  | zero =>
    obtain ⟨s, hs1, hs2, hs3⟩ := hs
    obtain rfl : s = 0 := by omega
    show (sma0 len x 0).isSome
    rw [sma0, if_neg h1, if_pos ⟨hs2, hs3⟩]; rfl
  | succ t ih =>
    rw [ema0, if_neg h1]
    have hok' : EmaOk len x (t + 1) := hok.imp id fun h r hr => h r (by omega)
    by_cases hst : Seeded len x t
    · obtain ⟨p, hp⟩ := Option.isSome_iff_exists.mp (ih hok' hst)
      have hx := (hok.resolve_left h1) t (by omega) hst
      rw [hp]; simpa using hx
    · have hn : ema0 len a x t = none := by
        cases he : ema0 len a x t with
        | none => rfl
        | some p => exact absurd (ema0_isSome_seeded (alpha := a) h1 t (by rw [he]; rfl)) hst
      rw [hn]
      obtain ⟨s, hs1, hs2, hs3⟩ := hs
      have : s = t + 1 := by
        by_contra hc; exact hst ⟨s, by omega, hs2, hs3⟩
      subst this
      show (sma0 len x (t + 1)).isSome
      rw [sma0, if_neg h1, if_pos ⟨hs2, hs3⟩]; rfl

theorem EmaOk.input {len : Nat} {alpha : α} {x : Nat → Option α} {N : Nat} (h : EmaOk len x N)
    (h1 : len ≠ 1) {t : Nat} (ht : t < N) {p : α} (hp : before (ema0 len alpha x) t = some p) :
    ∃ v, x t = some v := by
  cases t with
  | zero => simp [before] at hp
  | succ t =>
    apply Option.isSome_iff_exists.mp
    exact (h.resolve_left h1) t ht (ema0_isSome_seeded h1 t (by
      show (ema0 len alpha x t).isSome
      rw [show ema0 len alpha x t = some p from hp]; rfl))

theorem ema_step {d : DataProvider α} {x : Nat → Option α} {len t N : Nat} {alpha : α} (hlen : 1 ≤ len)
    {s : Ema α} (hok : EmaOk len x N) (ht : t < N) (h : EmaInv len alpha x t s) :
    ∃ s', s.next ⟨d, t⟩ (x t) = .ok (ema0 len alpha x t, s') ∧ EmaInv len alpha x (t + 1) s' := by
  obtain ⟨h1, h2, h3⟩ := h
  by_cases hl : len = 1
  · refine ⟨s, ?_, h1, h2, fun h => absurd hl h⟩
    have : ema0 len alpha x t = x t := by
      cases t <;> simp [ema0, sma0, hl]
    simp [Ema.next, h1, hl, ← this]
  · obtain ⟨hp, hI⟩ := h3 hl
    have hlen1 : 1 ≤ len - 1 := by omega
    unfold Ema.next
    simp only [h1, hl, if_false, usub_of_le hlen, Res.ok_bind, Ctx.atLength, usub_of_le hlen1,
      Res.pure_eq]
    cases hb : before (ema0 len alpha x) t with
    | none =>
      obtain ⟨sm, hs1, hs2⟩ := sma_step (d := d) hlen (hI hb)
      have he : ema0 len alpha x t = sma0 len x t := by
        cases t with
        | zero => rfl
        | succ t =>
          have : ema0 len alpha x t = none := hb
          rw [ema0, if_neg hl, this]
      by_cases hat : len - 1 - 1 ≤ t
      · simp only [hat, decide_true, Bool.not_true, Bool.false_eq_true, if_false, hp, hb, hs1,
          Res.ok_bind]
        refine ⟨⟨s.alpha, len, sm, sma0 len x t⟩, by rw [he], rfl, h2, fun _ => ⟨?_, fun _ => hs2⟩⟩
        exact he.symm
      · simp only [hat, decide_false, Bool.not_false, if_true, hs1, Res.ok_bind]
        have hn : ema0 len alpha x t = none := by rw [he, sma0_none_of_lt x hl (by omega)]
        refine ⟨⟨s.alpha, len, sm, s.prevValue⟩, by rw [hn, hp, hb], rfl, h2, fun _ => ⟨?_, fun _ => hs2⟩⟩
        show s.prevValue = ema0 len alpha x t
        rw [hn, hp, hb]
    | some p =>
      obtain ⟨v, hv⟩ := hok.input (alpha := alpha) hl ht hb
      have hat : len - 1 - 1 ≤ t := by
        cases t with
        | zero => simp [before] at hb
        | succ t =>
          obtain ⟨s', hs1, hs2, _⟩ := ema0_isSome_seeded hl t (by
            show (ema0 len alpha x t).isSome
            rw [show ema0 len alpha x t = some p from hb]; rfl)
          omega
      have he : ema0 len alpha x t = some (alpha * v + (lit 1 - alpha) * p) := by
        cases t with
        | zero => simp [before] at hb
        | succ t =>
          have : ema0 len alpha x t = some p := hb
          rw [ema0, if_neg hl, this, hv]; rfl
      simp only [hat, decide_true, Bool.not_true, Bool.false_eq_true, if_false, hp, hb, hv,
        unwrap_some, Res.ok_bind, h2]
      refine ⟨⟨alpha, len, s.sma, some (alpha * v + (lit 1 - alpha) * p)⟩, by rw [he], rfl, rfl, fun _ => ⟨?_, ?_⟩⟩
      · exact he.symm
      · intro hc
        have : ema0 len alpha x t = none := hc
        rw [he] at this; simp at this

theorem ema_runs (d : DataProvider α) {len : Nat} (hlen : 1 ≤ len) (alpha : α) (x : Nat → Option α)
    (N : Nat) (hok : EmaOk len x N) :
    Runs (fun t => Ema.next ⟨d, t⟩) (Ema.withAlpha len alpha) x N (ema0 len alpha x) := by
  obtain ⟨s, hs, hI⟩ := ema_init x alpha hlen
  rw [hs]
  exact Impl.runs ⟨hI, fun t s ht h => ema_step hlen hok ht h⟩

/-- The smoothing factor of `Ema::new`. -/
def emaAlpha (len : Nat) : α := lit 2 / (lit (len : ℚ) + lit 1)
/-- The smoothing factor of `Rma`. -/
def rmaAlpha (len : Nat) : α := lit 1 / lit (len : ℚ)

def RmaInv (len : Nat) (x : Nat → Option α) (t : Nat) (s : Rma α) : Prop :=
  EmaInv len (rmaAlpha len) x t s.ema

/-- The series of `Rma`. -/
def rma0 (len : Nat) (x : Nat → Option α) : Nat → Option α := ema0 len (rmaAlpha len) x

theorem rma_init (x : Nat → Option α) {len : Nat} (h : 1 ≤ len) :
    ∃ s, Rma.new len = .ok s ∧ RmaInv len x 0 s := by
  obtain ⟨v, hv, hI⟩ := ema_init x (rmaAlpha len) h
  exact ⟨⟨len, v⟩, by simp only [Rma.new, h, decide_true, assert_true, Res.ok_bind]; rw [show Ema.withAlpha len (lit 1 / lit (len : ℚ)) = _ from hv]; rfl, hI⟩

theorem rma_step {d : DataProvider α} {x : Nat → Option α} {len t N : Nat} (hlen : 1 ≤ len)
    {s : Rma α} (hok : EmaOk len x N) (ht : t < N) (h : RmaInv len x t s) :
    ∃ s', s.next ⟨d, t⟩ (x t) = .ok (rma0 len x t, s') ∧ RmaInv len x (t + 1) s' := by
  obtain ⟨e, he1, he2⟩ := ema_step (d := d) hlen hok ht h
  exact ⟨{ s with ema := e }, by simp [Rma.next, he1, rma0], he2⟩

theorem rma_runs (d : DataProvider α) {len : Nat} (hlen : 1 ≤ len) (x : Nat → Option α)
    (N : Nat) (hok : EmaOk len x N) :
    Runs (fun t => Rma.next ⟨d, t⟩) (Rma.new len) x N (rma0 len x) := by
  obtain ⟨s, hs, hI⟩ := rma_init x hlen
  rw [hs]
  exact Impl.runs ⟨hI, fun t s ht h => rma_step hlen hok ht h⟩

/-! ## Wma -/

/-- The float fold of `Wma` over the newest-first list of present values. -/
def wmaFold (len : Nat) (v : List α) : α × α :=
  (indexed v).foldl (fun acc iv =>
    let weight : α := lit (((len - iv.1) * len : Nat) : ℚ)
    (acc.1 + iv.2 * weight, acc.2 + weight)) (lit 0, lit 0)

def wma0 (len : Nat) (x : Nat → Option α) (t : Nat) : Option α :=
  if len ≤ t + 1 then
    (allSome (win x len t)).map fun v => let r := wmaFold len v.reverse; r.1 / r.2
  else none

def WmaInv (len : Nat) (x : Nat → Option α) (t : Nat) (s : Wma α) : Prop :=
  s.length = len ∧ s.inputCache = ⟨len, hist x t⟩ ∧ ValidatorInv x len t s.batchValidator

theorem wma_init (x : Nat → Option α) {len : Nat} (h : 1 ≤ len) :
    ∃ s, Wma.new len = .ok s ∧ WmaInv len x 0 s := by
  obtain ⟨v, hv, hI⟩ := validator_init x h
  refine ⟨_, by simp [Wma.new, h, hv]; rfl, rfl, rfl, hI⟩

theorem foldlM_ok {β γ : Type} (f : β → γ → Res β) (g : β → γ → β) (l : List γ) (b : β)
    (h : ∀ a, ∀ c ∈ l, f a c = .ok (g a c)) : l.foldlM f b = .ok (l.foldl g b) := by
  induction l generalizing b with
  | nil => rfl
  | cons c l ih =>
    rw [List.foldlM_cons, h b c (by simp), Res.ok_bind, List.foldl_cons]
    exact ih _ fun a c hc => h a c (List.mem_cons_of_mem _ hc)

theorem indexed_map {β γ : Type} (f : β → γ) (l : List β) :
    indexed (l.map f) = (indexed l).map fun p => (p.1, f p.2) := by
  simp only [indexed, List.length_map]
  rw [List.zip_map_right]; rfl

theorem mem_indexed_lt {β : Type} {l : List β} {p : Nat × β} (h : p ∈ indexed l) : p.1 < l.length := by
  have := (List.of_mem_zip (show (p.1, p.2) ∈ (List.range l.length).zip l from h)).1
  exact List.mem_range.mp this

theorem wma_fold_eq (len : Nat) (v : List α) (h : v.length ≤ len) :
    (indexed (v.map some)).foldlM (Wma.step len) (lit 0, lit 0) = .ok (wmaFold len v) := by
  rw [indexed_map]
  rw [foldlM_ok (g := fun (acc : α × α) (iv : Nat × Option α) =>
    match iv.2 with
    | some val =>
      let weight : α := lit (((len - iv.1) * len : Nat) : ℚ)
      (acc.1 + val * weight, acc.2 + weight)
    | none => acc)]
  · rw [List.foldl_map]; rfl
  · intro a c hc
    obtain ⟨p, hp, rfl⟩ := List.mem_map.mp hc
    have := mem_indexed_lt hp
    simp [Wma.step, usub_of_le (show p.1 ≤ len by omega)]

theorem wma_step {d : DataProvider α} {x : Nat → Option α} {len t : Nat} (hlen : 1 ≤ len) {s : Wma α}
    (h : WmaInv len x t s) :
    ∃ s', s.next ⟨d, t⟩ (x t) = .ok (wma0 len x t, s') ∧ WmaInv len x (t + 1) s' := by
  obtain ⟨h1, hc, hd⟩ := h
  obtain ⟨v, hv1, hv2⟩ := validator_step (d := d) hlen hd
  refine ⟨{ s with inputCache := ⟨len, hist x (t + 1)⟩, batchValidator := v }, ?_, h1, rfl, hv2⟩
  unfold Wma.next
  simp only [hc, cache_hist_next, hv1, Res.ok_bind, Ctx.atLength, h1, usub_of_le hlen, Res.pure_eq]
  by_cases hf : len ≤ t + 1
  · have hf' : len - 1 ≤ t := by omega
    by_cases hp : WindowPresent x len t
    · obtain ⟨w, hw⟩ := hp.allSome hf
      have hw' := allSome_eq_some.mp hw
      have hwl : w.length = len := by
        have := congrArg List.length hw'; simpa using this.symm
      have hcond : (!decide (len - 1 ≤ t) || !decide (WindowPresent x len t)) = false := by
        simp [hf', hp]
      simp only [hcond, Bool.false_eq_true, if_false, cache_hist_all x hf, Res.ok_bind, hw',
        ← List.map_reverse, wma_fold_eq len w.reverse (by simp [hwl])]
      simp [wma0, hf, hw]
    · have hcond : (!decide (len - 1 ≤ t) || !decide (WindowPresent x len t)) = true := by
        simp [hp]
      simp only [hcond, if_true]
      simp [wma0, hf, not_windowPresent_allSome hf hp]
  · have hcond : (!decide (len - 1 ≤ t) || !decide (WindowPresent x len t)) = true := by
      simp; omega
    simp only [hcond, if_true]
    simp [wma0, hf]

theorem wma_runs (d : DataProvider α) {len : Nat} (hlen : 1 ≤ len) (x : Nat → Option α) (N : Nat) :
    Runs (fun t => Wma.next ⟨d, t⟩) (Wma.new len) x N (wma0 len x) := by
  obtain ⟨s, hs, hI⟩ := wma_init x hlen
  rw [hs]
  exact Impl.runs ⟨hI, fun t s _ h => wma_step hlen h⟩

/-! ## Swma -/

def swma0 (x : Nat → Option α) (t : Nat) : Option α :=
  if 4 ≤ t + 1 then
    match allSome (win x 4 t) with
    | some [a, b, c, e] =>
      some (lit 0 + a * (lit 1 / lit 6) + b * (lit 2 / lit 6) + c * (lit 2 / lit 6) + e * (lit 1 / lit 6))
    | _ => none
  else none

def SwmaInv (x : Nat → Option α) (t : Nat) (s : Swma α) : Prop :=
  s.length = 4 ∧ s.inputCache = ⟨4, hist x t⟩ ∧ ValidatorInv x 4 t s.batchValidator

theorem swma_init (x : Nat → Option α) : ∃ s, Swma.new = .ok s ∧ SwmaInv x 0 s := by
  obtain ⟨v, hv, hI⟩ := validator_init x (show 1 ≤ 4 by omega)
  exact ⟨_, by simp [Swma.new, hv]; rfl, rfl, rfl, hI⟩

theorem swma_step {d : DataProvider α} {x : Nat → Option α} {t : Nat} {s : Swma α}
    (h : SwmaInv x t s) :
    ∃ s', s.next ⟨d, t⟩ (x t) = .ok (swma0 x t, s') ∧ SwmaInv x (t + 1) s' := by
  obtain ⟨h1, hc, hd⟩ := h
  obtain ⟨v, hv1, hv2⟩ := validator_step (d := d) (show 1 ≤ 4 by omega) hd
  refine ⟨{ s with inputCache := ⟨4, hist x (t + 1)⟩, batchValidator := v }, ?_, h1, rfl, hv2⟩
  unfold Swma.next
  simp only [hc, cache_hist_next, hv1, Res.ok_bind, Ctx.atLength, h1,
    usub_of_le (show 1 ≤ 4 by omega), Res.pure_eq]
  by_cases hf : 4 ≤ t + 1
  · by_cases hp : WindowPresent x 4 t
    · obtain ⟨w, hw⟩ := hp.allSome hf
      have hw' := allSome_eq_some.mp hw
      have hwl : w.length = 4 := by
        have := congrArg List.length hw'; simpa using this.symm
      have hcond : (!decide (4 - 1 ≤ t) || !decide (WindowPresent x 4 t)) = false := by
        simp [hp]; omega
      match w, hwl with
      | [a, b, c, e], _ =>
        simp only [hcond, Bool.false_eq_true, if_false, cache_hist_all x hf, Res.ok_bind, hw']
        simp only [swma0, hf, if_true, hw]
        rfl
    · have hcond : (!decide (4 - 1 ≤ t) || !decide (WindowPresent x 4 t)) = true := by
        simp [hp]
      simp only [hcond, if_true]
      simp only [swma0, hf, if_true, not_windowPresent_allSome hf hp]
  · have hcond : (!decide (4 - 1 ≤ t) || !decide (WindowPresent x 4 t)) = true := by
      simp; omega
    simp only [hcond, if_true]
    simp only [swma0, hf, if_false]

theorem swma_runs (d : DataProvider α) (x : Nat → Option α) (N : Nat) :
    Runs (fun t => Swma.next ⟨d, t⟩) Swma.new x N (swma0 x) := by
  obtain ⟨s, hs, hI⟩ := swma_init x
  rw [hs]
  exact Impl.runs ⟨hI, fun t s _ h => swma_step h⟩

/-! ## Dev, Stdev -/

def dev0 (len : Nat) (x : Nat → Option α) (t : Nat) : Option α :=
  if len = 1 then some (lit 0)
  else (sma0 len x t).map fun mean =>
    fsum ((win x len t).map fun v => F64.abs (v.getD mean - mean)) / lit (len : ℚ)

def DevInv (len : Nat) (x : Nat → Option α) (t : Nat) (s : Dev α) : Prop :=
  s.length = len ∧ (len ≠ 1 → s.inputCache = ⟨len, hist x t⟩ ∧ SmaInv len x t s.sma)

theorem dev_init (x : Nat → Option α) {len : Nat} (h : 1 ≤ len) :
    ∃ s, Dev.new len = .ok s ∧ DevInv len x 0 s := by
  obtain ⟨v, hv, hI⟩ := sma_init x h
  exact ⟨_, by simp [Dev.new, h, hv]; rfl, rfl, fun _ => ⟨rfl, hI⟩⟩

theorem sma0_some_filled {len t : Nat} {x : Nat → Option α} (hl : len ≠ 1) {m : α}
    (h : sma0 len x t = some m) : len ≤ t + 1 ∧ WindowPresent x len t := by
  unfold sma0 at h
  rw [if_neg hl] at h
  split at h
  · assumption
  · simp at h

theorem dev_step {d : DataProvider α} {x : Nat → Option α} {len t : Nat} (hlen : 1 ≤ len) {s : Dev α}
    (h : DevInv len x t s) :
    ∃ s', s.next ⟨d, t⟩ (x t) = .ok (dev0 len x t, s') ∧ DevInv len x (t + 1) s' := by
  obtain ⟨h1, h2⟩ := h
  by_cases hl : len = 1
  · exact ⟨s, by simp [Dev.next, h1, hl, dev0], h1, fun h => absurd hl h⟩
  · obtain ⟨hc, hI⟩ := h2 hl
    obtain ⟨v, hv1, hv2⟩ := sma_step (d := d) hlen hI
    refine ⟨{ s with sma := v, inputCache := ⟨len, hist x (t + 1)⟩ }, ?_, h1, fun _ => ⟨rfl, hv2⟩⟩
    unfold Dev.next
    simp only [h1, hl, if_false, hc, cache_hist_next, hv1, Res.ok_bind, cache_hist_isFilled]
    cases hm : sma0 len x t with
    | none => simp [dev0, hl, hm]
    | some m =>
      have hf := (sma0_some_filled hl hm).1
      simp [dev0, hl, hm, hf, cache_hist_all x hf]

theorem dev_runs (d : DataProvider α) {len : Nat} (hlen : 1 ≤ len) (x : Nat → Option α) (N : Nat) :
    Runs (fun t => Dev.next ⟨d, t⟩) (Dev.new len) x N (dev0 len x) := by
  obtain ⟨s, hs, hI⟩ := dev_init x hlen
  rw [hs]
  exact Impl.runs ⟨hI, fun t s _ h => dev_step hlen h⟩

def stdev0 (len : Nat) (biased : Bool) (x : Nat → Option α) (t : Nat) : Option α :=
  if len = 1 then (if biased then some (lit 0) else none)
  else (sma0 len x t).map fun mean =>
    let sum := fsum ((win x len t).map fun v =>
      match v with
      | some v => sq (Stdev.computeSum v (-mean))
      | none => lit 0)
    if biased then F64.sqrt (sum / lit (len : ℚ)) else F64.sqrt (sum / lit ((len - 1 : Nat) : ℚ))

def StdevInv (len : Nat) (biased : Bool) (x : Nat → Option α) (t : Nat) (s : Stdev α) : Prop :=
  s.length = len ∧ s.isBiased = biased ∧
    (len ≠ 1 → s.inputCache = ⟨len, hist x t⟩ ∧ SmaInv len x t s.sma)

theorem stdev_init (x : Nat → Option α) {len : Nat} (biased : Bool) (h : 1 ≤ len) :
    ∃ s, Stdev.new len biased = .ok s ∧ StdevInv len biased x 0 s := by
  obtain ⟨v, hv, hI⟩ := sma_init x h
  exact ⟨_, by simp [Stdev.new, h, hv]; rfl, rfl, rfl, fun _ => ⟨rfl, hI⟩⟩

theorem stdev_step {d : DataProvider α} {x : Nat → Option α} {len t : Nat} {biased : Bool}
    (hlen : 1 ≤ len) {s : Stdev α} (h : StdevInv len biased x t s) :
    ∃ s', s.next ⟨d, t⟩ (x t) = .ok (stdev0 len biased x t, s') ∧
      StdevInv len biased x (t + 1) s' := by
  obtain ⟨h1, hb, h2⟩ := h
  by_cases hl : len = 1
  · refine ⟨s, ?_, h1, hb, fun h => absurd hl h⟩
    cases biased <;> simp [Stdev.next, h1, hl, stdev0, hb]
  · obtain ⟨hc, hI⟩ := h2 hl
    obtain ⟨v, hv1, hv2⟩ := sma_step (d := d) hlen hI
    refine ⟨{ s with sma := v, inputCache := ⟨len, hist x (t + 1)⟩ }, ?_, h1, hb,
      fun _ => ⟨rfl, hv2⟩⟩
    unfold Stdev.next
    simp only [h1, hl, if_false, hc, cache_hist_next, hv1, Res.ok_bind]
    cases hm : sma0 len x t with
    | none => simp [stdev0, hl, hm]
    | some m =>
      have hf := (sma0_some_filled hl hm).1
      cases biased
      · simp only [cache_hist_all x hf, Res.ok_bind, hb, Bool.false_eq_true, if_false,
          usub_of_le hlen, stdev0, hl, hm, Option.map_some]
        rfl
      · simp only [cache_hist_all x hf, Res.ok_bind, hb, if_true, stdev0, hl, if_false, hm,
          Option.map_some]
        rfl

theorem stdev_runs (d : DataProvider α) {len : Nat} (hlen : 1 ≤ len) (biased : Bool)
    (x : Nat → Option α) (N : Nat) :
    Runs (fun t => Stdev.next ⟨d, t⟩) (Stdev.new len biased) x N (stdev0 len biased x) := by
  obtain ⟨s, hs, hI⟩ := stdev_init x biased hlen
  rw [hs]
  exact Impl.runs ⟨hI, fun t s _ h => stdev_step hlen h⟩

/-! ## Change, Roc -/

/-- The common shape: a function of the current value and the non-zero value `len` ticks ago. -/
def lag0 (f : α → α → α) (len : Nat) (x : Nat → Option α) (t : Nat) : Option α :=
  match ago x len t, x t with
  | some first, some last => if F64.feq first (lit 0) then none else some (f first last)
  | _, _ => none

def change0 (len : Nat) (x : Nat → Option α) : Nat → Option α := lag0 (fun first last => last - first) len x
def roc0 (len : Nat) (x : Nat → Option α) : Nat → Option α :=
  lag0 (fun first last => lit 100 * (last - first) / first) len x

theorem change_step {x : Nat → Option α} {len t : Nat} {s : Change α}
    (h : s.inputCache = ⟨len + 1, hist x t⟩) :
    ∃ s', s.next (x t) = .ok (change0 len x t, s') ∧ s'.inputCache = ⟨len + 1, hist x (t + 1)⟩ := by
  refine ⟨{ s with inputCache := ⟨len + 1, hist x (t + 1)⟩ }, ?_, rfl⟩
  unfold Change.next
  simp only [h, cache_hist_next, cache_hist_first (show 1 ≤ len + 1 by omega), Res.ok_bind,
    cache_hist_last, cache_hist_isFilled, Nat.add_sub_cancel]
  unfold change0 lag0
  by_cases hf : len + 1 ≤ t + 1
  · cases ha : ago x len t with
    | none => simp
    | some a =>
      cases hx : x t with
      | none => simp
      | some b =>
        by_cases hz : F64.feq a (lit 0) = true <;> simp [hf, hz]
  · have ha : ago x len t = none := by unfold ago; rw [if_neg (by omega)]
    simp [hf, ha]

theorem change_runs (len : Nat) (hlen : 1 ≤ len) (x : Nat → Option α) (N : Nat) :
    Runs (fun _ => Change.next) (Change.new len) x N (change0 len x) := by
  have : Change.new (α := α) len = .ok ⟨len, ⟨len + 1, []⟩⟩ := by simp [Change.new, hlen]; rfl
  rw [this]
  exact Impl.runs (Inv := fun t s => s.inputCache = ⟨len + 1, hist x t⟩)
    ⟨rfl, fun t s _ h => change_step h⟩

theorem roc_step {x : Nat → Option α} {len t : Nat} {s : Roc α}
    (h : s.inputCache = ⟨len + 1, hist x t⟩) :
    ∃ s', s.next (x t) = .ok (roc0 len x t, s') ∧ s'.inputCache = ⟨len + 1, hist x (t + 1)⟩ := by
  refine ⟨{ s with inputCache := ⟨len + 1, hist x (t + 1)⟩ }, ?_, rfl⟩
  unfold Roc.next
  simp only [h, cache_hist_next, cache_hist_first (show 1 ≤ len + 1 by omega), Res.ok_bind,
    cache_hist_last, cache_hist_isFilled, Nat.add_sub_cancel]
  unfold roc0 lag0
  by_cases hf : len + 1 ≤ t + 1
  · cases ha : ago x len t with
    | none => simp
    | some a =>
      cases hx : x t with
      | none => simp
      | some b =>
        by_cases hz : F64.feq a (lit 0) = true <;> simp [hf, hz]
  · have ha : ago x len t = none := by unfold ago; rw [if_neg (by omega)]
    simp [hf, ha]

theorem roc_init (x : Nat → Option α) {len : Nat} (hlen : 1 ≤ len) :
    ∃ s, Roc.new (α := α) len = .ok s ∧ s.inputCache = ⟨len + 1, hist x 0⟩ :=
  ⟨⟨len, ⟨len + 1, []⟩⟩, by simp [Roc.new, hlen]; rfl, rfl⟩

theorem roc_runs (len : Nat) (hlen : 1 ≤ len) (x : Nat → Option α) (N : Nat) :
    Runs (fun _ => Roc.next) (Roc.new len) x N (roc0 len x) := by
  obtain ⟨s, hs, hI⟩ := roc_init x hlen
  rw [hs]
  exact Impl.runs (Inv := fun t s => s.inputCache = ⟨len + 1, hist x t⟩)
    ⟨hI, fun t s _ h => roc_step h⟩

/-! ## Prank -/

/-- Number of present values not above `last`. -/
def countLe (last : α) (l : List (Option α)) : Nat :=
  (l.filter fun v => match v with
    | some v => F64.le v last
    | none => false).length

def prank0 (len : Nat) (x : Nat → Option α) (t : Nat) : Option α :=
  if len ≤ t then
    (x t).map fun last => lit (countLe last (win x len (t - 1)) : ℚ) / lit (len : ℚ) * lit 100
  else none

def PrankInv (len : Nat) (x : Nat → Option α) (t : Nat) (s : Prank α) : Prop :=
  s.length = len ∧ s.inputCache = ⟨len + 1, hist x t⟩

theorem prank_init (x : Nat → Option α) {len : Nat} (hlen : 1 ≤ len) :
    ∃ s, Prank.new (α := α) len = .ok s ∧ PrankInv len x 0 s :=
  ⟨⟨len, ⟨len + 1, []⟩⟩, by simp [Prank.new, hlen]; rfl, rfl, rfl⟩

theorem prank_step {d : DataProvider α} {x : Nat → Option α} {len t : Nat} (hlen : 1 ≤ len) {s : Prank α}
    (h : PrankInv len x t s) :
    ∃ s', s.next ⟨d, t⟩ (x t) = .ok (prank0 len x t, s') ∧ PrankInv len x (t + 1) s' := by
  obtain ⟨h1, h2⟩ := h
  refine ⟨{ s with inputCache := ⟨len + 1, hist x (t + 1)⟩ }, ?_, h1, rfl⟩
  unfold Prank.next
  simp only [h2, cache_hist_next, Ctx.atLength, h1, usub_of_le (show 1 ≤ len + 1 by omega),
    Res.ok_bind, Nat.add_sub_cancel, Res.pure_eq]
  unfold prank0
  cases hx : x t with
  | none => simp
  | some v =>
    by_cases hf : len ≤ t
    · obtain ⟨u, rfl⟩ : ∃ u, t = u + 1 := ⟨t - 1, by omega⟩
      have hw : win x (len + 1) (u + 1) = win x len u ++ [x (u + 1)] := win_succ x hf
      simp only [Option.isNone_some, hf, decide_true, Bool.not_true, Bool.or_false, Bool.false_eq_true,
        if_false, unwrap_some, Res.ok_bind, cache_hist_all x (show len + 1 ≤ u + 1 + 1 by omega), hw,
        List.length_append, List.length_singleton, win_length, usub_of_le (show 1 ≤ len + 1 by omega),
        Nat.add_sub_cancel, slice]
      simp [countLe]
      rfl
    · simp [hf]

theorem prank_runs (d : DataProvider α) {len : Nat} (hlen : 1 ≤ len) (x : Nat → Option α) (N : Nat) :
    Runs (fun t => Prank.next ⟨d, t⟩) (Prank.new len) x N (prank0 len x) := by
  obtain ⟨s, hs, hI⟩ := prank_init x hlen
  rw [hs]
  exact Impl.runs ⟨hI, fun t s _ h => prank_step hlen h⟩

/-! ## Highest, Lowest -/

/-- The value found by the loops of `find_max_index` / `find_min_index`. -/
def pick (better : α → α → Bool) (l : List (Option α)) : Option α :=
  match findBest better l with
  | .ok i => l[i]?.join
  | .error _ => none

def maxB : α → α → Bool := fun v m => F64.lt m v
def minB : α → α → Bool := fun v m => F64.lt v m

theorem pick_ok (better : α → α → Bool) {l : List (Option α)} (h : l ≠ []) :
    (do let i ← findBest better l; index l i) = .ok (pick better l) := by
  obtain ⟨i, h1, h2, _⟩ := findBest_ok better h
  simp [pick, h1, index, h2]

theorem highest_ok {l : List (Option α)} (h : l ≠ []) : highest l = .ok (pick maxB l) := by
  unfold highest; rw [findMaxIndex_eq]; exact pick_ok _ h
theorem lowest_ok {l : List (Option α)} (h : l ≠ []) : lowest l = .ok (pick minB l) := by
  unfold lowest; rw [findMinIndex_eq]; exact pick_ok _ h

theorem win_ne_nil {β : Type} (x : Nat → β) {n t : Nat} (h : 1 ≤ n) : win x n t ≠ [] := by
  intro hc; have := congrArg List.length hc; simp at this; omega

def highest0 (len : Nat) (x : Nat → Option α) (t : Nat) : Option α :=
  if len ≤ t + 1 then pick maxB (win x len t) else none
def lowest0 (len : Nat) (x : Nat → Option α) (t : Nat) : Option α :=
  if len ≤ t + 1 then pick minB (win x len t) else none

def HighestInv (len : Nat) (x : Nat → Option α) (t : Nat) (s : Highest α) : Prop :=
  s.length = len ∧ s.inputCache = ⟨len, hist x t⟩
def LowestInv (len : Nat) (x : Nat → Option α) (t : Nat) (s : Lowest α) : Prop :=
  s.length = len ∧ s.inputCache = ⟨len, hist x t⟩

theorem highest_init (x : Nat → Option α) {len : Nat} (hlen : 1 ≤ len) :
    ∃ s, Highest.new (α := α) len = .ok s ∧ HighestInv len x 0 s :=
  ⟨⟨len, ⟨len, []⟩⟩, by simp [Highest.new, hlen]; rfl, rfl, rfl⟩
theorem lowest_init (x : Nat → Option α) {len : Nat} (hlen : 1 ≤ len) :
    ∃ s, Lowest.new (α := α) len = .ok s ∧ LowestInv len x 0 s :=
  ⟨⟨len, ⟨len, []⟩⟩, by simp [Lowest.new, hlen]; rfl, rfl, rfl⟩

theorem highest_step {d : DataProvider α} {x : Nat → Option α} {len t : Nat} (hlen : 1 ≤ len)
    {s : Highest α} (h : HighestInv len x t s) :
    ∃ s', s.next ⟨d, t⟩ (x t) = .ok (highest0 len x t, s') ∧ HighestInv len x (t + 1) s' := by
  obtain ⟨h1, h2⟩ := h
  refine ⟨{ s with inputCache := ⟨len, hist x (t + 1)⟩ }, ?_, h1, rfl⟩
  unfold Highest.next
  simp only [h2, cache_hist_next, Ctx.atLength, h1, usub_of_le hlen, Res.ok_bind, Res.pure_eq]
  by_cases hf : len ≤ t + 1
  · simp [highest0, hf, show len - 1 ≤ t by omega, cache_hist_all x hf, highest_ok (win_ne_nil x hlen)]
  · simp [highest0, hf, show ¬ len - 1 ≤ t by omega]

theorem lowest_step {d : DataProvider α} {x : Nat → Option α} {len t : Nat} (hlen : 1 ≤ len)
    {s : Lowest α} (h : LowestInv len x t s) :
    ∃ s', s.next ⟨d, t⟩ (x t) = .ok (lowest0 len x t, s') ∧ LowestInv len x (t + 1) s' := by
  obtain ⟨h1, h2⟩ := h
  refine ⟨{ s with inputCache := ⟨len, hist x (t + 1)⟩ }, ?_, h1, rfl⟩
  unfold Lowest.next
  simp only [h2, cache_hist_next, Ctx.atLength, h1, usub_of_le hlen, Res.ok_bind, Res.pure_eq]
  by_cases hf : len ≤ t + 1
  · simp [lowest0, hf, show len - 1 ≤ t by omega, cache_hist_all x hf, lowest_ok (win_ne_nil x hlen)]
  · simp [lowest0, hf, show ¬ len - 1 ≤ t by omega]

theorem highest_runs (d : DataProvider α) {len : Nat} (hlen : 1 ≤ len) (x : Nat → Option α) (N : Nat) :
    Runs (fun t => Highest.next ⟨d, t⟩) (Highest.new len) x N (highest0 len x) := by
  obtain ⟨s, hs, hI⟩ := highest_init x hlen
  rw [hs]
  exact Impl.runs ⟨hI, fun t s _ h => highest_step hlen h⟩
theorem lowest_runs (d : DataProvider α) {len : Nat} (hlen : 1 ≤ len) (x : Nat → Option α) (N : Nat) :
    Runs (fun t => Lowest.next ⟨d, t⟩) (Lowest.new len) x N (lowest0 len x) := by
  obtain ⟨s, hs, hI⟩ := lowest_init x hlen
  rw [hs]
  exact Impl.runs ⟨hI, fun t s _ h => lowest_step hlen h⟩

end Pace
