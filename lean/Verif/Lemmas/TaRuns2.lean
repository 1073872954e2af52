import Verif.Lemmas.TaRuns
import Verif.Spec.Data

/-!
# Level 0 refinements of the remaining ta components
-/

namespace Pace
set_option linter.unusedSectionVars false
variable {α : Type} [F64 α]

/-! ## Data columns -/

theorem HasCol.mono {l : List (Option α)} {N M : Nat} {x : Nat → Option α} (h : HasCol l N x) (hM : M ≤ N) :
    HasCol l M x := fun t ht => h t (by omega)

theorem HasCol.index {l : List (Option α)} {N : Nat} {x : Nat → Option α} (h : HasCol l N x) {t : Nat}
    (ht : t < N) : Pace.index l t = .ok (x t) := by
  simp [Pace.index, h t ht]

theorem HasCol.length {l : List (Option α)} {N : Nat} {x : Nat → Option α} (h : HasCol l N x) : N ≤ l.length := by
  rcases Nat.eq_zero_or_pos N with h0 | h0
  · omega
  · have := (List.getElem?_eq_some_iff.mp (h (N - 1) (by omega))).1
    omega

theorem HasCol.take {l : List (Option α)} {N : Nat} {x : Nat → Option α} (h : HasCol l N x) :
    l.take N = hist x N := by
  apply List.ext_getElem?
  intro i
  rw [List.getElem?_take, hist_getElem?]
  split
  · rename_i hi; rw [h i hi]
  · rfl

theorem HasCol.slice {l : List (Option α)} {N : Nat} {x : Nat → Option α} (h : HasCol l N x) {len t : Nat}
    (ht : t < N) (hlen : 1 ≤ len) (hl : len ≤ t + 1) :
    (do let a ← (do let k ← usub len 1; usub t k); Pace.slice l a (t + 1)) = .ok (win x len t) := by
  have h1 : len - 1 ≤ t := by omega
  have h2 := (h.mono (show t + 1 ≤ N by omega))
  simp only [usub_of_le hlen, usub_of_le h1, Res.ok_bind, Pace.slice]
  rw [if_pos ⟨by omega, h2.length⟩, h2.take, win_eq_drop x hl]
  congr 2; omega

section cols
variable {d : DataProvider α} {N t : Nat} {x : Nat → Option α}

theorem ctx_highs (h : HasCol d.high N x) {len : Nat} (ht : t < N) (hlen : 1 ≤ len) (hl : len ≤ t + 1) :
    Ctx.highs ⟨d, t⟩ len = .ok (win x len t) := h.slice ht hlen hl
theorem ctx_lows (h : HasCol d.low N x) {len : Nat} (ht : t < N) (hlen : 1 ≤ len) (hl : len ≤ t + 1) :
    Ctx.lows ⟨d, t⟩ len = .ok (win x len t) := h.slice ht hlen hl
theorem ctx_opens (h : HasCol d.open_ N x) {len : Nat} (ht : t < N) (hlen : 1 ≤ len) (hl : len ≤ t + 1) :
    Ctx.opens ⟨d, t⟩ len = .ok (win x len t) := h.slice ht hlen hl
theorem ctx_closes (h : HasCol d.close N x) {len : Nat} (ht : t < N) (hlen : 1 ≤ len) (hl : len ≤ t + 1) :
    Ctx.closes ⟨d, t⟩ len = .ok (win x len t) := h.slice ht hlen hl
theorem ctx_volumes (h : HasCol d.volume N x) {len : Nat} (ht : t < N) (hlen : 1 ≤ len) (hl : len ≤ t + 1) :
    Ctx.volumes ⟨d, t⟩ len = .ok (win x len t) := h.slice ht hlen hl

theorem ctx_barHigh (h : HasCol d.high N x) (ht : t < N) : Ctx.barHigh ⟨d, t⟩ = .ok (x t) := h.index ht
theorem ctx_barLow (h : HasCol d.low N x) (ht : t < N) : Ctx.barLow ⟨d, t⟩ = .ok (x t) := h.index ht
theorem ctx_barOpen (h : HasCol d.open_ N x) (ht : t < N) : Ctx.barOpen ⟨d, t⟩ = .ok (x t) := h.index ht
theorem ctx_barClose (h : HasCol d.close N x) (ht : t < N) : Ctx.barClose ⟨d, t⟩ = .ok (x t) := h.index ht
theorem ctx_barVolume (h : HasCol d.volume N x) (ht : t < N) : Ctx.barVolume ⟨d, t⟩ = .ok (x t) := h.index ht

private theorem at_ago {l : List (Option α)} (h : HasCol l N x) (n : Nat) (ht : t < N) :
    (if t < n then .ok none else Pace.index l (t - n)) = (.ok (ago x n t) : Res _) := by
  unfold ago
  by_cases hn : t < n
  · rw [if_pos hn, if_neg (by omega)]
  · rw [if_neg hn, if_pos (by omega), h.index (by omega)]

theorem ctx_high (h : HasCol d.high N x) (n : Nat) (ht : t < N) : Ctx.high ⟨d, t⟩ n = .ok (ago x n t) :=
  at_ago h n ht
theorem ctx_low (h : HasCol d.low N x) (n : Nat) (ht : t < N) : Ctx.low ⟨d, t⟩ n = .ok (ago x n t) :=
  at_ago h n ht
theorem ctx_close (h : HasCol d.close N x) (n : Nat) (ht : t < N) : Ctx.close ⟨d, t⟩ n = .ok (ago x n t) :=
  at_ago h n ht
theorem ctx_volume (h : HasCol d.volume N x) (n : Nat) (ht : t < N) : Ctx.volume ⟨d, t⟩ n = .ok (ago x n t) :=
  at_ago h n ht
end cols

/-! ## HighestBars, LowestBars -/

/-- Offset (≤ 0) of the extreme value of the last `len` values. -/
def bars0 (better : α → α → Bool) (len : Nat) (x : Nat → Option α) (t : Nat) : Option Int :=
  if len ≤ t + 1 then
    match findBest better (win x len t) with
    | .ok i => some (-((len - 1 - i : Nat) : Int))
    | .error _ => none
  else none

theorem bars_ok {better : α → α → Bool} {len t : Nat} (hlen : 1 ≤ len) (hl : len ≤ t + 1) (x : Nat → Option α) :
    (do let i ← findBest better (win x len t)
        return (some (-((absDiff (absDiff len i) 1 : Nat) : Int))) : Res (Option Int))
      = .ok (bars0 better len x t) := by
  obtain ⟨i, h1, h2, _⟩ := findBest_ok better (win_ne_nil x (t := t) hlen)
  rw [win_length] at h2
  simp only [h1, Res.ok_bind, bars0, if_pos hl, Res.pure_eq, Except.ok.injEq, Option.some.injEq,
    neg_inj, Nat.cast_inj]
  unfold absDiff
  rw [if_neg (show ¬ len < i by omega), if_neg (by omega)]
  omega

theorem highestBars_step {d : DataProvider α} {x : Nat → Option α} {N len t : Nat} (hlen : 1 ≤ len)
    (hx : HasCol d.high N x) (ht : t < N) :
    HighestBars.next ⟨d, t⟩ ⟨len⟩ = .ok (bars0 maxB len x t, ⟨len⟩) := by
  unfold HighestBars.next
  simp only [Ctx.atLength, usub_of_le hlen, Res.ok_bind, Res.pure_eq]
  by_cases hf : len ≤ t + 1
  · have hb : (do let i ← findMaxIndex (win x len t)
                  return (some (-((absDiff (absDiff len i) 1 : Nat) : Int))) : Res (Option Int))
        = .ok (bars0 maxB len x t) := by
      rw [findMaxIndex_eq]; exact bars_ok hlen hf x
    simp [show len - 1 ≤ t by omega, ctx_highs hx ht hlen hf, highestBars]
    cases hm : findMaxIndex (win x len t) with
    | error e => rw [hm] at hb; simp at hb
    | ok i => rw [hm] at hb; simp at hb ⊢; exact hb
  · simp [show ¬ len - 1 ≤ t by omega, bars0, hf]

theorem lowestBars_step {d : DataProvider α} {x : Nat → Option α} {N len t : Nat} (hlen : 1 ≤ len)
    (hx : HasCol d.low N x) (ht : t < N) :
    LowestBars.next ⟨d, t⟩ ⟨len⟩ = .ok (bars0 minB len x t, ⟨len⟩) := by
  unfold LowestBars.next
  simp only [Ctx.atLength, usub_of_le hlen, Res.ok_bind, Res.pure_eq]
  by_cases hf : len ≤ t + 1
  · have hb : (do let i ← findMinIndex (win x len t)
                  return (some (-((absDiff (absDiff len i) 1 : Nat) : Int))) : Res (Option Int))
        = .ok (bars0 minB len x t) := by
      rw [findMinIndex_eq]; exact bars_ok hlen hf x
    simp [show len - 1 ≤ t by omega, ctx_lows hx ht hlen hf, lowestBars]
    cases hm : findMinIndex (win x len t) with
    | error e => rw [hm] at hb; simp at hb
    | ok i => rw [hm] at hb; simp at hb ⊢; exact hb
  · simp [show ¬ len - 1 ≤ t by omega, bars0, hf]

theorem highestBars_new {len : Nat} (hlen : 1 ≤ len) : HighestBars.new len = .ok ⟨len⟩ := by
  simp [HighestBars.new, hlen]
theorem lowestBars_new {len : Nat} (hlen : 1 ≤ len) : LowestBars.new len = .ok ⟨len⟩ := by
  simp [LowestBars.new, hlen]

theorem highestBars_runs {d : DataProvider α} {x : Nat → Option α} {N len : Nat} (hlen : 1 ≤ len)
    (hx : HasCol d.high N x) :
    Runs (noInput fun t => HighestBars.next ⟨d, t⟩) (HighestBars.new len) unit N (bars0 maxB len x) := by
  rw [highestBars_new hlen]
  exact Impl.runs (Inv := fun _ s => s = ⟨len⟩)
    ⟨rfl, fun t s ht h => ⟨⟨len⟩, by subst h; exact highestBars_step hlen hx ht, rfl⟩⟩
theorem lowestBars_runs {d : DataProvider α} {x : Nat → Option α} {N len : Nat} (hlen : 1 ≤ len)
    (hx : HasCol d.low N x) :
    Runs (noInput fun t => LowestBars.next ⟨d, t⟩) (LowestBars.new len) unit N (bars0 minB len x) := by
  rw [lowestBars_new hlen]
  exact Impl.runs (Inv := fun _ s => s = ⟨len⟩)
    ⟨rfl, fun t s ht h => ⟨⟨len⟩, by subst h; exact lowestBars_step hlen hx ht, rfl⟩⟩

/-! ## Stoch -/

/-- One value of the stochastic. -/
def stochVal (v h l prev : Option α) : Option α :=
  match v, h, l with
  | some v, some h, some l => if F64.feq (h - l) (lit 0) then prev else some (lit 100 * (v - l) / (h - l))
  | _, _, _ => none

def stoch0 (len : Nat) (v h l : Nat → Option α) : Nat → Option α
  | 0 => stochVal (v 0) (highest0 len h 0) (lowest0 len l 0) none
  | t + 1 => stochVal (v (t + 1)) (highest0 len h (t + 1)) (lowest0 len l (t + 1)) (stoch0 len v h l t)

theorem stoch0_eq (len : Nat) (v h l : Nat → Option α) (t : Nat) :
    stoch0 len v h l t = stochVal (v t) (highest0 len h t) (lowest0 len l t) (before (stoch0 len v h l) t) := by
  cases t <;> rfl

def StochInv (len : Nat) (v h l : Nat → Option α) (t : Nat) (s : Stoch α) : Prop :=
  s.length = len ∧ s.prevStoch = before (stoch0 len v h l) t ∧
    s.highInputCache = ⟨len, hist h t⟩ ∧ s.lowInputCache = ⟨len, hist l t⟩

theorem stoch_init (v h l : Nat → Option α) {len : Nat} (hlen : 1 ≤ len) :
    ∃ s, Stoch.new (α := α) len = .ok s ∧ StochInv len v h l 0 s :=
  ⟨⟨len, none, ⟨len, []⟩, ⟨len, []⟩⟩, by simp [Stoch.new, hlen]; rfl, rfl, rfl, rfl, rfl⟩

theorem stoch_eq (v : Option α) {hs ls : List (Option α)} (h1 : hs ≠ []) (h2 : ls ≠ []) (p : Option α) :
    stoch v hs ls p = .ok (stochVal v (pick maxB hs) (pick minB ls) p) := by
  unfold stoch stochVal
  cases v with
  | none => rfl
  | some v =>
    simp only [highest_ok h1, lowest_ok h2, Res.ok_bind]
    cases pick maxB hs <;> cases pick minB ls <;> simp
    split <;> rfl

theorem stoch_step {d : DataProvider α} {v h l : Nat → Option α} {len t : Nat} (hlen : 1 ≤ len)
    {s : Stoch α} (hI : StochInv len v h l t s) :
    ∃ s', s.next ⟨d, t⟩ (v t, h t, l t) = .ok (stoch0 len v h l t, s') ∧ StochInv len v h l (t + 1) s' := by
  obtain ⟨h1, h2, h3, h4⟩ := hI
  refine ⟨⟨len, stoch0 len v h l t, ⟨len, hist h (t + 1)⟩, ⟨len, hist l (t + 1)⟩⟩, ?_, rfl, rfl, rfl, rfl⟩
  rw [stoch0_eq]
  unfold Stoch.next
  simp only [h3, h4, cache_hist_next, Ctx.atLength, h1, usub_of_le hlen, Res.ok_bind, Res.pure_eq]
  by_cases hf : len ≤ t + 1
  · simp [highest0, lowest0, hf, show len - 1 ≤ t by omega, cache_hist_all _ hf,
      stoch_eq _ (win_ne_nil h hlen) (win_ne_nil l hlen), h2]
  · have hb : before (stoch0 len v h l) t = none := by
      cases t with
      | zero => rfl
      | succ t =>
        show stoch0 len v h l t = none
        rw [stoch0_eq]
        simp [highest0, lowest0, show ¬ len ≤ t + 1 by omega, stochVal]
    have : stochVal (v t) none none none = (none : Option α) := by cases v t <;> rfl
    simp [highest0, lowest0, hf, show ¬ len - 1 ≤ t by omega, h2, hb, this]

theorem stoch_runs (d : DataProvider α) {len : Nat} (hlen : 1 ≤ len) (v h l : Nat → Option α) (N : Nat) :
    Runs (fun t => Stoch.next ⟨d, t⟩) (Stoch.new len) (fun t => (v t, h t, l t)) N (stoch0 len v h l) := by
  obtain ⟨s, hs, hI⟩ := stoch_init v h l hlen
  rw [hs]
  exact Impl.runs ⟨hI, fun t s _ h => stoch_step hlen h⟩

/-! ## Tr, Atr -/

/-- True range from complete bars. -/
def tr0 (handleNa : Bool) (h l c : Nat → α) : Nat → Option α
  | 0 => if handleNa then some (h 0 - l 0) else none
  | t + 1 => some (F64.fmax (F64.fmax (h (t + 1) - l (t + 1)) (F64.abs (h (t + 1) - c t)))
      (F64.abs (l (t + 1) - c t)))

theorem tr_step {d : DataProvider α} {h l c : Nat → α} {N t : Nat}
    (hh : HasCol d.high N fun t => some (h t)) (hl : HasCol d.low N fun t => some (l t))
    (hc : HasCol d.close N fun t => some (c t)) (ht : t < N) (na : Bool) :
    Tr.next ⟨d, t⟩ na = .ok (tr0 na h l c t) := by
  unfold Tr.next
  simp only [ctx_barHigh hh ht, ctx_barLow hl ht, ctx_high hh 1 ht, ctx_low hl 1 ht, ctx_close hc 1 ht,
    Res.ok_bind, unwrap_some, Res.pure_eq]
  cases t with
  | zero => simp [ago, trueRange, tr0]
  | succ t => simp [ago, trueRange, tr0]

/-- All inputs are present. -/
theorem emaOk_of_present {len N : Nat} {x : Nat → Option α} (h : ∀ t, t < N → (x t).isSome) : EmaOk len x N :=
  Or.inr fun t ht _ => h (t + 1) ht

theorem tr0_isSome (h l c : Nat → α) (t : Nat) : (tr0 true h l c t).isSome := by
  cases t <;> simp [tr0]

def atr0 (len : Nat) (h l c : Nat → α) : Nat → Option α := rma0 len (tr0 true h l c)

def AtrInv (len : Nat) (h l c : Nat → α) (t : Nat) (s : Atr α) : Prop := RmaInv len (tr0 true h l c) t s.rma

theorem atr_init (h l c : Nat → α) {len : Nat} (hlen : 1 ≤ len) :
    ∃ s, Atr.new len = .ok s ∧ AtrInv len h l c 0 s := by
  obtain ⟨v, hv, hI⟩ := rma_init (tr0 true h l c) hlen
  exact ⟨⟨len, v⟩, by simp [Atr.new, hlen, hv], hI⟩

theorem atr_step {d : DataProvider α} {h l c : Nat → α} {N len t : Nat} (hlen : 1 ≤ len)
    (hh : HasCol d.high N fun t => some (h t)) (hl : HasCol d.low N fun t => some (l t))
    (hc : HasCol d.close N fun t => some (c t)) (ht : t < N) {s : Atr α} (hI : AtrInv len h l c t s) :
    ∃ s', s.next ⟨d, t⟩ = .ok (atr0 len h l c t, s') ∧ AtrInv len h l c (t + 1) s' := by
  obtain ⟨r, h1, h2⟩ := rma_step (d := d) hlen
    (emaOk_of_present (N := N) fun t _ => tr0_isSome h l c t) ht hI
  exact ⟨{ s with rma := r }, by simp [Atr.next, tr_step hh hl hc ht, h1, atr0], h2⟩

theorem atr_runs {d : DataProvider α} {h l c : Nat → α} {N len : Nat} (hlen : 1 ≤ len)
    (hh : HasCol d.high N fun t => some (h t)) (hl : HasCol d.low N fun t => some (l t))
    (hc : HasCol d.close N fun t => some (c t)) :
    Runs (noInput fun t => Atr.next ⟨d, t⟩) (Atr.new len) unit N (atr0 len h l c) := by
  obtain ⟨s, hs, hI⟩ := atr_init h l c hlen
  rw [hs]
  exact Impl.runs ⟨hI, fun t s ht h => atr_step hlen hh hl hc ht h⟩

/-! ## Rsi -/

/-- The gains and losses fed to the two averages. -/
def gain0 (x : Nat → Option α) (t : Nat) : Option α :=
  opt2 (fun v p => F64.fmax (v - p) (lit 0)) (x t) (before x t)
def loss0 (x : Nat → Option α) (t : Nat) : Option α :=
  opt2 (fun v p => -(F64.fmin (v - p) (lit 0))) (x t) (before x t)

def rsi0 (len : Nat) (x : Nat → Option α) (t : Nat) : Option α :=
  opt2 (fun u dn => lit 100 - lit 100 / (lit 1 + u / dn)) (rma0 len (gain0 x) t) (rma0 len (loss0 x) t)

structure RsiInv (len : Nat) (x : Nat → Option α) (t : Nat) (s : Rsi α) : Prop where
  prev : s.prevInputValue = before x t
  up : RmaInv len (gain0 x) t s.upRma
  down : RmaInv len (loss0 x) t s.downRma

theorem rsi_init (x : Nat → Option α) {len : Nat} (hlen : 2 ≤ len) :
    ∃ s, Rsi.new len = .ok s ∧ RsiInv len x 0 s := by
  obtain ⟨u, hu, hI⟩ := rma_init (gain0 x) (show 1 ≤ len by omega)
  obtain ⟨v, hv, hJ⟩ := rma_init (loss0 x) (show 1 ≤ len by omega)
  rw [hu] at hv
  cases hv
  exact ⟨⟨len, u, u, none, none, none⟩, by simp [Rsi.new, hlen, hu], rfl, hI, hJ⟩

/-- Once two consecutive values were present, no value is missing. -/
def NoGap (x : Nat → Option α) (N : Nat) : Prop :=
  ∀ t, t + 1 < N → (x t).isSome → (x (t + 1)).isSome

theorem rsi_emaOk {len N : Nat} (hlen : 2 ≤ len) {x y : Nat → Option α}
    (hy : ∀ t, (y t).isSome = ((x t).isSome && (before x t).isSome)) (h : NoGap x N) : EmaOk len y N := by
  refine Or.inr fun t ht hs => ?_
  obtain ⟨s, hs1, hs2, hs3⟩ := hs
  have h0 : (y s).isSome := hs3 s (le_refl _) (by omega)
  rw [hy] at h0
  have hx : ∀ k, s ≤ k → k < N → (x k).isSome := by
    intro k hk
    induction k, hk using Nat.le_induction with
    | base => intro _; simp at h0; exact h0.1
    | succ k hk ih => intro hkN; exact h k hkN (ih (by omega))
  rw [hy]
  show ((x (t + 1)).isSome && (x t).isSome) = true
  rw [hx (t + 1) (by omega) (by omega), hx t hs1 (by omega)]; rfl

theorem gain0_isSome (x : Nat → Option α) (t : Nat) :
    (gain0 x t).isSome = ((x t).isSome && (before x t).isSome) := by
  unfold gain0; cases x t <;> cases before x t <;> rfl
theorem loss0_isSome (x : Nat → Option α) (t : Nat) :
    (loss0 x t).isSome = ((x t).isSome && (before x t).isSome) := by
  unfold loss0; cases x t <;> cases before x t <;> rfl

theorem rsi_next_eq (c : Ctx α) (s : Rsi α) (value : Option α) : s.next c value = (do
    let (up, upRma) ← s.upRma.next c (opt2 (fun v p => F64.fmax (v - p) (lit 0)) value s.prevInputValue)
    let (down, downRma) ← s.downRma.next c (opt2 (fun v p => -(F64.fmin (v - p) (lit 0))) value s.prevInputValue)
    let s := { s with upRma, downRma, prevInputValue := value }
    match up, down with
    | some u, some dn => return (some (lit 100 - lit 100 / (lit 1 + u / dn)), { s with dataUp := up, dataDown := down })
    | _, _ => return (none, s)) := by
  unfold Rsi.next
  cases s.prevInputValue <;> cases value <;> rfl

theorem rsi_step {d : DataProvider α} {x : Nat → Option α} {N len t : Nat} (hlen : 2 ≤ len)
    (hx : NoGap x N) (ht : t < N) {s : Rsi α} (hI : RsiInv len x t s) :
    ∃ s', s.next ⟨d, t⟩ (x t) = .ok (rsi0 len x t, s') ∧ RsiInv len x (t + 1) s' := by
  obtain ⟨h1, h2, h3⟩ := hI
  obtain ⟨u, hu1, hu2⟩ := rma_step (d := d) (show 1 ≤ len by omega)
    (rsi_emaOk hlen (gain0_isSome x) hx) ht h2
  obtain ⟨v, hv1, hv2⟩ := rma_step (d := d) (show 1 ≤ len by omega)
    (rsi_emaOk hlen (loss0_isSome x) hx) ht h3
  rw [rsi_next_eq, h1]
  change ∃ s', (do
    let (up, upRma) ← s.upRma.next ⟨d, t⟩ (gain0 x t)
    let (down, downRma) ← s.downRma.next ⟨d, t⟩ (loss0 x t)
    let s := { s with upRma, downRma, prevInputValue := x t }
    match up, down with
    | some u, some dn => return (some (lit 100 - lit 100 / (lit 1 + u / dn)), { s with dataUp := up, dataDown := down })
    | _, _ => return (none, s)) = _ ∧ _
  simp only [hu1, hv1, Res.ok_bind, Res.pure_eq, rsi0]
  cases rma0 len (gain0 x) t with
  | none => exact ⟨{ s with upRma := u, downRma := v, prevInputValue := x t }, rfl, rfl, hu2, hv2⟩
  | some a =>
    cases rma0 len (loss0 x) t with
    | none => exact ⟨{ s with upRma := u, downRma := v, prevInputValue := x t }, rfl, rfl, hu2, hv2⟩
    | some b => exact ⟨⟨s.length, u, v, x t, some a, some b⟩, rfl, rfl, hu2, hv2⟩

theorem rsi_runs (d : DataProvider α) {len : Nat} (hlen : 2 ≤ len) (x : Nat → Option α) (N : Nat)
    (hx : NoGap x N) :
    Runs (fun t => Rsi.next ⟨d, t⟩) (Rsi.new len) x N (rsi0 len x) := by
  obtain ⟨s, hs, hI⟩ := rsi_init x hlen
  rw [hs]
  exact Impl.runs ⟨hI, fun t s ht h => rsi_step hlen hx ht h⟩

/-! ## Cross family -/

def over0 (a b : Nat → Option α) (t : Nat) : Bool :=
  match before a t, before b t, a t, b t with
  | some pa, some pb, some a, some b => F64.lt b a && F64.le pa pb
  | _, _, _, _ => false
def under0 (a b : Nat → Option α) (t : Nat) : Bool :=
  match before a t, before b t, a t, b t with
  | some pa, some pb, some a, some b => F64.lt a b && F64.le pb pa
  | _, _, _, _ => false
def cross0 (a b : Nat → Option α) (t : Nat) : Option CrossMode :=
  if over0 a b t then some .over else if under0 a b t then some .under else none

def CrossInv (a b : Nat → Option α) (t : Nat) (s : CrossState α) : Prop := s = ⟨before a t, before b t⟩

theorem cross_step {a b : Nat → Option α} {t : Nat} {s : CrossState α} (h : CrossInv a b t s) :
    ∃ s', Cross.next s (a t, b t) = (cross0 a b t, s') ∧ CrossInv a b (t + 1) s' := by
  subst h
  refine ⟨⟨a t, b t⟩, ?_, rfl⟩
  unfold Cross.next cross0 over0 under0
  cases before a t <;> cases before b t <;> cases a t <;> cases b t <;> simp [crossOver, crossUnder, fgt, fge]
theorem crossOver_step {a b : Nat → Option α} {t : Nat} {s : CrossState α} (h : CrossInv a b t s) :
    ∃ s', CrossOver.next s (a t, b t) = (over0 a b t, s') ∧ CrossInv a b (t + 1) s' := by
  subst h
  refine ⟨⟨a t, b t⟩, ?_, rfl⟩
  unfold CrossOver.next over0
  cases before a t <;> cases before b t <;> cases a t <;> cases b t <;> rfl
theorem crossUnder_step {a b : Nat → Option α} {t : Nat} {s : CrossState α} (h : CrossInv a b t s) :
    ∃ s', CrossUnder.next s (a t, b t) = (under0 a b t, s') ∧ CrossInv a b (t + 1) s' := by
  subst h
  refine ⟨⟨a t, b t⟩, ?_, rfl⟩
  unfold CrossUnder.next under0
  cases before a t <;> cases before b t <;> cases a t <;> cases b t <;> rfl

def ThreshInv (th : α) (a : Nat → Option α) (t : Nat) (s : CrossThresholdState α) : Prop := s = ⟨before a t, th⟩

theorem threshOver_step {a : Nat → Option α} {th : α} {t : Nat} {s : CrossThresholdState α}
    (h : ThreshInv th a t s) :
    ∃ s', CrossOverThreshold.next s (a t) = (over0 a (fun _ => some th) t, s') ∧ ThreshInv th a (t + 1) s' := by
  subst h
  refine ⟨⟨a t, th⟩, ?_, rfl⟩
  unfold CrossOverThreshold.next over0
  cases t with
  | zero => simp [before]
  | succ t => simp only [before]; cases a t <;> cases a (t + 1) <;> rfl
theorem threshUnder_step {a : Nat → Option α} {th : α} {t : Nat} {s : CrossThresholdState α}
    (h : ThreshInv th a t s) :
    ∃ s', CrossUnderThreshold.next s (a t) = (under0 a (fun _ => some th) t, s') ∧ ThreshInv th a (t + 1) s' := by
  subst h
  refine ⟨⟨a t, th⟩, ?_, rfl⟩
  unfold CrossUnderThreshold.next under0
  cases t with
  | zero => simp [before]
  | succ t => simp only [before]; cases a t <;> cases a (t + 1) <;> rfl
theorem threshCross_step {a : Nat → Option α} {th : α} {t : Nat} {s : CrossThresholdState α}
    (h : ThreshInv th a t s) :
    ∃ s', CrossThreshold.next s (a t) = (cross0 a (fun _ => some th) t, s') ∧ ThreshInv th a (t + 1) s' := by
  subst h
  refine ⟨⟨a t, th⟩, ?_, rfl⟩
  unfold CrossThreshold.next cross0 over0 under0
  cases t with
  | zero => simp [before]
  | succ t =>
    simp only [before]
    rcases Option.eq_none_or_eq_some (a t) with h | ⟨p, h⟩ <;>
      rcases Option.eq_none_or_eq_some (a (t + 1)) with h' | ⟨w, h'⟩ <;>
      simp [h, h', crossOver, crossUnder, fgt, fge]

end Pace
