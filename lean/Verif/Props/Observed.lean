import Verif.Props.Content8

/-!
# C67: the readable fields of a component

Besides returning a value from `next`, several components publish fields: the configuration they were created with (`length`,
`alpha`, `is_biased`, ...) and, for `Rsi` and `AroonStrategy`, a `data` record.
-/

set_option linter.unusedSectionVars false

namespace Pace
open Spec

/-- The component together with what an observer reads from its fields after each call. -/
def Spec.observe {S I O P : Type} (view : S → P) (step : Nat → S → I → Res (O × S)) : Nat → S → I → Res ((O × P) × S) :=
  fun t s i => step t s i >>= fun r => pure ((r.1, view r.2), r.2)

/-- No call changes what `view` reads. -/
def Spec.Keeps {S I O P : Type} (view : S → P) (step : S → I → Res (O × S)) : Prop :=
  ∀ s i o s', step s i = .ok (o, s') → view s' = view s

theorem observe_of_impl {S I O P : Type} {view : S → P} {step : Nat → S → I → Res (O × S)} {x : Nat → I} {y : Nat → O} {p : Nat → P}
    {N : Nat} {s : Res S} (st : Nat → S) (h0 : s = .ok (st 0))
    (hs : ∀ t, t < N → step t (st t) (x t) = .ok (y t, st (t + 1))) (hp : ∀ t, t < N → view (st (t + 1)) = p t) :
    Runs (observe view step) s x N (fun t => (y t, p t)) := by
  refine Runs.of_trace st h0 fun t ht => ?_
  simp only [observe, hs t ht, Res.ok_bind, hp t ht]
  rfl

/-- A configuration that no call changes reads the same after every tick of every run. -/
theorem Keeps.observed {S I O P : Type} {view : S → P} {step : Nat → S → I → Res (O × S)} (hk : ∀ t, Keeps view (step t)) {s0 : S}
    {x : Nat → I} {y : Nat → O} {N : Nat} (h : Runs step (.ok s0) x N y) :
    Runs (observe view step) (.ok s0) x N (fun t => (y t, view s0)) := by
  obtain ⟨st, h0, hs⟩ := h.trace
  cases h0
  refine observe_of_impl st rfl hs fun t ht => ?_
  induction t with
  | zero => exact hk 0 _ _ _ _ (hs 0 ht)
  | succ t ih => rw [hk (t + 1) _ _ _ _ (hs (t + 1) ht), ih (by omega)]

section
variable {α : Type} [F64 α]

local macro "keeps" d:ident : tactic => `(tactic| (
  intro s i o s' h
  unfold $d at h
  simp only [bind, Except.bind, pure, Except.pure] at h
  repeat' (split at h)
  all_goals first
    | (exfalso; simp at h; done)
    | (cases h; rfl)
    | (simp at h; obtain ⟨-, rfl⟩ := h; rfl)))

/-- **C67.** The published configuration of a component is what its constructor was given, and no call changes it. -/
theorem C67_configuration (c : Ctx α) :
    Keeps (·.length) (Sma.next c) ∧ Keeps (·.length) (Sum.next c) ∧ Keeps (fun s => (s.length, s.alpha)) (Ema.next c) ∧
    Keeps (·.length) (Rma.next c) ∧ Keeps (·.length) (Wma.next c) ∧ Keeps (·.length) (Swma.next c) ∧
    Keeps (·.length) (Dev.next c) ∧ Keeps (fun s => (s.length, s.isBiased)) (Stdev.next c) ∧
    Keeps (·.length) (Change.next (α := α)) ∧ Keeps (·.length) (Roc.next (α := α)) ∧ Keeps (·.length) (Prank.next c) ∧
    Keeps (·.length) (Highest.next c) ∧ Keeps (·.length) (Lowest.next c) ∧ Keeps (·.length) (Stoch.next c) ∧
    Keeps (·.length) (Rsi.next c) ∧
    Keeps (·.length) (fun s (_ : Unit) => Atr.next c s) ∧ Keeps (·.length) (fun s (_ : Unit) => HighestBars.next c s) ∧
    Keeps (·.length) (fun s (_ : Unit) => LowestBars.next c s) := by
  refine ⟨?_, ?_, ?_, ?_, ?_, ?_, ?_, ?_, ?_, ?_, ?_, ?_, ?_, ?_, ?_, ?_, ?_, ?_⟩
  · keeps Sma.next
  · keeps Sum.next
  · keeps Ema.next
  · keeps Rma.next
  · keeps Wma.next
  · keeps Swma.next
  · keeps Dev.next
  · keeps Stdev.next
  · keeps Change.next
  · keeps Roc.next
  · keeps Prank.next
  · keeps Highest.next
  · keeps Lowest.next
  · keeps Stoch.next
  · keeps Rsi.next
  · keeps Atr.next
  · keeps HighestBars.next
  · keeps LowestBars.next

local macro "made" d:ident : tactic => `(tactic| (
  intro s h
  unfold $d at h
  simp only [bind, Except.bind, pure, Except.pure] at h
  repeat' (split at h)
  all_goals first
    | (exfalso; simp at h; done)
    | (cases h; rfl)
    | (simp at h; obtain rfl := h; rfl)))

/-- **C67.** The published configuration after construction. -/
theorem C67_constructed (n : Nat) (a : α) (b : Bool) :
    (∀ s, Sma.new (α := α) n = .ok s → s.length = n) ∧ (∀ s, Sum.new (α := α) n = .ok s → s.length = n) ∧
    (∀ s, Ema.withAlpha n a = .ok s → (s.length, s.alpha) = (n, a)) ∧
    (∀ s, Ema.new (α := α) n = .ok s → (s.length, s.alpha) = (n, lit 2 / (lit (n : ℚ) + lit 1))) ∧
    (∀ s, Rma.new (α := α) n = .ok s → s.length = n) ∧ (∀ s, Wma.new (α := α) n = .ok s → s.length = n) ∧
    (∀ s, Swma.new (α := α) = .ok s → s.length = 4) ∧ (∀ s, Dev.new (α := α) n = .ok s → s.length = n) ∧
    (∀ s, Stdev.new (α := α) n b = .ok s → (s.length, s.isBiased) = (n, b)) ∧
    (∀ s, Change.new (α := α) n = .ok s → s.length = n) ∧ (∀ s, Roc.new (α := α) n = .ok s → s.length = n) ∧
    (∀ s, Prank.new (α := α) n = .ok s → s.length = n) ∧ (∀ s, Highest.new (α := α) n = .ok s → s.length = n) ∧
    (∀ s, Lowest.new (α := α) n = .ok s → s.length = n) ∧ (∀ s, Stoch.new (α := α) n = .ok s → s.length = n) ∧
    (∀ s, Rsi.new (α := α) n = .ok s → (s.length, s.dataUp, s.dataDown) = (n, none, none)) ∧
    (∀ s, Atr.new (α := α) n = .ok s → s.length = n) ∧
    (∀ s, HighestBars.new n = .ok s → s.length = n) ∧ (∀ s, LowestBars.new n = .ok s → s.length = n) := by
  refine ⟨?_, ?_, ?_, ?_, ?_, ?_, ?_, ?_, ?_, ?_, ?_, ?_, ?_, ?_, ?_, ?_, ?_, ?_, ?_⟩
  · made Sma.new
  · made Sum.new
  · made Ema.withAlpha
  · unfold Ema.new
    made Ema.withAlpha
  · made Rma.new
  · made Wma.new
  · made Swma.new
  · made Dev.new
  · made Stdev.new
  · made Change.new
  · made Roc.new
  · made Prank.new
  · made Highest.new
  · made Lowest.new
  · made Stoch.new
  · made Rsi.new
  · made Atr.new
  · made HighestBars.new
  · made LowestBars.new

/-- The data published by the RSI: the two averages of the last tick on which both existed. -/
theorem rsi_data_step {d : DataProvider α} {x : Nat → Option α} {N len t : Nat} (hlen : 2 ≤ len) (hx : NoGap x N) (ht : t < N) {s : Rsi α}
    (hI : RsiInv len x t s) :
    ∃ s', s.next ⟨d, t⟩ (x t) = .ok (rsi0 len x t, s') ∧ RsiInv len x (t + 1) s' ∧
      (s'.dataUp, s'.dataDown) = (opt2 (fun u w => ((some u : Option α), (some w : Option α))) (rma0 len (gain0 x) t)
        (rma0 len (loss0 x) t)).getD (s.dataUp, s.dataDown) := by
  obtain ⟨h1, h2, h3⟩ := hI
  obtain ⟨u, hu1, hu2⟩ := rma_step (d := d) (show 1 ≤ len by omega) (rsi_emaOk hlen (gain0_isSome x) hx) ht h2
  obtain ⟨v, hv1, hv2⟩ := rma_step (d := d) (show 1 ≤ len by omega) (rsi_emaOk hlen (loss0_isSome x) hx) ht h3
  rw [rsi_next_eq, h1]
  change ∃ s', (do
    let (up, upRma) ← s.upRma.next ⟨d, t⟩ (gain0 x t)
    let (down, downRma) ← s.downRma.next ⟨d, t⟩ (loss0 x t)
    let s := { s with upRma, downRma, prevInputValue := x t }
    match up, down with
    | some u, some dn => return (some (lit 100 - lit 100 / (lit 1 + u / dn)), { s with dataUp := up, dataDown := down })
    | _, _ => return (none, s)) = _ ∧ _
  simp only [hu1, hv1, Res.ok_bind, Res.pure_eq, rsi0]
  cases rma0 len (gain0 x) t with
  | none => exact ⟨{ s with upRma := u, downRma := v, prevInputValue := x t }, rfl, ⟨rfl, hu2, hv2⟩, rfl⟩
  | some a =>
    cases rma0 len (loss0 x) t with
    | none => exact ⟨{ s with upRma := u, downRma := v, prevInputValue := x t }, rfl, ⟨rfl, hu2, hv2⟩, rfl⟩
    | some b => exact ⟨⟨s.length, u, v, x t, some a, some b⟩, rfl, ⟨rfl, hu2, hv2⟩, rfl⟩
end

section
variable {K : Type} [Field K] [LinearOrder K] [IsStrictOrderedRing K] [RootOps K]

/-- **C67.** After every tick the RSI publishes the two averages it used on that tick: Wilder's average gain and average loss, from
tick `n` on, and nothing before. -/
theorem C67_rsi_data (d : DataProvider (Ex K)) {n : Nat} (hn : 2 ≤ n) (p : Nat → K) (N : Nat) :
    ∃ y, Runs (fun t => Rsi.next ⟨d, t⟩) (Rsi.new n) (fun t => some (fin (p t))) N y ∧
      Runs (observe (fun s => (s.dataUp, s.dataDown)) fun t => Rsi.next ⟨d, t⟩) (Rsi.new n) (fun t => some (fin (p t))) N
        (fun t => (y t, if t < n then (none, none)
          else (some (fin (wilder n (gain p) (t - n))), some (fin (wilder n (loss p) (t - n)))))) := by
  have hU := rma0_changes hn (g := gain p) (x := gain0 fun t => some (fin (p t))) rfl (fun t => by simp [gain0, before, opt2, gain])
  have hD := rma0_changes hn (g := loss p) (x := loss0 fun t => some (fin (p t))) rfl
    (fun t => by
      simp only [loss0, before, opt2, loss, fin_sub, fin_lit, fin_fmin, fin_neg, Rat.cast_zero, Nat.add_sub_cancel]
      congr 2
      rcases le_total (p (t + 1) - p t) 0 with h | h
      · rw [min_eq_left h, max_eq_left (by linarith)]; ring
      · rw [min_eq_right h, max_eq_right (by linarith)]; ring)
  have hg : NoGap (fun t => some (fin (p t) : Ex K)) N := fun t _ _ => rfl
  refine ⟨_, rsi_runs d hn _ N hg, ?_⟩
  obtain ⟨s, hs, hI⟩ := rsi_init (fun t => some (fin (p t) : Ex K)) hn
  have h0 : (s.dataUp, s.dataDown) = (none, none) := by
    have := (C67_constructed (α := Ex K) n (lit 0) true).2.2.2.2.2.2.2.2.2.2.2.2.2.2.2.1 s hs
    exact congrArg Prod.snd this
  rw [hs]
  refine Impl.runs (Inv := fun t s => RsiInv n (fun t => some (fin (p t) : Ex K)) t s ∧ (s.dataUp, s.dataDown) =
    if t ≤ n then (none, none) else (some (fin (wilder n (gain p) (t - 1 - n))), some (fin (wilder n (loss p) (t - 1 - n)))))
    ⟨⟨hI, by rw [if_pos (by omega)]; exact h0⟩, ?_⟩
  rintro t s ht ⟨i1, i2⟩
  obtain ⟨s', e, i3, i4⟩ := rsi_data_step (d := d) hn hg ht i1
  have key : (s'.dataUp, s'.dataDown) = if t < n then (none, none)
          else (some (fin (wilder n (gain p) (t - n))), some (fin (wilder n (loss p) (t - n)))) := by
    rw [i4, i2]
    by_cases hl : t < n
    · rw [hU.1 t hl, if_pos hl, if_pos (by omega)]; rfl
    · obtain ⟨m, rfl⟩ : ∃ m, t = n + m := ⟨t - n, by omega⟩
      rw [hU.2 m, hD.2 m, if_neg hl, Nat.add_sub_cancel_left]; rfl
  refine ⟨s', ?_, i3, ?_⟩
  · simp only [observe, e, Res.ok_bind, key]; rfl
  · rw [key]
    by_cases hl : t < n
    · rw [if_pos hl, if_pos (by omega)]
    · rw [if_neg hl, if_neg (by omega), Nat.add_sub_cancel]

/-- How strongly line `a` dominates line `b`: from 0 (at 50) to 1 (at 100) if it is above the middle and the other below, else 0. -/
def Spec.trendStrength : Option K → Option K → K
  | some a, some b => if 50 < a ∧ b < 50 then (a - 50) / 50 else 0
  | _, _ => 0

theorem aroon_strength_exact (a b : Option K) :
    AroonStrategy.strength (a.map (fin : K → Ex K)) (b.map fin) = fin (trendStrength a b) := by
  rcases a with _ | x
  · simp [AroonStrategy.strength, trendStrength]
  rcases b with _ | y
  · simp [AroonStrategy.strength, trendStrength]
  simp only [AroonStrategy.strength, trendStrength, Option.map_some, fin_lit, fin_fgt, fin_lt]
  push_cast
  by_cases h : 50 < x ∧ y < 50
  · simp only [h.1, h.2, decide_true, Bool.and_self, if_true, fin_sub, and_self]
    rw [fin_div _ _ (by norm_num : (50 : K) ≠ 0), fin_sub]
    congr 1
    field_simp
    ring
  · rw [if_neg (by simpa using h), if_neg h]

/-- **C67.** After every tick the Aroon strategy publishes the strengths of the two lines on that tick and whether it still waits for a
confirmation: it does if it was armed on that tick and gave no signal. Before the first tick both strengths are 0 and it does not wait. -/
theorem C67_aroon_data (up down : Nat → Option K) (N : Nat) :
    (let s : AroonStrategy (Ex K) := .new; (s.upTrendStrength, s.downTrendStrength, s.crossMode) = (fin 0, fin 0, false)) ∧
    ∃ y, Runs (total AroonStrategy.next) (.ok AroonStrategy.new) (fun t => (flo up t, flo down t)) N y ∧ ∃ w : Nat → Bool,
      Runs (observe (fun s => (s.upTrendStrength, s.downTrendStrength, s.crossMode)) (total AroonStrategy.next)) (.ok AroonStrategy.new)
        (fun t => (flo up t, flo down t)) N
        (fun t => (y t, fin (trendStrength (up t) (down t)), fin (trendStrength (down t) (up t)), w t)) ∧
      ∀ t, t < N → (w t = true ↔ AroonArmed (flo up) (flo down) y t ∧ y t = none) := by
  refine ⟨by simp [AroonStrategy.new], ?_⟩
  refine ⟨_, aroonStrategy_runs (flo up) (flo down) N, fun t => aroonArmed (flo up) (flo down) t &&
    (aroonSignal0 (flo up) (flo down) t).isNone, ?_, fun t _ => by
      rw [Bool.and_eq_true, aroonArmed_iff, Option.isNone_iff_eq_none]⟩
  refine Impl.runs (Inv := fun t s => CrossInv (flo down) (flo up) t s.cross ∧
    aroonArmed (flo up) (flo down) t = ((cross0 (flo down) (flo up) t).isSome || s.crossMode))
    ⟨⟨rfl, by simp [aroonArmed, AroonStrategy.new]⟩, ?_⟩
  rintro t s _ ⟨h1, h2⟩
  obtain ⟨s', e, h3⟩ := cross_step h1
  have e1 := aroon_strength_exact (up t) (down t)
  have e2 := aroon_strength_exact (down t) (up t)
  change AroonStrategy.strength (flo up t) (flo down t) = _ at e1
  change AroonStrategy.strength (flo down t) (flo up t) = _ at e2
  refine ⟨⟨AroonStrategy.strength (flo up t) (flo down t), AroonStrategy.strength (flo down t) (flo up t),
    aroonArmed (flo up) (flo down) t && !(fge (AroonStrategy.strength (flo up t) (flo down t)) (lit 1) ||
      fge (AroonStrategy.strength (flo down t) (flo up t)) (lit 1)), s'⟩, ?_, h3, rfl⟩
  simp only [observe, total, AroonStrategy.next, e, aroonSignal0, h2, Res.ok_bind, ← e1, ← e2]
  cases (cross0 (flo down) (flo up) t).isSome <;> cases s.crossMode <;>
    cases fge (AroonStrategy.strength (flo up t) (flo down t)) (lit 1) <;>
    cases fge (AroonStrategy.strength (flo down t) (flo up t)) (lit 1) <;> rfl
end

/-- The RSI of length 2 of the prices 1, 3, 2, 5 publishes nothing on the first two ticks, then average gains 1, 2 and losses 1/2, 1/4. -/
example (d : DataProvider (Ex ℚ)) : ∃ y : Nat → Option (Ex ℚ),
    Runs (observe (fun s => (s.dataUp, s.dataDown)) fun t => Rsi.next ⟨d, t⟩) (Rsi.new 2)
      (fun t => some (fin (([1, 3, 2, 5] : List ℚ).getD t 0))) 4
      (fun t => (y t, if t < 2 then (none, none) else if t = 2 then (some (fin 1), some (fin (1 / 2)))
        else (some (fin 2), some (fin (1 / 4))))) := by
  obtain ⟨y, -, h⟩ := C67_rsi_data d (le_refl 2) (fun t => ([1, 3, 2, 5] : List ℚ).getD t 0) 4
  have e : wilder 2 (gain fun t => ([1, 3, 2, 5] : List ℚ).getD t 0) 0 = 1 ∧
      wilder 2 (loss fun t => ([1, 3, 2, 5] : List ℚ).getD t 0) 0 = 1 / 2 ∧
      wilder 2 (gain fun t => ([1, 3, 2, 5] : List ℚ).getD t 0) 1 = 2 ∧
      wilder 2 (loss fun t => ([1, 3, 2, 5] : List ℚ).getD t 0) 1 = 1 / 4 := by decide +kernel
  refine ⟨y, h.congr fun t ht => ?_⟩
  have : t = 0 ∨ t = 1 ∨ t = 2 ∨ t = 3 := by omega
  rcases this with rfl | rfl | rfl | rfl
  · rfl
  · rfl
  · simp only [e.1, e.2.1, Nat.sub_self, lt_irrefl, if_false, if_true]
  · simp only [show 3 - 2 = 1 from rfl, e.2.2.1, e.2.2.2]; rfl

/-- Lines up 40, 100 and down 60, 10: a crossing that is confirmed on the same tick; the strengths are 0, 1. -/
example : (trendStrength (some 40) (some 60) : ℚ) = 0 ∧ (trendStrength (some 100) (some 10) : ℚ) = 1 ∧
    (trendStrength (some 75) (some 10) : ℚ) = 1 / 2 ∧ (trendStrength none (some 10) : ℚ) = 0 := by
  refine ⟨?_, ?_, ?_, rfl⟩ <;> norm_num [trendStrength]
end Pace
