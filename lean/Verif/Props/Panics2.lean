import Verif.Props.Panics
import Verif.Props.Warmup
import Verif.Props.Ta
import Verif.Props.Content

/-!
# C57: panics of the content indicators
-/

set_option linter.unusedSectionVars false

namespace Pace
open Spec
variable {α : Type} [F64 α]

/-! ## Constructors -/

theorem succeeds_pure {β : Type} (b : β) : Succeeds (pure b : Res β) ↔ True := ⟨fun _ => trivial, fun _ => ⟨b, rfl⟩⟩

theorem succeeds_seq {β γ : Type} {m : Res β} {f : β → Res γ} {P : Prop} (hf : ∀ b, Succeeds (f b) ↔ P) :
    Succeeds (m >>= f) ↔ Succeeds m ∧ P := by
  constructor
  · rintro ⟨c, hc⟩
    cases m with
    | error e => simp [bind, Except.bind] at hc
    | ok b => exact ⟨⟨b, rfl⟩, (hf b).mp ⟨c, hc⟩⟩
  · rintro ⟨⟨b, rfl⟩, hP⟩
    obtain ⟨c, hc⟩ := (hf b).mpr hP
    exact ⟨c, hc⟩

/-- **C57.** Every content constructor succeeds exactly if its lengths are at least 1 (lengths of an RSI and of the Chande momentum
oscillator: at least 2); otherwise it panics. -/
theorem C57_content_constructors (a b c e : Nat) (k : α) :
    (Succeeds (Aroon.new a) ↔ 1 ≤ a) ∧
    (Succeeds (BollingerBands.new a k) ↔ 1 ≤ a) ∧
    (Succeeds (ChaikinMoneyFlow.new (α := α) a) ↔ 1 ≤ a) ∧
    (Succeeds (ChandeKrollStop.new a b k) ↔ 1 ≤ a ∧ 1 ≤ b) ∧
    (Succeeds (ChandeMomentumOscillator.new (α := α) a) ↔ 2 ≤ a) ∧
    (Succeeds (ChoppinessIndex.new (α := α) a) ↔ 1 ≤ a) ∧
    (Succeeds (CommodityChannelIndex.new (α := α) a) ↔ 1 ≤ a) ∧
    (Succeeds (ConnorsRsi.new (α := α) a b c) ↔ 2 ≤ a ∧ 2 ≤ b ∧ 1 ≤ c) ∧
    (Succeeds (CoppockCurve.new (α := α) a b c) ↔ 1 ≤ a ∧ 1 ≤ b ∧ 1 ≤ c) ∧
    (Succeeds (Dmi.new (α := α) a b) ↔ 1 ≤ a ∧ 1 ≤ b) ∧
    (Succeeds (DonchianChannels.new (α := α) a) ↔ 1 ≤ a) ∧
    (Succeeds (RelativeVigorIndex.new (α := α) a) ↔ 1 ≤ a) ∧
    (Succeeds (RelativeVolatilityIndex.new (α := α) a b) ↔ 1 ≤ a ∧ 1 ≤ b) ∧
    (Succeeds (StochRsi.new (α := α) a b c e) ↔ 2 ≤ a ∧ 1 ≤ b ∧ 1 ≤ c ∧ 1 ≤ e) ∧
    (Succeeds (UltimateOscillator.new (α := α) a b c) ↔ 1 ≤ a ∧ 1 ≤ b ∧ 1 ≤ c) ∧
    (Succeeds (Vortex.new (α := α) a) ↔ 1 ≤ a) ∧
    (Succeeds (WilliamsPercentRank.new (α := α) a) ↔ 1 ≤ a) := by
  have hsma : ∀ n, Succeeds (Sma.new (α := α) n) ↔ 1 ≤ n := fun n => (C57_constructors n).1
  have hsum : ∀ n, Succeeds (Sum.new (α := α) n) ↔ 1 ≤ n := fun n => (C57_constructors n).2.1
  have hema : ∀ n, Succeeds (Ema.new (α := α) n) ↔ 1 ≤ n := fun n => (C57_constructors n).2.2.1
  have hrma : ∀ n, Succeeds (Rma.new (α := α) n) ↔ 1 ≤ n := fun n => (C57_constructors n).2.2.2.2.1
  have hwma : ∀ n, Succeeds (Wma.new (α := α) n) ↔ 1 ≤ n := fun n => (C57_constructors n).2.2.2.2.2.1
  have hdev : ∀ n, Succeeds (Dev.new (α := α) n) ↔ 1 ≤ n := fun n => (C57_constructors n).2.2.2.2.2.2.1
  have hsd : ∀ n b, Succeeds (Stdev.new (α := α) n b) ↔ 1 ≤ n := fun n => (C57_constructors n).2.2.2.2.2.2.2.1
  have hroc : ∀ n, Succeeds (Roc.new (α := α) n) ↔ 1 ≤ n := fun n => (C57_constructors n).2.2.2.2.2.2.2.2.2.1
  have hpr : ∀ n, Succeeds (Prank.new (α := α) n) ↔ 1 ≤ n := fun n => (C57_constructors n).2.2.2.2.2.2.2.2.2.2.1
  have hhi : ∀ n, Succeeds (Highest.new (α := α) n) ↔ 1 ≤ n := fun n => (C57_constructors n).2.2.2.2.2.2.2.2.2.2.2.1
  have hlo : ∀ n, Succeeds (Lowest.new (α := α) n) ↔ 1 ≤ n := fun n => (C57_constructors n).2.2.2.2.2.2.2.2.2.2.2.2.1
  have hhb : ∀ n, Succeeds (HighestBars.new n) ↔ 1 ≤ n := fun n => (C57_constructors (α := α) n).2.2.2.2.2.2.2.2.2.2.2.2.2.1
  have hlb : ∀ n, Succeeds (LowestBars.new n) ↔ 1 ≤ n := fun n => (C57_constructors (α := α) n).2.2.2.2.2.2.2.2.2.2.2.2.2.2.1
  have hst : ∀ n, Succeeds (Stoch.new (α := α) n) ↔ 1 ≤ n := fun n => (C57_constructors n).2.2.2.2.2.2.2.2.2.2.2.2.2.2.2.1
  have hatr : ∀ n, Succeeds (Atr.new (α := α) n) ↔ 1 ≤ n := fun n => (C57_constructors n).2.2.2.2.2.2.2.2.2.2.2.2.2.2.2.2.1
  have hrsi : ∀ n, Succeeds (Rsi.new (α := α) n) ↔ 2 ≤ n := fun n => (C57_constructors n).2.2.2.2.2.2.2.2.2.2.2.2.2.2.2.2.2.1
  have hsw := C57_swma_constructor (α := α)
  refine ⟨?_, ?_, ?_, ?_, ?_, ?_, ?_, ?_, ?_, ?_, ?_, ?_, ?_, ?_, ?_, ?_, ?_⟩
  · exact (succeeds_seq fun _ => succeeds_seq fun _ => succeeds_pure _).trans (by rw [hhb, hlb]; simp only [and_true]; omega)
  · exact (succeeds_seq fun _ => succeeds_seq fun _ => succeeds_pure _).trans (by rw [hsma, hsd]; simp only [and_true]; omega)
  · exact (succeeds_seq fun _ => succeeds_seq fun _ => succeeds_pure _).trans (by rw [hsum]; simp only [and_true]; omega)
  · exact (succeeds_seq fun _ => succeeds_seq fun _ => succeeds_seq fun _ => succeeds_seq fun _ => succeeds_seq fun _ =>
      succeeds_pure _).trans (by rw [hatr, hhi, hlo, hhi, hlo]; simp only [and_true]; omega)
  · refine (succeeds_seq fun _ => succeeds_seq fun _ => succeeds_seq fun _ => succeeds_pure _).trans ?_
    rw [hsum]
    by_cases h : 1 < a
    · simp only [h, decide_true]
      exact ⟨fun _ => h, fun _ => ⟨⟨(), rfl⟩, by omega, by omega, trivial⟩⟩
    · simp only [h, decide_false]
      refine ⟨fun hh => ?_, fun hh => absurd hh h⟩
      obtain ⟨u, hu⟩ := hh.1
      simp [assert] at hu
  · exact (succeeds_seq fun _ => succeeds_seq fun _ => succeeds_seq fun _ => succeeds_seq fun _ => succeeds_pure _).trans
      (by rw [hatr, hsum, hhi, hlo]; simp only [and_true]; omega)
  · exact (succeeds_seq fun _ => succeeds_seq fun _ => succeeds_pure _).trans (by rw [hsma, hdev]; simp only [and_true]; omega)
  · exact (succeeds_seq fun _ => succeeds_seq fun _ => succeeds_seq fun _ => succeeds_seq fun _ => succeeds_pure _).trans
      (by rw [hrsi, hrsi, hpr, hroc]; simp only [and_true]; omega)
  · exact (succeeds_seq fun _ => succeeds_seq fun _ => succeeds_seq fun _ => succeeds_pure _).trans
      (by rw [hwma, hroc, hroc]; simp only [and_true])
  · exact (succeeds_seq fun _ => succeeds_seq fun _ => succeeds_seq fun _ => succeeds_seq fun _ => succeeds_pure _).trans
      (by rw [hrma, hrma]; simp only [and_true]; omega)
  · exact (succeeds_seq fun _ => succeeds_seq fun _ => succeeds_pure _).trans (by rw [hhi, hlo]; simp only [and_true]; omega)
  · exact (succeeds_seq fun _ => succeeds_seq fun _ => succeeds_seq fun _ => succeeds_seq fun _ => succeeds_seq fun _ =>
      succeeds_pure _).trans (by rw [hsum]; simp only [hsw, true_and, and_true]; omega)
  · exact (succeeds_seq fun _ => succeeds_seq fun _ => succeeds_seq fun _ => succeeds_pure _).trans
      (by rw [hsd, hema]; simp only [and_true]; omega)
  · exact (succeeds_seq fun _ => succeeds_seq fun _ => succeeds_seq fun _ => succeeds_seq fun _ => succeeds_pure _).trans
      (by rw [hrsi, hst, hsma, hsma]; simp only [and_true])
  · exact (succeeds_seq fun _ => succeeds_seq fun _ => succeeds_seq fun _ => succeeds_seq fun _ => succeeds_seq fun _ =>
      succeeds_seq fun _ => succeeds_pure _).trans (by rw [hsum, hsum, hsum]; simp only [and_true]; omega)
  · exact (succeeds_seq fun _ => succeeds_seq fun _ => succeeds_seq fun _ => succeeds_seq fun _ => succeeds_pure _).trans
      (by rw [hsum, hatr]; simp only [and_true]; omega)
  · exact (succeeds_seq fun _ => succeeds_seq fun _ => succeeds_pure _).trans (by rw [hhi, hlo]; simp only [and_true]; omega)

/-! ## Relative volatility index -/

/-- What the relative volatility index feeds to its two averages on tick `t`. -/
def rviUpper (n : Nat) (x : Nat → Option α) (t : Nat) : Option α :=
  (opt2 (fun a p => if F64.le (a - p) (lit 0) then some (lit 0) else stdev0 n true x t) (x t) (prev x t)).join
def rviLower (n : Nat) (x : Nat → Option α) (t : Nat) : Option α :=
  (opt2 (fun a p => if fgt (a - p) (lit 0) then some (lit 0) else stdev0 n true x t) (x t) (prev x t)).join

theorem rvi_next (c : Ctx α) (s : RelativeVolatilityIndex α) (src sd : Option α) (q : Stdev α) (h : s.stdev.next c src = .ok (sd, q)) :
    RelativeVolatilityIndex.next c s src =
      (s.upperEma.next c (opt2 (fun a p => if F64.le (a - p) (lit 0) then some (lit 0) else sd) src s.prevSrc).join >>= fun u =>
        s.lowerEma.next c (opt2 (fun a p => if fgt (a - p) (lit 0) then some (lit 0) else sd) src s.prevSrc).join >>= fun l =>
          pure ((opt2 (fun u l => if F64.feq u (-l) then none else some (u / (u + l) * lit 100)) u.1 l.1).join, ⟨q, u.2, l.2, src⟩)) := by
  simp only [RelativeVolatilityIndex.next, h, Res.ok_bind]
  cases src <;> cases s.prevSrc <;> simp only [opt2, Option.join_none, Option.join_some] <;>
    refine bind_congr fun u => bind_congr fun l => ?_ <;> rcases u with ⟨_ | u, _⟩ <;> rcases l with ⟨_ | l, _⟩ <;> rfl

theorem rvi_parts (d : DataProvider α) {n m : Nat} (hn : 1 ≤ n) {x : Nat → Option α} {N : Nat} {y : Nat → Option α}
    (h : Runs (fun t => RelativeVolatilityIndex.next ⟨d, t⟩) (RelativeVolatilityIndex.new n m) x N y) :
    (∃ u, Runs (fun t => Ema.next ⟨d, t⟩) (Ema.new m) (rviUpper n x) N u) ∧
    ∃ w, Runs (fun t => Ema.next ⟨d, t⟩) (Ema.new m) (rviLower n x) N w := by
  obtain ⟨s, h0, hs⟩ := h.trace
  obtain ⟨q, hq0, hq⟩ := (stdev_runs d hn true x N).trace
  obtain ⟨e, he⟩ : ∃ e, Ema.new (α := α) m = .ok e := by
    cases he : Ema.new (α := α) m with
    | ok e => exact ⟨e, rfl⟩
    | error p => simp [RelativeVolatilityIndex.new, hq0, he] at h0
  have h00 : s 0 = ⟨q 0, e, e, none⟩ := by
    simp only [RelativeVolatilityIndex.new, hq0, he, Res.ok_bind, Res.pure_eq] at h0
    exact (Except.ok.inj h0).symm
  have step : ∀ t, t < N → (s t).stdev = q t → (s t).prevSrc = prev x t →
      ∃ u w, (s t).upperEma.next ⟨d, t⟩ (rviUpper n x t) = .ok (u, (s (t + 1)).upperEma) ∧
        (s t).lowerEma.next ⟨d, t⟩ (rviLower n x t) = .ok (w, (s (t + 1)).lowerEma) ∧
        (s (t + 1)).stdev = q (t + 1) ∧ (s (t + 1)).prevSrc = x t := by
    intro t ht i1 i2
    have := hs t ht
    rw [rvi_next _ _ _ _ _ (by rw [i1]; exact hq t ht), i2] at this
    change (s t).upperEma.next ⟨d, t⟩ (rviUpper n x t) >>= _ = _ at this
    cases hu : (s t).upperEma.next ⟨d, t⟩ (rviUpper n x t) with
    | error e => rw [hu] at this; simp [bind, Except.bind] at this
    | ok u =>
      rw [hu] at this
      change (s t).lowerEma.next ⟨d, t⟩ (rviLower n x t) >>= _ = _ at this
      cases hl : (s t).lowerEma.next ⟨d, t⟩ (rviLower n x t) with
      | error e => rw [hl] at this; simp [bind, Except.bind] at this
      | ok l =>
        rw [hl] at this
        have e2 := (Prod.mk.inj (Except.ok.inj this)).2
        refine ⟨u.1, l.1, ?_, ?_, ?_, ?_⟩ <;> rw [← e2]
  have inv : ∀ t, t ≤ N → (s t).stdev = q t ∧ (s t).prevSrc = prev x t := by
    intro t
    induction t with
    | zero => intro _; rw [h00]; exact ⟨rfl, rfl⟩
    | succ t ih =>
      intro ht
      obtain ⟨i1, i2⟩ := ih (by omega)
      obtain ⟨u, w, _, _, h3, h4⟩ := step t (by omega) i1 i2
      exact ⟨h3, h4⟩
  have all : ∀ t, ∃ u w, t < N → (s t).upperEma.next ⟨d, t⟩ (rviUpper n x t) = .ok (u, (s (t + 1)).upperEma) ∧
        (s t).lowerEma.next ⟨d, t⟩ (rviLower n x t) = .ok (w, (s (t + 1)).lowerEma) := by
    intro t
    by_cases ht : t < N
    · obtain ⟨u, w, h1, h2, _⟩ := step t ht (inv t (by omega)).1 (inv t (by omega)).2
      exact ⟨u, w, fun _ => ⟨h1, h2⟩⟩
    · exact ⟨none, none, fun h => absurd h ht⟩
  choose u w huw using all
  exact ⟨⟨u, Runs.of_trace (fun t => (s t).upperEma) (by rw [h00]; exact he) fun t ht => (huw t ht).1⟩,
    ⟨w, Runs.of_trace (fun t => (s t).lowerEma) (by rw [h00]; exact he) fun t ht => (huw t ht).2⟩⟩

/-- The deviation counted as upward (downward) on tick `t` is missing: there is no change of the source to classify, or the source moved
that way and there are no `n` values to take the deviation of. -/
theorem rviUpper_isSome {n : Nat} {x : Nat → Option α} {t : Nat} : (rviUpper n x t).isSome ↔
    ∃ a p, x t = some a ∧ prev x t = some p ∧ (F64.le (a - p) (lit 0) = true ∨ (stdev0 n true x t).isSome) := by
  unfold rviUpper
  cases x t <;> cases prev x t <;> simp [opt2]
  split <;> simp_all

theorem rviLower_isSome {n : Nat} {x : Nat → Option α} {t : Nat} : (rviLower n x t).isSome ↔
    ∃ a p, x t = some a ∧ prev x t = some p ∧ (fgt (a - p) (lit 0) = true ∨ (stdev0 n true x t).isSome) := by
  unfold rviLower
  cases x t <;> cases prev x t <;> simp [opt2]
  split <;> simp_all

theorem neverPanics_iff {S I O : Type} [Inhabited O] {step : Nat → S → I → Res (O × S)} {s0 : Res S} {x : Nat → I} {N : Nat} :
    NeverPanics step s0 x N ↔ ∃ y, Runs step s0 x N y := by
  refine ⟨fun ⟨os, hos⟩ => ⟨fun t => (os[t]?).getD default, ?_⟩, fun ⟨y, hy⟩ => hy.neverPanics⟩
  have hl : os.length = N := by
    unfold outputs at hos
    cases s0 with
    | error e => simp [bind, Except.bind] at hos
    | ok s =>
      simp only [Res.ok_bind, run] at hos
      cases hr : runFrom step x 0 N s with
      | error e => rw [hr] at hos; simp [bind, Except.bind] at hos
      | ok p =>
        rw [hr] at hos
        have := runFrom_length step x N 0 s p.1 p.2 hr
        simp only [Res.ok_bind, Res.pure_eq, Except.ok.injEq] at hos
        rw [← hos, this]
  unfold Runs
  rw [hos]
  congr 1
  apply List.ext_getElem
  · simp [hl]
  · intro i h1 h2
    simp [h1]

/-- An average of length `m` survives the series `z`: once `m` consecutive values have been present, none is missing any more. -/
def Spec.GapFree (m : Nat) (z : Nat → Option α) (N : Nat) : Prop :=
  ∀ t, t < N → (∃ s, s < t ∧ (fullWindow z m s).isSome) → (z t).isSome

/-- **C57.** Exactly when the relative volatility index panics: if `2 ≤ m`, it survives `N` ticks if and only if neither the series of
upward nor that of downward deviations has a gap after `m` consecutive values. -/
theorem C57_relative_volatility_iff (d : DataProvider α) {n m : Nat} (hn : 1 ≤ n) (hm : 2 ≤ m) (x : Nat → Option α) (N : Nat) :
    NeverPanics (fun t => RelativeVolatilityIndex.next ⟨d, t⟩) (RelativeVolatilityIndex.new n m) x N ↔
      GapFree m (rviUpper n x) N ∧ GapFree m (rviLower n x) N := by
  rw [neverPanics_iff]
  constructor
  · rintro ⟨y, hy⟩
    obtain ⟨hu, hw⟩ := rvi_parts d hn hy
    exact ⟨(C24_ema_panics_iff d hm _ _ N).mp hu, (C24_ema_panics_iff d hm _ _ N).mp hw⟩
  · rintro ⟨hu, hw⟩
    obtain ⟨u, hu⟩ := (C24_ema_panics_iff d hm (lit 2 / (lit (m : ℚ) + lit 1)) _ N).mpr hu
    obtain ⟨w, hw⟩ := (C24_ema_panics_iff d hm (lit 2 / (lit (m : ℚ) + lit 1)) _ N).mpr hw
    exact ⟨_, C53_relative_volatility d (stdev_runs d hn true x N) hu hw⟩

/-- **C57.** The relative volatility index panics on valid prices whenever `2 ≤ m` and `m + 3 ≤ n`: it panics (at tick `m + 1`) on every
complete price series that does not rise for `m` ticks and then rises. -/
theorem C57_relative_volatility_panics (d : DataProvider α) {n m : Nat} (hm : 2 ≤ m) (hnm : m + 3 ≤ n) {p : Nat → α}
    (hfall : ∀ t, t < m → F64.le (p (t + 1) - p t) (lit 0) = true) (hrise : F64.le (p (m + 1) - p m) (lit 0) = false) {N : Nat}
    (hN : m + 2 ≤ N) :
    ¬ NeverPanics (fun t => RelativeVolatilityIndex.next ⟨d, t⟩) (RelativeVolatilityIndex.new n m) (fun t => some (p t)) N := by
  rw [C57_relative_volatility_iff d (by omega) hm]
  rintro ⟨hu, -⟩
  have := hu (m + 1) (by omega) ⟨m, by omega, fullWindow_isSome.mpr ⟨by omega, ?_⟩⟩
  · rw [rviUpper_isSome] at this
    obtain ⟨a, q, h1, h2, h3⟩ := this
    cases h1
    cases h2
    rcases h3 with h3 | h3
    · rw [hrise] at h3; simp at h3
    · have e : ¬ n ≤ m + 1 + 1 := by omega
      simp [stdev0, sma0, show n ≠ 1 by omega, e] at h3
  · intro k h1 h2
    obtain ⟨j, rfl⟩ : ∃ j, k = j + 1 := ⟨k - 1, by omega⟩
    exact rviUpper_isSome.mpr ⟨_, _, rfl, rfl, .inl (hfall j (by omega))⟩

/-- **C57.** With `m = 1` the relative volatility index never panics, whatever values are missing. -/
theorem C57_relative_volatility_one (d : DataProvider α) {n : Nat} (hn : 1 ≤ n) (x : Nat → Option α) (N : Nat) :
    NeverPanics (fun t => RelativeVolatilityIndex.next ⟨d, t⟩) (RelativeVolatilityIndex.new n 1) x N :=
  neverPanics_iff.mpr ⟨_, C53_relative_volatility d (stdev_runs d hn true x N) (C23_ema_one d _ _ N) (C23_ema_one d _ _ N)⟩

/-- **C57.** Conversely it never panics on complete prices if `n ≤ m + 2`, as with the defaults (10, 14). -/
theorem C57_relative_volatility_safe (d : DataProvider α) {n m : Nat} (hn : 1 ≤ n) (hm : 2 ≤ m) (hnm : n ≤ m + 2) (p : Nat → α) (N : Nat) :
    NeverPanics (fun t => RelativeVolatilityIndex.next ⟨d, t⟩) (RelativeVolatilityIndex.new n m) (fun t => some (p t)) N := by
  rw [C57_relative_volatility_iff d hn hm]
  have hsd : ∀ t, m + 1 ≤ t → (stdev0 n true (fun t => some (p t)) t).isSome := by
    intro t ht
    by_cases h1 : n = 1
    · simp [stdev0, h1]
    · have : WindowPresent (fun t => some (p t)) n t := fun k _ _ => rfl
      simp [stdev0, sma0, h1, show n ≤ t + 1 by omega, this]
  have key : ∀ z : Nat → Option α, z 0 = none → (∀ t, m + 1 ≤ t → (z t).isSome) → GapFree m z N := by
    rintro z h0 hz t ht ⟨s, hs, hw⟩
    obtain ⟨h1, h2⟩ := fullWindow_isSome.mp hw
    apply hz
    by_contra hcon
    have := h2 0 (by omega) (by omega)
    rw [h0] at this
    simp at this
  refine ⟨key _ (by simp [rviUpper, prev, opt2]) fun t ht => ?_, key _ (by simp [rviLower, prev, opt2]) fun t ht => ?_⟩
  · obtain ⟨j, rfl⟩ : ∃ j, t = j + 1 := ⟨t - 1, by omega⟩
    exact rviUpper_isSome.mpr ⟨_, _, rfl, rfl, .inr (hsd _ ht)⟩
  · obtain ⟨j, rfl⟩ : ∃ j, t = j + 1 := ⟨t - 1, by omega⟩
    exact rviLower_isSome.mpr ⟨_, _, rfl, rfl, .inr (hsd _ ht)⟩

/-- Witness for the panic: length 5, average 2, prices 3, 2, 1, 2. -/
example (d : DataProvider (Ex ℚ)) :
    ¬ NeverPanics (fun t => RelativeVolatilityIndex.next ⟨d, t⟩) (RelativeVolatilityIndex.new 5 2)
      (fun t => some (fin (([3, 2, 1, 2] : List ℚ).getD t 0))) 4 :=
  C57_relative_volatility_panics d (by omega) (by omega) (by decide +kernel) (by decide +kernel) (by omega)

end Pace
