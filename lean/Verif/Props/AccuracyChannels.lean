import Verif.Props.AccuracyRange
import Verif.Props.AccuracySignals

/-!
# C94: channels, stops and percentages in floats against exact ones
-/

set_option linter.unusedSectionVars false

namespace Pace
open Spec
variable {K : Type} [Field K] [LinearOrder K] [IsStrictOrderedRing K] [RootOps K] {R : Rounding K}
variable {α : Type} [F64 α]

section
variable {V : Valued R α} {u η top : K} (A : R.Accurate u η top) (L : R.Lawful)

theorem near_of_val {a : α} {w : K} (h : V.val a = Fl.of R (.fin w)) : Near V a w 0 := ⟨w, h, by simp⟩

theorem within_opt2 {a b : Option α} {x y : Option K} {e f g : K} {op : α → α → α} {op' : K → K → K} (ha : Within V a x e) (hb : Within V b y f)
    (h : ∀ a b v w, x = some v → y = some w → Near V a v e → Near V b w f → Near V (op a b) (op' v w) g) :
    Within V (opt2 op a b) (opt2 op' x y) g := by
  unfold Within at *
  cases x with
  | none =>
    rw [show a = none from ha]
    rfl
  | some v =>
    obtain ⟨a', rfl, a2⟩ := ha
    cases y with
    | none =>
      rw [show b = none from hb]
      rfl
    | some w =>
      obtain ⟨b', rfl, b2⟩ := hb
      exact ⟨_, rfl, h _ _ _ _ rfl rfl a2 b2⟩

theorem highest_abs {h : Nat → K} {M : K} {n t : Nat} (hn : n ≤ t + 1) (hp : ∀ i, i ≤ t → |h i| ≤ M) {m : K}
    (hm : Spec.highest (fun t => some (h t)) n t = some m) : |m| ≤ M := by
  obtain ⟨⟨i, -, i2, i3⟩, -⟩ := spec_highest_some hn hm
  rw [← Option.some.inj i3]
  exact hp i i2

theorem lowest_abs {h : Nat → K} {M : K} {n t : Nat} (hn : n ≤ t + 1) (hp : ∀ i, i ≤ t → |h i| ≤ M) {m : K}
    (hm : Spec.lowest (fun t => some (h t)) n t = some m) : |m| ≤ M := by
  obtain ⟨⟨i, -, i2, i3⟩, -⟩ := spec_lowest_some hn hm
  rw [← Option.some.inj i3]
  exact hp i i2

theorem highest_full {h : Nat → K} {n t : Nat} {m : K} (hm : Spec.highest (fun t => some (h t)) n t = some m) : n ≤ t + 1 := by
  by_contra hc
  unfold Spec.highest at hm
  rw [if_neg hc] at hm
  cases hm

theorem lowest_full {h : Nat → K} {n t : Nat} {m : K} (hm : Spec.lowest (fun t => some (h t)) n t = some m) : n ≤ t + 1 := by
  by_contra hc
  unfold Spec.lowest at hm
  rw [if_neg hc] at hm
  cases hm

/-- The highest highs and lowest lows of bars are exact. -/
theorem bar_extremes {d : DataProvider α} {N : Nat} {o h l c v : Nat → K} {M : K} (hb : PricedBars V d N o h l c v M) {n : Nat} (hn : 1 ≤ n) :
    ∃ (h' l' : Nat → α) (hi lo : Nat → Option α), HasCol d.high N (fun t => some (h' t)) ∧ HasCol d.low N (fun t => some (l' t)) ∧
      Runs (fun t => Highest.next ⟨d, t⟩) (Highest.new n) (fun t => some (h' t)) N hi ∧
      Runs (fun t => Lowest.next ⟨d, t⟩) (Lowest.new n) (fun t => some (l' t)) N lo ∧
      (∀ t, t < N → Within V (hi t) (Spec.highest (fun t => some (h t)) n t) 0) ∧
      ∀ t, t < N → Within V (lo t) (Spec.lowest (fun t => some (l t)) n t) 0 := by
  obtain ⟨o', h', l', c', v', b, hv⟩ := hb.bars
  obtain ⟨hi, r1, n1⟩ := C94_highest (V := V) d hn (N := N) (x := fun t => some (h' t)) (w := fun t => some (h t)) (e := 0)
    fun t ht => ⟨h' t, rfl, near_of_val (hv t ht).2.1⟩
  obtain ⟨lo, r2, n2⟩ := C94_lowest (V := V) d hn (N := N) (x := fun t => some (l' t)) (w := fun t => some (l t)) (e := 0)
    fun t ht => ⟨l' t, rfl, near_of_val (hv t ht).2.2.1⟩
  exact ⟨h', l', hi, lo, b.high, b.low, r1, r2, n1, n2⟩

include A L in
/-- **C94.** Donchian channels of any length: upper and lower are exactly the highest high and lowest low, the basis is within
`3 (u M + η)` of their exact middle. -/
theorem C94_donchian {d : DataProvider α} {N : Nat} {o h l c v : Nat → K} {M : K} (hb : PricedBars V d N o h l c v M) (hM : 0 ≤ M)
    (htop : 8 * (M + η) ≤ top) {n : Nat} (hn : 1 ≤ n) :
    ∃ y : Nat → DonchianData α, Runs (noInput fun t => DonchianChannels.next ⟨d, t⟩) (DonchianChannels.new n) unit N y ∧ ∀ t, t < N →
      Within V (y t).upper (Spec.highest (fun t => some (h t)) n t) 0 ∧
      Within V (y t).lower (Spec.lowest (fun t => some (l t)) n t) 0 ∧
      Within V (y t).basis (opt2 (fun a b => (a + b) / 2) (Spec.highest (fun t => some (h t)) n t) (Spec.lowest (fun t => some (l t)) n t))
        (3 * (u * M + η)) := by
  obtain ⟨h', l', hi, lo, ch, cl, r1, r2, n1, n2⟩ := bar_extremes hb hn
  have hη := A.η_nonneg
  have hus := A.u_small
  have hu := A.u_nonneg
  have huM : 0 ≤ u * M := mul_nonneg hu hM
  have suM : u * (u * M) ≤ u * M / 1024 := by have := mul_le_mul_of_nonneg_right hus huM; linarith
  have sη : u * η ≤ η / 1024 := by have := mul_le_mul_of_nonneg_right hus hη; linarith
  have sM : u * M ≤ M / 1024 := by have := mul_le_mul_of_nonneg_right hus hM; linarith
  have lit2 : V.val (lit (2 : ℚ)) = Fl.of R (.fin (2 : K)) := by
    have := val_lit_nat (V := V) L (n := 2) (by norm_num); exact_mod_cast this
  refine ⟨_, C53_donchian d ch cl r1 r2, fun t ht => ⟨n1 t ht, n2 t ht, ?_⟩⟩
  refine within_opt2 (n1 t ht) (n2 t ht) fun a b x y hx hy na nb => ?_
  have b1 := abs_le.mp (highest_abs (highest_full hx) (fun i hi => (hb.bound i (by omega)).2.1) hx)
  have b2 := abs_le.mp (lowest_abs (lowest_full hy) (fun i hi => (hb.bound i (by omega)).2.2.1) hy)
  have s1 := na.add A nb (m := 2 * M) (abs_le.mpr ⟨by linarith, by linarith⟩) (by linarith)
  refine (Near.div A (by norm_num) s1 lit2 (m := M) (abs_le.mpr ⟨by linarith, by linarith⟩) ?_).mono ?_
  · rw [show (0 + 0 + u * (2 * M + (0 + 0)) + η) / 2 = u * M + η / 2 by ring]
    linarith
  · rw [show (0 + 0 + u * (2 * M + (0 + 0)) + η) / 2 = u * M + η / 2 by ring,
      show u * (M + (u * M + η / 2)) = u * M + u * (u * M) + u * η / 2 by ring]
    linarith

/-- The arithmetic of errors along a stop `price ± factor * range`. -/
private theorem stop_numbers {u η top M F E k : K} (hu : 0 ≤ u) (hus : u ≤ 1 / 1024) (hη : 0 ≤ η) (hM : 0 ≤ M) (hF : 0 ≤ F)
    (hk1 : 1 ≤ k) (fine : 1000 * k * u ≤ 1) (w : 1000 * k * ((1 + F) * (M + η)) ≤ top) (E0 : 0 ≤ E) (hE : E ≤ 56 * k * (u * M + η)) :
    2 * M * F + F * E ≤ top ∧
    M + 2 * M * F + (0 + (F * E + u * (2 * M * F + F * E) + η)) ≤ top ∧
    0 + (F * E + u * (2 * M * F + F * E) + η) + u * (M + 2 * M * F + (0 + (F * E + u * (2 * M * F + F * E) + η))) + η ≤
      F * E + 7 * (F * (u * M + η)) + 3 * (u * M + η) := by
  have hk0 : 0 ≤ k := by linarith
  have hδ : 0 ≤ u * M + η := by positivity
  have huM : 0 ≤ u * M := by positivity
  have hkuM : k * (u * M) ≤ M / 1000 := by
    have := mul_le_mul_of_nonneg_right fine hM
    linarith
  have hEM : E ≤ M + 56 * (k * η) := by linarith
  have huE : u * E ≤ u * M + η := by
    have h1 := mul_le_mul_of_nonneg_left hE hu
    have := mul_le_mul_of_nonneg_right (show 56 * k * u ≤ 1 by linarith [mul_nonneg hk0 hu]) hδ
    linarith
  have f1 := mul_le_mul_of_nonneg_left hEM hF
  have f2 := mul_le_mul_of_nonneg_left huE hF
  have f3 : 0 ≤ F * (u * M) := by positivity
  have f4 : 0 ≤ F * η := by positivity
  have f5 : 0 ≤ F * M := by positivity
  have f6 : F * η ≤ k * (F * η) := le_mul_of_one_le_left f4 hk1
  have f7 : F * M ≤ k * (F * M) := le_mul_of_one_le_left f5 hk1
  have f8 : M ≤ k * M := le_mul_of_one_le_left hM hk1
  have f9 : η ≤ k * η := le_mul_of_one_le_left hη hk1
  have f10 : 0 ≤ k * (F * η) := by positivity
  have fE : 0 ≤ F * E := by positivity
  have g1 : u * (F * E) ≤ F * E / 1024 := by have := mul_le_mul_of_nonneg_right hus fE; linarith
  have g2 : u * (F * M) ≤ F * M / 1024 := by have := mul_le_mul_of_nonneg_right hus f5; linarith
  have g3 : u * (u * (F * M)) ≤ F * (u * M) / 1024 := by have := mul_le_mul_of_nonneg_right hus f3; linarith
  have g4 : u * (u * (F * E)) ≤ u * (F * E) / 1024 := by
    have := mul_le_mul_of_nonneg_right hus (mul_nonneg hu fE); linarith
  have g5 : u * η ≤ η / 1024 := by have := mul_le_mul_of_nonneg_right hus hη; linarith
  have e1 : 1000 * k * ((1 + F) * (M + η)) = 1000 * (k * M) + 1000 * (k * η) + 1000 * (k * (F * M)) + 1000 * (k * (F * η)) := by ring
  rw [e1] at w
  refine ⟨by nlinarith, by nlinarith, ?_⟩
  have e2 : 0 + (F * E + u * (2 * M * F + F * E) + η) + u * (M + 2 * M * F + (0 + (F * E + u * (2 * M * F + F * E) + η))) + η =
    F * E + 4 * (F * (u * M)) + 2 * (u * (F * E)) + 2 * η + u * M + 2 * (u * (u * (F * M))) + u * (u * (F * E)) + u * η := by ring
  rw [e2]
  have e3 : u * (F * E) = F * (u * E) := by ring
  linarith

include A L in
/-- **C94.** Chande Kroll stop of any lengths `p`, `q` and a factor of size at most `F`: all four stops are within
`(3 + (9 + 54 p) F) (u M + η)` of the exact ones on every bar, however long the run. -/
theorem C94_chande_kroll {d : DataProvider α} {N : Nat} {o h l c v : Nat → K} {M : K} (hb : PricedBars V d N o h l c v M) (hM : 0 ≤ M)
    {p q k : Nat} (hp : 1 ≤ p) (hq : 1 ≤ q) (hk : p + N + 1 ≤ k) (hr : Room u η top k M) {f : α} {φ F : K} (hf : V.val f = Fl.of R (.fin φ)) (hF : |φ| ≤ F)
    (wide : 1000 * (k : K) * ((1 + F) * (M + η)) ≤ top) :
    ∃ y : Nat → ChandeKrollStopData α, Runs (noInput fun t => ChandeKrollStop.next ⟨d, t⟩) (ChandeKrollStop.new p q f) unit N y ∧ ∀ t, t < N →
      Within V (y t).firstHighStop (krollHigh h l c p φ t) ((3 + (9 + 54 * p) * F) * (u * M + η)) ∧
      Within V (y t).firstLowStop (krollLow h l c p φ t) ((3 + (9 + 54 * p) * F) * (u * M + η)) ∧
      Within V (y t).stopShort (Spec.highest (krollHigh h l c p φ) q t) ((3 + (9 + 54 * p) * F) * (u * M + η)) ∧
      Within V (y t).stopLong (Spec.lowest (krollLow h l c p φ) q t) ((3 + (9 + 54 * p) * F) * (u * M + η)) := by
  have hF0 : 0 ≤ F := (abs_nonneg _).trans hF
  have hu := A.u_nonneg
  have hη := A.η_nonneg
  have hδ : 0 ≤ u * M + η := add_nonneg (mul_nonneg hu hM) hη
  have hk1 : (1 : K) ≤ k := by exact_mod_cast (by omega : 1 ≤ k)
  have hpk : (p : K) + 1 ≤ k := by exact_mod_cast (by omega : p + 1 ≤ k)
  obtain ⟨h', l', hi, lo, ch, cl, r1, r2, n1, n2⟩ := bar_extremes hb hp
  obtain ⟨a, ra, na⟩ := C94_atr A L hb hM hp hk hr
  obtain ⟨w1, w2, w3⟩ := stop_numbers hu A.u_small hη hM hF0 hk1 hr.fine wide (E := (2 + 54 * p) * (u * M + η)) (by positivity)
    (mul_le_mul_of_nonneg_right (by have : (0 : K) ≤ p := Nat.cast_nonneg _; nlinarith) hδ)
  have w3' : F * ((2 + 54 * p) * (u * M + η)) + 7 * (F * (u * M + η)) + 3 * (u * M + η) = (3 + (9 + 54 * p) * F) * (u * M + η) := by ring
  rw [w3'] at w3
  have hr0 : ∀ t x, t < N → averageRange h l c p t = some x → |x| ≤ 2 * M := by
    intro t x ht hx
    unfold averageRange startAt at hx
    by_cases hts : t < p - 1
    · rw [if_pos hts] at hx; cases hx
    rw [if_neg hts] at hx
    rw [← Option.some.inj hx]
    have := average_abs .rma hp (s := 0) (t := t) (w := barRange h l c) (M := 2 * M) (by simp only [maLength]; omega) fun i _ hi =>
      barRange_abs fun j hj => let ⟨_, a, b, c⟩ := hb.bound j (by omega); ⟨a, b, c⟩
    simpa [average] using this
  have prod : ∀ z x, Near V z x ((2 + 54 * p) * (u * M + η)) → |x| ≤ 2 * M →
      Near V (f * z) (φ * x) (F * ((2 + 54 * p) * (u * M + η)) + u * (2 * M * F + F * ((2 + 54 * p) * (u * M + η))) + η) := by
    intro z x hz hx
    have hmul : |φ * x| ≤ 2 * M * F := by
      rw [abs_mul, mul_comm]
      exact mul_le_mul hx hF (abs_nonneg _) (by linarith)
    have hE0 : 0 ≤ (2 + 54 * p) * (u * M + η) := hz.nonneg
    have e1 : |φ| * ((2 + 54 * p) * (u * M + η)) + |x| * 0 + 0 * ((2 + 54 * p) * (u * M + η)) ≤ F * ((2 + 54 * p) * (u * M + η)) := by
      have := mul_le_mul_of_nonneg_right hF hE0
      linarith
    refine ((near_of_val hf).mul A hz hmul (by linarith)).mono ?_
    have := mul_le_mul_of_nonneg_left e1 hu
    linarith
  have absFull : ∀ t, t < N → (Spec.highest (fun t => some (h t)) p t).isSome = (averageRange h l c p t).isSome ∧
      (Spec.lowest (fun t => some (l t)) p t).isSome = (averageRange h l c p t).isSome := by
    intro t _
    unfold averageRange startAt
    by_cases hts : p ≤ t + 1
    · obtain ⟨m, e1, -⟩ := highest_complete hp hts (x := h)
      obtain ⟨m', e2, -⟩ := lowest_complete hp hts (x := l)
      rw [e1, e2, if_neg (by omega)]
      exact ⟨rfl, rfl⟩
    · rw [if_pos (by omega)]
      unfold Spec.highest Spec.lowest
      rw [if_neg hts, if_neg hts]
      exact ⟨rfl, rfl⟩
  have high : ∀ t, t < N → Within V (opt3 (fun h _ a => h - f * a) (hi t) (lo t) (a t)) (krollHigh h l c p φ t) ((3 + (9 + 54 * p) * F) * (u * M + η)) := by
    intro t ht
    have base : Within V (opt2 (fun h a => h - f * a) (hi t) (a t)) (krollHigh h l c p φ t) ((3 + (9 + 54 * p) * F) * (u * M + η)) :=
      within_opt2 (n1 t ht) (na t ht) fun z y x w hx hw nz ny => by
        have b1 := abs_le.mp (highest_abs (highest_full hx) (fun i hi => (hb.bound i (by omega)).2.1) hx)
        have b2 := hr0 t w ht hw
        have hφw : |φ * w| ≤ 2 * M * F := by
          rw [abs_mul, mul_comm]; exact mul_le_mul b2 hF (abs_nonneg _) (by linarith)
        rw [abs_le] at hφw
        exact (nz.sub A (prod y w ny b2) (m := M + 2 * M * F) (abs_le.mpr ⟨by linarith, by linarith⟩) w2).mono w3
    have hlo : (lo t).isSome = (hi t).isSome := by
      obtain ⟨s1, s2⟩ := absFull t ht
      have i1 := n1 t ht
      have i2 := n2 t ht
      unfold Within at i1 i2
      revert i1 i2
      rw [← s1] at s2
      cases h1 : Spec.highest (fun t => some (h t)) p t <;> cases h2 : Spec.lowest (fun t => some (l t)) p t <;> rw [h1, h2] at s2
      · rintro i1 i2; rw [show hi t = none from i1, show lo t = none from i2]
      · cases s2
      · cases s2
      · rintro ⟨x, i1, -⟩ ⟨y, i2, -⟩; rw [i1, i2]; rfl
    have e : opt3 (fun h _ a => h - f * a) (hi t) (lo t) (a t) = opt2 (fun h a => h - f * a) (hi t) (a t) := by
      cases h1 : hi t <;> cases h2 : lo t <;> cases a t <;> try rfl
      rw [h1, h2] at hlo
      cases hlo
    rw [e]
    exact base
  have low : ∀ t, t < N → Within V (opt3 (fun _ l a => l + f * a) (hi t) (lo t) (a t)) (krollLow h l c p φ t) ((3 + (9 + 54 * p) * F) * (u * M + η)) := by
    intro t ht
    have base : Within V (opt2 (fun h a => h + f * a) (lo t) (a t)) (krollLow h l c p φ t) ((3 + (9 + 54 * p) * F) * (u * M + η)) :=
      within_opt2 (n2 t ht) (na t ht) fun z y x w hx hw nz ny => by
        have b1 := abs_le.mp (lowest_abs (lowest_full hx) (fun i hi => (hb.bound i (by omega)).2.2.1) hx)
        have b2 := hr0 t w ht hw
        have hφw : |φ * w| ≤ 2 * M * F := by
          rw [abs_mul, mul_comm]; exact mul_le_mul b2 hF (abs_nonneg _) (by linarith)
        rw [abs_le] at hφw
        exact (nz.add A (prod y w ny b2) (m := M + 2 * M * F) (abs_le.mpr ⟨by linarith, by linarith⟩) w2).mono w3
    have hlo : (hi t).isSome = (lo t).isSome := by
      obtain ⟨s1, s2⟩ := absFull t ht
      have i1 := n1 t ht
      have i2 := n2 t ht
      unfold Within at i1 i2
      revert i1 i2
      rw [← s1] at s2
      cases h1 : Spec.highest (fun t => some (h t)) p t <;> cases h2 : Spec.lowest (fun t => some (l t)) p t <;> rw [h1, h2] at s2
      · rintro i1 i2; rw [show hi t = none from i1, show lo t = none from i2]
      · cases s2
      · cases s2
      · rintro ⟨x, i1, -⟩ ⟨y, i2, -⟩; rw [i1, i2]; rfl
    have e : opt3 (fun _ l a => l + f * a) (hi t) (lo t) (a t) = opt2 (fun h a => h + f * a) (lo t) (a t) := by
      cases h1 : hi t <;> cases h2 : lo t <;> cases a t <;> try rfl
      rw [h1, h2] at hlo
      cases hlo
    rw [e]
    exact base
  obtain ⟨ss, g1, g2⟩ := C94_highest (V := V) d hq high
  obtain ⟨sl, g3, g4⟩ := C94_lowest (V := V) d hq low
  exact ⟨_, C53_chande_kroll d ch cl ra r1 r2 g1 g3, fun t ht => ⟨high t ht, low t ht, g2 t ht, g4 t ht⟩⟩

end
end Pace
