import Verif.Props.AccuracyBands
import Verif.Props.AccuracySums
import Verif.Props.Dmi

/-!
# C99: the directional movement index in floats against the exact one
-/

set_option linter.unusedSectionVars false

namespace Pace
open Spec
variable {K : Type} [Field K] [LinearOrder K] [IsStrictOrderedRing K] [LawfulRoots K] {R : Rounding K}
variable {α : Type} [F64 α]

/-- `+DI` as a line of numbers: 100 times the smoothed upward movement over the smoothed true range. -/
def Spec.plusLine (len : Nat) (h l c : Nat → K) (t : Nat) : K := 100 * smoothPlus len h l t / smoothRange len h l c t

/-- `-DI` as a line of numbers. -/
def Spec.minusLine (len : Nat) (h l c : Nat → K) (t : Nat) : K := 100 * smoothMinus len h l t / smoothRange len h l c t

/-- The ADX as a line of numbers: 100 times Wilder's running mean of `|(+DI) - (-DI)| / ((+DI) + (-DI))`. -/
def Spec.adxLine (len sig : Nat) (h l : Nat → K) (t : Nat) : K := 100 * runningMean sig len (directionalIndex len h l) (t + 1 - (len + sig))

/-- It is clear for each bar which of its two movements counts: the rise of the high and the fall of the low are the same, or neither is
positive, or they differ by more than `e`. -/
def Spec.ClearMoves (h l : Nat → K) (e : K) (N : Nat) : Prop := ∀ t, t < N → 1 ≤ t →
  h t - h (t - 1) = l (t - 1) - l t ∨ (h t ≤ h (t - 1) ∧ l (t - 1) ≤ l t) ∨ e < |(h t - h (t - 1)) - (l (t - 1) - l t)|

/-- What the DMI strategy signals on three lines of numbers: the crossings of the first two where the third is above `strong`. -/
def Spec.strongSignal (s s' : Nat) (p q a : Nat → K) (strong : K) (t : Nat) : Option TradeDirection :=
  if s' ≤ t ∧ strong < a t then crossSignal s p q t else none

section
variable {V : Valued R α} {u η top : K} (A : R.Accurate u η top) (L : R.Lawful)

/-- Of two floats within `e` of `x` and `y`: the first if it is greater than the second and 0, otherwise 0. -/
theorem near_move (L : R.Lawful) {a b : α} {x y e : K} (ha : Near V a x e) (hb : Near V b y e)
    (h : V.val a = V.val b ∧ x = y ∨ (x ≤ 0 ∧ y ≤ 0) ∨ 2 * e < |x - y|) :
    Near V (if fgt a b && fgt a (lit 0) then a else lit 0) (if y < x ∧ 0 < x then x else 0) e := by
  have he := ha.nonneg
  obtain ⟨v, h1, h2⟩ := ha
  obtain ⟨w, h3, h4⟩ := hb
  have v0 : V.val (lit (0 : ℚ)) = Fl.of R (.fin (0 : K)) := by rw [V.lit, lit_zero L]
  have lt : ∀ p q : K, F64.lt (Fl.of R (.fin p)) (Fl.of R (.fin q)) = decide (p < q) := fun p q => rfl
  have c1 : fgt a b = decide (w < v) := by unfold fgt; rw [V.lt, h1, h3, lt]
  have c2 : fgt a (lit 0) = decide (0 < v) := by unfold fgt; rw [V.lt, h1, v0, lt]
  rw [c1, c2]
  rw [abs_le] at h2 h4
  by_cases hf : w < v ∧ 0 < v
  · rw [if_pos (by simp [hf.1, hf.2])]
    refine ⟨v, h1, ?_⟩
    by_cases hx : y < x ∧ 0 < x
    · rw [if_pos hx]; exact abs_le.mpr h2
    · rw [if_neg hx, sub_zero, abs_of_pos hf.2]
      rcases h with ⟨e1, -⟩ | ⟨e1, -⟩ | e1
      · rw [h1, h3] at e1
        have : v = w := Ext.fin.inj (show (Ext.fin v : Ext K) = .fin w from e1)
        linarith [hf.1]
      · linarith
      · rcases le_or_gt x 0 with x0 | x0
        · linarith
        · have : x ≤ y := not_lt.mp fun g => hx ⟨g, x0⟩
          rw [abs_of_nonpos (by linarith)] at e1
          linarith [hf.1]
  · rw [if_neg (by simpa using fun g => not_lt.mp fun g' => hf ⟨g, g'⟩)]
    refine ⟨0, v0, ?_⟩
    by_cases hx : y < x ∧ 0 < x
    · rw [if_pos hx, zero_sub, abs_neg, abs_of_pos hx.2]
      rcases h with ⟨-, e1⟩ | ⟨e1, -⟩ | e1
      · linarith [hx.1]
      · linarith [hx.2]
      · rw [abs_of_pos (by linarith [hx.1])] at e1
        have : v ≤ 0 := not_lt.mp fun g => hf ⟨by linarith, g⟩
        linarith
    · rw [if_neg hx]; simpa using he

include A L in
/-- Wilder's running mean of a series from tick `s` on that is known up to 2 roundings. -/
theorem rma_room (d : DataProvider α) {n k : Nat} (hn : 1 ≤ n) {N : Nat} (hk : n + N + 1 ≤ k) {M : K} (hM : 0 ≤ M) (hr : Room u η top k M)
    {x : Nat → Option α} {s : Nat} {w : Nat → K} (h : StaysNear V x s w (2 * (u * M + η)) N) (hw : ∀ t, t < N → s ≤ t → |w t| ≤ 2 * M) :
    ∃ y, Runs (fun t => Rma.next ⟨d, t⟩) (Rma.new n) x N y ∧
      StaysNear V y (s + n - 1) (fun t => runningMean n s w (t + 1 - (s + n))) ((2 + 54 * n) * (u * M + η)) N := by
  have hu := A.u_nonneg
  have hus := A.u_small
  have hη := A.η_nonneg
  have hδ : 0 ≤ u * M + η := by positivity
  have hk1 : (1 : K) ≤ k := by exact_mod_cast (by omega : 1 ≤ k)
  have sM : u * M ≤ M / 1024 := by have := mul_le_mul_of_nonneg_right hus hM; linarith
  have wd := hr.wide
  have fine := hr.fine
  have ku : 0 ≤ (k : K) * u := by positivity
  obtain ⟨z, z1, z2⟩ := C92_average A L d .rma hn hk hr.small (by linarith) h (M := 2 * M) (by linarith) (by positivity) hw (by
      have : 40 * (k : K) * (2 * M + 2 * (u * M + η) + η) ≤ 40 * (k : K) * (3 * (M + η)) := mul_le_mul_of_nonneg_left (by linarith) (by positivity)
      have : 0 ≤ (k : K) * (M + η) := by positivity
      linarith)
  refine ⟨z, (C53_ma d n x N).2.2.1.symm.trans z1, ?_⟩
  refine Spec.StaysNear.mono (show StaysNear V z (s + n - 1) (fun t => runningMean n s w (t + 1 - (s + n))) _ N from z2) ?_
  simp only [slack]
  push_cast
  have h2 : u * (2 * M + 2 * (u * M + η)) + η ≤ 3 * (u * M + η) := by
    have := mul_le_mul_of_nonneg_right hus hδ
    linarith
  have := mul_le_mul_of_nonneg_left h2 (show (0 : K) ≤ 18 * n by positivity)
  linarith

/-- A series that never stops once it has begun passes `FixNan` unchanged. -/
theorem fixnan_stays {x : Nat → Option α} {s : Nat} {w : Nat → K} {e : K} {N : Nat} (h : StaysNear V x s w e N) :
    Runs (total FixNan.next) (.ok FixNan.new) x N x := by
  obtain ⟨y, h1, h2⟩ := C05_fixnan x N
  refine h1.congr fun t ht => ?_
  by_cases hl : t < s
  · rw [stays_before h ht hl]
    rcases h2 t ht with ⟨g, _⟩ | ⟨k, w, g1, g2, _⟩
    · exact g
    · rw [stays_before h (by omega) (show k < s by omega)] at g2
      simp at g2
  · obtain ⟨a, a1, -⟩ := stays_at h ht (by omega)
    rcases h2 t ht with ⟨_, g⟩ | ⟨k, w, g1, g2, g3, g4⟩
    · have := g t (le_refl _)
      rw [a1] at this
      simp at this
    · rcases Nat.lt_or_ge k t with hk | hk
      · have := g4 t hk (le_refl _)
        rw [a1] at this
        simp at this
      · obtain rfl : k = t := by omega
        rw [g3, g2]


include A in
/-- The true range from the second bar on. -/
theorem range_later {d : DataProvider α} {N : Nat} {o h l c v : Nat → K} {M : K} (hb : PricedBars V d N o h l c v M) (hM : 0 ≤ M) (htop : 2 * M ≤ top) :
    ∃ r : Nat → Option α, (∀ t, t < N → Tr.next ⟨d, t⟩ false = .ok (r t)) ∧ StaysNear V r 1 (barRange h l c) (2 * (u * M + η)) N := by
  obtain ⟨o', h', l', c', v', b, hv⟩ := hb.bars
  refine ⟨_, fun t ht => tr_step b.high b.low b.close ht false, fun t ht => ?_⟩
  cases t with
  | zero => simp [Within, startAt, tr0]
  | succ t =>
    obtain ⟨-, v2, v3, -, -⟩ := hv (t + 1) ht
    obtain ⟨-, m2, m3, -⟩ := hb.bound (t + 1) ht
    obtain ⟨-, -, -, v4, -⟩ := hv t (by omega)
    obtain ⟨-, -, -, m4⟩ := hb.bound t (by omega)
    unfold startAt
    rw [if_neg (by omega)]
    exact ⟨_, rfl, ((Near.gap A v2 v3 m2 m3 htop).max (Near.gap A v2 v4 m2 m4 htop).abs).max (Near.gap A v3 v4 m3 m4 htop).abs⟩

include A L in
/-- The directional index of two lines in [0, 100]. -/
theorem near_direction {a b : α} {p q E ν : K} (ha : Near V a p E) (hb : Near V b q E) (hp : 0 ≤ p) (hp1 : p ≤ 100) (hq : 0 ≤ q) (hq1 : q ≤ 100)
    (hν : 0 < ν) (hpq : ν ≤ p + q) (hE : 24 * E ≤ ν) (huE : 303 * u ≤ E) (htop : 1024 ≤ top) :
    Near V (F64.abs (a - b) / (if F64.feq a (-b) then lit 0 else a + b)) (|p - q| / (p + q)) (18 * (E / ν) + 2 * u) := by
  have hu := A.u_nonneg
  have hus := A.u_small
  have hη := A.η_nonneg
  have hηu : η ≤ u / 1024 := A.η_small.trans (by have := mul_le_mul_of_nonneg_right hus hu; linarith)
  have hE0 := ha.nonneg
  have uE : u * E ≤ E / 1024 := by have := mul_le_mul_of_nonneg_right hus hE0; linarith
  have habs : |p - q| ≤ p + q := abs_le.mpr ⟨by linarith, by linarith⟩
  have hne : F64.feq a (-b) = false := by
    obtain ⟨v, h1, h2⟩ := ha
    obtain ⟨w, h3, h4⟩ := hb
    rw [V.feq, V.neg, h1, h3]
    show F64.feq (Fl.of R (.fin v)) (Fl.of R (.fin (-w))) = false
    rw [val_feq_fin]
    refine decide_eq_false fun g => ?_
    rw [abs_le] at h2 h4
    linarith
  rw [hne]
  have n1 : Near V (a - b) (p - q) (3 * E) := by
    refine (ha.sub A hb (m := 200) (by linarith) (by linarith)).mono ?_
    have : u * (200 + (E + E)) = 200 * u + 2 * (u * E) := by ring
    linarith
  have n2 : Near V (a + b) (p + q) (3 * E) := by
    refine (ha.add A hb (m := 200) (by rw [abs_of_nonneg (by linarith)]; linarith) (by linarith)).mono ?_
    have : u * (200 + (E + E)) = 200 * u + 2 * (u * E) := by ring
    linarith
  have hs : |p + q| = p + q := abs_of_nonneg (by linarith)
  refine (Near.ratio A n1.abs n2 hν (by rw [hs]; exact hpq) (by rw [abs_abs, hs]; exact habs) (G := 6 * E) (by linarith) (by linarith) (by linarith)).mono ?_
  have : 3 * (6 * E / ν) = 18 * (E / ν) := by ring
  linarith

include A L in
/-- **C99.** The directional movement index on well-formed bars of finite floats with prices up to `M` where the smoothed range is at least
`m`, the two lines add up to at least `ν`, and it is clear which movement counts: `+DI` and `-DI` are within `E = 606 G / m + 303 u` of the
exact lines, `G = (2 + 54 len) (u M + η)`, and the ADX within `1818 E / ν + (303 + 3838 sig) u`; they begin on the same bars. -/
theorem C99_dmi {d : DataProvider α} {N : Nat} {o h l c v : Nat → K} {M : K} (hb : PricedBars V d N o h l c v M) (hM : 0 ≤ M) (hw : WellFormed o h l c)
    {len sig k : Nat} (hlen : 1 ≤ len) (hsig : 1 ≤ sig) (hk : len + sig + N + 1 ≤ k) (hr : Room u η top k M) (hr1 : Room u η top k 1) (htop : 1024 ≤ top)
    (clear : ClearMoves h l (4 * (u * M + η)) N) {G : K} (hG : G = (2 + 54 * len) * (u * M + η)) {m : K} (hm : 0 < m) (hGm : 8 * G ≤ m)
    (ranges : ∀ t, t < N → len ≤ t → m ≤ smoothRange len h l c t) {E : K} (hE : E = 606 * (G / m) + 303 * u) {ν : K} (hν : 0 < ν) (hEν : 24 * E ≤ ν)
    (moves : ∀ t, t < N → len ≤ t → ν ≤ plusLine len h l c t + minusLine len h l c t) :
    ∃ p q a, Runs (noInput fun t => Dmi.next ⟨d, t⟩) (Dmi.new len sig) unit N (fun t => ⟨p t, q t, a t⟩) ∧
      StaysNear V p len (plusLine len h l c) E N ∧ StaysNear V q len (minusLine len h l c) E N ∧
      StaysNear V a (len + sig - 1) (adxLine len sig h l) (1818 * (E / ν) + (303 + 3838 * sig) * u) N := by
  have hu := A.u_nonneg
  have hus := A.u_small
  have hη := A.η_nonneg
  have hηu : η ≤ u / 1024 := A.η_small.trans (by have := mul_le_mul_of_nonneg_right hus hu; linarith)
  have huM : 0 ≤ u * M := mul_nonneg hu hM
  have hδ : 0 ≤ u * M + η := by positivity
  have hk1 : (1 : K) ≤ k := by exact_mod_cast (by omega : 1 ≤ k)
  have h2M : 2 * M ≤ top := by
    have : 2 * (M + η) ≤ 1000 * (k : K) * (M + η) := mul_le_mul_of_nonneg_right (by linarith) (by positivity)
    linarith [hr.wide]
  obtain ⟨r, r1, r2⟩ := range_later A hb hM h2M
  obtain ⟨o', h', l', c', v', b, hv⟩ := hb.bars
  have gaps : ∀ t, t + 1 < N → Near V (h' (t + 1) - h' t) (h (t + 1) - h t) (2 * (u * M + η)) ∧ Near V (l' t - l' (t + 1)) (l t - l (t + 1)) (2 * (u * M + η)) ∧
      (h (t + 1) - h t = l t - l (t + 1) → V.val (h' (t + 1) - h' t) = V.val (l' t - l' (t + 1))) := by
    intro t ht
    obtain ⟨-, v2, v3, -, -⟩ := hv (t + 1) ht
    obtain ⟨-, w2, w3, -, -⟩ := hv t (by omega)
    obtain ⟨-, b2, b3, -⟩ := hb.bound (t + 1) ht
    obtain ⟨-, d2, d3, -⟩ := hb.bound t (by omega)
    refine ⟨Near.gap A v2 w2 b2 d2 h2M, Near.gap A w3 v3 d3 b3 h2M, fun e => ?_⟩
    rw [V.sub, V.sub, v2, v3, w2, w3]
    have sub : ∀ a b : K, Fl.of R (.fin a) - Fl.of R (.fin b) = Fl.of R (R.rnd (a + -b)) := fun a b => rfl
    rw [sub, sub, ← sub_eq_add_neg, ← sub_eq_add_neg, e]
  have np : StaysNear V (fun t => opt2 (fun u w => if fgt u w && fgt u (lit 0) then u else lit 0) (opt2 (· - ·) (some (h' t)) (prev (fun t => some (h' t)) t))
      (opt2 (· - ·) (prev (fun t => some (l' t)) t) (some (l' t)))) 1 (plusMove h l) (2 * (u * M + η)) N := by
    intro t ht
    cases t with
    | zero => simp [Within, startAt, prev, opt2]
    | succ t =>
      unfold startAt
      rw [if_neg (by omega)]
      obtain ⟨g1, g2, g3⟩ := gaps t ht
      refine ⟨_, rfl, ?_⟩
      have cl := clear (t + 1) ht (by omega)
      rw [Nat.add_sub_cancel] at cl
      show Near V _ (if l t - l (t + 1) < h (t + 1) - h t ∧ 0 < h (t + 1) - h t then h (t + 1) - h t else 0) _
      refine near_move L g1 g2 ?_
      rcases cl with e | ⟨e1, e2⟩ | e
      · exact .inl ⟨g3 e, e⟩
      · exact .inr (.inl ⟨by linarith, by linarith⟩)
      · exact .inr (.inr (by linarith))
  have nm : StaysNear V (fun t => opt2 (fun u w => if fgt w u && fgt w (lit 0) then w else lit 0) (opt2 (· - ·) (some (h' t)) (prev (fun t => some (h' t)) t))
      (opt2 (· - ·) (prev (fun t => some (l' t)) t) (some (l' t)))) 1 (minusMove h l) (2 * (u * M + η)) N := by
    intro t ht
    cases t with
    | zero => simp [Within, startAt, prev, opt2]
    | succ t =>
      unfold startAt
      rw [if_neg (by omega)]
      obtain ⟨g1, g2, g3⟩ := gaps t ht
      refine ⟨_, rfl, ?_⟩
      have cl := clear (t + 1) ht (by omega)
      rw [Nat.add_sub_cancel] at cl
      show Near V _ (if h (t + 1) - h t < l t - l (t + 1) ∧ 0 < l t - l (t + 1) then l t - l (t + 1) else 0) _
      refine near_move L g2 g1 ?_
      rcases cl with e | ⟨e1, e2⟩ | e
      · exact .inl ⟨(g3 e).symm, e.symm⟩
      · exact .inr (.inl ⟨by linarith, by linarith⟩)
      · exact .inr (.inr (by rw [abs_sub_comm] at e; linarith))
  have hrange : ∀ t, t < N → 1 ≤ t → |barRange h l c t| ≤ 2 * M := fun t ht _ =>
    barRange_abs fun i hi => let ⟨_, a, b, c⟩ := hb.bound i (by omega); ⟨a, b, c⟩
  have hplus : ∀ t, t < N → 1 ≤ t → |plusMove h l t| ≤ 2 * M := fun t ht h1 => by
    obtain ⟨e1, e2⟩ := plusMove_bounds hw h1
    rw [abs_of_nonneg e1]
    exact e2.trans ((le_abs_self _).trans (hrange t ht h1))
  have hminus : ∀ t, t < N → 1 ≤ t → |minusMove h l t| ≤ 2 * M := fun t ht h1 => by
    obtain ⟨e1, e2⟩ := minusMove_bounds hw h1
    rw [abs_of_nonneg e1]
    exact e2.trans ((le_abs_self _).trans (hrange t ht h1))
  obtain ⟨rt, rt1, rt2⟩ := rma_room A L d hlen (by omega : len + N + 1 ≤ k) hM hr r2 hrange
  obtain ⟨rp, rp1, rp2⟩ := rma_room A L d hlen (by omega : len + N + 1 ≤ k) hM hr np hplus
  obtain ⟨rm, rm1, rm2⟩ := rma_room A L d hlen (by omega : len + N + 1 ≤ k) hM hr nm hminus
  rw [← hG, show 1 + len - 1 = len by omega] at rt2 rp2 rm2
  have hG0 : 0 ≤ G := by rw [hG]; positivity
  have quot : ∀ {x : Nat → Option α} {w : Nat → K}, StaysNear V x len (fun t => runningMean len 1 w (t + 1 - (1 + len))) G N →
      (∀ t, 0 ≤ runningMean len 1 w (t - len) ∧ runningMean len 1 w (t - len) ≤ smoothRange len h l c t) →
      StaysNear V (fun t => (safeDiv (x t) (rt t)).map (· * lit 100)) len (fun t => 100 * runningMean len 1 w (t - len) / smoothRange len h l c t) E N := by
    intro x w hx hxb t ht
    unfold startAt
    by_cases hts : t < len
    · rw [if_pos hts]
      show (safeDiv (x t) (rt t)).map _ = none
      rw [stays_before hx ht hts]; rfl
    rw [if_neg hts]
    obtain ⟨e, e1, e2⟩ := stays_at hx ht (by omega)
    obtain ⟨f, f1, f2⟩ := stays_at rt2 ht (by omega)
    rw [show t + 1 - (1 + len) = t - len by omega] at e2 f2
    have hmt := ranges t ht (by omega)
    obtain ⟨x0, x1⟩ := hxb t
    beta_reduce
    change Near V f (smoothRange len h l c t) G at f2
    generalize runningMean len 1 w (t - len) = P at *
    generalize smoothRange len h l c t = T at *
    have hT : |T| = T := abs_of_nonneg (by linarith)
    have ne := near_feq_zero L f2 (by rw [hT]; linarith)
    have n1 := Near.ratio A e2 f2 hm (by rw [hT]; exact hmt) (by rw [hT, abs_of_nonneg x0]; exact x1) (G := 2 * G) (by linarith) (by linarith) (by linarith)
    have hr1 : |P / T| ≤ 1 := by rw [abs_div, hT, abs_of_nonneg x0]; exact div_le_one_of_le₀ x1 (by linarith)
    have hq : 2 * G / m ≤ 1 / 4 := by rw [div_le_div_iff₀ hm (by norm_num)]; linarith
    have n2 := n1.percent A L hr1 (by linarith) htop
    refine ⟨e / f * lit 100, by simp [safeDiv, e1, f1, opt2, ne], ?_⟩
    rw [show 100 * P / T = P / T * 100 by ring]
    refine n2.mono ?_
    rw [hE, show 2 * G / m = 2 * (G / m) by ring]
    linarith
  have sb := fun t => smooth_bounds hw hlen (t := t)
  have qp : StaysNear V _ len (plusLine len h l c) E N := quot rp2 fun t => ⟨(sb t).1, (sb t).2.1⟩
  have qm : StaysNear V _ len (minusLine len h l c) E N := quot rm2 fun t => ⟨(sb t).2.2.1, (sb t).2.2.2⟩
  have hEu : 303 * u ≤ E := by rw [hE]; have : 0 ≤ G / m := div_nonneg hG0 hm.le
                               linarith
  have hE0 : 0 ≤ E := by linarith
  have hρ : E / ν ≤ 1 / 24 := by rw [div_le_div_iff₀ hν (by norm_num)]; linarith
  have hρ0 : 0 ≤ E / ν := div_nonneg hE0 hν.le
  have bounds : ∀ t, t < N → len ≤ t → (0 ≤ plusLine len h l c t ∧ plusLine len h l c t ≤ 100) ∧ (0 ≤ minusLine len h l c t ∧ minusLine len h l c t ≤ 100) ∧
      |plusLine len h l c t - minusLine len h l c t| / (plusLine len h l c t + minusLine len h l c t) = directionalIndex len h l t := by
    intro t ht hl
    have hmt := ranges t ht hl
    have hmv := moves t ht hl
    obtain ⟨s1, s2, s3, s4⟩ := sb t
    have hT : 0 < smoothRange len h l c t := by linarith
    have p1 := percent_bounds s1 s2 hT.ne'
    have p2 := percent_bounds s3 s4 hT.ne'
    have e1 : plusLine len h l c t = smoothPlus len h l t / smoothRange len h l c t * 100 := by unfold plusLine; ring
    have e2 : minusLine len h l c t = smoothMinus len h l t / smoothRange len h l c t * 100 := by unfold minusLine; ring
    refine ⟨by rw [e1]; exact p1, by rw [e2]; exact p2, ?_⟩
    unfold directionalIndex
    rw [e1, e2]
    generalize smoothPlus len h l t = P at *
    generalize smoothMinus len h l t = Q at *
    generalize smoothRange len h l c t = T at *
    have hq : 0 < 100 / T := by positivity
    rw [show P / T * 100 - Q / T * 100 = 100 / T * (P - Q) by ring, show P / T * 100 + Q / T * 100 = 100 / T * (P + Q) by ring, abs_mul, abs_of_pos hq,
      mul_div_mul_left _ _ hq.ne']
  have dx : StaysNear V (fun t => opt2 (fun p m => F64.abs (p - m) / (if F64.feq p (-m) then lit 0 else p + m)) ((safeDiv (rp t) (rt t)).map (· * lit 100))
      ((safeDiv (rm t) (rt t)).map (· * lit 100))) len (directionalIndex len h l) (18 * (E / ν) + 2 * u) N := by
    intro t ht
    unfold startAt
    by_cases hts : t < len
    · rw [if_pos hts]
      have e1 := stays_before qp ht hts
      show opt2 _ _ _ = none
      rw [e1]; rfl
    rw [if_neg hts]
    obtain ⟨a, a1, a2⟩ := stays_at qp ht (by omega)
    obtain ⟨b, b1, b2⟩ := stays_at qm ht (by omega)
    obtain ⟨⟨c1, c2⟩, ⟨c3, c4⟩, c5⟩ := bounds t ht (by omega)
    refine ⟨_, by beta_reduce; rw [a1, b1]; rfl, ?_⟩
    rw [← c5]
    exact near_direction A L a2 b2 c1 c2 c3 c4 hν (moves t ht (by omega)) hEν hEu htop
  have dx1 : ∀ t, t < N → len ≤ t → |directionalIndex len h l t| ≤ 1 := by
    intro t ht hl
    obtain ⟨⟨c1, c2⟩, ⟨c3, c4⟩, c5⟩ := bounds t ht hl
    rw [← c5, abs_div, abs_abs, abs_of_nonneg (show 0 ≤ plusLine len h l c t + minusLine len h l c t by linarith)]
    exact div_le_one_of_le₀ (abs_le.mpr ⟨by linarith, by linarith⟩) (by linarith)
  have hsk : (sig : K) ≤ k := by exact_mod_cast (by omega : sig ≤ k)
  have fine := hr1.fine
  have ku : 0 ≤ (k : K) * u := by positivity
  have su : 1000 * (sig : K) * u ≤ 1 := by
    have := mul_le_mul_of_nonneg_right hsk hu; linarith
  have su0 : 0 ≤ (sig : K) * u := by positivity
  obtain ⟨z, z1, z2⟩ := C92_average A L d .rma hsig (by omega : sig + N + 1 ≤ k) hr.small (by linarith) dx (M := 1) (by norm_num) (by linarith) dx1 (by
      have : 40 * (k : K) * (1 + (18 * (E / ν) + 2 * u) + η) ≤ 40 * (k : K) * (3 * (1 + η)) := mul_le_mul_of_nonneg_left (by linarith) (by positivity)
      have : 0 ≤ (k : K) * (1 + η) := by positivity
      linarith [hr1.wide])
  have z3 : StaysNear V z (len + sig - 1) (fun t => runningMean sig len (directionalIndex len h l) (t + 1 - (len + sig))) (18 * (E / ν) + (2 + 38 * sig) * u) N := by
    refine Spec.StaysNear.mono (show StaysNear V z (len + sig - 1) (fun t => runningMean sig len (directionalIndex len h l) (t + 1 - (len + sig))) _ N from z2) ?_
    simp only [slack]
    push_cast
    have h2 : u * (1 + (18 * (E / ν) + 2 * u)) + η ≤ 2 * u := by
      have := mul_le_mul_of_nonneg_left (show 1 + (18 * (E / ν) + 2 * u) ≤ 1 + 19 / 24 by linarith) hu
      linarith
    have := mul_le_mul_of_nonneg_left h2 (show (0 : K) ≤ 18 * sig by positivity)
    linarith
  refine ⟨_, _, _, C53_dmi d b.high b.low r1 (fun t _ => rfl) (fun t _ => rfl) rt1 rp1 rm1 (fixnan_stays qp) (fixnan_stays qm)
    ((C53_ma d sig _ N).2.2.1.symm.trans z1), qp, qm, fun t ht => ?_⟩
  unfold startAt
  by_cases hts : t < len + sig - 1
  · rw [if_pos hts]
    show (z t).map _ = none
    rw [stays_before z3 ht hts]; rfl
  rw [if_neg hts]
  obtain ⟨a, a1, a2⟩ := stays_at z3 ht (by omega)
  refine ⟨a * lit 100, by simp [a1], ?_⟩
  have hmean : |runningMean sig len (directionalIndex len h l) (t + 1 - (len + sig))| ≤ 1 :=
    average_abs .rma hsig (show len + maLength .rma sig ≤ t + 1 by simp only [maLength]; omega) fun i h1 h2 => dx1 i (by omega) h1
  have n2 := a2.percent A L hmean (by linarith) htop
  unfold adxLine
  rw [mul_comm]
  refine n2.mono ?_
  linarith


/-- The DMI strategy keeps its crossing state like the crossing strategies. -/
private theorem dmi_of_cross {strong : α} {x : Nat → DmiData α} {N : Nat} {cs : Nat → Option TradeDirection}
    (h : Runs (total CrossStrategy.next) (.ok CrossState.new) (fun t => ((x t).plus, (x t).minus)) N cs) :
    Runs (total DmiStrategy.next) (.ok (.new strong)) x N (fun t => if ((x t).adx.map fun w => fgt w strong).getD false then cs t else none) := by
  obtain ⟨s, h0, hs⟩ := h.trace
  refine Runs.of_trace (fun t => ⟨strong, s t⟩) (by rw [← Except.ok.inj h0]; rfl) fun t ht => ?_
  have h1 := hs t ht
  simp only [total, CrossStrategy.next] at h1
  have h2 := Except.ok.inj h1
  have h3 : (Cross.next (s t) ((x t).plus, (x t).minus)).1.map CrossMode.toDirection = cs t := congrArg Prod.fst h2
  have h4 : (Cross.next (s t) ((x t).plus, (x t).minus)).2 = s (t + 1) := congrArg Prod.snd h2
  simp only [total, DmiStrategy.next]
  rw [h3, h4]

/-- The signals on three lines that are known up to `e`, `e` and `f`, given those of the two lines that cross. -/
private theorem dmi_signals {p q a : Nat → Option α} {s s' : Nat} {P Q Z : Nat → K} {f : K} {N : Nat}
    (na : StaysNear V a s' Z f N) {strong : α} {S : K} (hS : V.val strong = Fl.of R (.fin S)) (far : f = 0 ∨ ∀ t, t < N → s' ≤ t → f < |Z t - S|)
    (h : Runs (total CrossStrategy.next) (.ok CrossState.new) (fun t => (p t, q t)) N (crossSignal s P Q)) :
    Runs (total DmiStrategy.next) (.ok (.new strong)) (fun t => ⟨p t, q t, a t⟩) N (strongSignal s s' P Q Z S) := by
  refine (dmi_of_cross (strong := strong) (x := fun t => ⟨p t, q t, a t⟩) h).congr fun t ht => ?_
  unfold strongSignal
  by_cases hts : s' ≤ t
  · obtain ⟨w, w1, w2⟩ := stays_at na ht hts
    have c := (near_cmp w2 (near_of_val hS) (far.symm.imp (fun g => by rw [add_zero]; exact g t ht hts) (fun g => ⟨g, rfl⟩))).2.2.1
    have c' : fgt w strong = decide (S < Z t) := c
    simp only [w1, Option.map_some, Option.getD_some, c', decide_eq_true_eq, hts, true_and]
  · have e : a t = none := stays_before na ht (by omega)
    simp [e, hts]

include A L in
/-- **C99.** The DMI program on such bars: if the exact `+DI` and `-DI` are always more than `2 E` apart and the exact ADX keeps farther from
the strong-trend threshold than its error, then it signals on every tick what it signals in exact arithmetic: long where `+DI` crosses over
`-DI` and short where it crosses under, each only while the ADX is above the threshold. -/
theorem C99_dmi_program {d : DataProvider α} {N : Nat} {o h l c v : Nat → K} {M : K} (hb : PricedBars V d N o h l c v M) (hM : 0 ≤ M) (hw : WellFormed o h l c)
    {dx : DataProvider (Ex K)} (hx : ExBars dx N o h l c v)
    {len sig k : Nat} (hlen : 1 ≤ len) (hsig : 1 ≤ sig) (hk : len + sig + N + 1 ≤ k) (hr : Room u η top k M) (hr1 : Room u η top k 1) (htop : 1024 ≤ top)
    (clear : ClearMoves h l (4 * (u * M + η)) N) {G : K} (hG : G = (2 + 54 * len) * (u * M + η)) {m : K} (hm : 0 < m) (hGm : 8 * G ≤ m)
    (ranges : ∀ t, t < N → len ≤ t → m ≤ smoothRange len h l c t) {E : K} (hE : E = 606 * (G / m) + 303 * u) {ν : K} (hν : 0 < ν) (hEν : 24 * E ≤ ν)
    (moves : ∀ t, t < N → len ≤ t → ν ≤ plusLine len h l c t + minusLine len h l c t)
    {strong : α} {S : K} (hS : V.val strong = Fl.of R (.fin S))
    (apart : ∀ t, t < N → len ≤ t → 2 * E < |plusLine len h l c t - minusLine len h l c t|)
    (far : ∀ t, t < N → len + sig - 1 ≤ t → 1818 * (E / ν) + (303 + 3838 * sig) * u < |adxLine len sig h l t - S|)
    (cfg : StrategyConfig α) (cfgx : StrategyConfig (Ex K)) (rfr : α) (rfrx : Ex K) :
    SameSignals d dx N Dmi.next (Dmi.new len sig) DmiStrategy.next (.new strong) cfg rfr Dmi.next (Dmi.new len sig) DmiStrategy.next (.new (fin S)) cfgx rfrx
      (strongSignal len (len + sig - 1) (plusLine len h l c) (minusLine len h l c) (adxLine len sig h l) S) := by
  obtain ⟨p, q, a, r, np, nq, na⟩ := C99_dmi A L hb hM hw hlen hsig hk hr hr1 htop clear hG hm hGm ranges hE hν hEν moves
  have cs := C92_cross_signals np nq (fun t ht hl => by rw [max_self] at hl; linarith [apart t ht hl])
  rw [max_self] at cs
  have sg := dmi_signals na hS (.inr far) cs
  -- exact arithmetic
  have bx : PricedBars (Valued.unsigned (Rounding.exact K)) dx N o h l c v M := ⟨⟨_, _, _, _, _, hx, fun t _ => ⟨rfl, rfl, rfl, rfl, rfl⟩⟩, hb.bound⟩
  have Ax : (Rounding.exact K).Accurate 0 0 (max 1024 (1000 * (k : K) * (M + 1))) :=
    { u_nonneg := le_refl _, u_small := by norm_num, η_nonneg := le_refl _, η_small := by simp, top_ge := le_trans (by norm_num) (le_max_left _ _),
      err := fun k _ => ⟨k, rfl, by simp⟩ }
  have rx : ∀ B : K, B ≤ M + 1 → Room (0 : K) 0 (max 1024 (1000 * (k : K) * (M + 1))) k B := fun B hB =>
    ⟨by simp, le_trans (mul_le_mul_of_nonneg_left (by linarith) (by positivity)) (le_max_right _ _), hr.small⟩
  obtain ⟨p', q', a', r', np', nq', na'⟩ := C99_dmi Ax exact_lawful bx hM hw hlen hsig hk (rx M (by linarith)) (rx 1 (by linarith)) (le_max_left _ _)
    (fun t ht h1 => by
      by_cases e : h t - h (t - 1) = l (t - 1) - l t
      · exact .inl e
      · exact .inr (.inr (by rw [zero_mul, add_zero, mul_zero]; exact abs_pos.mpr (sub_ne_zero.mpr e))))
    (G := 0) (by simp) hm (by linarith) ranges (E := 0) (by simp) hν (by linarith) moves
  simp only [zero_div, mul_zero, add_zero] at na'
  have val : ∀ {y : Nat → Option (Ex K)} {s : Nat} {w : Nat → K}, StaysNear (Valued.unsigned (Rounding.exact K)) y s w 0 N → ∀ t, t < N → y t = flo (startAt s w) t := by
    intro y s w hy t ht
    by_cases hl : t < s
    · rw [stays_before hy ht hl]; simp [flo, startAt, hl]
    · obtain ⟨z, z1, x, z2, z3⟩ := stays_at hy ht (by omega)
      have : x = w t := sub_eq_zero.mp (abs_eq_zero.mp (le_antisymm z3 (abs_nonneg _)))
      rw [z1, show z = fin x from z2, this]
      simp [flo, startAt, hl]
  have csx : Runs (total CrossStrategy.next) (.ok CrossState.new) (fun t => (p' t, q' t)) N (crossSignal len (plusLine len h l c) (minusLine len h l c)) := by
    have := C92_cross_exact len len (plusLine len h l c) (minusLine len h l c) N
    rw [max_self] at this
    exact this.input_congr fun t ht => by rw [val np' t ht, val nq' t ht]
  have sgx := dmi_signals na' (strong := (fin S : Ex K)) rfl (.inl rfl) csx
  obtain ⟨o', h', l', c', v', b, -⟩ := hb.bars
  obtain ⟨st, tv, t1, -, t2⟩ := C65_program b r sg cfg rfr
  obtain ⟨stx, tvx, t3, -, t4⟩ := C65_program hx r' sgx cfgx rfrx
  exact ⟨_, st, tv, _, stx, tvx, t2, t4, t1, t3⟩

end
end Pace
