import Verif.Props.AccuracyPrograms
import Verif.Props.Content8

/-!
# C97: Aroon in floats

Aroon only compares prices and counts bars, so in floats its lines are off by a few roundings whatever the prices are, and the Aroon
strategy signals exactly as it does in exact arithmetic, with no condition on how close anything comes to a threshold.
-/

set_option linter.unusedSectionVars false

namespace Pace
open Spec
variable {K : Type} [Field K] [LinearOrder K] [IsStrictOrderedRing K] [RootOps K] {R : Rounding K}
variable {α : Type} [F64 α]

/-- A line of Aroon: `100 (len - age) / len`, where `age` is how many bars ago the extreme was. -/
def Spec.aroonLine (len : Nat) (age : Nat → Nat) (t : Nat) : K := 100 * ((len : K) - age t) / len

/-- On tick `t` it changes which of the two extremes is the newer one; when they were equally old the tick before, that counts as well. -/
def Spec.AgesCross (len : Nat) (a b : Nat → Nat) (t : Nat) : Prop :=
  len ≤ t ∧ ((b (t - 1) ≤ a (t - 1) ∧ a t < b t) ∨ (a (t - 1) ≤ b (t - 1) ∧ b t < a t))

/-- What the Aroon strategy is to do on a market with highs `h` and lows `l`: when, since the last signal, the order of the ages of the
highest high and lowest low of the last `len` bars has changed, it goes long on a bar that has the highest high (and not an older bar too)
if the lowest low is more than half of `len` bars old, and short on a bar that has the lowest low if the highest high is that old. -/
def Spec.AroonSignals (len : Nat) (h l : Nat → K) (N : Nat) (sig : Nat → Option TradeDirection) : Prop :=
  ∃ a b : Nat → Nat, (∀ t, t < N → len ≤ t + 1 → OldestHighest h len t (a t) ∧ OldestLowest l len t (b t)) ∧
    ∀ t, t < N →
      (sig t = some .long ↔ (∃ s, s ≤ t ∧ AgesCross len a b s ∧ ∀ k, s ≤ k → k < t → sig k = none) ∧ a t = 0 ∧ len < 2 * b t) ∧
      (sig t = some .short ↔ (∃ s, s ≤ t ∧ AgesCross len a b s ∧ ∀ k, s ≤ k → k < t → sig k = none) ∧ b t = 0 ∧ len < 2 * a t)

/-! ## One value -/

private def aroonValue (α : Type) [F64 α] (len q : Nat) : α := (lit ((-(q : Int) : Int) : ℚ) + lit (len : ℚ)) / lit (len : ℚ) * lit 100

section
variable {V : Valued R α} {u η top : K} (A : R.Accurate u η top) (L : R.Lawful)

include L in
private theorem nat_val {n : Nat} (h53 : n ≤ 2 ^ 53) : V.val (lit (n : ℚ)) = Fl.of R (.fin (n : K)) := by
  rw [V.lit]
  have h := L.int n (by rw [abs_of_nonneg (by positivity)]; exact_mod_cast h53)
  show R.rnd (((n : ℚ)) : K) = _
  push_cast at h ⊢
  exact h

include L in
private theorem count_val {len q : Nat} (hq : q < len) (h53 : len ≤ 2 ^ 53) :
    V.val (lit ((-(q : Int) : Int) : ℚ) + lit (len : ℚ)) = Fl.of R (.fin ((len : K) - q)) := by
  have h1 := L.int (-(q : Int)) (by rw [abs_neg, abs_of_nonneg (by positivity)]; exact_mod_cast hq.le.trans h53)
  have h3 := L.int ((len - q : Nat) : Int) (by rw [abs_of_nonneg (by positivity)]; exact_mod_cast (Nat.sub_le _ _).trans h53)
  have e1 : V.val (lit ((-(q : Int) : Int) : ℚ)) = Fl.of R (.fin (-(q : K))) := by
    rw [V.lit]
    show R.rnd ((((-(q : Int) : Int) : ℚ)) : K) = _
    push_cast at h1 ⊢
    exact h1
  rw [V.add, e1, nat_val L h53]
  show R.rnd (-(q : K) + len) = _
  rw [show (-(q : K) + len) = (((len - q : Nat) : Int) : K) by push_cast [Nat.cast_sub hq.le]; ring, h3]
  push_cast [Nat.cast_sub hq.le]
  rfl

include L in
/-- Where the quotient is represented exactly, so is the line. -/
private theorem value_exact {len q : Nat} (hq : q < len) (h53 : len ≤ 2 ^ 53) {r : K} {n : Int} (hr : ((len : K) - q) / len = r)
    (e : R.rnd r = .fin r) (hn : r * 100 = n) (h53' : |n| ≤ 2 ^ 53) : V.val (aroonValue α len q) = Fl.of R (.fin (n : K)) := by
  have hl0 : (len : K) ≠ 0 := by exact_mod_cast (by omega : len ≠ 0)
  have hne : V.val (lit (len : ℚ)) ≠ Fl.of R (.fin 0) := by
    rw [nat_val L h53]
    intro h
    exact hl0 (Ext.fin.inj (show (Ext.fin (len : K)) = .fin 0 from h))
  have h100 : V.val (lit 100 : α) = Fl.of R (.fin 100) := by
    have := nat_val (V := V) L (n := 100) (by norm_num)
    push_cast at this
    exact this
  unfold aroonValue
  rw [V.mul, V.div _ _ hne, count_val L hq h53, nat_val L h53, h100]
  have e1 : (Fl.of R (.fin ((len : K) - q)) / Fl.of R (.fin (len : K)) : Fl R) = Fl.of R (.fin r) := by
    refine Eq.trans (if_neg hl0 : (if (len : K) = 0 then Fl.signInf ((len : K) - q) else R.rnd (((len : K) - q) / len)) = R.rnd (((len : K) - q) / len)) ?_
    rw [hr]; exact e
  rw [e1]
  show R.rnd (r * 100) = _
  rw [hn]
  exact L.int n h53'

include A L in
private theorem value_near (h200 : 200 ≤ top) {len q : Nat} (hq : q < len) (h53 : len ≤ 2 ^ 53) :
    Near V (aroonValue α len q) (100 * ((len : K) - q) / len) (202 * u) := by
  have hu := A.u_nonneg
  have hus := A.u_small
  have hη : η ≤ u / 1024 := by
    have := mul_le_mul_of_nonneg_left hus hu
    have := A.η_small
    linarith
  have hη0 := A.η_nonneg
  have hl0 : (0 : K) < len := by exact_mod_cast (by omega : 0 < len)
  have hq' : (q : K) ≤ len := by exact_mod_cast hq.le
  have hq0 : (0 : K) ≤ q := Nat.cast_nonneg _
  have hx0 : 0 ≤ ((len : K) - q) / len := div_nonneg (by linarith) hl0.le
  have hx1 : ((len : K) - q) / len ≤ 1 := by rw [div_le_one hl0]; linarith
  have n1 : Near V (lit ((-(q : Int) : Int) : ℚ) + lit (len : ℚ)) ((len : K) - q) 0 := ⟨_, count_val L hq h53, by simp⟩
  have n2 := n1.div A hl0 (nat_val L h53) (m := 1) (by rw [abs_of_nonneg hx0]; exact hx1) (by rw [zero_div]; linarith)
  have h100 : Near V (lit 100 : α) 100 0 := by
    have := nat_val (V := V) L (n := 100) (by norm_num)
    push_cast at this
    exact ⟨_, this, by simp⟩
  have hu2 : u * u ≤ u / 1024 := by
    have := mul_le_mul_of_nonneg_left hus hu
    linarith
  have hη2 : u * η ≤ u / 1024 := by
    have := mul_le_mul_of_nonneg_left (hη.trans (by linarith : u / 1024 ≤ 1 / 1024)) hu
    linarith
  have e0 : (0 : K) / len + u * (1 + 0 / len) + η = u + η := by rw [zero_div]; ring
  rw [e0] at n2
  have hx100 : |((len : K) - q) / len * 100| ≤ 100 := by rw [abs_of_nonneg (by positivity)]; linarith
  have n3 := n2.mul A h100 (m := 100) hx100 (by
    simp only [mul_zero, add_zero, zero_add]
    rw [abs_of_nonneg (by norm_num : (0 : K) ≤ 100)]
    linarith)
  have e1 : |((len : K) - q) / len| * 0 + |(100 : K)| * (u + η) + (u + η) * 0 = 100 * (u + η) := by
    rw [abs_of_nonneg (by norm_num : (0 : K) ≤ 100)]; ring
  rw [e1] at n3
  rw [show 100 * ((len : K) - q) / len = ((len : K) - q) / len * 100 by ring]
  refine n3.mono ?_
  have : u * (100 + 100 * (u + η)) = 100 * u + 100 * (u * u) + 100 * (u * η) := by ring
  linarith

/-! ## The comparisons the strategy makes -/

include V A L in
private theorem value_cmp (h200 : 200 ≤ top) {len p q : Nat} (hp : p < len) (hq : q < len) (h53 : len ≤ 2 ^ 53) (fine : 1000 * (len : K) * u ≤ 1) :
    F64.lt (aroonValue α len p) (aroonValue α len q) = decide (q < p) ∧ F64.le (aroonValue α len p) (aroonValue α len q) = decide (q ≤ p) := by
  have hl0 : (0 : K) < len := by exact_mod_cast (by omega : 0 < len)
  by_cases hpq : p = q
  · subst hpq
    obtain ⟨v, hv, -⟩ := value_near (V := V) A L h200 hp h53
    rw [V.lt, V.le, hv]
    refine ⟨(show decide (v < v) = _ from ?_), (show decide (v ≤ v) = _ from ?_)⟩ <;> simp
  · have hd : (100 : K) / len ≤ |100 * ((len : K) - p) / len - 100 * ((len : K) - q) / len| := by
      rw [show 100 * ((len : K) - p) / len - 100 * ((len : K) - q) / len = 100 * ((q : K) - p) / len by ring, abs_div, abs_of_pos hl0, abs_mul,
        abs_of_nonneg (by norm_num : (0 : K) ≤ 100)]
      refine div_le_div_of_nonneg_right ?_ hl0.le
      have : (1 : K) ≤ |(q : K) - p| := by
        have h : (1 : Int) ≤ |(q : Int) - p| := Int.one_le_abs (by omega)
        exact_mod_cast h
      linarith
    have hgap : 202 * u + 202 * u < 100 / (len : K) := by
      rw [lt_div_iff₀ hl0]
      nlinarith
    have c := near_cmp (value_near (V := V) A L h200 hp h53) (value_near (V := V) A L h200 hq h53) (.inl (hgap.trans_le hd))
    have i1 : 100 * ((len : K) - p) / len < 100 * ((len : K) - q) / len ↔ q < p := by
      rw [div_lt_div_iff_of_pos_right hl0]
      constructor
      · intro h; have : (q : K) < p := by linarith
        exact_mod_cast this
      · intro h; have : (q : K) < p := by exact_mod_cast h
        linarith
    have i2 : 100 * ((len : K) - p) / len ≤ 100 * ((len : K) - q) / len ↔ q ≤ p := by
      rw [div_le_div_iff_of_pos_right hl0]
      constructor
      · intro h; have : (q : K) ≤ p := by linarith
        exact_mod_cast this
      · intro h; have : (q : K) ≤ p := by exact_mod_cast h
        linarith
    rw [c.1, c.2.1]
    simp only [i1, i2, and_self]

include V A L in
private theorem value_strong (h200 : 200 ≤ top) (half : R.rnd (1 / 2) = .fin (1 / 2)) {len p q : Nat} (hp : p < len) (hq : q < len)
    (h53 : len ≤ 2 ^ 53) (fine : 1000 * (len : K) * u ≤ 1) :
    fge (AroonStrategy.strength (some (aroonValue α len p)) (some (aroonValue α len q))) (lit 1) = decide (p = 0 ∧ len < 2 * q) := by
  have hl0 : (0 : K) < len := by exact_mod_cast (by omega : 0 < len)
  have hu := A.u_nonneg
  have hus := A.u_small
  have hη : η ≤ u / 1024 := by
    have := mul_le_mul_of_nonneg_left hus hu
    have := A.η_small
    linarith
  have hη0 := A.η_nonneg
  have lits : ∀ n : Nat, n ≤ 100 → V.val (lit (n : ℚ) : α) = Fl.of R (.fin (n : K)) := fun n hn => nat_val L (hn.trans (by norm_num))
  have v0 : V.val (lit 0 : α) = Fl.of R (.fin 0) := by have := lits 0 (by omega); push_cast at this; exact this
  have v1 : V.val (lit 1 : α) = Fl.of R (.fin 1) := by have := lits 1 (by omega); push_cast at this; exact this
  have v50 : V.val (lit 50 : α) = Fl.of R (.fin 50) := by have := lits 50 (by omega); push_cast at this; exact this
  have v100 : V.val (lit 100 : α) = Fl.of R (.fin 100) := by have := lits 100 (by omega); push_cast at this; exact this
  have n50 : Near V (lit 50 : α) 50 0 := ⟨_, v50, by simp⟩
  have ulen : u * len ≤ 1 / 1000 := by linarith
  have hlow : F64.lt (aroonValue α len q) (lit 50) = decide (len < 2 * q) := by
    by_cases h2 : len = 2 * q
    · have hv := value_exact (V := V) L hq h53 (r := 1 / 2) (n := 50) (by rw [h2]; push_cast; have : (q : K) ≠ 0 := by exact_mod_cast (by omega : q ≠ 0)
                                                                          field_simp; ring) half (by norm_num) (by norm_num)
      rw [V.lt, hv, v50]
      push_cast
      refine (show decide ((50 : K) < 50) = _ from ?_)
      simp [h2]
    · have hd : (50 : K) / len ≤ |100 * ((len : K) - q) / len - 50| := by
        rw [show 100 * ((len : K) - q) / len - 50 = 50 * ((len : K) - 2 * q) / len by field_simp; ring, abs_div, abs_of_pos hl0, abs_mul,
          abs_of_nonneg (by norm_num : (0 : K) ≤ 50)]
        refine div_le_div_of_nonneg_right ?_ hl0.le
        have : (1 : K) ≤ |(len : K) - 2 * q| := by
          have h : (1 : Int) ≤ |(len : Int) - 2 * q| := Int.one_le_abs (by omega)
          exact_mod_cast h
        linarith
      have hgap : 202 * u + 0 < 50 / (len : K) := by
        rw [lt_div_iff₀ hl0]
        linarith
      have c := near_cmp (value_near (V := V) A L h200 hq h53) n50 (.inl (hgap.trans_le hd))
      rw [c.1]
      have i1 : 100 * ((len : K) - q) / len < 50 ↔ len < 2 * q := by
        rw [div_lt_iff₀ hl0]
        constructor
        · intro h; have : (len : K) < 2 * q := by linarith
          exact_mod_cast this
        · intro h; have : (len : K) < 2 * q := by exact_mod_cast h
          linarith
      simp only [i1]
  have zlt : fge (lit 0 : α) (lit 1) = false := by
    show F64.le (lit 1 : α) (lit 0) = false
    rw [V.le, v0, v1]
    exact decide_eq_false (show ¬ (1 : K) ≤ 0 by norm_num)
  have fld : ∀ a b : K, b ≠ 0 → (Fl.of R (.fin a) / Fl.of R (.fin b) : Fl R) = R.rnd (a / b) := fun a b hb =>
    (if_neg hb : (if b = 0 then Fl.signInf a else R.rnd (a / b)) = R.rnd (a / b))
  have ne50 : V.val (lit 50 : α) ≠ Fl.of R (.fin 0) := by
    rw [v50]; intro h
    have : (50 : K) = 0 := Ext.fin.inj (show (Ext.fin (50 : K)) = .fin 0 from h)
    norm_num at this
  by_cases hp0 : p = 0
  · subst hp0
    have hv : V.val (aroonValue α len 0) = Fl.of R (.fin 100) := by
      have hv := value_exact (V := V) L hp h53 (r := 1) (n := 100) (by push_cast; rw [sub_zero, div_self hl0.ne']) (by have := L.int 1 (by norm_num); push_cast at this; exact this)
        (by norm_num) (by norm_num)
      push_cast at hv
      exact hv
    have hup : fgt (aroonValue α len 0) (lit 50 : α) = true := by
      show F64.lt (lit 50 : α) (aroonValue α len 0) = true
      rw [V.lt, v50, hv]
      exact decide_eq_true (show (50 : K) < 100 by norm_num)
    unfold AroonStrategy.strength
    simp only [hup, hlow, Bool.true_and, true_and, decide_eq_true_eq]
    by_cases h : len < 2 * q
    · rw [if_pos h, decide_eq_true h]
      show F64.le (lit 1 : α) _ = true
      have r0 : R.rnd 0 = .fin 0 := by have := L.int 0 (by norm_num); push_cast at this; exact this
      have r1 : R.rnd 1 = .fin 1 := by have := L.int 1 (by norm_num); push_cast at this; exact this
      have s1 : V.val (lit 100 - aroonValue α len 0) = Fl.of R (.fin 0) := by
        rw [V.sub, hv, v100]
        show R.rnd ((100 : K) + -100) = _
        rw [add_neg_cancel]; exact r0
      have s2 : V.val ((lit 100 - aroonValue α len 0) / lit 50) = Fl.of R (.fin 0) := by
        rw [V.div _ _ ne50, s1, v50, fld _ _ (by norm_num), zero_div]; exact r0
      have s3 : V.val (lit 1 - (lit 100 - aroonValue α len 0) / lit 50) = Fl.of R (.fin 1) := by
        rw [V.sub, s2, v1]
        show R.rnd ((1 : K) + -0) = _
        rw [neg_zero, add_zero]; exact r1
      rw [V.le, s3, v1]
      exact decide_eq_true (le_refl (1 : K))
    · rw [if_neg h, decide_eq_false h]
      exact zlt
  · rw [decide_eq_false (fun h => hp0 h.1)]
    unfold AroonStrategy.strength
    dsimp only
    split
    swap
    · exact zlt
    have hpl : (p : K) ≤ len := by exact_mod_cast hp.le
    have hp1 : (1 : K) ≤ p := by exact_mod_cast (by omega : 1 ≤ p)
    have hx0 : 0 ≤ (p : K) / len := by positivity
    have hx1 : (p : K) / len ≤ 1 := by rw [div_le_one hl0]; exact hpl
    have n1 := value_near (V := V) A L h200 hp h53
    have n100 : Near V (lit 100 : α) 100 0 := ⟨_, v100, by simp⟩
    have none' : Near V (lit 1 : α) 1 0 := ⟨_, v1, by simp⟩
    have ex : 100 - 100 * ((len : K) - p) / len = 100 * ((p : K) / len) := by field_simp; ring
    have hu2 : u * u ≤ u / 1024 := by
      have := mul_le_mul_of_nonneg_left hus hu
      linarith
    have n2 := n100.sub A n1 (m := 100) (by rw [ex, abs_of_nonneg (by positivity)]; linarith) (by linarith)
    have n2' : Near V (lit 100 - aroonValue α len p) (100 * ((p : K) / len)) (303 * u) := by
      rw [← ex]
      refine n2.mono ?_
      have : u * (100 + (0 + 202 * u)) = 100 * u + 202 * (u * u) := by ring
      linarith
    have n3 := n2'.div A (by norm_num : (0 : K) < 50) v50 (m := 2) (by
      rw [show 100 * ((p : K) / len) / 50 = 2 * ((p : K) / len) by ring, abs_of_nonneg (by positivity)]; linarith) (by linarith)
    have n3' : Near V ((lit 100 - aroonValue α len p) / lit 50) (2 * ((p : K) / len)) (10 * u) := by
      rw [show 2 * ((p : K) / len) = 100 * ((p : K) / len) / 50 by ring]
      refine n3.mono ?_
      have : u * (2 + 303 * u / 50) = 2 * u + 303 / 50 * (u * u) := by ring
      linarith
    have n4 := none'.sub A n3' (m := 1) (by rw [abs_le]; constructor <;> linarith) (by linarith)
    have n4' : Near V (lit 1 - (lit 100 - aroonValue α len p) / lit 50) (1 - 2 * ((p : K) / len)) (12 * u) := by
      refine n4.mono ?_
      have : u * (1 + (0 + 10 * u)) = u + 10 * (u * u) := by ring
      linarith
    have hfar : 12 * u + 0 < |1 - 2 * ((p : K) / len) - 1| := by
      rw [show 1 - 2 * ((p : K) / len) - 1 = -(2 * ((p : K) / len)) by ring, abs_neg, abs_of_nonneg (by positivity)]
      have h1 : 1 / (len : K) ≤ (p : K) / len := div_le_div_of_nonneg_right hp1 hl0.le
      have h2 : 12 * u < 1 / (len : K) := by rw [lt_div_iff₀ hl0]; linarith
      have h3 : 0 < 1 / (len : K) := by positivity
      linarith
    have c := near_cmp n4' none' (.inl hfar)
    show F64.le (lit 1 : α) _ = false
    rw [c.2.2.2]
    refine decide_eq_false ?_
    have : 0 < (p : K) / len := by positivity
    linarith

end

/-! ## The whole lines -/

/-- Two pairs of lines on which the strategy's comparisons come out the same give the same signals. -/
private theorem aroon_same {β : Type} [F64 β] {up down : Nat → Option α} {up' down' : Nat → Option β} {N : Nat}
    (h1 : ∀ t, t < N → (cross0 down up t).isSome = (cross0 down' up' t).isSome)
    (h2 : ∀ t, t < N → fge (AroonStrategy.strength (up t) (down t)) (lit 1) = fge (AroonStrategy.strength (up' t) (down' t)) (lit 1))
    (h3 : ∀ t, t < N → fge (AroonStrategy.strength (down t) (up t)) (lit 1) = fge (AroonStrategy.strength (down' t) (up' t)) (lit 1)) :
    ∀ t, t < N → aroonSignal0 up down t = aroonSignal0 up' down' t := by
  have arm : ∀ t, t < N → aroonArmed up down t = aroonArmed up' down' t := by
    intro t
    induction t with
    | zero => intro ht; exact h1 0 ht
    | succ t ih =>
      intro ht
      rw [aroonArmed, aroonArmed, h1 _ ht, ih (by omega), h2 t (by omega), h3 t (by omega)]
  intro t ht
  rw [aroonSignal0, aroonSignal0, arm t ht, h2 t ht, h3 t ht]

section
variable {V : Valued R α} {u η top : K} (A : R.Accurate u η top) (L : R.Lawful)

private theorem aroon_float {d : DataProvider α} {N : Nat} {o h l c v : Nat → K} {M : K} (hb : PricedBars V d N o h l c v M) {len : Nat} (hlen : 1 ≤ len) :
    ∃ a b : Nat → Nat, (∀ t, t < N → len ≤ t + 1 → OldestHighest h len t (a t) ∧ OldestLowest l len t (b t)) ∧ (∀ t, a t < len ∧ b t < len) ∧
      Runs (noInput fun t => Aroon.next ⟨d, t⟩) (Aroon.new len) unit N
        (fun t => (startAt (len - 1) (fun t => aroonValue α len (a t)) t, startAt (len - 1) (fun t => aroonValue α len (b t)) t)) := by
  obtain ⟨o', h', l', c', v', bb, vals⟩ := hb.bars
  have nn : ∀ {x : α} {k : K}, V.val x = Fl.of R (.fin k) → V.val x ≠ Fl.of R .nan := by
    intro x k e
    rw [e]
    intro h2
    have : (Ext.fin k : Ext K) = .nan := h2
    cases this
  obtain ⟨yh, yl, r1, r2, p⟩ := C31_ieee V d hlen bb.high bb.low (by rintro t x ht e; obtain rfl := Option.some.inj e; exact nn (vals t ht).2.1)
    (by rintro t x ht e; obtain rfl := Option.some.inj e; exact nn (vals t ht).2.2.1)
  have le : ∀ p q : K, F64.le (Fl.of R (.fin p)) (Fl.of R (.fin q)) = decide (p ≤ q) := fun p q => rfl
  have lt : ∀ p q : K, F64.lt (Fl.of R (.fin p)) (Fl.of R (.fin q)) = decide (p < q) := fun p q => rfl
  have key : ∀ t, ∃ q : Nat × Nat, (q.1 < len ∧ q.2 < len) ∧ (t < N → len ≤ t + 1 → (yh t = some (-(q.1 : Int)) ∧ yl t = some (-(q.2 : Int))) ∧
      OldestHighest h len t q.1 ∧ OldestLowest l len t q.2) := by
    intro t
    by_cases hc : t < N ∧ len ≤ t + 1
    swap
    · exact ⟨(0, 0), ⟨by omega, by omega⟩, fun h1 h2 => absurd ⟨h1, h2⟩ hc⟩
    obtain ⟨dd, ee, d1, d2, d3, d4, d5, d6⟩ := (p t hc.1).2 hc.2
    refine ⟨(dd, ee), ⟨d1, d2⟩, fun _ _ => ⟨⟨d3, d4⟩, ⟨d1, fun i hi => ?_⟩, d2, fun i hi => ?_⟩⟩
    · rcases d5 with ⟨_, h5⟩ | ⟨m, h5, h6⟩
      · exact absurd (h5 0 (by omega)) (by simp)
      · have hm := Option.some.inj h5
        have h7 := h6 i _ hi rfl
        rw [V.le, V.lt, ← hm, (vals (t - i) (by omega)).2.1, (vals (t - dd) (by omega)).2.1, le, lt] at h7
        simpa only [decide_eq_true_eq] using h7
    · rcases d6 with ⟨_, h5⟩ | ⟨m, h5, h6⟩
      · exact absurd (h5 0 (by omega)) (by simp)
      · have hm := Option.some.inj h5
        have h7 := h6 i _ hi rfl
        rw [V.le, V.lt, ← hm, (vals (t - i) (by omega)).2.2.1, (vals (t - ee) (by omega)).2.2.1, le, lt] at h7
        simpa only [decide_eq_true_eq] using h7
  choose q hq hq' using key
  refine ⟨fun t => (q t).1, fun t => (q t).2, fun t h1 h2 => (hq' t h1 h2).2, hq, (C53_aroon d hlen bb.high bb.low r1 r2).congr fun t ht => ?_⟩
  unfold startAt
  by_cases hc : t + 1 < len
  · rw [((p t ht).1 hc).1, ((p t ht).1 hc).2, if_pos (by omega), if_pos (by omega)]; rfl
  · rw [(hq' t ht (by omega)).1.1, (hq' t ht (by omega)).1.2, if_neg (by omega), if_neg (by omega)]; rfl

include A L in
/-- **C97.** Aroon in floats: both lines are within 202 roundings of `100 (len - age) / len`, whatever the prices. -/
theorem C97_aroon (h200 : 200 ≤ top) {d : DataProvider α} {N : Nat} {o h l c v : Nat → K} {M : K} (hb : PricedBars V d N o h l c v M) {len : Nat}
    (hlen : 1 ≤ len) (h53 : len ≤ 2 ^ 53) :
    ∃ (y z : Nat → Option α) (a b : Nat → Nat), Runs (noInput fun t => Aroon.next ⟨d, t⟩) (Aroon.new len) unit N (fun t => (y t, z t)) ∧
      (∀ t, t < N → len ≤ t + 1 → OldestHighest h len t (a t) ∧ OldestLowest l len t (b t)) ∧
      StaysNear V y (len - 1) (aroonLine len a) (202 * u) N ∧ StaysNear V z (len - 1) (aroonLine len b) (202 * u) N := by
  obtain ⟨a, b, h1, h2, r⟩ := aroon_float hb hlen
  refine ⟨_, _, a, b, r, h1, fun t _ => ?_, fun t _ => ?_⟩
  · unfold startAt
    split
    · rfl
    · exact ⟨_, rfl, value_near A L h200 (h2 t).1 h53⟩
  · unfold startAt
    split
    · rfl
    · exact ⟨_, rfl, value_near A L h200 (h2 t).2 h53⟩


private theorem oldestLowest_unique' {x : Nat → K} {len t i j : Nat} (hi : OldestLowest x len t i) (hj : OldestLowest x len t j) : i = j := by
  rcases Nat.lt_trichotomy i j with h | h | h
  · exact absurd ((hi.2 j hj.1).2 h) (not_lt.mpr (hj.2 i hi.1).1)
  · exact h
  · exact absurd ((hj.2 i hi.1).2 h) (not_lt.mpr (hi.2 j hj.1).1)

/-- The comparisons of the strategy, on values that order the ages. -/
private theorem cross_ages {len : Nat} {g : Nat → α} {a b : Nat → Nat} (h2 : ∀ t, a t < len ∧ b t < len)
    (hlt : ∀ p q, p < len → q < len → F64.lt (g p) (g q) = decide (q < p)) (hle : ∀ p q, p < len → q < len → F64.le (g p) (g q) = decide (q ≤ p))
    (t : Nat) (hlen : 1 ≤ len) :
    (cross0 (startAt (len - 1) fun t => g (b t)) (startAt (len - 1) fun t => g (a t)) t).isSome = true ↔ AgesCross len a b t := by
  unfold cross0 over0 under0 AgesCross
  cases t with
  | zero => simp [before]; try omega
  | succ t =>
    simp only [before, startAt, Nat.add_sub_cancel]
    by_cases h1 : t < len - 1
    · simp [h1]; try omega
    · rw [if_neg h1, if_neg h1, if_neg (show ¬ t + 1 < len - 1 by omega), if_neg (show ¬ t + 1 < len - 1 by omega)]
      simp only [hlt _ _ (h2 _).1 (h2 _).2, hlt _ _ (h2 _).2 (h2 _).1, hle _ _ (h2 _).1 (h2 _).2, hle _ _ (h2 _).2 (h2 _).1]
      by_cases c1 : a (t + 1) < b (t + 1) <;> by_cases c2 : b t ≤ a t <;> by_cases c3 : b (t + 1) < a (t + 1) <;> by_cases c4 : a t ≤ b t <;>
        simp [c1, c2, c3, c4] <;> omega

include A L in
/-- **C97.** The Aroon program in floats, on any finite bars: it signals on every tick exactly as in exact arithmetic, namely as `AroonSignals`
says of the highs and lows.  No distance from a threshold is assumed: the lines can only come as close to each other, to 50 and to 100 as
two of the fractions `i / len` do. -/
theorem C97_aroon_program (h200 : 200 ≤ top) (half : R.rnd (1 / 2) = .fin (1 / 2)) {d : DataProvider α} {N : Nat} {o h l c v : Nat → K} {M : K}
    (hb : PricedBars V d N o h l c v M) {dx : DataProvider (Ex K)} (hx : ExBars dx N o h l c v) {len : Nat} (hlen : 1 ≤ len) (h53 : len ≤ 2 ^ 53)
    (fine : 1000 * (len : K) * u ≤ 1) (cfg : StrategyConfig α) (cfgx : StrategyConfig (Ex K)) (rfr : α) (rfrx : Ex K) :
    ∃ sig, AroonSignals len h l N sig ∧
      SameSignals d dx N Aroon.next (Aroon.new len) AroonStrategy.next AroonStrategy.new cfg rfr
        Aroon.next (Aroon.new len) AroonStrategy.next AroonStrategy.new cfgx rfrx sig := by
  obtain ⟨a, b, h1, h2, r⟩ := aroon_float hb hlen
  obtain ⟨o', h', l', c', v', bb, -⟩ := hb.bars
  obtain ⟨ax, bx, rx, hx1⟩ := C53_aroon_exact hx hlen
  have hl0 : (0 : K) < len := by exact_mod_cast (by omega : 0 < len)
  set up : Nat → Option K := startAt (len - 1) (aroonLine len a) with hup
  set down : Nat → Option K := startAt (len - 1) (aroonLine len b) with hdown
  have rx' : Runs (noInput fun t => Aroon.next ⟨dx, t⟩) (Aroon.new len) unit N (fun t => (flo up t, flo down t)) := by
    refine rx.congr fun t ht => ?_
    simp only [hup, hdown, flo, startAt]
    by_cases hc : t + 1 < len
    · rw [if_pos hc, if_pos (by omega), if_pos (by omega)]; rfl
    · rw [if_neg hc, if_neg (by omega), if_neg (by omega), oldestHighest_unique (hx1 t ht (by omega)).1 (h1 t ht (by omega)).1,
        oldestLowest_unique' (hx1 t ht (by omega)).2 (h1 t ht (by omega)).2]
      rfl
  have glt : ∀ p q : Nat, p < len → q < len → F64.lt (fin (100 * ((len : K) - p) / len) : Ex K) (fin (100 * ((len : K) - q) / len)) = decide (q < p) := by
    intro p q _ _
    rw [fin_lt, decide_eq_decide, div_lt_div_iff_of_pos_right hl0]
    constructor
    · intro h; have : (q : K) < p := by linarith
      exact_mod_cast this
    · intro h; have : (q : K) < p := by exact_mod_cast h
      linarith
  have gle : ∀ p q : Nat, p < len → q < len → F64.le (fin (100 * ((len : K) - p) / len) : Ex K) (fin (100 * ((len : K) - q) / len)) = decide (q ≤ p) := by
    intro p q _ _
    rw [fin_le, decide_eq_decide, div_le_div_iff_of_pos_right hl0]
    constructor
    · intro h; have : (q : K) ≤ p := by linarith
      exact_mod_cast this
    · intro h; have : (q : K) ≤ p := by exact_mod_cast h
      linarith
  have gst : ∀ p q : Nat, fge (AroonStrategy.strength (some (fin (100 * ((len : K) - p) / len) : Ex K)) (some (fin (100 * ((len : K) - q) / len)))) (lit 1) =
      decide (p = 0 ∧ len < 2 * q) := by
    intro p q
    rw [Bool.eq_iff_iff, decide_eq_true_eq]
    refine (aroon_strength_ge (some (100 * ((len : K) - p) / len)) (some (100 * ((len : K) - q) / len))).trans ?_
    have p0 : (0 : K) ≤ p := Nat.cast_nonneg _
    constructor
    · rintro ⟨x, y, e1, e2, e3, e4⟩
      obtain rfl := Option.some.inj e1
      obtain rfl := Option.some.inj e2
      rw [le_div_iff₀ hl0] at e3
      rw [div_lt_iff₀ hl0] at e4
      refine ⟨?_, ?_⟩
      · have : (p : K) ≤ 0 := by linarith
        have : p ≤ 0 := by exact_mod_cast this
        omega
      · have : (len : K) < 2 * q := by linarith
        exact_mod_cast this
    · rintro ⟨rfl, e⟩
      refine ⟨_, _, rfl, rfl, ?_, ?_⟩
      · rw [le_div_iff₀ hl0]; push_cast; linarith
      · have : (len : K) < 2 * q := by exact_mod_cast e
        rw [div_lt_iff₀ hl0]; linarith
  have flo_start : ∀ (f : Nat → K), (flo (startAt (len - 1) f) : Nat → Option (Ex K)) = startAt (len - 1) fun t => fin (f t) := by
    intro f
    funext t
    simp only [flo, startAt]
    split <;> rfl
  have none0 : fge (AroonStrategy.strength (none : Option α) none) (lit 1) = false := by
    have v0 := nat_val (V := V) L (n := 0) (by norm_num)
    have v1 := nat_val (V := V) L (n := 1) (by norm_num)
    push_cast at v0 v1
    show F64.le (lit 1 : α) (lit 0) = false
    rw [V.le, v0, v1]
    exact decide_eq_false (show ¬ (1 : K) ≤ 0 by norm_num)
  have nonex : fge (AroonStrategy.strength (none : Option (Ex K)) none) (lit 1) = false := by simp [AroonStrategy.strength]
  have c1 := fun t => cross_ages (g := aroonValue α len) h2 (fun p q hp hq => (value_cmp (V := V) A L h200 hp hq h53 fine).1)
    (fun p q hp hq => (value_cmp (V := V) A L h200 hp hq h53 fine).2) t hlen
  have c2 := fun t => cross_ages (g := fun p => (fin (100 * ((len : K) - p) / len) : Ex K)) h2 glt gle t hlen
  have same : ∀ t, t < N → aroonSignal0 (startAt (len - 1) fun t => aroonValue α len (a t)) (startAt (len - 1) fun t => aroonValue α len (b t)) t =
      aroonSignal0 (flo up) (flo down) t := by
    rw [hup, hdown, flo_start, flo_start]
    refine aroon_same (fun t _ => ?_) (fun t _ => ?_) fun t _ => ?_
    · rw [Bool.eq_iff_iff]
      exact (c1 t).trans (c2 t).symm
    · unfold startAt
      split
      · rw [none0, nonex]
      · exact (value_strong (V := V) A L h200 half (h2 t).1 (h2 t).2 h53 fine).trans (gst _ _).symm
    · unfold startAt
      split
      · rw [none0, nonex]
      · exact (value_strong (V := V) A L h200 half (h2 t).2 (h2 t).1 h53 fine).trans (gst _ _).symm
  have s1 := (aroonStrategy_runs (startAt (len - 1) fun t => aroonValue α len (a t)) (startAt (len - 1) fun t => aroonValue α len (b t)) N).congr same
  obtain ⟨st, tv, t1, -, t2⟩ := C65_program bb r s1 cfg rfr
  obtain ⟨stx, tvx, t3, -, t4⟩ := C65_program hx rx' (aroonStrategy_runs (flo up) (flo down) N) cfgx rfrx
  refine ⟨_, ⟨a, b, h1, fun t ht => ?_⟩, _, st, tv, _, stx, tvx, t2, t4, t1, t3⟩
  set sig := aroonSignal0 (flo up) (flo down) with hsig
  have armed : aroonArmed (flo up) (flo down) t = true ↔ ∃ s, s ≤ t ∧ AgesCross len a b s ∧ ∀ k, s ≤ k → k < t → sig k = none := by
    rw [aroonArmed_iff]
    have crosses : ∀ s, (CrossesOver (flo up) (flo down) s ∨ CrossesOver (flo down) (flo up) s) ↔ AgesCross len a b s := by
      intro s
      rw [← c2 s, hup, hdown, flo_start, flo_start, ← over0_iff, ← over0_iff, ← under0_eq]
      unfold cross0 aroonLine
      cases over0 (startAt (len - 1) fun t => (fin (100 * ((len : K) - b t) / len) : Ex K)) (startAt (len - 1) fun t => fin (100 * ((len : K) - a t) / len)) s <;>
        cases under0 (startAt (len - 1) fun t => (fin (100 * ((len : K) - b t) / len) : Ex K)) (startAt (len - 1) fun t => fin (100 * ((len : K) - a t) / len)) s <;> simp
    unfold AroonArmed
    simp only [crosses]
    exact Iff.rfl
  rw [← armed]
  by_cases hc : len ≤ t + 1
  · have e1 : flo up t = some (fin (100 * ((len : K) - a t) / len)) := by
      simp only [hup, flo, startAt]; rw [if_neg (by omega)]; rfl
    have e2 : flo down t = some (fin (100 * ((len : K) - b t) / len)) := by
      simp only [hdown, flo, startAt]; rw [if_neg (by omega)]; rfl
    rw [hsig, aroonSignal0, e1, e2, gst, gst]
    by_cases k1 : aroonArmed (flo up) (flo down) t = true
    · rw [if_pos k1]
      by_cases k2 : a t = 0 ∧ len < 2 * b t
      · have k3 : ¬ (b t = 0 ∧ len < 2 * a t) := by omega
        simp [k1, k2]
      · by_cases k3 : b t = 0 ∧ len < 2 * a t
        · simp [k1, k3]
        · simp [k1, k2, k3]
    · rw [if_neg k1]
      simp [k1]
  · have hn : aroonArmed (flo up) (flo down) t = false := by
      rw [Bool.eq_false_iff, Ne, armed]
      rintro ⟨s, s1, s2, -⟩
      have := s2.1
      omega
    rw [hsig, aroonSignal0, hn]
    simp

end

/-- **C97.** In IEEE binary64, with a length of up to `2^40`, on finite bars of any size, the Aroon program signals as in exact arithmetic. -/
theorem C97_aroon_binary64 {d : DataProvider B64} {N : Nat} {o h l c v : Nat → ℝ} {M : ℝ} (hb : PricedBars (Sf.valued _) d N o h l c v M)
    {dx : DataProvider (Ex ℝ)} (hx : ExBars dx N o h l c v) {len : Nat} (hlen : 1 ≤ len) (hl40 : len ≤ 2 ^ 40) (cfg : StrategyConfig B64)
    (cfgx : StrategyConfig (Ex ℝ)) (rfr : B64) (rfrx : Ex ℝ) :
    ∃ sig, AroonSignals len h l N sig ∧
      SameSignals d dx N Aroon.next (Aroon.new len) AroonStrategy.next AroonStrategy.new cfg rfr
        Aroon.next (Aroon.new len) AroonStrategy.next AroonStrategy.new cfgx rfrx sig := by
  have h200 : (200 : ℝ) ≤ (2 : ℝ) ^ (1023 : ℤ) := by
    have : (2 : ℝ) ^ (8 : ℤ) ≤ (2 : ℝ) ^ (1023 : ℤ) := Binary64.two_zpow_mono (by norm_num)
    rw [show (2 : ℝ) ^ (8 : ℤ) = 256 by norm_num] at this
    exact le_trans (by norm_num) this
  have half : (Rounding.binary64 ℝ).rnd (1 / 2) = .fin (1 / 2) := by
    have h := Binary64.mag_fixed (K := ℝ) (m := 1) (q := -1) (by norm_num) (by norm_num) (by norm_num)
    have e : ((1 : ℤ) : ℝ) * (2 : ℝ) ^ (-1 : ℤ) = 1 / 2 := by norm_num
    rw [e] at h
    refine (Binary64.round_pos (by norm_num)).trans ?_
    rw [h, if_neg]
    have : (2 : ℝ) ^ (0 : ℤ) ≤ (2 : ℝ) ^ (1024 : ℤ) := Binary64.two_zpow_mono (by norm_num)
    rw [zpow_zero] at this
    exact not_le.mpr (lt_of_lt_of_le (by norm_num) this)
  have fine : 1000 * (len : ℝ) * (2 : ℝ) ^ (-53 : ℤ) ≤ 1 := by
    have h1 : (len : ℝ) ≤ (2 : ℝ) ^ (40 : ℤ) := by exact_mod_cast hl40
    have h2 : (2 : ℝ) ^ (40 : ℤ) * (2 : ℝ) ^ (-53 : ℤ) = (2 : ℝ) ^ (-13 : ℤ) := by rw [← zpow_add₀ (by norm_num)]; norm_num
    have h3 : (2 : ℝ) ^ (-13 : ℤ) = 1 / 8192 := by norm_num
    have h4 := mul_le_mul_of_nonneg_right h1 (Binary64.two_zpow_pos (K := ℝ) (-53)).le
    rw [h2, h3] at h4
    generalize (2 : ℝ) ^ (-53 : ℤ) = U at h4
    linarith
  exact C97_aroon_program (binary64_accurate ℝ) (binary64_lawful ℝ) h200 half hb hx hlen (hl40.trans (by norm_num)) fine cfg cfgx rfr rfrx

end Pace
