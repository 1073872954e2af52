import Verif.Num
import Mathlib.Data.Int.Log
import Mathlib.Data.Rat.Floor
import Mathlib.Algebra.Order.Floor.Ring
import Mathlib.Tactic.Ring
import Mathlib.Tactic.Linarith
import Mathlib.Tactic.LinearCombination

/-!
# IEEE 754 binary64, round to nearest, ties to even

`Rounding.binary64 K` rounds as the hardware does for Rust's `f64` (`+ - * /` and `sqrt`; the range theorems say nothing about
`log10`).  `binary64_lawful` proves every law in `Rounding.Lawful`, so that the level 1 theorems hold of it;
`binary64_nearest`, `binary64_ties_even` and `binary64_overflow` show that the definition is IEEE's.
-/

set_option linter.unusedSectionVars false

namespace Pace
namespace Binary64
variable {K : Type} [Field K] [LinearOrder K] [IsStrictOrderedRing K] [FloorRing K]

/-- Nearest integer, ties to even. -/
def roundEven (y : K) : ℤ :=
  let f := ⌊y⌋
  if y - f < 1 / 2 then f else if 1 / 2 < y - f then f + 1 else if f % 2 = 0 then f else f + 1

/-- Exponent of the last place of a positive number: 53 significant bits, but never below `2^-1074`. -/
def lastPlace (k : K) : ℤ := max (Int.log 2 k - 52) (-1074)

/-- A positive number rounded to 53 significant bits, without regard to overflow. -/
def mag (k : K) : K := (roundEven (k / (2 : K) ^ lastPlace k) : K) * (2 : K) ^ lastPlace k

/-- Rounding to binary64. -/
def round (k : K) : Ext K :=
  if k = 0 then .fin 0
  else if 0 < k then (if (2 : K) ^ (1024 : ℤ) ≤ mag k then .pinf else .fin (mag k))
  else (if (2 : K) ^ (1024 : ℤ) ≤ mag (-k) then .ninf else .fin (-mag (-k)))

/-- The finite numbers of binary64. -/
def Representable (v : K) : Prop := ∃ m q : ℤ, |m| < 2 ^ 53 ∧ -1074 ≤ q ∧ q ≤ 971 ∧ v = m * (2 : K) ^ q

/-! ## The nearest integer -/

theorem roundEven_bounds (y : K) : (⌊y⌋ : ℤ) ≤ roundEven y ∧ roundEven y ≤ ⌊y⌋ + 1 := by
  unfold roundEven
  dsimp only
  split
  · omega
  · split
    · omega
    · split <;> omega

@[simp] theorem roundEven_int (n : ℤ) : roundEven (n : K) = n := by
  unfold roundEven
  simp

theorem roundEven_mono {a b : K} (h : a ≤ b) : roundEven a ≤ roundEven b := by
  have hf := Int.floor_mono h
  rcases lt_or_eq_of_le hf with hlt | heq
  · have := (roundEven_bounds a).2
    have := (roundEven_bounds b).1
    omega
  · unfold roundEven
    dsimp only
    rw [← heq]
    have hab : a - (⌊a⌋ : K) ≤ b - (⌊a⌋ : K) := by linarith
    split
    · split
      · exact le_refl _
      · split
        · omega
        · split <;> omega
    · rename_i h1
      rw [if_neg (fun h' => h1 (lt_of_le_of_lt hab h'))]
      split
      · rename_i h2
        rw [if_pos (lt_of_lt_of_le h2 hab)]
      · split
        · split <;> omega
        · split <;> exact le_refl _

theorem roundEven_le_int {y : K} {n : ℤ} (h : y ≤ n) : roundEven y ≤ n := by
  simpa using roundEven_mono h
theorem int_le_roundEven {y : K} {n : ℤ} (h : (n : K) ≤ y) : n ≤ roundEven y := by
  simpa using roundEven_mono h

/-- `roundEven` is within one half. -/
theorem roundEven_near (y : K) : |y - roundEven y| ≤ 1 / 2 := by
  have h0 := Int.floor_le y
  have h1 := Int.lt_floor_add_one y
  unfold roundEven
  dsimp only
  rw [abs_le]
  split
  · constructor <;> linarith
  · split
    · push_cast; constructor <;> linarith
    · split
      · constructor <;> linarith
      · push_cast; constructor <;> linarith

/-- No integer is nearer. -/
theorem roundEven_nearest (y : K) (n : ℤ) : |y - roundEven y| ≤ |y - n| := by
  have h := roundEven_near y
  by_cases he : n = roundEven y
  · rw [he]
  · have h1 : (1 : K) ≤ |(n : K) - roundEven y| := by
      have : (1 : ℤ) ≤ |n - roundEven y| := Int.one_le_abs (sub_ne_zero.mpr he)
      exact_mod_cast this
    have h2 : |(n : K) - roundEven y| ≤ |(n : K) - y| + |y - roundEven y| := abs_sub_le _ _ _
    rw [abs_sub_comm (n : K) y] at h2
    linarith

/-- On a tie the result is even. -/
theorem roundEven_tie (y : K) (n : ℤ) (hn : n ≠ roundEven y) (h : |y - n| = |y - roundEven y|) : Even (roundEven y) := by
  have h0 := Int.floor_le y
  have h1 := Int.lt_floor_add_one y
  have hb := roundEven_near y
  -- the distance is exactly one half
  have hd : |y - roundEven y| = 1 / 2 := by
    refine le_antisymm hb ?_
    have h1 : (1 : K) ≤ |(n : K) - roundEven y| := by
      have : (1 : ℤ) ≤ |n - roundEven y| := Int.one_le_abs (sub_ne_zero.mpr hn)
      exact_mod_cast this
    have h2 : |(n : K) - roundEven y| ≤ |(n : K) - y| + |y - roundEven y| := abs_sub_le _ _ _
    rw [abs_sub_comm (n : K) y, h] at h2
    linarith
  revert hd
  unfold roundEven
  dsimp only
  intro hd
  have ha : 0 ≤ y - (⌊y⌋ : K) := by linarith
  split at hd
  · rw [abs_of_nonneg ha] at hd; linarith
  · rename_i hn1
    split at hd
    · rename_i h2
      push_cast at hd
      rw [abs_of_nonpos (by linarith)] at hd; linarith
    · rename_i h2
      rw [if_neg hn1, if_neg h2]
      split
      · rename_i h3; exact Int.even_iff.mpr h3
      · rename_i h3; rw [Int.even_iff]; omega

/-! ## Powers of two -/

theorem two_zpow_pos (e : ℤ) : (0 : K) < (2 : K) ^ e := zpow_pos (by norm_num) e
theorem two_zpow_mono {a b : ℤ} (h : a ≤ b) : (2 : K) ^ a ≤ (2 : K) ^ b := zpow_le_zpow_right₀ (by norm_num) h
theorem two_zpow_split {a b : ℤ} (h : a ≤ b) : (2 : K) ^ b = ((2 ^ (b - a).toNat : ℤ) : K) * (2 : K) ^ a := by
  push_cast
  rw [← zpow_natCast, ← zpow_add₀ (by norm_num : (2 : K) ≠ 0), Int.toNat_of_nonneg (by omega), sub_add_cancel]

theorem cast_two_pow (n : Nat) : ((2 ^ n : ℤ) : K) = (2 : K) ^ (n : ℤ) := by
  rw [Int.cast_pow, zpow_natCast, Int.cast_ofNat]

theorem log_le {k : K} (hk : 0 < k) : (2 : K) ^ Int.log 2 k ≤ k := by
  have := Int.zpow_log_le_self (b := 2) (r := k) (by norm_num) hk
  exact_mod_cast this
theorem lt_log {k : K} : k < (2 : K) ^ (Int.log 2 k + 1) := by
  have := Int.lt_zpow_succ_log_self (b := 2) (by norm_num) k
  exact_mod_cast this
theorem lt_log_iff {k : K} (hk : 0 < k) (x : ℤ) : Int.log 2 k < x ↔ k < (2 : K) ^ x := by
  have := Int.lt_zpow_iff_log_lt (b := 2) (by norm_num) (x := x) hk
  rw [← this]; norm_num
theorem le_log_iff {k : K} (hk : 0 < k) (x : ℤ) : x ≤ Int.log 2 k ↔ (2 : K) ^ x ≤ k := by
  have := Int.zpow_le_iff_le_log (b := 2) (by norm_num) (x := x) hk
  rw [← this]; norm_num

/-! ## Rounding a positive number -/

theorem mag_nonneg {k : K} (hk : 0 ≤ k) : 0 ≤ mag k := by
  refine mul_nonneg ?_ (two_zpow_pos _).le
  have : (0 : ℤ) ≤ roundEven (k / (2 : K) ^ lastPlace k) :=
    int_le_roundEven (by rw [Int.cast_zero]; exact div_nonneg hk (two_zpow_pos _).le)
  exact_mod_cast this

/-- A bound that is a multiple of the last place is respected. -/
theorem mag_le_of {k : K} {n : ℤ} (h : k ≤ n * (2 : K) ^ lastPlace k) : mag k ≤ n * (2 : K) ^ lastPlace k := by
  refine mul_le_mul_of_nonneg_right ?_ (two_zpow_pos _).le
  exact_mod_cast roundEven_le_int ((div_le_iff₀ (two_zpow_pos _)).mpr h)
theorem le_mag_of {k : K} {n : ℤ} (h : n * (2 : K) ^ lastPlace k ≤ k) : n * (2 : K) ^ lastPlace k ≤ mag k := by
  refine mul_le_mul_of_nonneg_right ?_ (two_zpow_pos _).le
  exact_mod_cast int_le_roundEven ((le_div_iff₀ (two_zpow_pos _)).mpr h)

theorem mag_mono {a b : K} (ha : 0 < a) (h : a ≤ b) : mag a ≤ mag b := by
  have hb : 0 < b := lt_of_lt_of_le ha h
  have hlog : Int.log 2 a ≤ Int.log 2 b := Int.log_mono_right ha h
  rcases eq_or_lt_of_le (show lastPlace a ≤ lastPlace b by unfold lastPlace; omega) with he | hlt
  · unfold mag
    rw [← he]
    refine mul_le_mul_of_nonneg_right ?_ (two_zpow_pos _).le
    exact_mod_cast roundEven_mono (div_le_div_of_nonneg_right h (two_zpow_pos _).le)
  · have h1 : lastPlace b = Int.log 2 b - 52 := by unfold lastPlace at *; omega
    have h2 : Int.log 2 a < Int.log 2 b := by unfold lastPlace at *; omega
    have h3 : a ≤ (2 : K) ^ Int.log 2 b := ((lt_log_iff ha _).mp h2).le
    have e1 := two_zpow_split (K := K) (show lastPlace a ≤ Int.log 2 b by omega)
    have e2 := two_zpow_split (K := K) (show lastPlace b ≤ Int.log 2 b by omega)
    have g1 := mag_le_of (k := a) (n := 2 ^ (Int.log 2 b - lastPlace a).toNat) (by rw [← e1]; exact h3)
    have g2 := le_mag_of (k := b) (n := 2 ^ (Int.log 2 b - lastPlace b).toNat) (by rw [← e2]; exact log_le hb)
    rw [← e1] at g1
    rw [← e2] at g2
    exact g1.trans g2

/-- Numbers with at most 53 significant bits are fixed. -/
theorem mag_fixed {m q : ℤ} (hm : 0 < m) (hm' : m ≤ 2 ^ 53) (hq : -1074 ≤ q) : mag ((m : K) * (2 : K) ^ q) = m * (2 : K) ^ q := by
  have hmK : (0 : K) < m := by exact_mod_cast hm
  have hpos : 0 < (m : K) * (2 : K) ^ q := mul_pos hmK (two_zpow_pos _)
  -- an integer multiple of the last place is fixed
  have key : ∀ n : ℤ, (m : K) * (2 : K) ^ q = n * (2 : K) ^ lastPlace ((m : K) * (2 : K) ^ q) →
      mag ((m : K) * (2 : K) ^ q) = m * (2 : K) ^ q := by
    intro n hn
    unfold mag
    have : (m : K) * (2 : K) ^ q / (2 : K) ^ lastPlace ((m : K) * (2 : K) ^ q) = (n : K) := by
      rw [div_eq_iff (two_zpow_pos _).ne']; exact hn
    rw [this, roundEven_int, ← hn]
  rcases lt_or_eq_of_le hm' with hlt | heq
  · have hm53 : (m : K) < 2 ^ (53 : ℤ) := by
      have : (m : K) < ((2 ^ 53 : ℤ) : K) := Int.cast_lt.mpr hlt
      rwa [cast_two_pow] at this
    have hl : Int.log 2 ((m : K) * (2 : K) ^ q) < 53 + q := by
      rw [lt_log_iff hpos, zpow_add₀ (by norm_num : (2 : K) ≠ 0)]
      exact mul_lt_mul_of_pos_right hm53 (two_zpow_pos _)
    have hle : lastPlace ((m : K) * (2 : K) ^ q) ≤ q := by unfold lastPlace; omega
    refine key (m * 2 ^ (q - lastPlace ((m : K) * (2 : K) ^ q)).toNat) ?_
    rw [Int.cast_mul, mul_assoc, ← two_zpow_split hle]
  · have e : (m : K) * (2 : K) ^ q = (2 : K) ^ (53 + q) := by
      rw [zpow_add₀ (by norm_num : (2 : K) ≠ 0), heq]; norm_cast
    have hl : Int.log 2 ((m : K) * (2 : K) ^ q) = 53 + q := by
      rw [e]
      have := Int.log_zpow (R := K) (b := 2) (by norm_num) (53 + q)
      exact_mod_cast this
    have hlp : lastPlace ((m : K) * (2 : K) ^ q) = q + 1 := by unfold lastPlace; omega
    refine key (2 ^ 52) ?_
    rw [hlp, e, two_zpow_split (show q + 1 ≤ 53 + q by omega)]
    congr 3
    omega

/-- Every positive rounded number is an integer of at most 53 bits (or 2^53) times a power of two. -/
theorem mag_form {k : K} (hk : 0 < k) : ∃ m : ℤ, 0 ≤ m ∧ m ≤ 2 ^ 53 ∧ mag k = m * (2 : K) ^ lastPlace k := by
  refine ⟨_, int_le_roundEven ?_, roundEven_le_int ?_, rfl⟩
  · rw [Int.cast_zero]; exact div_nonneg hk.le (two_zpow_pos _).le
  · rw [div_le_iff₀ (two_zpow_pos _)]
    have h1 : k ≤ (2 : K) ^ (53 + lastPlace k) :=
      (lt_of_lt_of_le lt_log (two_zpow_mono (by unfold lastPlace; omega))).le
    rw [zpow_add₀ (by norm_num : (2 : K) ≠ 0)] at h1
    refine h1.trans (le_of_eq ?_)
    norm_cast

theorem mag_idem {k : K} (hk : 0 < k) (hm : 0 < mag k) : mag (mag k) = mag k := by
  obtain ⟨m, h0, h1, h2⟩ := mag_form hk
  rw [h2] at hm ⊢
  have : 0 < m := by
    rcases lt_or_eq_of_le h0 with h | h
    · exact h
    · rw [← h] at hm; simp at hm
  exact mag_fixed this h1 (by unfold lastPlace; omega)

theorem mag_int {n : ℤ} (h0 : 0 < n) (h : n ≤ 2 ^ 53) : mag (n : K) = n := by
  have := mag_fixed (K := K) h0 h (show -1074 ≤ (0 : ℤ) by norm_num)
  simpa using this

theorem round_zero : round (0 : K) = .fin 0 := if_pos rfl
theorem round_pos {k : K} (hk : 0 < k) : round k = if (2 : K) ^ (1024 : ℤ) ≤ mag k then .pinf else .fin (mag k) := by
  unfold round; rw [if_neg hk.ne', if_pos hk]
theorem round_neg {k : K} (hk : 0 < k) : round (-k) = if (2 : K) ^ (1024 : ℤ) ≤ mag k then .ninf else .fin (-mag k) := by
  unfold round; rw [if_neg (neg_ne_zero.mpr hk.ne'), if_neg (by linarith), neg_neg]

theorem round_odd (a : K) : round (-a) = (round a).neg := by
  rcases lt_trichotomy a 0 with h | h | h
  · obtain ⟨b, rfl⟩ : ∃ b, a = -b := ⟨-a, by ring⟩
    have hb : 0 < b := by linarith
    rw [neg_neg, round_neg hb, round_pos hb]
    split <;> simp [Ext.neg]
  · rw [h, neg_zero, round_zero]; simp [Ext.neg]
  · rw [round_neg h, round_pos h]
    split <;> simp [Ext.neg]

theorem round_mono_pos {a b : K} (ha : 0 < a) (h : a ≤ b) : (round a).le (round b) = true := by
  have hm := mag_mono ha h
  rw [round_pos ha, round_pos (lt_of_lt_of_le ha h)]
  split
  · rename_i h1
    rw [if_pos (h1.trans hm)]; rfl
  · split
    · rfl
    · simpa [Ext.le] using hm

theorem ext_le_neg {a b : Ext K} (h : a.le b = true) : b.neg.le a.neg = true := by
  cases a <;> cases b <;> simp_all [Ext.le, Ext.neg]

theorem round_nonneg {a : K} (h : 0 ≤ a) : (Ext.fin 0).le (round a) = true := by
  rcases eq_or_lt_of_le h with h | h
  · rw [← h, round_zero]; simp [Ext.le]
  · rw [round_pos h]
    split
    · rfl
    · simpa [Ext.le] using mag_nonneg h.le

theorem ext_le_trans {a b c : Ext K} (h1 : a.le b = true) (h2 : b.le c = true) : a.le c = true := by
  cases a <;> cases b <;> cases c <;> simp_all [Ext.le]
  exact le_trans h1 h2

theorem round_mono (a b : K) (h : a ≤ b) : (round a).le (round b) = true := by
  rcases lt_or_ge 0 a with ha | ha
  · exact round_mono_pos ha h
  · rcases lt_or_ge b 0 with hb | hb
    · have := ext_le_neg (round_mono_pos (a := -b) (b := -a) (by linarith) (by linarith))
      rwa [← round_odd, ← round_odd, neg_neg, neg_neg] at this
    · refine ext_le_trans ?_ (round_nonneg hb)
      have := ext_le_neg (round_nonneg (a := -a) (by linarith))
      rw [← round_odd, neg_neg] at this
      simpa [Ext.neg] using this

theorem round_idem_pos {a b : K} (ha : 0 < a) (h : round a = .fin b) : round b = .fin b := by
  rw [round_pos ha] at h
  split at h
  · simp at h
  · rename_i h1
    rw [← Ext.fin.inj h]
    rcases eq_or_lt_of_le (mag_nonneg ha.le) with h0 | h0
    · rw [← h0, round_zero]
    · rw [round_pos h0, mag_idem ha h0, if_neg h1]

theorem round_int (n : ℤ) (h : |n| ≤ 2 ^ 53) : round (n : K) = .fin n := by
  have key : ∀ n : ℤ, 0 < n → n ≤ 2 ^ 53 → round (n : K) = .fin n := by
    intro n h0 h1
    rw [round_pos (by exact_mod_cast h0), mag_int h0 h1, if_neg]
    rw [not_le]
    refine lt_of_le_of_lt (Int.cast_le.mpr h1) ?_
    rw [cast_two_pow]
    exact zpow_lt_zpow_right₀ (by norm_num) (by norm_num)
  have hb := abs_le.mp h
  rcases lt_trichotomy n 0 with h0 | h0 | h0
  · have := key (-n) (by omega) (by omega)
    rw [Int.cast_neg, round_odd] at this
    have h2 := congrArg Ext.neg this
    rw [← round_odd, ← round_odd, neg_neg] at h2
    simpa [Ext.neg] using h2
  · rw [h0, Int.cast_zero, round_zero]
  · exact key n h0 hb.2

end Binary64

/-- IEEE 754 binary64, round to nearest even.  `sqrt` is the correctly rounded root of `K`'s root. -/
def Rounding.binary64 (K : Type) [Field K] [LinearOrder K] [FloorRing K] [RootOps K] : Rounding K where
  rnd := Binary64.round
  sqrtR k := Binary64.round (RootOps.sqrt k)
  log10R k := Binary64.round (RootOps.log10 k)

/-- binary64 satisfies every law assumed of a rounding at level 1. -/
theorem binary64_lawful (K : Type) [Field K] [LinearOrder K] [IsStrictOrderedRing K] [FloorRing K] [LawfulRoots K] :
    (Rounding.binary64 K).Lawful where
  ne_nan k := by
    show Binary64.round k ≠ .nan
    unfold Binary64.round
    split
    · simp
    · split <;> split <;> simp
  mono := Binary64.round_mono
  odd := Binary64.round_odd
  idem a b h := by
    change Binary64.round a = .fin b at h
    show Binary64.round b = .fin b
    rcases lt_trichotomy a 0 with ha | ha | ha
    · obtain ⟨c, rfl⟩ : ∃ c, a = -c := ⟨-a, by ring⟩
      have h' : Binary64.round c = .fin (-b) := by
        rw [Binary64.round_odd] at h
        have := congrArg Ext.neg h
        rw [← Binary64.round_odd, ← Binary64.round_odd, neg_neg] at this
        simpa [Ext.neg] using this
      have := Binary64.round_idem_pos (by linarith) h'
      rw [Binary64.round_odd] at this
      have h2 := congrArg Ext.neg this
      rw [← Binary64.round_odd, ← Binary64.round_odd, neg_neg] at h2
      simpa [Ext.neg] using h2
    · rw [ha, Binary64.round_zero] at h
      rw [← Ext.fin.inj h, Binary64.round_zero]
    · exact Binary64.round_idem_pos ha h
  int := Binary64.round_int
  sqrt_nonneg k _ := Binary64.round_nonneg (LawfulRoots.sqrt_nonneg k)

namespace Binary64
variable {K : Type} [Field K] [LinearOrder K] [IsStrictOrderedRing K] [FloorRing K]

theorem roundEven_even_le {y : K} {n : ℤ} (hn : n % 2 = 0) : n ≤ roundEven y ↔ (n : K) - 1 / 2 ≤ y := by
  have hnear := abs_le.mp (roundEven_near y)
  constructor
  · intro h
    have : (n : K) ≤ roundEven y := by exact_mod_cast h
    linarith
  · intro h
    by_contra hc
    have hc' : roundEven y + 1 ≤ n := by omega
    have hcK : (roundEven y : K) + 1 ≤ n := by exact_mod_cast hc'
    have e1 : y - roundEven y = 1 / 2 := by linarith
    have e2 : (n : K) = roundEven y + 1 := by linarith
    have e2' : n = roundEven y + 1 := by exact_mod_cast e2
    have := roundEven_tie y n (by omega) (by
      rw [e1, e2, show y - ((roundEven y : K) + 1) = -(1 / 2) by linarith, abs_neg])
    rw [Int.even_iff] at this
    omega

/-- No binary64 number is nearer to `k` than its rounding, and on a tie the last bit of the rounding is 0. -/
theorem mag_nearest {k w : K} (hk : 0 < k) (hw : Representable w) :
    |k - mag k| ≤ |k - w| ∧ (|k - w| = |k - mag k| → w ≠ mag k → ∃ m : ℤ, Even m ∧ mag k = m * (2 : K) ^ lastPlace k) := by
  obtain ⟨m, q, hm, hq, _, rfl⟩ := hw
  have hpe := two_zpow_pos (K := K) (lastPlace k)
  -- distances in units of the last place
  have hdist : ∀ n : ℤ, |k - n * (2 : K) ^ lastPlace k| = |k / (2 : K) ^ lastPlace k - n| * (2 : K) ^ lastPlace k := by
    intro n
    conv_rhs => rw [← abs_of_pos hpe, ← abs_mul, sub_mul, abs_of_pos hpe, div_mul_cancel₀ _ hpe.ne']
  rcases le_or_gt (lastPlace k) q with hle | hgt
  · have e : (m : K) * (2 : K) ^ q = ((m * 2 ^ (q - lastPlace k).toNat : ℤ) : K) * (2 : K) ^ lastPlace k := by
      rw [Int.cast_mul, mul_assoc, ← two_zpow_split hle]
    rw [e]
    unfold mag
    rw [hdist, hdist]
    constructor
    · exact mul_le_mul_of_nonneg_right (roundEven_nearest _ _) hpe.le
    · intro h hne
      refine ⟨_, roundEven_tie _ _ ?_ (mul_right_cancel₀ hpe.ne' h), rfl⟩
      intro hc
      rw [← hc] at hne
      exact hne rfl
  · have hlp : lastPlace k = Int.log 2 k - 52 := by unfold lastPlace at *; omega
    have e := two_zpow_split (K := K) (show lastPlace k ≤ Int.log 2 k by omega)
    have hmK : (m : K) < (2 : K) ^ (53 : ℤ) := by
      have : (m : K) < ((2 ^ 53 : ℤ) : K) := Int.cast_lt.mpr (abs_lt.mp hm).2
      rwa [cast_two_pow] at this
    have hw : (m : K) * (2 : K) ^ q < (2 : K) ^ Int.log 2 k := by
      refine lt_of_lt_of_le (mul_lt_mul_of_pos_right hmK (two_zpow_pos q)) ?_
      rw [← zpow_add₀ (by norm_num : (2 : K) ≠ 0)]
      exact two_zpow_mono (by omega)
    have hlk := log_le hk
    have h1 : |k - mag k| ≤ k - (2 : K) ^ Int.log 2 k := by
      rw [← abs_of_nonneg (show 0 ≤ k - (2 : K) ^ Int.log 2 k by linarith)]
      conv_rhs => rw [e]
      unfold mag
      rw [hdist, hdist]
      exact mul_le_mul_of_nonneg_right (roundEven_nearest _ _) hpe.le
    have h2 : k - (2 : K) ^ Int.log 2 k < |k - m * (2 : K) ^ q| := by
      rw [abs_of_nonneg (by linarith)]; linarith
    exact ⟨by linarith, fun h => by linarith⟩

/-- Overflow happens from the midpoint between the greatest finite number `2^1024 - 2^971` and `2^1024` on. -/
theorem mag_overflow {k : K} (hk : 0 < k) : (2 : K) ^ (1024 : ℤ) ≤ mag k ↔ (2 : K) ^ (1024 : ℤ) - (2 : K) ^ (970 : ℤ) ≤ k := by
  have p971 : (2 : K) ^ (971 : ℤ) = 2 * (2 : K) ^ (970 : ℤ) := by
    rw [show (971 : ℤ) = 1 + 970 by norm_num, zpow_add₀ (by norm_num : (2 : K) ≠ 0)]; norm_num
  have hp := two_zpow_pos (K := K) 970
  have p1024 : (2 : K) ^ (1024 : ℤ) = ((2 ^ 53 : ℤ) : K) * (2 : K) ^ (971 : ℤ) := by
    rw [cast_two_pow, ← zpow_add₀ (by norm_num : (2 : K) ≠ 0)]; congr 1
  rcases lt_or_ge k ((2 : K) ^ (1024 : ℤ)) with h | h
  · rcases le_or_gt ((2 : K) ^ (1023 : ℤ)) k with h' | h'
    · have hl : Int.log 2 k = 1023 := by
        have h1 := (lt_log_iff hk 1024).mpr h
        have h2 := (le_log_iff hk 1023).mpr h'
        omega
      have hlp : lastPlace k = 971 := by unfold lastPlace; omega
      unfold mag
      rw [hlp, p1024, mul_le_mul_iff_left₀ (two_zpow_pos 971), Int.cast_le, roundEven_even_le (by norm_num),
        le_div_iff₀ (two_zpow_pos 971), sub_mul]
      rw [p971]
      generalize (2 : K) ^ (970 : ℤ) = A
      generalize ((2 ^ 53 : ℤ) : K) = B
      rw [show (1 / 2 : K) * (2 * A) = A by ring]
    · have hl : Int.log 2 k < 1023 := (lt_log_iff hk 1023).mpr h'
      have hlp : lastPlace k ≤ 1023 := by unfold lastPlace; omega
      have e := two_zpow_split (K := K) hlp
      have g := mag_le_of (k := k) (n := 2 ^ (1023 - lastPlace k).toNat) (by rw [← e]; exact h'.le)
      rw [← e] at g
      have p1023 : (2 : K) ^ (1024 : ℤ) = 2 * (2 : K) ^ (1023 : ℤ) := by
        rw [show (1024 : ℤ) = 1 + 1023 by norm_num, zpow_add₀ (by norm_num : (2 : K) ≠ 0)]; norm_num
      have hlt : (2 : K) ^ (970 : ℤ) < (2 : K) ^ (1023 : ℤ) := zpow_lt_zpow_right₀ (by norm_num) (by norm_num)
      have p3 := two_zpow_pos (K := K) 1023
      clear hlp e hl h p1024 p971
      generalize (2 : K) ^ (1023 : ℤ) = C at *
      generalize (2 : K) ^ (970 : ℤ) = A at *
      generalize (2 : K) ^ (1024 : ℤ) = B at *
      constructor <;> intro hc <;> linarith
  · constructor
    · intro _
      clear p1024 p971
      generalize (2 : K) ^ (970 : ℤ) = A at *
      generalize (2 : K) ^ (1024 : ℤ) = B at *
      linarith
    · intro _
      have hl := (le_log_iff hk 1024).mpr h
      have hlp : lastPlace k = Int.log 2 k - 52 := by unfold lastPlace; omega
      have e := two_zpow_split (K := K) (show lastPlace k ≤ Int.log 2 k by omega)
      have g := le_mag_of (k := k) (n := 2 ^ (Int.log 2 k - lastPlace k).toNat) (by rw [← e]; exact log_le hk)
      rw [← e] at g
      exact (two_zpow_mono hl).trans g

theorem representable_neg {v : K} (h : Representable v) : Representable (-v) := by
  obtain ⟨m, q, h1, h2, h3, rfl⟩ := h
  exact ⟨-m, q, by rwa [abs_neg], h2, h3, by push_cast; ring⟩

theorem mag_representable {k : K} (hk : 0 < k) (ho : ¬ (2 : K) ^ (1024 : ℤ) ≤ mag k) : Representable (mag k) := by
  obtain ⟨m, h0, h1, h2⟩ := mag_form hk
  have he : lastPlace k ≤ 971 := by
    by_contra hc
    have hl : 1024 ≤ Int.log 2 k := by unfold lastPlace at hc; omega
    have hk' := (le_log_iff hk 1024).mp hl
    refine ho ((mag_overflow hk).mpr (le_trans ?_ hk'))
    exact sub_le_self _ (two_zpow_pos 970).le
  rcases lt_or_eq_of_le h1 with hlt | heq
  · exact ⟨m, lastPlace k, by rwa [abs_of_nonneg h0], by unfold lastPlace; omega, he, h2⟩
  · refine ⟨2 ^ 52, lastPlace k + 1, by norm_num, by unfold lastPlace; omega, ?_, ?_⟩
    · by_contra hc
      have he' : lastPlace k = 971 := by omega
      apply ho
      rw [h2, heq, he', cast_two_pow, ← zpow_add₀ (by norm_num : (2 : K) ≠ 0)]
      exact two_zpow_mono (by norm_num)
    · rw [h2, heq, cast_two_pow, cast_two_pow, ← zpow_add₀ (by norm_num : (2 : K) ≠ 0), ← zpow_add₀ (by norm_num : (2 : K) ≠ 0)]
      congr 1
      push_cast
      ring

theorem round_fin_pos {k v : K} (hk : 0 < k) (h : round k = .fin v) : v = mag k ∧ ¬ (2 : K) ^ (1024 : ℤ) ≤ mag k := by
  rw [round_pos hk] at h
  split at h
  · simp at h
  · rename_i ho; exact ⟨(Ext.fin.inj h).symm, ho⟩

theorem round_fin_neg {k v : K} (h : round k = .fin v) : round (-k) = .fin (-v) := by rw [round_odd, h]; rfl

/-- The rounding of `k` is a binary64 number, none is nearer to `k`, and on a tie its last bit is 0. -/
theorem binary64_nearest {k v : K} (h : round k = .fin v) :
    Representable v ∧ ∀ w, Representable w → |k - v| ≤ |k - w| ∧
      (|k - w| = |k - v| → w ≠ v → ∃ m : ℤ, Even m ∧ v = m * (2 : K) ^ lastPlace |k|) := by
  have pos : ∀ {k v : K}, 0 < k → round k = .fin v → Representable v ∧ ∀ w, Representable w → |k - v| ≤ |k - w| ∧
      (|k - w| = |k - v| → w ≠ v → ∃ m : ℤ, Even m ∧ v = m * (2 : K) ^ lastPlace |k|) := by
    intro k v hk h
    obtain ⟨rfl, ho⟩ := round_fin_pos hk h
    rw [abs_of_pos hk]
    exact ⟨mag_representable hk ho, fun w hw => mag_nearest hk hw⟩
  rcases lt_trichotomy k 0 with hk | hk | hk
  · obtain ⟨h1, h2⟩ := pos (by linarith : 0 < -k) (round_fin_neg h)
    have h3 := representable_neg h1
    rw [neg_neg] at h3
    refine ⟨h3, fun w hw => ?_⟩
    have h4 := h2 (-w) (representable_neg hw)
    have e1 : ∀ u : K, |-k - -u| = |k - u| := fun u => by rw [← abs_neg]; congr 1; ring
    rw [e1, e1, abs_neg] at h4
    refine ⟨h4.1, fun g1 g2 => ?_⟩
    obtain ⟨m, m1, m2⟩ := h4.2 g1 (fun hc => g2 (neg_injective hc))
    exact ⟨-m, m1.neg, by push_cast; linear_combination -m2⟩
  · rw [hk, round_zero] at h
    rw [← Ext.fin.inj h, hk]
    refine ⟨⟨0, 0, by norm_num, by norm_num, by norm_num, by simp⟩, fun w _ => ⟨by simp, fun g1 g2 => ?_⟩⟩
    simp at g1
    exact absurd g1 g2
  · exact pos hk h

/-- Overflow to infinity happens from the midpoint between the greatest finite number `2^1024 - 2^971` and `2^1024` on. -/
theorem binary64_overflow (k : K) :
    (round k = .pinf ↔ (2 : K) ^ (1024 : ℤ) - (2 : K) ^ (970 : ℤ) ≤ k) ∧
    (round k = .ninf ↔ k ≤ -((2 : K) ^ (1024 : ℤ) - (2 : K) ^ (970 : ℤ))) := by
  have hP : 0 < (2 : K) ^ (1024 : ℤ) - (2 : K) ^ (970 : ℤ) := sub_pos.mpr (zpow_lt_zpow_right₀ (by norm_num) (by norm_num))
  have key : ∀ {k : K}, 0 < k → (round k = .pinf ↔ (2 : K) ^ (1024 : ℤ) - (2 : K) ^ (970 : ℤ) ≤ k) ∧ round k ≠ .ninf := by
    intro k hk
    rw [round_pos hk, ← mag_overflow hk]
    split <;> simp_all
  have swap : ∀ k : K, round k = .ninf ↔ round (-k) = .pinf := by
    intro k; rw [round_odd]; cases round k <;> simp [Ext.neg]
  have swap' : ∀ k : K, round k = .pinf ↔ round (-k) = .ninf := by
    intro k; rw [round_odd]; cases round k <;> simp [Ext.neg]
  generalize (2 : K) ^ (1024 : ℤ) - (2 : K) ^ (970 : ℤ) = P at *
  rcases lt_trichotomy k 0 with hk | hk | hk
  · have h := key (show 0 < -k by linarith)
    constructor
    · rw [swap']; exact ⟨fun hc => absurd hc h.2, fun hc => by linarith⟩
    · rw [swap, h.1]; constructor <;> intro <;> linarith
  · rw [hk, round_zero]
    constructor <;> constructor <;> intro hc <;> first | (simp at hc; done) | linarith
  · have h := key hk
    exact ⟨h.1, ⟨fun hc => absurd hc h.2, fun hc => by linarith⟩⟩

end Binary64
/-! The definition computes on ℚ.  0.1; ties to even; the smallest overflow; underflow and subnormal ties. -/
example : Binary64.round (1 / 10 : ℚ) = .fin (3602879701896397 / 36028797018963968) := by decide +kernel
example : Binary64.round (2 ^ 53 + 1 : ℚ) = .fin (2 ^ 53) := by decide +kernel
example : Binary64.round (2 ^ 53 + 3 : ℚ) = .fin (2 ^ 53 + 4) := by decide +kernel
example : Binary64.round (2 ^ 1024 - 2 ^ 970 : ℚ) = .pinf := by decide +kernel
example : Binary64.round (2 ^ 1024 - 2 ^ 970 - 1 : ℚ) = .fin (2 ^ 1024 - 2 ^ 971) := by decide +kernel
example : Binary64.round (1 / 2 ^ 1075 : ℚ) = .fin 0 := by decide +kernel
example : Binary64.round (-3 / 2 ^ 1075 : ℚ) = .fin (-1 / 2 ^ 1073) := by decide +kernel
/-- 0.1 + 0.2 is not 0.3. -/
example : (lit (1 / 10) + lit (2 / 10) : Fl (Rounding.binary64 ℚ)) ≠ lit (3 / 10) := by decide +kernel

end Pace
