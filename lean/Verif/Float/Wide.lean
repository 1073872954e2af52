import Verif.Float.Binary64
import Verif.Spec.Units

/-!
# binary64 without limits on the exponent

53 significant bits, round to nearest, ties to even, no overflow, no subnormal numbers.  binary64 rounds in the same way every result
between `2^-1022` and `2^1023` (`binary64_eq_wide`).  Powers of two are changes of units of this arithmetic (`wide_homogeneous`).
-/

set_option linter.unusedSectionVars false

namespace Pace
namespace Binary64
variable {K : Type} [Field K] [LinearOrder K] [IsStrictOrderedRing K] [FloorRing K]

/-- A positive number rounded to 53 significant bits. -/
def wideMag (k : K) : K := (roundEven (k / (2 : K) ^ (Int.log 2 k - 52)) : K) * (2 : K) ^ (Int.log 2 k - 52)

/-- A number rounded to 53 significant bits. -/
def wideRound (k : K) : K := if k = 0 then 0 else if 0 < k then wideMag k else -wideMag (-k)

theorem log_mul_two_zpow {k : K} (hk : 0 < k) (j : ℤ) : Int.log 2 ((2 : K) ^ j * k) = j + Int.log 2 k := by
  have hp : (0 : K) < (2 : K) ^ j := two_zpow_pos j
  have hpk := mul_pos hp hk
  apply le_antisymm
  · rw [← Int.lt_add_one_iff, lt_log_iff hpk, add_assoc, zpow_add₀ (by norm_num : (2 : K) ≠ 0)]
    exact mul_lt_mul_of_pos_left ((lt_log_iff hk _).mp (by omega)) hp
  · rw [le_log_iff hpk, zpow_add₀ (by norm_num : (2 : K) ≠ 0)]
    exact mul_le_mul_of_nonneg_left ((le_log_iff hk _).mp le_rfl) hp.le

theorem wideMag_mul {k : K} (hk : 0 < k) (j : ℤ) : wideMag ((2 : K) ^ j * k) = (2 : K) ^ j * wideMag k := by
  unfold wideMag
  rw [log_mul_two_zpow hk, add_sub_assoc, zpow_add₀ (by norm_num : (2 : K) ≠ 0), mul_div_mul_left _ _ (two_zpow_pos j).ne']
  ring

theorem wideRound_mul (k : K) (j : ℤ) : wideRound ((2 : K) ^ j * k) = (2 : K) ^ j * wideRound k := by
  have hp : (0 : K) < (2 : K) ^ j := two_zpow_pos j
  unfold wideRound
  simp only [mul_eq_zero, hp.ne', false_or, mul_pos_iff_of_pos_left hp]
  split
  · rw [mul_zero]
  · rename_i h0
    split
    · rename_i h; exact wideMag_mul h j
    · rename_i h
      have hn : 0 < -k := by
        rcases lt_trichotomy k 0 with h1 | h1 | h1
        · linarith
        · exact absurd h1 h0
        · exact absurd h1 h
      rw [← mul_neg, wideMag_mul hn, mul_neg]

end Binary64

open Binary64

/-- Arithmetic with 53 significant bits and an unlimited exponent. -/
def Rounding.wide (K : Type) [Field K] [LinearOrder K] [FloorRing K] [RootOps K] : Rounding K where
  rnd k := .fin (wideRound k)
  sqrtR k := .fin (wideRound (RootOps.sqrt k))
  log10R k := .fin (wideRound (RootOps.log10 k))

section
variable {K : Type} [Field K] [LinearOrder K] [IsStrictOrderedRing K] [FloorRing K]

/-- Rounding commutes with multiplication by a power of two. -/
theorem wide_homogeneous [LawfulRoots K] (j : ℤ) : (Rounding.wide K).Homogeneous ((2 : K) ^ j) where
  pos := two_zpow_pos j
  rnd a := congrArg Ext.fin (wideRound_mul a j)
  sqrt a ha := by
    have e := sqrt_scale (two_zpow_pos (K := K) j) ha
    show Ext.fin (wideRound (RootOps.sqrt _)) = Ext.fin _
    rw [e, wideRound_mul]

/-- Results in the normal range are rounded as the hardware does. -/
theorem binary64_eq_wide [RootOps K] (a : K) (h : a = 0 ∨ ((2 : K) ^ (-1022 : ℤ) ≤ |a| ∧ |a| < (2 : K) ^ (1023 : ℤ))) :
    (Rounding.binary64 K).rnd a = (Rounding.wide K).rnd a := by
  show Binary64.round a = Ext.fin (wideRound a)
  have key (b : K) (hb : 0 < b) (h1 : (2 : K) ^ (-1022 : ℤ) ≤ b) (h2 : b < (2 : K) ^ (1023 : ℤ)) :
      mag b = wideMag b ∧ ¬ (2 : K) ^ (1024 : ℤ) ≤ mag b := by
    have e1 := (le_log_iff hb _).mpr h1
    have e2 := (lt_log_iff hb _).mpr h2
    refine ⟨?_, ?_⟩
    · have : lastPlace b = Int.log 2 b - 52 := by unfold lastPlace; omega
      unfold mag wideMag
      rw [this]
    · have hlp : lastPlace b ≤ 1023 := by unfold lastPlace; omega
      have e := two_zpow_split (K := K) hlp
      have g := mag_le_of (k := b) (n := 2 ^ (1023 - lastPlace b).toNat) (by rw [← e]; exact h2.le)
      rw [← e] at g
      have p : (2 : K) ^ (1023 : ℤ) < (2 : K) ^ (1024 : ℤ) := zpow_lt_zpow_right₀ (by norm_num) (by norm_num)
      exact not_le.mpr (lt_of_le_of_lt g p)
  rcases h with rfl | ⟨h1, h2⟩
  · simp [Binary64.round, wideRound]
  · have hp : (0 : K) < (2 : K) ^ (-1022 : ℤ) := two_zpow_pos _
    have h0 : a ≠ 0 := by
      rintro rfl
      rw [abs_zero] at h1
      exact absurd hp (not_lt.mpr h1)
    unfold Binary64.round wideRound
    rw [if_neg h0, if_neg h0]
    by_cases ha : 0 < a
    · rw [abs_of_pos ha] at h1 h2
      obtain ⟨k1, k2⟩ := key a ha h1 h2
      rw [if_pos ha, if_pos ha, if_neg k2, k1]
    · have ha' : a < 0 := lt_of_le_of_ne (not_lt.mp ha) h0
      rw [abs_of_neg ha'] at h1 h2
      obtain ⟨k1, k2⟩ := key (-a) (neg_pos.mpr ha') h1 h2
      rw [if_neg ha, if_neg ha, if_neg k2, k1]

end
end Pace
