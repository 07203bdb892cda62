import Verif.Base.Round
import Verif.Base.Rounding
import Mathlib.Data.Int.Log
import Mathlib.Data.Real.Basic
import Mathlib.Algebra.Order.Archimedean.Real.Basic
import Mathlib.Algebra.Order.Field.Power
import Mathlib.Tactic.Positivity

/-!
# Double precision

The numbers Python computes with are IEEE 754 binary64 numbers.  Each of `+`, `-`, `*`, `/` and `np.sqrt` returns the double nearest to the exact
result, the one with the even last bit if two are equally near.  `double` is that rounding, with gradual underflow.  Overflow, infinities, NaN and the
sign of zero are not modelled: results are assumed to be below `2 ^ 1024`.
-/

namespace Coralign

/-- The distance between neighbouring doubles about `x`: 53 significant bits, and nothing finer than `2 ^ -1074`. -/
noncomputable def ulp (x : ℝ) : ℝ := (2 : ℝ) ^ (max (Int.log 2 |x| - 52) (-1074) : ℤ)

/-- The double nearest to `x`, ties to even. -/
noncomputable def double (x : ℝ) : ℝ := (npRound (x / ulp x) : ℝ) * ulp x

theorem two_zpow_pos (k : ℤ) : (0 : ℝ) < (2 : ℝ) ^ k := zpow_pos two_pos k

theorem ulp_pos (x : ℝ) : 0 < ulp x := two_zpow_pos _

theorem ulp_neg (x : ℝ) : ulp (-x) = ulp x := by unfold ulp; rw [abs_neg]

/-- Rounding is the same on both sides of zero. -/
theorem double_neg (x : ℝ) : double (-x) = -double x := by
  unfold double
  rw [ulp_neg, neg_div, npRound_neg]
  push_cast
  ring

theorem npRound_zero : npRound (0 : ℝ) = 0 := by exact_mod_cast npRound_intCast (K := ℝ) 0

@[simp] theorem double_zero : double 0 = 0 := by
  unfold double
  rw [zero_div, npRound_zero]
  simp

theorem two_zpow_mono {a b : ℤ} (h : a ≤ b) : (2 : ℝ) ^ a ≤ (2 : ℝ) ^ b := zpow_le_zpow_right₀ (by norm_num) h

theorem two_zpow_add (a b : ℤ) : (2 : ℝ) ^ (a + b) = (2 : ℝ) ^ a * (2 : ℝ) ^ b := zpow_add₀ (by norm_num) a b

theorem two_log_le {x : ℝ} (hx : 0 < x) : (2 : ℝ) ^ Int.log 2 x ≤ x := by
  have := Int.zpow_log_le_self (b := 2) (by norm_num) hx
  exact_mod_cast this

theorem lt_two_log (x : ℝ) : x < (2 : ℝ) ^ (Int.log 2 x + 1) := by
  have := Int.lt_zpow_succ_log_self (b := 2) (by norm_num) x
  exact_mod_cast this

theorem ulp_le {x : ℝ} (hx : x ≠ 0) : ulp x ≤ (2 : ℝ) ^ (-52 : ℤ) * |x| + (2 : ℝ) ^ (-1074 : ℤ) := by
  unfold ulp
  rcases le_total (Int.log 2 |x| - 52) (-1074) with h | h
  · rw [max_eq_right h]
    have := mul_nonneg (two_zpow_pos (-52)).le (abs_nonneg x)
    linarith
  · rw [max_eq_left h]
    have h0 := two_zpow_pos (-1074)
    have := two_log_le (abs_pos.mpr hx)
    rw [sub_eq_add_neg, two_zpow_add]
    have h52 := two_zpow_pos (-52)
    nlinarith

/-- Rounding moves a number by at most half the distance of its neighbours. -/
theorem double_error_ulp (x : ℝ) : |double x - x| ≤ ulp x / 2 := by
  have hu := ulp_pos x
  have h := abs_sub_npRound_le (x / ulp x)
  have e : double x - x = -((x / ulp x - npRound (x / ulp x)) * ulp x) := by
    unfold double
    rw [sub_mul, div_mul_cancel₀ _ hu.ne']
    ring
  rw [e, abs_neg, abs_mul, abs_of_pos hu]
  calc _ ≤ 1 / 2 * ulp x := mul_le_mul_of_nonneg_right h hu.le
    _ = _ := by ring

/-- The relative error of one rounding. -/
noncomputable def roundoff : ℝ := (2 : ℝ) ^ (-53 : ℤ)

/-- The absolute error of one rounding of a tiny number. -/
noncomputable def underflow : ℝ := (2 : ℝ) ^ (-1075 : ℤ)

/-- The standard model of rounding. -/
theorem double_error (x : ℝ) : |double x - x| ≤ roundoff * |x| + underflow := by
  by_cases hx : x = 0
  · subst hx
    rw [double_zero, sub_zero, abs_zero, mul_zero, zero_add]
    exact (two_zpow_pos _).le
  · have h1 := double_error_ulp x
    have h2 := ulp_le hx
    have e1 : (2 : ℝ) ^ (-52 : ℤ) = 2 * roundoff := by
      unfold roundoff
      rw [show (-52 : ℤ) = 1 + -53 by norm_num, two_zpow_add, zpow_one]
    have e2 : (2 : ℝ) ^ (-1074 : ℤ) = 2 * underflow := by
      unfold underflow
      rw [show (-1074 : ℤ) = 1 + -1075 by norm_num, two_zpow_add, zpow_one]
    rw [e1, e2] at h2
    linarith

theorem double_nonneg {x : ℝ} (h : 0 ≤ x) : 0 ≤ double x := by
  have := npRound_mono (K := ℝ) (div_nonneg h (ulp_pos x).le)
  rw [npRound_zero] at this
  exact mul_nonneg (by exact_mod_cast this) (ulp_pos x).le

/-- A multiple of the unit of `x` which is a power of two is not crossed by rounding `x`. -/
theorem double_le_pow {x : ℝ} {k : ℤ} (hk : max (Int.log 2 |x| - 52) (-1074) ≤ k) (h : x ≤ (2 : ℝ) ^ k) : double x ≤ (2 : ℝ) ^ k := by
  have hu := ulp_pos x
  obtain ⟨n, hn⟩ := Int.eq_ofNat_of_zero_le (sub_nonneg.mpr hk)
  have e : (2 : ℝ) ^ k = ((2 ^ n : ℕ) : ℤ) * ulp x := by
    unfold ulp
    rw [show k = (n : ℤ) + max (Int.log 2 |x| - 52) (-1074) by omega, two_zpow_add]
    push_cast
    rw [zpow_natCast]
  unfold double
  rw [e] at h ⊢
  refine mul_le_mul_of_nonneg_right ?_ hu.le
  have := npRound_mono (K := ℝ) ((div_le_iff₀ hu).mpr h)
  rw [npRound_intCast] at this
  exact_mod_cast this

theorem pow_le_double {x : ℝ} {k : ℤ} (hk : max (Int.log 2 |x| - 52) (-1074) ≤ k) (h : (2 : ℝ) ^ k ≤ x) : (2 : ℝ) ^ k ≤ double x := by
  have hu := ulp_pos x
  obtain ⟨n, hn⟩ := Int.eq_ofNat_of_zero_le (sub_nonneg.mpr hk)
  have e : (2 : ℝ) ^ k = ((2 ^ n : ℕ) : ℤ) * ulp x := by
    unfold ulp
    rw [show k = (n : ℤ) + max (Int.log 2 |x| - 52) (-1074) by omega, two_zpow_add]
    push_cast
    rw [zpow_natCast]
  unfold double
  rw [e] at h ⊢
  refine mul_le_mul_of_nonneg_right ?_ hu.le
  have := npRound_mono (K := ℝ) ((le_div_iff₀ hu).mpr h)
  rw [npRound_intCast] at this
  exact_mod_cast this

theorem double_mono_pos {x y : ℝ} (hx : 0 < x) (h : x ≤ y) : double x ≤ double y := by
  have hy : 0 < y := hx.trans_le h
  have hl : Int.log 2 x ≤ Int.log 2 y := Int.log_mono_right hx h
  by_cases hk : max (Int.log 2 |x| - 52) (-1074) = max (Int.log 2 |y| - 52) (-1074)
  · have e : ulp x = ulp y := by unfold ulp; rw [hk]
    unfold double
    rw [e]
    refine mul_le_mul_of_nonneg_right ?_ (ulp_pos y).le
    exact_mod_cast npRound_mono (K := ℝ) (div_le_div_of_nonneg_right h (ulp_pos y).le)
  · rw [abs_of_pos hx, abs_of_pos hy] at hk
    have h1 : Int.log 2 x < Int.log 2 y := by
      rcases hl.lt_or_eq with h | h
      · exact h
      · rw [h] at hk; exact absurd rfl hk
    have h2 : x ≤ (2 : ℝ) ^ Int.log 2 y := (lt_two_log x).le.trans (two_zpow_mono h1)
    exact (double_le_pow (by rw [abs_of_pos hx]; omega) h2).trans (pow_le_double (by rw [abs_of_pos hy]; omega) (two_log_le hy))

/-- Rounding keeps the order. -/
theorem double_mono {x y : ℝ} (h : x ≤ y) : double x ≤ double y := by
  rcases lt_trichotomy x 0 with hx | rfl | hx
  · rcases lt_or_ge y 0 with hy | hy
    · have := double_mono_pos (x := -y) (y := -x) (by linarith) (by linarith)
      rw [double_neg, double_neg] at this
      linarith
    · have h1 := double_nonneg (x := -x) (by linarith)
      rw [double_neg] at h1
      have h2 := double_nonneg hy
      linarith
  · rw [double_zero]
    exact double_nonneg h
  · exact double_mono_pos hx h

/-- A number with at most 53 significant bits, none below `2 ^ -1074`, is its own double. -/
theorem double_of_bits (m e : ℤ) (hm : |m| < 2 ^ 53) (he : -1074 ≤ e) : double ((m : ℝ) * (2 : ℝ) ^ e) = (m : ℝ) * (2 : ℝ) ^ e := by
  by_cases h0 : m = 0
  · subst h0; simp
  have hp := two_zpow_pos e
  have hm0 : (0 : ℝ) < |(m : ℝ)| := abs_pos.mpr (by exact_mod_cast h0)
  generalize hx : (m : ℝ) * (2 : ℝ) ^ e = x
  have hax : |x| = |(m : ℝ)| * (2 : ℝ) ^ e := by rw [← hx, abs_mul, abs_of_pos hp]
  have hx0 : 0 < |x| := by rw [hax]; positivity
  have hlt : |x| < (2 : ℝ) ^ (53 + e) := by
    rw [hax, two_zpow_add]
    refine mul_lt_mul_of_pos_right ?_ hp
    have : ((|m| : ℤ) : ℝ) < ((2 ^ 53 : ℤ) : ℝ) := by exact_mod_cast hm
    rw [Int.cast_abs] at this
    refine this.trans_le ?_

    norm_num
  have hlog : Int.log 2 |x| < 53 + e := by
    have := (Int.lt_zpow_iff_log_lt (b := 2) (by norm_num) (x := 53 + e) hx0).mp (by exact_mod_cast hlt)
    exact this
  obtain ⟨n, hn⟩ := Int.eq_ofNat_of_zero_le (show 0 ≤ e - max (Int.log 2 |x| - 52) (-1074) by omega)
  have hu : (2 : ℝ) ^ e = ((2 ^ n : ℕ) : ℤ) * ulp x := by
    unfold ulp
    rw [show e = (n : ℤ) + max (Int.log 2 |x| - 52) (-1074) by omega, two_zpow_add]
    push_cast
    rw [zpow_natCast]
  have e2 : x / ulp x = ((m * ((2 ^ n : ℕ) : ℤ) : ℤ) : ℝ) := by
    rw [div_eq_iff (ulp_pos x).ne']
    conv_lhs => rw [← hx, hu]
    push_cast
    ring
  unfold double
  rw [e2, npRound_intCast, ← e2, div_mul_cancel₀ _ (ulp_pos x).ne']

/-- Whole numbers up to `2 ^ 53` are doubles. -/
theorem double_int (n : ℤ) (h : |n| ≤ 2 ^ 53) : double n = n := by
  rcases h.lt_or_eq with h | h
  · have := double_of_bits n 0 h (by norm_num)
    simpa using this
  · rcases abs_eq (by norm_num) |>.mp h with rfl | rfl
    · have := double_of_bits 1 53 (by norm_num) (by norm_num)
      rw [Int.cast_one, one_mul] at this
      have e : (2 : ℝ) ^ (53 : ℤ) = ((2 ^ 53 : ℤ) : ℝ) := by norm_cast
      rw [e] at this
      exact this
    · have := double_of_bits (-1) 53 (by norm_num) (by norm_num)
      have e : ((-1 : ℤ) : ℝ) * (2 : ℝ) ^ (53 : ℤ) = ((-2 ^ 53 : ℤ) : ℝ) := by
        have : (2 : ℝ) ^ (53 : ℤ) = ((2 ^ 53 : ℤ) : ℝ) := by norm_cast
        rw [this]; push_cast; ring
      rw [e] at this
      exact this

/-- Rounding twice is rounding once. -/
theorem double_double (x : ℝ) : double (double x) = double x := by
  by_cases hx : x = 0
  · subst hx; simp
  have hu := ulp_pos x
  have hx0 := abs_pos.mpr hx
  have hb : |npRound (x / ulp x)| ≤ 2 ^ 53 := by
    have h1 : |x / ulp x| ≤ ((2 ^ 53 : ℤ) : ℝ) := by
      rw [abs_div, abs_of_pos hu, div_le_iff₀ hu]
      have h2 := lt_two_log |x|
      have h3 : (2 : ℝ) ^ (Int.log 2 |x| + 1) ≤ (2 : ℝ) ^ (53 : ℤ) * ulp x := by
        unfold ulp
        rw [← two_zpow_add]
        exact two_zpow_mono (by omega)
      have e : (2 : ℝ) ^ (53 : ℤ) = ((2 ^ 53 : ℤ) : ℝ) := by norm_cast
      rw [← e]
      linarith
    rw [abs_le] at h1 ⊢
    have a1 := npRound_mono (K := ℝ) h1.1
    have a2 := npRound_mono (K := ℝ) h1.2
    rw [npRound_intCast] at a2
    rw [show -((2 ^ 53 : ℤ) : ℝ) = ((-2 ^ 53 : ℤ) : ℝ) by push_cast; ring, npRound_intCast] at a1
    exact ⟨a1, a2⟩
  have hk : -1074 ≤ max (Int.log 2 |x| - 52) (-1074) := le_max_right _ _
  rcases hb.lt_or_eq with h | h
  · exact double_of_bits (npRound (x / ulp x)) _ h hk
  · obtain ⟨s, hs, hs'⟩ : ∃ s : ℤ, |s| < 2 ^ 53 ∧ npRound (x / ulp x) = s * 2 ^ 53 := by
      rcases abs_eq (by norm_num) |>.mp h with h | h
      · exact ⟨1, by norm_num, by rw [h]; norm_num⟩
      · exact ⟨-1, by norm_num, by rw [h]; norm_num⟩
    have e : double x = (s : ℝ) * (2 : ℝ) ^ (53 + max (Int.log 2 |x| - 52) (-1074)) := by
      unfold double ulp
      unfold ulp at hs'
      rw [hs', two_zpow_add]
      have : (2 : ℝ) ^ (53 : ℤ) = ((2 ^ 53 : ℤ) : ℝ) := by norm_cast
      rw [this]
      push_cast
      ring
    rw [e]
    exact double_of_bits s _ hs (by omega)

/-- Rounding to the nearest double meets the contract. -/
noncomputable def Rounding.binary64 : Rounding where
  fl := double
  mono _ _ h := double_mono h
  exact k hk := by
    have := double_of_bits k (-1) (by omega) (by norm_num)
    rw [zpow_neg_one, ← div_eq_mul_inv] at this
    exact this
  close x hx := by
    have hx0 : 0 < x := by linarith
    have h1 := double_error_ulp x
    have hl : 0 ≤ Int.log 2 x := by
      have := Int.log_mono_right (b := 2) (r₁ := (1 : ℝ)) one_pos hx
      rwa [Int.log_one_right] at this
    have e : ulp x = (2 : ℝ) ^ Int.log 2 x * (1 / 2 ^ 52) := by
      unfold ulp
      rw [abs_of_pos hx0, max_eq_left (by omega), sub_eq_add_neg, two_zpow_add]
      congr 1
      rw [show (-52 : ℤ) = -((52 : ℕ) : ℤ) by norm_num, zpow_neg, zpow_natCast, one_div]
    have h2 := two_log_le hx0
    rw [e] at h1
    refine h1.trans ?_
    rw [div_le_iff₀ (by norm_num)]
    have : x / 2 ^ 53 * 2 = x * (1 / 2 ^ 52) := by ring
    rw [this]
    exact mul_le_mul_of_nonneg_right h2 (by norm_num)

end Coralign
