import Verif.Base.Double
import Mathlib.Analysis.Real.Pi.Bounds
import Mathlib.Tactic.Linarith
import Mathlib.Tactic.FieldSimp

/-!
# Relative errors of double-precision arithmetic

Away from underflow a rounding multiplies a number by `1 + δ` with `|δ| ≤ 2 ^ -53`.
-/

namespace Coralign

/-- Specification: `x` is zero, or its size is between `2 ^ a` and `2 ^ b`. -/
def SizeIn (a b : ℤ) (x : ℝ) : Prop := x = 0 ∨ ((2 : ℝ) ^ a ≤ |x| ∧ |x| ≤ (2 : ℝ) ^ b)

theorem SizeIn.mul {a b c d : ℤ} {x y : ℝ} (hx : SizeIn a b x) (hy : SizeIn c d y) : SizeIn (a + c) (b + d) (x * y) := by
  rcases hx with rfl | hx
  · left; ring
  rcases hy with rfl | hy
  · left; ring
  right
  rw [abs_mul, two_zpow_add, two_zpow_add]
  exact ⟨mul_le_mul hx.1 hy.1 (two_zpow_pos _).le (abs_nonneg _), mul_le_mul hx.2 hy.2 (abs_nonneg _) (two_zpow_pos _).le⟩

theorem SizeIn.div {a b c d : ℤ} {x y : ℝ} (hx : SizeIn a b x) (hy : SizeIn c d y) : SizeIn (a - d) (b - c) (x / y) := by
  rcases hx with rfl | hx
  · left; simp
  rcases hy with rfl | hy
  · left; simp
  right
  have hy0 : 0 < |y| := (two_zpow_pos _).trans_le hy.1
  have e : ∀ p q : ℤ, (2 : ℝ) ^ (p - q) = (2 : ℝ) ^ p / (2 : ℝ) ^ q := fun p q => zpow_sub₀ (by norm_num) p q
  rw [abs_div, e, e]
  exact ⟨div_le_div₀ (abs_nonneg _) hx.1 hy0 hy.2, div_le_div₀ (two_zpow_pos _).le hx.2 (two_zpow_pos _) hy.1⟩

theorem double_two_zpow (k : ℤ) (hk : -1074 ≤ k) : double ((2 : ℝ) ^ k) = (2 : ℝ) ^ k := by
  have := double_of_bits 1 k (by norm_num) hk
  simpa using this

theorem double_abs (x : ℝ) : double |x| = |double x| := by
  rcases le_total 0 x with h | h
  · rw [abs_of_nonneg h, abs_of_nonneg (double_nonneg h)]
  · rw [abs_of_nonpos h, double_neg, abs_of_nonpos]
    have := double_nonneg (x := -x) (by linarith)
    rw [double_neg] at this
    linarith

/-- Rounding does not leave a range of sizes between powers of two. -/
theorem SizeIn.double {a b : ℤ} {x : ℝ} (hx : SizeIn a b x) (ha : -1074 ≤ a) : SizeIn a b (Coralign.double x) := by
  rcases hx with rfl | hx
  · left; exact double_zero
  right
  have hab : a ≤ b := by
    by_contra h
    have := two_zpow_mono (show b + 1 ≤ a by omega)
    have h1 : (2 : ℝ) ^ b < (2 : ℝ) ^ (b + 1) := zpow_lt_zpow_right₀ (by norm_num) (by omega)
    linarith [hx.1, hx.2]
  have h1 := double_mono hx.1
  have h2 := double_mono hx.2
  rw [double_two_zpow _ ha, double_abs] at h1
  rw [double_two_zpow _ (ha.trans hab), double_abs] at h2
  exact ⟨h1, h2⟩

/-- A rounding is a factor close to one. -/
theorem SizeIn.rel {a b : ℤ} {x : ℝ} (hx : SizeIn a b x) (ha : -1022 ≤ a) : ∃ δ, |δ| ≤ roundoff ∧ Coralign.double x = x * (1 + δ) := by
  rcases hx with rfl | hx
  · exact ⟨0, by rw [abs_zero]; exact (two_zpow_pos _).le, by simp⟩
  have hx0 : 0 < |x| := (two_zpow_pos _).trans_le hx.1
  have hne : x ≠ 0 := abs_pos.mp hx0
  refine ⟨(Coralign.double x - x) / x, ?_, by field_simp; ring⟩
  rw [abs_div, div_le_iff₀ hx0]
  refine (double_error_ulp x).trans ?_
  have hlog : a ≤ Int.log 2 |x| := (Int.zpow_le_iff_le_log (b := 2) (by norm_num) hx0).mp (by exact_mod_cast hx.1)
  have h1 := two_log_le hx0
  unfold ulp roundoff
  rw [max_eq_left (by omega), show Int.log 2 |x| - 52 = (-53 + Int.log 2 |x|) + 1 by ring, two_zpow_add _ 1, two_zpow_add, zpow_one]
  have := two_zpow_pos (-53)
  nlinarith

/-- `np.pi`: the double nearest to π. -/
noncomputable def piD : ℝ := double Real.pi

theorem pi_size : SizeIn 1 2 Real.pi := by
  right
  rw [abs_of_pos Real.pi_pos, zpow_one]
  constructor
  · linarith [Real.pi_gt_three]
  · have := Real.pi_lt_four
    norm_num
    linarith

theorem piD_size : SizeIn 1 2 piD := pi_size.double (by norm_num)

/-- How to recognise the double nearest to a number. -/
theorem double_eq_of_near (m e : ℤ) (hm : 2 ^ 52 < m) (hm' : m < 2 ^ 53) (he : -1074 ≤ e) {x : ℝ} (h : |x - m * (2 : ℝ) ^ e| < (2 : ℝ) ^ e / 2) :
    double x = m * (2 : ℝ) ^ e := by
  have hp := two_zpow_pos e
  have h1 : ((2 ^ 52 + 1 : ℤ) : ℝ) ≤ m := by exact_mod_cast hm
  have h2 : (m : ℝ) ≤ ((2 ^ 53 - 1 : ℤ) : ℝ) := by exact_mod_cast (show m ≤ 2 ^ 53 - 1 by omega)
  rw [abs_lt] at h
  push_cast at h1 h2
  have g1 : (2 : ℝ) ^ (52 : ℤ) = 2 ^ 52 := by norm_cast
  have g2 : (2 : ℝ) ^ (53 : ℤ) = 2 ^ 53 := by norm_cast
  have b1 : (2 : ℝ) ^ (52 + e) ≤ x := by
    rw [two_zpow_add, g1]; nlinarith
  have b2 : x < (2 : ℝ) ^ (52 + e + 1) := by
    rw [show 52 + e + 1 = 53 + e by ring, two_zpow_add, g2]; nlinarith
  have hx : 0 < x := (two_zpow_pos _).trans_le b1
  have hlog : Int.log 2 |x| = 52 + e := by
    rw [abs_of_pos hx]
    have l1 := (Int.zpow_le_iff_le_log (b := 2) (by norm_num) hx (x := 52 + e)).mp (by exact_mod_cast b1)
    have l2 := (Int.lt_zpow_iff_log_lt (b := 2) (by norm_num) (x := 52 + e + 1) hx).mp (by exact_mod_cast b2)
    omega
  have hu : ulp x = (2 : ℝ) ^ e := by
    unfold ulp
    rw [hlog, max_eq_left (by omega)]
    congr 1
    ring
  unfold double
  rw [hu, npRound_eq_of_abs_lt (n := m)]
  rw [show x / (2 : ℝ) ^ e - m = (x - m * (2 : ℝ) ^ e) / (2 : ℝ) ^ e by field_simp, abs_div, abs_of_pos hp, div_lt_iff₀ hp, abs_lt]
  constructor <;> linarith [h.1, h.2]

theorem piD_eq : piD = 884279719003555 / 2 ^ 48 := by
  unfold piD
  have h1 := Real.pi_gt_d20
  have h2 := Real.pi_lt_d20
  have e : (2 : ℝ) ^ (-51 : ℤ) = 1 / 2 ^ 51 := by rw [zpow_neg, one_div]; norm_cast
  rw [double_eq_of_near 7074237752028440 (-51) (by norm_num) (by norm_num) (by norm_num), e]
  · norm_num
  · rw [e, abs_lt]
    constructor <;> norm_num at h1 h2 ⊢ <;> linarith

/-- `n` roundings: `x` differs from 1 by little more than `n` units. -/
def Near (n : ℕ) (x : ℝ) : Prop := |x - 1| ≤ n * (9 / 8 * roundoff)

theorem roundoff_eq : roundoff = 1 / 2 ^ 53 := by
  unfold roundoff
  rw [zpow_neg, one_div]
  norm_cast

theorem near_one : Near 0 1 := by unfold Near; simp

theorem Near.step {n : ℕ} {x δ : ℝ} (hx : Near n x) (hδ : |δ| ≤ roundoff) (hn : n ≤ 100) : Near (n + 1) (x * (1 + δ)) := by
  unfold Near at *
  have hn' : (n : ℝ) ≤ 100 := by exact_mod_cast hn
  have h0 : (0 : ℝ) ≤ n := by positivity
  have e : x * (1 + δ) - 1 = (x - 1) * (1 + δ) + δ := by ring
  have hu := roundoff_eq
  have h1 : |1 + δ| ≤ 1 + roundoff := (abs_add_le _ _).trans (by rw [abs_one]; linarith)
  rw [e]
  refine (abs_add_le _ _).trans ?_
  rw [abs_mul]
  have h2 := mul_le_mul hx h1 (abs_nonneg _) (by rw [hu]; positivity)
  push_cast
  rw [hu] at h2 hδ ⊢
  have : (n : ℝ) * (9 / 8 * (1 / 2 ^ 53)) * (1 + 1 / 2 ^ 53) ≤ n * (9 / 8 * (1 / 2 ^ 53)) + 1 / 8 * (1 / 2 ^ 53) := by
    norm_num; linarith
  linarith

theorem Near.le {n : ℕ} {x : ℝ} (hx : Near n x) (hn : n ≤ 7) : |x - 1| ≤ 1 / 2 ^ 50 := by
  unfold Near at hx
  rw [roundoff_eq] at hx
  have hn' : (n : ℝ) ≤ 7 := by exact_mod_cast hn
  refine hx.trans ?_
  norm_num
  linarith

end Coralign
