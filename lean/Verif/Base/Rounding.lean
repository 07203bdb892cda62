import Mathlib.Data.Real.Basic
import Mathlib.Algebra.Order.Archimedean.Real.Basic
import Mathlib.Algebra.Order.Floor.Ring
import Mathlib.Algebra.Order.Round
import Mathlib.Tactic.Linarith
import Mathlib.Tactic.Positivity
import Mathlib.Tactic.NormNum
import Mathlib.Tactic.FieldSimp
import Mathlib.Tactic.Ring

/-!
# Rounding to double precision

Used only where an integer is computed in floating point, so that a rounding error could change the answer altogether.
-/

namespace Coralign

/-- What the model uses of IEEE 754 rounding to the nearest double: it is monotone, it leaves half-integers up to `2^51` alone, and from
1 upwards its relative error is at most `2^-53` (nothing is assumed below 1, and overflow is not considered). -/
structure Rounding where
  fl : ℝ → ℝ
  mono : Monotone fl
  exact : ∀ k : ℤ, |k| ≤ 2 ^ 52 → fl ((k : ℝ) / 2) = (k : ℝ) / 2
  close : ∀ x : ℝ, 1 ≤ x → |fl x - x| ≤ x / 2 ^ 53

theorem Rounding.int (R : Rounding) (k : ℤ) (h : |k| ≤ 2 ^ 51) : R.fl (k : ℝ) = k := by
  have := R.exact (2 * k) (by rw [abs_mul]; norm_num; linarith)
  rw [show ((2 * k : ℤ) : ℝ) / 2 = k by push_cast; ring] at this
  exact this

/-- The contract can be met by a rounding that is not exact: the largest multiple of `2^-53` not above the number. -/
noncomputable def Rounding.fixed : Rounding where
  fl x := ⌊x * 2 ^ 53⌋ / 2 ^ 53
  mono x y h := by
    have : ⌊x * 2 ^ 53⌋ ≤ ⌊y * 2 ^ 53⌋ := Int.floor_le_floor (by nlinarith)
    have : ((⌊x * 2 ^ 53⌋ : ℤ) : ℝ) ≤ ⌊y * 2 ^ 53⌋ := by exact_mod_cast this
    exact div_le_div_of_nonneg_right this (by positivity)
  exact k _ := by
    have : (k : ℝ) / 2 * 2 ^ 53 = ((k * 2 ^ 52 : ℤ) : ℝ) := by push_cast; ring
    rw [this, Int.floor_intCast]
    push_cast
    ring
  close x h := by
    have h1 := Int.floor_le (x * 2 ^ 53)
    have h2 := Int.lt_floor_add_one (x * 2 ^ 53)
    have e : (⌊x * 2 ^ 53⌋ : ℝ) / 2 ^ 53 - x = (⌊x * 2 ^ 53⌋ - x * 2 ^ 53) / 2 ^ 53 := by field_simp
    rw [e, abs_div, abs_of_nonpos (by linarith), abs_of_pos (by positivity)]
    exact div_le_div_of_nonneg_right (by linarith) (by positivity)

end Coralign
