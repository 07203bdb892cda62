import Mathlib.Algebra.Order.Floor.Ring
import Mathlib.Tactic.Linarith
import Mathlib.Tactic.Ring
import Mathlib.Tactic.NormNum

/-!
# numpy rounding

`np.round` rounds to the nearest integer and halves to the nearest even integer.
-/

namespace Coralign

variable {K : Type*} [Field K] [LinearOrder K] [IsStrictOrderedRing K] [FloorRing K]

/-- `np.round(x)` as an integer: round half to even. -/
def npRound (x : K) : ℤ :=
  if x - ⌊x⌋ < 1 / 2 then ⌊x⌋
  else if 1 / 2 < x - ⌊x⌋ then ⌊x⌋ + 1
  else if ⌊x⌋ % 2 = 0 then ⌊x⌋ else ⌊x⌋ + 1

/-- Rounding never moves a number by more than one half. -/
theorem abs_sub_npRound_le (x : K) : |x - npRound x| ≤ 1 / 2 := by
  have h0 := Int.floor_le x
  have h1 := Int.lt_floor_add_one x
  unfold npRound
  rw [abs_le]
  split_ifs <;> push_cast <;> constructor <;> linarith

/-- Integers are fixed points of rounding. -/
@[simp] theorem npRound_intCast (n : ℤ) : npRound (n : K) = n := by
  unfold npRound
  simp

/-- If a number is strictly closer than one half to an integer, that integer is the result. -/
theorem npRound_eq_of_abs_lt {x : K} {n : ℤ} (h : |x - n| < 1 / 2) : npRound x = n := by
  have h2 := abs_sub_npRound_le x
  have h3 : |((npRound x - n : ℤ) : K)| < 1 := by
    have : ((npRound x - n : ℤ) : K) = (x - n) - (x - npRound x) := by push_cast; ring
    rw [this]
    have := abs_sub (x - n) (x - npRound x)
    linarith
  have h4 : |npRound x - n| < 1 := by exact_mod_cast h3
  have := Int.abs_lt_one_iff.mp h4
  omega

/-- Rounding is monotone up to ties: a smaller number never rounds to a larger integer. -/
theorem npRound_mono {x y : K} (h : x ≤ y) : npRound x ≤ npRound y := by
  by_contra hlt
  push Not at hlt
  have hx := abs_le.mp (abs_sub_npRound_le x)
  have hy := abs_le.mp (abs_sub_npRound_le y)
  have h1 : (npRound y : K) + 1 ≤ npRound x := by exact_mod_cast hlt
  have hxy : x = y := by linarith
  rw [hxy] at hlt
  exact lt_irrefl _ hlt

/-- Rounding is odd. -/
theorem npRound_neg (x : K) : npRound (-x) = - npRound x := by
  have h0 := Int.floor_le x
  have h1 := Int.lt_floor_add_one x
  by_cases hi : x = ⌊x⌋
  · rw [hi, ← Int.cast_neg, npRound_intCast, npRound_intCast]
  · have hlt : (⌊x⌋ : K) < x := lt_of_le_of_ne h0 (Ne.symm hi)
    have hf : ⌊-x⌋ = -⌊x⌋ - 1 := by
      rw [Int.floor_eq_iff]
      push_cast
      constructor <;> linarith
    unfold npRound
    rw [hf]
    push_cast
    split_ifs <;> first | linarith | omega

end Coralign
