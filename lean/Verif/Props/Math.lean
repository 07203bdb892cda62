import Verif.Model.Math
import Mathlib.Data.Rat.Floor
import Mathlib.Analysis.InnerProductSpace.PiL2
import Mathlib.Order.Bounds.Basic

/-!
# Properties C08 and C09: `ceil_odd`, `ceil_even`, `rms`, `cart2pol`
-/

namespace Coralign.Props

open Coralign

section ceil
variable {K : Type} [Field K] [LinearOrder K] [IsStrictOrderedRing K] [FloorRing K]

/-- **C08.** `ceil_odd x` is the least odd integer not below `x`. -/
theorem C08_ceil_odd (x : K) : IsLeast {n : ℤ | n % 2 = 1 ∧ x ≤ n} (ceilOdd x) := by
  unfold ceilOdd
  constructor
  · have := Int.le_ceil x
    dsimp only
    split
    · refine ⟨by omega, ?_⟩
      push_cast; linarith
    · exact ⟨by omega, this⟩
  · rintro n ⟨hodd, hle⟩
    have := Int.ceil_le.mpr hle
    dsimp only
    split <;> omega

/-- **C08.** `ceil_even x` is the least even integer not below `x`. -/
theorem C08_ceil_even (x : K) : IsLeast {n : ℤ | n % 2 = 0 ∧ x ≤ n} (ceilEven x) := by
  unfold ceilEven
  constructor
  · have := Int.le_ceil ((1 / 2 : K) * x)
    refine ⟨by omega, ?_⟩
    push_cast; linarith
  · rintro n ⟨heven, hle⟩
    obtain ⟨m, rfl⟩ : ∃ m, n = 2 * m := ⟨n / 2, by omega⟩
    have h : ⌈(1 / 2 : K) * x⌉ ≤ m := by
      rw [Int.ceil_le]
      push_cast at hle
      linarith
    omega

example : ceilOdd (2 : ℚ) = 3 ∧ ceilOdd (3 : ℚ) = 3 ∧ ceilOdd (-7/2 : ℚ) = -3 ∧ ceilEven (2 : ℚ) = 2 ∧
    ceilEven (21/10 : ℚ) = 4 := by decide +kernel

end ceil

section rms
variable {ι : Type} [Fintype ι]

/-- **C09.** `rms(a)^2` times the number of elements is the sum of squares. -/
theorem C09_rms_sq [Nonempty ι] (a : ι → ℝ) : rms a ^ 2 * Fintype.card ι = ∑ i, a i ^ 2 := by
  have hs : 0 ≤ ∑ i, a i ^ 2 := Finset.sum_nonneg fun _ _ => sq_nonneg _
  have hc : (0 : ℝ) < Fintype.card ι := by exact_mod_cast Fintype.card_pos
  unfold rms
  rw [Real.sq_sqrt (by positivity)]
  field_simp

/-- **C09.** `rms` is never negative. -/
theorem C09_rms_nonneg (a : ι → ℝ) : 0 ≤ rms a := Real.sqrt_nonneg _

/-- **C09.** `rms` is absolutely homogeneous. -/
theorem C09_rms_smul (c : ℝ) (a : ι → ℝ) : rms (fun i => c * a i) = |c| * rms a := by
  unfold rms
  have e : (∑ i, (c * a i) ^ 2) / (Fintype.card ι : ℝ) = c ^ 2 * ((∑ i, a i ^ 2) / Fintype.card ι) := by
    rw [← mul_div_assoc, Finset.mul_sum]
    congr 1
    exact Finset.sum_congr rfl fun i _ => by ring
  rw [e, Real.sqrt_mul (sq_nonneg c), Real.sqrt_sq_eq_abs]

theorem rms_eq_norm (a : ι → ℝ) :
    rms a = ‖(WithLp.toLp 2 a : EuclideanSpace ℝ ι)‖ / Real.sqrt (Fintype.card ι) := by
  unfold rms
  rw [EuclideanSpace.norm_eq, Real.sqrt_div (Finset.sum_nonneg fun _ _ => sq_nonneg _)]
  simp

/-- **C09.** `rms` satisfies the triangle inequality. -/
theorem C09_rms_add_le (a b : ι → ℝ) : rms (fun i => a i + b i) ≤ rms a + rms b := by
  rw [rms_eq_norm, rms_eq_norm, rms_eq_norm, ← add_div]
  have e : (WithLp.toLp 2 (fun i => a i + b i) : EuclideanSpace ℝ ι) = WithLp.toLp 2 a + WithLp.toLp 2 b := by
    ext i; simp
  rw [e]
  exact div_le_div_of_nonneg_right (norm_add_le _ _) (Real.sqrt_nonneg _)

/-- **C09.** `rms` is zero only for the zero array. -/
theorem C09_rms_eq_zero [Nonempty ι] (a : ι → ℝ) : rms a = 0 ↔ ∀ i, a i = 0 := by
  constructor
  · intro h i
    have h2 := C09_rms_sq a
    rw [h] at h2
    have h3 : ∑ i, a i ^ 2 = 0 := by rw [← h2]; ring
    have h4 := (Finset.sum_eq_zero_iff_of_nonneg (fun i _ => sq_nonneg (a i))).mp h3 i (Finset.mem_univ i)
    exact pow_eq_zero_iff two_ne_zero |>.mp h4
  · intro h
    unfold rms
    simp [h]

example : rms (fun i : Fin 2 => if i = 0 then (1 : ℝ) else 7) = 5 := by
  unfold rms
  have : (∑ i : Fin 2, (if i = 0 then (1 : ℝ) else 7) ^ 2) / (Fintype.card (Fin 2)) = 5 ^ 2 := by
    simp; norm_num
  rw [this]
  exact Real.sqrt_sq (by norm_num)

end rms

/-- **C09.** `cart2pol` returns a non-negative radius and an angle in `(-pi, pi]` that reproduce the point. -/
theorem C09_cart2pol (x y : ℝ) :
    0 ≤ (cart2pol x y).1 ∧ -Real.pi < (cart2pol x y).2 ∧ (cart2pol x y).2 ≤ Real.pi ∧
    (cart2pol x y).1 * Real.cos (cart2pol x y).2 = x ∧ (cart2pol x y).1 * Real.sin (cart2pol x y).2 = y := by
  have hn : Real.sqrt (x ^ 2 + y ^ 2) = ‖(⟨x, y⟩ : ℂ)‖ := by
    rw [Complex.norm_eq_sqrt_sq_add_sq]
  unfold cart2pol arctan2
  dsimp only
  rw [hn]
  exact ⟨norm_nonneg _, Complex.neg_pi_lt_arg _, Complex.arg_le_pi _, Complex.norm_mul_cos_arg _,
    Complex.norm_mul_sin_arg _⟩

/-- **C09.** On arrays `cart2pol` is elementwise, and arrays of different shape are rejected. -/
theorem C09_cart2pol_array (x y : List ℝ) :
    (x.length = y.length → ∃ o, cart2polArray x y = .ok o ∧ o.length = x.length ∧
      ∀ (k : ℕ) (hx : k < x.length) (hy : k < y.length) (ho : k < o.length), o[k] = cart2pol x[k] y[k]) ∧
    (x.length ≠ y.length → cart2polArray x y = .error .valueError) := by
  constructor
  · intro h
    refine ⟨List.zipWith cart2pol x y, by unfold cart2polArray; rw [if_neg (by simp [h])], by simp [h], ?_⟩
    intro k hx hy ho
    simp
  · intro h
    unfold cart2polArray
    rw [if_pos h]

example : ∃ o, cart2polArray [1, 0] [0, 2] = .ok o ∧ o.length = 2 := by
  obtain ⟨o, h1, h2, _⟩ := (C09_cart2pol_array [1, 0] [0, 2]).1 rfl
  exact ⟨o, h1, h2⟩

end Coralign.Props
