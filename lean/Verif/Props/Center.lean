import Verif.Model.Center
import Verif.Spec.Center
import Mathlib.Algebra.Order.BigOperators.Ring.Finset
import Mathlib.Algebra.Order.Field.Basic
import Mathlib.Algebra.BigOperators.Field
import Mathlib.Data.Rat.Cast.Order
import Mathlib.Tactic.FieldSimp
import Mathlib.Tactic.Linarith

/-!
# Property C10: `center_of_energy`
-/

namespace Coralign.Props

open Coralign Coralign.Spec

variable {K : Type} [Field K] [DecidableEq K]

theorem nonzero_sum (a : Arr2 K) (w : Fin a.nr → Fin a.nc → K) :
    ∑ p ∈ nonzeroPixels a, w p.1 p.2 * a.val p.1 p.2 = ∑ i, ∑ j, w i j * a.val i j := by
  unfold nonzeroPixels
  rw [Finset.sum_filter_of_ne, ← Finset.univ_product_univ, Finset.sum_product]
  intro p _ h h0
  apply h
  rw [h0, mul_zero]

theorem totalEnergy_eq (a : Arr2 K) : totalEnergy a = energy a := by
  have := nonzero_sum a (fun _ _ => 1)
  simpa [totalEnergy, energy] using this

theorem nonzero_empty (a : Arr2 K) : nonzeroPixels a = ∅ ↔ ∀ i j, a.val i j = 0 := by
  unfold nonzeroPixels
  rw [Finset.filter_eq_empty_iff]
  simp

theorem lit_of_energy {a : Arr2 K} (h : energy a ≠ 0) : nonzeroPixels a ≠ ∅ := by
  intro h0
  refine h ?_
  unfold energy
  simp only [(nonzero_empty a).mp h0, Finset.sum_const_zero]

theorem centerOfEnergy_eq (a : Arr2 K) (h : energy a ≠ 0) :
    centerOfEnergy a = some (colMoment a / energy a, rowMoment a / energy a) := by
  have hr := nonzero_sum a (fun i _ => ((i : ℕ) : K))
  have hc := nonzero_sum a (fun _ j => ((j : ℕ) : K))
  unfold centerOfEnergy
  simp only [totalEnergy_eq]
  rw [if_neg (lit_of_energy h), if_neg h]
  simp only [← mul_div_assoc, ← Finset.sum_div, hr, hc]
  rfl

/-- **C10.** For an image with non-zero total, the outputs are the energy-weighted mean column and row. -/
theorem C10_weighted_mean (a : Arr2 K) (h : energy a ≠ 0) :
    ∃ x y, centerOfEnergy a = some (x, y) ∧ x * energy a = colMoment a ∧ y * energy a = rowMoment a := by
  refine ⟨_, _, centerOfEnergy_eq a h, ?_, ?_⟩ <;> field_simp

/-- **C10.** When positive and negative pixels cancel there is no answer (numpy: division by zero). -/
theorem C10_zero_total (a : Arr2 K) (h : energy a = 0) (h1 : ∃ i j, a.val i j ≠ 0) : centerOfEnergy a = none := by
  unfold centerOfEnergy
  simp only [totalEnergy_eq]
  rw [if_neg, if_pos h]
  rw [nonzero_empty]
  obtain ⟨i, j, hij⟩ := h1
  exact fun h0 => hij (h0 i j)

/-- **C10.** A blank image is not refused and does not give NaN: the answer is the corner pixel, as if the light were there. -/
theorem C10_blank (a : Arr2 K) (h : ∀ i j, a.val i j = 0) : centerOfEnergy a = some (0, 0) := by
  unfold centerOfEnergy
  simp only
  rw [if_pos ((nonzero_empty a).mpr h)]

/-- **C10.** Scaling the image does not move the answer. -/
theorem C10_scale (a : Arr2 K) (c : K) (hc : c ≠ 0) :
    centerOfEnergy (a.map fun v => c * v) = centerOfEnergy a := by
  have e1 : energy (a.map fun v => c * v) = c * energy a := by
    simp only [energy, Arr2.map, Finset.mul_sum]
    rfl
  have e2 : rowMoment (a.map fun v => c * v) = c * rowMoment a := by
    simp only [rowMoment, Arr2.map, Finset.mul_sum]
    exact Finset.sum_congr rfl fun i _ => Finset.sum_congr rfl fun j _ => by ring
  have e3 : colMoment (a.map fun v => c * v) = c * colMoment a := by
    simp only [colMoment, Arr2.map, Finset.mul_sum]
    exact Finset.sum_congr rfl fun i _ => Finset.sum_congr rfl fun j _ => by ring
  by_cases h : energy a = 0
  · by_cases h1 : ∃ i j, a.val i j ≠ 0
    · rw [C10_zero_total a h h1, C10_zero_total _ (by rw [e1, h, mul_zero])]
      obtain ⟨i, j, hij⟩ := h1
      exact ⟨i, j, mul_ne_zero hc hij⟩
    · push Not at h1
      rw [C10_blank a h1, C10_blank]
      intro i j
      exact (congrArg (c * ·) (h1 i j)).trans (mul_zero c)
  · rw [centerOfEnergy_eq a h, centerOfEnergy_eq _ (by rw [e1]; exact mul_ne_zero hc h), e1, e2, e3]
    rw [mul_div_mul_left _ _ hc, mul_div_mul_left _ _ hc]

omit [DecidableEq K] in
theorem moments_translated (a b : Arr2 K) (dy dx : ℤ) (ht : Translated a b dy dx) :
    energy b = energy a ∧ rowMoment b = rowMoment a + dy * energy a ∧
    colMoment b = colMoment a + dx * energy a := by
  let e : ℤ × ℤ ≃ ℤ × ℤ := (Equiv.addRight dy).prodCongr (Equiv.addRight dx)
  have key : ∀ g : ℤ → ℤ → K, ∑ i : Fin b.nr, ∑ j : Fin b.nc, g (i : ℕ) (j : ℕ) * b.val i j =
      ∑ i : Fin a.nr, ∑ j : Fin a.nc, g ((i : ℕ) + dy) ((j : ℕ) + dx) * a.val i j := by
    intro g
    rw [Arr2.sum_eq_finsum b (fun i j v => g i j * v) (by simp),
      Arr2.sum_eq_finsum a (fun i j v => g (i + dy) (j + dx) * v) (by simp)]
    rw [← finsum_comp_equiv e]
    refine finsum_congr fun p => ?_
    show g (p.1 + dy) (p.2 + dx) * b.zext (p.1 + dy) (p.2 + dx) = _
    rw [ht]
  refine ⟨?_, ?_, ?_⟩
  · have := key (fun _ _ => 1)
    simpa [energy] using this
  · have := key (fun i _ => (i : K))
    simp only [rowMoment, energy, Finset.mul_sum]
    rw [← Finset.sum_add_distrib]
    simp only [← Finset.sum_add_distrib]
    push_cast at this
    rw [this]
    exact Finset.sum_congr rfl fun i _ => Finset.sum_congr rfl fun j _ => by ring
  · have := key (fun _ j => (j : K))
    simp only [colMoment, energy, Finset.mul_sum]
    rw [← Finset.sum_add_distrib]
    simp only [← Finset.sum_add_distrib]
    push_cast at this
    rw [this]
    exact Finset.sum_congr rfl fun i _ => Finset.sum_congr rfl fun j _ => by ring

/-- **C10.** Translating the content by whole pixels (possibly into an array of another shape, as long as
nothing is cut off) moves the answer by exactly that translation. -/
theorem C10_translate (a b : Arr2 K) (dy dx : ℤ) (ht : Translated a b dy dx) (x y : K) (hne : energy a ≠ 0)
    (h : centerOfEnergy a = some (x, y)) : centerOfEnergy b = some (x + dx, y + dy) := by
  obtain ⟨h1, h2, h3⟩ := moments_translated a b dy dx ht
  rw [centerOfEnergy_eq a hne] at h
  rw [centerOfEnergy_eq b (by rw [h1]; exact hne), h1, h2, h3]
  simp only [Option.some.injEq, Prod.mk.injEq] at h ⊢
  rw [← h.1, ← h.2]
  constructor <;> field_simp

/-- **C10.** For a non-negative image with some light the answer lies inside the array. -/
theorem C10_inside {K : Type} [Field K] [LinearOrder K] [IsStrictOrderedRing K] (a : Arr2 K)
    (h0 : ∀ i j, 0 ≤ a.val i j) (h1 : ∃ i j, a.val i j ≠ 0) :
    ∃ x y, centerOfEnergy a = some (x, y) ∧ 0 ≤ x ∧ x ≤ a.nc - 1 ∧ 0 ≤ y ∧ y ≤ a.nr - 1 := by
  have hpos : 0 < energy a := by
    obtain ⟨i, j, hij⟩ := h1
    refine Finset.sum_pos' (fun i _ => Finset.sum_nonneg fun j _ => h0 i j) ⟨i, Finset.mem_univ _, ?_⟩
    exact Finset.sum_pos' (fun j _ => h0 i j) ⟨j, Finset.mem_univ _, lt_of_le_of_ne (h0 i j) (Ne.symm hij)⟩
  refine ⟨_, _, centerOfEnergy_eq a hpos.ne', ?_, ?_, ?_, ?_⟩
  · exact div_nonneg (Finset.sum_nonneg fun i _ => Finset.sum_nonneg fun j _ =>
      mul_nonneg (Nat.cast_nonneg _) (h0 i j)) hpos.le
  · rw [div_le_iff₀ hpos]
    simp only [colMoment, energy, Finset.mul_sum]
    refine Finset.sum_le_sum fun i _ => Finset.sum_le_sum fun j _ => ?_
    refine mul_le_mul_of_nonneg_right ?_ (h0 i j)
    have : ((j : ℕ) : K) + 1 ≤ a.nc := by exact_mod_cast j.isLt
    linarith
  · exact div_nonneg (Finset.sum_nonneg fun i _ => Finset.sum_nonneg fun j _ =>
      mul_nonneg (Nat.cast_nonneg _) (h0 i j)) hpos.le
  · rw [div_le_iff₀ hpos]
    simp only [rowMoment, energy, Finset.mul_sum]
    refine Finset.sum_le_sum fun i _ => Finset.sum_le_sum fun j _ => ?_
    refine mul_le_mul_of_nonneg_right ?_ (h0 i j)
    have : ((i : ℕ) : K) + 1 ≤ a.nr := by exact_mod_cast i.isLt
    linarith

/-- A 2 x 3 image with one bright pixel at row 1, column 2, and one half as bright at the origin. -/
def sampleImage : Arr2 ℚ := Arr2.ofFn 2 3 fun i j => if i = 1 ∧ j = 2 then 2 else if i = 0 ∧ j = 0 then 1 else 0

example : centerOfEnergy sampleImage = some (4 / 3, 2 / 3) := by decide +kernel
example : energy sampleImage ≠ 0 := by decide +kernel
/-- The sample image, moved down by one row into a taller array. -/
example : Translated sampleImage (Arr2.ofFn 3 3 fun i j => if i = 2 ∧ j = 2 then 2 else
    if i = 1 ∧ j = 0 then 1 else 0) 1 0 := by
  intro i j
  simp only [Arr2.zext, sampleImage, Arr2.px_ofFn]
  by_cases h : (0 ≤ i ∧ i < (2 : ℕ)) ∧ (0 ≤ j ∧ j < (3 : ℕ))
  · obtain ⟨⟨h1, h2⟩, h3, h4⟩ := h
    have hi : i = 0 ∨ i = 1 := by omega
    have hj : j = 0 ∨ j = 1 ∨ j = 2 := by omega
    rcases hi with rfl | rfl <;> rcases hj with rfl | rfl | rfl <;> rfl
  · rw [if_neg h]
    by_cases h' : (0 ≤ i + 1 ∧ i + 1 < (3 : ℕ)) ∧ (0 ≤ j + 0 ∧ j + 0 < (3 : ℕ))
    · rw [if_pos h']
      have : i = -1 := by omega
      subst this
      rfl
    · rw [if_neg h']

end Coralign.Props
