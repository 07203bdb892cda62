import Mathlib.MeasureTheory.Measure.Lebesgue.Basic

/-!
# Specification vocabulary for the scan-converted rectangle

A pixel is the unit square around its centre; it is cut into `N` horizontal strips of equal height.
-/

namespace Coralign.Spec

/-- The length of the part of the horizontal line at height `y` that is in `P` and in the pixel column centred on `x`. -/
noncomputable def lineCover (P : ℝ → ℝ → Prop) (x y : ℝ) : ℝ :=
  (MeasureTheory.volume {t : ℝ | |t - x| ≤ 1 / 2 ∧ P t y}).toReal

/-- The mean, over the centre lines of the `N` strips of the pixel centred on `(x, y)`, of the length of the line that is in `P`. -/
noncomputable def stripMean (N : ℕ) (P : ℝ → ℝ → Prop) (x y : ℝ) : ℝ :=
  (∑ s : Fin N, lineCover P x (y + (((s : ℕ) + 1 / 2 : ℝ) / N - 1 / 2))) / N

end Coralign.Spec
