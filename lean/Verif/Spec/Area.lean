import Mathlib.MeasureTheory.Measure.Lebesgue.Basic

/-!
# Specification vocabulary: the area of a figure in a pixel
-/

namespace Coralign.Spec

/-- The area of the part of the figure `P` in the unit pixel centred on `(x, y)`. -/
noncomputable def pixelArea (P : ℝ → ℝ → Prop) (x y : ℝ) : ℝ :=
  (MeasureTheory.volume {p : ℝ × ℝ | |p.1 - x| ≤ 1 / 2 ∧ |p.2 - y| ≤ 1 / 2 ∧ P p.1 p.2}).toReal

end Coralign.Spec
