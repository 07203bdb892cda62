import Mathlib.MeasureTheory.Integral.Bochner.Set
import Mathlib.MeasureTheory.Measure.Lebesgue.Basic
import Mathlib.Analysis.SpecialFunctions.Trigonometric.Basic

/-!
# The mean over a circular pupil
-/

namespace Coralign.Spec

open MeasureTheory

/-- The mean of `f` over the disc of radius `prad` about the origin: the integral over the disc divided by its area. -/
noncomputable def pupilMean (prad : ℝ) (f : ℝ → ℝ → ℝ) : ℝ :=
  (∫ p in {p : ℝ × ℝ | p.1 ^ 2 + p.2 ^ 2 ≤ prad ^ 2}, f p.1 p.2) / (Real.pi * prad ^ 2)

end Coralign.Spec
