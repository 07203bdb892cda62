import Verif.Base.Arr2
import Mathlib.Data.Real.Basic
import Mathlib.Algebra.BigOperators.Fin

/-!
# Specification vocabulary: least-squares parabolas and quadratic surfaces
-/

namespace Coralign.Spec

open Coralign

/-- The sum of the squared distances of the samples `(x, y)` from the parabola `a x² + b x + c`. -/
noncomputable def parabolaMisfit (samples : List (ℝ × ℝ)) (a b c : ℝ) : ℝ :=
  (samples.map fun s : ℝ × ℝ => (a * s.1 ^ 2 + b * s.1 + c - s.2) ^ 2).sum

/-- No parabola is closer to the samples than `a x² + b x + c`. -/
def BestParabola (samples : List (ℝ × ℝ)) (a b c : ℝ) : Prop :=
  ∀ a' b' c', parabolaMisfit samples a b c ≤ parabolaMisfit samples a' b' c'

open scoped Classical in
/-- The sum over the pixels inside the mask of the squared distances from the surface `a x² + b x y + c y² + d x + e y + f`.  Column `j` of
the array belongs to the abscissa `xs[j]`, row `i` to the ordinate `ys[i]`. -/
noncomputable def surfaceMisfit (xs ys : List ℝ) (arr : Arr2 ℝ) (mask : Arr2 Bool) (a b c d e f : ℝ) : ℝ :=
  ∑ i : Fin arr.nr, ∑ j : Fin arr.nc, if mask.px (i : ℕ) (j : ℕ) = some true then
    (a * xs.getD j 0 ^ 2 + b * (xs.getD j 0 * ys.getD i 0) + c * ys.getD i 0 ^ 2 + d * xs.getD j 0 + e * ys.getD i 0 + f - arr.val i j) ^ 2
    else 0

/-- No quadratic surface is closer to the array than `a x² + b x y + c y² + d x + e y + f`. -/
def BestSurface (xs ys : List ℝ) (arr : Arr2 ℝ) (mask : Arr2 Bool) (a b c d e f : ℝ) : Prop :=
  ∀ a' b' c' d' e' f', surfaceMisfit xs ys arr mask a b c d e f ≤ surfaceMisfit xs ys arr mask a' b' c' d' e' f'

end Coralign.Spec
