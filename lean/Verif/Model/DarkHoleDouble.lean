import Verif.Model.DarkHole
import Verif.Model.ShapesDouble

/-!
# Rectangles and annuli of `coralign/buildmodel/darkhole.py` in double precision

`gen_coords` computes its coordinates and radii as `shapes.circle` does, so `shapeAxisD` and `rhoD` are used for both.  Every operation on floats is
rounded to the nearest double.  Overflow, infinities and `nan` are not modelled, nor are the sectors, whose angles come from the `arctan2` of the C
library, which is not correctly rounded.
-/

namespace Coralign

open scoped Classical in
/-- A boolean array computed pixel by pixel from the coordinates of `gen_coords`, lines 42-52. -/
noncomputable def dhArrayD (nRows nCols : ℤ) (xo yo : ℝ) (P : ℝ → ℝ → Prop) : Arr2 Bool :=
  ⟨nRows.toNat, nCols.toNat, fun i j => decide (P (shapeAxisD nCols.toNat xo j) (shapeAxisD nRows.toNat yo i))⟩

open scoped Classical in
/-- `gen_rectangle`, lines 83-96, in double precision.  `np.abs` is exact. -/
noncomputable def genRectangleD (nRows nCols : ℤ) (xo yo width height : ℝ) : Res (Arr2 Bool) :=
  if ¬ dhShapeOk nRows nCols then .error .typeError
  else if width ≤ 0 ∨ height ≤ 0 then .error .typeError
  else .ok (dhArrayD nRows nCols xo yo fun x y => |x| ≤ double (width / 2) ∧ |y| ≤ double (height / 2))

open scoped Classical in
/-- `gen_annulus`, lines 122-137, in double precision; the radius of line 54 is `rhoD`. -/
noncomputable def genAnnulusD (nRows nCols : ℤ) (xo yo radiusInner radiusOuter : ℝ) : Res (Arr2 Bool) :=
  if ¬ dhShapeOk nRows nCols then .error .typeError
  else if radiusInner < 0 ∨ radiusOuter < 0 then .error .typeError
  else if radiusInner > radiusOuter then .error .valueError
  else .ok (dhArrayD nRows nCols xo yo fun x y => rhoD x y ≥ radiusInner ∧ rhoD x y ≤ radiusOuter)

end Coralign
