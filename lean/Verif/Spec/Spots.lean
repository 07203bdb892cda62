import Verif.Base.Arr2
import Verif.Spec.Shapes

/-!
# Specification vocabulary for satellite spots

Coordinates are measured in pixels from the centre pixel `(ny / 2, nx / 2)` of the image; `x` runs along the columns
and `y` along the rows.
-/

namespace Coralign.Spec

/-- The light in the disc of radius `r` around `(cx, cy)`: every pixel of the image weighted with the fraction of its
`N × N` sub-pixels lying in the disc. -/
noncomputable def spotFlux (img : Arr2 ℝ) (N : ℕ) (r cx cy : ℝ) : ℝ :=
  ∑ i : Fin img.nr, ∑ j : Fin img.nc,
    areaFraction N (inDisc r) (((j : ℕ) : ℝ) - ((img.nc / 2 : ℕ) : ℝ) - cx) (((i : ℕ) : ℝ) - ((img.nr / 2 : ℕ) : ℝ) - cy)
      * img.val i j

open scoped Classical in
/-- A spot with no light (or with a negative sum) counts as having a tiny positive amount, `2 ^ (-52)`. -/
noncomputable def bright (s : ℝ) : ℝ := if 0 < s then s else 1 / 2 ^ 52

open scoped Classical in
/-- The calibration curve: how the ratio of the two spots depends on the stellar offset `x`.  It is
`1 + c1 x + c2 x²` for `x ≥ 0` and mirrored, `1 / (1 + c1 |x| + c2 x²)`, for `x < 0`. -/
noncomputable def ratioAt (c1 c2 x : ℝ) : ℝ :=
  if 0 ≤ x then 1 + c1 * x + c2 * x ^ 2 else 1 / (1 + c1 * |x| + c2 * x ^ 2)

/-- The nearest point of `[-m, m]`. -/
noncomputable def clamp (m x : ℝ) : ℝ := max (-m) (min m x)

/-- Unit vector at `deg` degrees. -/
noncomputable def dirX (deg : ℝ) : ℝ := Real.cos (deg * Real.pi / 180)

noncomputable def dirY (deg : ℝ) : ℝ := Real.sin (deg * Real.pi / 180)

/-- The light in the pairs of discs of radius `r` placed at distance `sep` on either side of `(X, Y)`, one pair for each direction in `rots`
(degrees).  `(X, Y)` is measured from the centre pixel of the image. -/
noncomputable def pairFlux (img : Arr2 ℝ) (N : ℕ) (r : ℝ) (rots : List ℝ) (sep X Y : ℝ) : ℝ :=
  (rots.map fun deg => spotFlux img N r (X + sep * dirX deg) (Y + sep * dirY deg) +
    spotFlux img N r (X - sep * dirX deg) (Y - sep * dirY deg)).sum

end Coralign.Spec
