import Mathlib.Analysis.SpecialFunctions.Trigonometric.Basic

/-!
# Specification vocabulary for the geometric shapes

A pixel is the unit square around its centre; it is divided into `N × N` equal sub-pixels.
-/

namespace Coralign.Spec

open scoped Classical in
/-- The fraction of the `N × N` sub-pixel centres of the unit pixel centred on `(x, y)` that satisfy `P`. -/
noncomputable def areaFraction (N : ℕ) (P : ℝ → ℝ → Prop) (x y : ℝ) : ℝ :=
  ((Finset.univ.filter fun s : Fin N × Fin N =>
    P (x + (((s.2 : ℕ) + 1 / 2 : ℝ) / N - 1 / 2)) (y + (((s.1 : ℕ) + 1 / 2 : ℝ) / N - 1 / 2))).card : ℝ) / (N : ℝ) ^ 2

/-- The closed disc of radius `r` around the origin. -/
def inDisc (r x y : ℝ) : Prop := x ^ 2 + y ^ 2 ≤ r ^ 2

/-- Coordinates along axes turned counter-clockwise by `deg` degrees. -/
noncomputable def turnedX (deg x y : ℝ) : ℝ := x * Real.cos (deg * Real.pi / 180) + y * Real.sin (deg * Real.pi / 180)

noncomputable def turnedY (deg x y : ℝ) : ℝ := y * Real.cos (deg * Real.pi / 180) - x * Real.sin (deg * Real.pi / 180)

/-- The rectangle of width `w` and height `h` around the origin, turned counter-clockwise by `deg` degrees. -/
def inRect (w h deg x y : ℝ) : Prop := |turnedX deg x y| ≤ w / 2 ∧ |turnedY deg x y| ≤ h / 2

/-- The ellipse of semi-axes `rx` and `ry` around the origin, turned counter-clockwise by `deg` degrees. -/
def inEllipse (rx ry deg x y : ℝ) : Prop := (turnedX deg x y / rx) ^ 2 + (turnedY deg x y / ry) ^ 2 ≤ 1

/-- The distance of a point from the centre of that ellipse, measured so that it is one on the boundary. -/
noncomputable def ellipticRadius (rx ry deg x y : ℝ) : ℝ := Real.sqrt ((turnedX deg x y / rx) ^ 2 + (turnedY deg x y / ry) ^ 2)

/-- The larger of the changes of the elliptic radius from the first pixel of an array of `nx` columns and `ny` rows to the next one in its row and
to the next one in its column, for an ellipse displaced by `(xo, yo)` from the centre of the array. -/
noncomputable def cornerStep (nx ny : ℕ) (rx ry deg xo yo : ℝ) : ℝ :=
  let x := -((nx / 2 : ℕ) : ℝ) - xo
  let y := -((ny / 2 : ℕ) : ℝ) - yo
  max |ellipticRadius rx ry deg (x + 1) y - ellipticRadius rx ry deg x y| |ellipticRadius rx ry deg x (y + 1) - ellipticRadius rx ry deg x y|

/-- The annular segment between radii `rIn` and `rOut`, opening `opening` degrees wide around direction `dir` degrees:
points `ρ (cos φ, sin φ)` with `rIn ≤ ρ ≤ rOut` and `φ` within `opening/2` of `dir`. -/
def inSegment (rIn rOut opening dir x y : ℝ) : Prop :=
  ∃ ρ φ : ℝ, rIn ≤ ρ ∧ ρ ≤ rOut ∧ |φ| ≤ opening / 2 ∧
    x = ρ * Real.cos ((dir + φ) * Real.pi / 180) ∧ y = ρ * Real.sin ((dir + φ) * Real.pi / 180)

/-- One segment, or two opposite ones. -/
def inSegments (nSeg : ℤ) (rIn rOut opening dir x y : ℝ) : Prop :=
  inSegment rIn rOut opening dir x y ∨ (nSeg = 2 ∧ inSegment rIn rOut opening dir (-x) (-y))

end Coralign.Spec
