import Verif.Base.Morph
import Verif.Model.AmpThresh
import Verif.Model.PadCrop
import Mathlib.Data.Real.Basic
import Mathlib.Algebra.Order.Floor.Ring
import Mathlib.Algebra.Order.Archimedean.Real.Basic

/-!
# Model of `coralign/util/fit_shapes.py`
-/

namespace Coralign

/-- One iteration of `scipy.ndimage.binary_dilation(m, structure=generate_binary_structure(2, 2))` with scipy's defaults
(`border_value=0`), `fit_shapes.py` lines 130-132: a pixel becomes True when one of the 3 x 3 pixels around it is. -/
def dilate3 (m : Arr2 Bool) : Arr2 Bool :=
  ⟨m.nr, m.nc, fun i j => decide (∃ a b : Fin 3, m.px ((i : ℕ) + ((a : ℕ) : ℤ) - 1) ((j : ℕ) + ((b : ℕ) : ℤ) - 1) = some true)⟩

/-- Lines 126-134: dilate, then erode, `n` times each by the 3 x 3 square.  `n = 0` leaves the mask alone (lines 127-128).
Simplification: `nIterDilateErode` is a natural number; the source does not check it. -/
def closeStruts (n : ℕ) (m : Arr2 Bool) : Arr2 Bool := (fun a => erode a (squareElem 1))^[n] (dilate3^[n] m)

/-- Lines 139-148, `cv2.fitEllipse(cv2.findContours(mask)[0][0])`: the centre `(x, y)` in pixel coordinates and the two full axes of the
ellipse fitted to the first contour, or the exception (`contours[0]` of no contour, or OpenCV's refusal). -/
abbrev EllipseFinder := Arr2 Bool → Res ((ℝ × ℝ) × (ℝ × ℝ))

/-- The two parameters read from the YAML file, lines 118-120. -/
structure EllipseTuning where
  nIter : ℕ
  padFactor : ℝ

/-- `nMax = int(np.ceil(padFactor*max(pupil_image.shape)))`, line 122. -/
noncomputable def ellipseSize (t : EllipseTuning) (img : Arr2 ℝ) : ℤ := ⌈t.padFactor * ((max img.nr img.nc : ℕ) : ℝ)⌉

/-- `fit_ellipse(pupil_image, fn_pupil_ellipse_fitting)`, `coralign/util/fit_shapes.py` lines 85-158: `(diamEst, xOffsetEst, yOffsetEst)`.
The YAML file is already read.  The default number of bins of `ampthresh` is 21. -/
noncomputable def fitEllipse (E : EllipseFinder) (t : EllipseTuning) (img : Arr2 ℝ) : Res (ℝ × ℝ × ℝ) := do
  let padded ← padCrop img [ellipseSize t img, ellipseSize t img] 0
  let mask ← ampthresh padded 21
  let out := closeStruts t.nIter mask
  let e ← E out
  let a := e.2.1 / 2
  let b := e.2.2 / 2
  .ok (2 * max a b, e.1.1 - ((out.nc / 2 : ℕ) : ℝ), e.1.2 - ((out.nr / 2 : ℕ) : ℝ))

/-- Lines 63-73: Canny edges of the mask (width `sigma`), Hough transform over the radii, and its peaks in order of prominence, as
triples `(cx, cy, radius)`. -/
abbrev CircleFinder := Arr2 Bool → ℝ → List ℤ → List (ℤ × ℤ × ℤ)

/-- `fit_circle(image, min_radius, max_radius, edge_sigma)`, `coralign/util/fit_shapes.py` lines 15-82:
`(xOffsetEst, yOffsetEst, radiusEst)`. -/
noncomputable def fitCircle (H : CircleFinder) (img : Arr2 ℝ) (minR maxR : ℤ) (sigma : ℝ) : Res (ℤ × ℤ × ℤ) :=
  if minR ≤ 0 ∨ maxR ≤ 0 ∨ sigma ≤ 0 then .error .typeError        -- lines 52-54
  else if ¬ minR < maxR then .error .valueError                    -- lines 55-56
  else do
    let mask ← ampthresh img 21                                    -- line 62
    let radii := (List.range (maxR + 1 - minR).toNat).map fun k : ℕ => minR + k   -- line 68
    match H mask sigma radii with
    | [] => .error .indexError                                     -- line 75, `radii[0]`
    | (cx, cy, r) :: _ => .ok (cx - ((mask.nc / 2 : ℕ) : ℤ), cy - ((mask.nr / 2 : ℕ) : ℤ), r)   -- lines 75-82

end Coralign
