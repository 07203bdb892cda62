import Verif.Model.FocalFit

/-!
# Model of the MATLAB port in `matlab/`

A MATLAB error is `none`.  The class `Check` used by the port is not part of the repository; its tests are taken to be the
range tests of their names (raising an error when violated), for real and integral arguments.  Arrays are indexed from zero
here, from one in MATLAB.
-/

namespace Coralign.Matlab

open Coralign

/-- `bound_value`, `matlab/bound_value.m` lines 15-24. -/
noncomputable def boundValue (inVal maxVal : ℝ) : Option ℝ :=
  if maxVal < 0 then none
  else if inVal > maxVal then some maxVal
  else if inVal < -maxVal then some (-maxVal)
  else some inVal

/-- `calc_offset_linear`, `matlab/calc_offset_linear.m` lines 21-32.  The variable `sign` is `-1` or `1`. -/
noncomputable def calcOffsetLinear (fitCoefPow1 roiSumRatio : ℝ) : Option ℝ :=
  if roiSumRatio ≤ 0 then none
  else if roiSumRatio < 1 then some (-1 * (1 / roiSumRatio - 1) / fitCoefPow1)
  else some (1 * (roiSumRatio - 1) / fitCoefPow1)

/-- `calc_offset_quadratic`, `matlab/calc_offset_quadratic.m` lines 27-39.  As in the Python model the square root of a
negative number (complex in MATLAB) is excluded by the theorems. -/
noncomputable def calcOffsetQuadratic (fitCoefPow1 fitCoefPow2 roiSumRatio : ℝ) : Option ℝ :=
  if roiSumRatio ≤ 0 then none
  else
    let ratio := if roiSumRatio < 1 then 1 / roiSumRatio else roiSumRatio
    let sign : ℝ := if roiSumRatio < 1 then -1 else 1
    some (sign * ((-fitCoefPow1 + Real.sqrt (fitCoefPow1 * fitCoefPow1 - 4 * fitCoefPow2 * (1 - ratio))) /
      (2 * fitCoefPow2)))

/-- Coordinate vector of `matlab/circle.m` lines 36-46 (element `k + 1`). -/
noncomputable def axis (n : ℕ) (shear : ℝ) (k : ℕ) : ℝ :=
  if n % 2 = 0 then linspace (-(n : ℝ) / 2) ((n : ℝ) / 2 - 1) n k - shear
  else linspace (-((n : ℝ) - 1) / 2) (((n : ℝ) - 1) / 2) n k - shear

/-- One pass of the loop of lines 66-79: element `g` of the mask becomes `v g`, the others stay. -/
def setAt {n m : ℕ} (v : Fin n × Fin m → ℝ) (mask : Fin n → Fin m → ℝ) (g : Fin n × Fin m) : Fin n → Fin m → ℝ :=
  fun i j => if (i, j) = g then v g else mask i j

open scoped Classical in
/-- `circle(nx, ny, roiRadiusPix, xShear, yShear, nSubpixels)`, `matlab/circle.m` lines 29-81.  `find` runs down the columns
(column-major order). -/
noncomputable def circle (nx ny : ℤ) (roiRadiusPix xShear yShear : ℝ) (nSubpixels : ℤ) : Option (Arr2 ℝ) :=
  if nx ≤ 0 ∨ ny ≤ 0 ∨ roiRadiusPix ≤ 0 ∨ nSubpixels ≤ 0 then none
  else if nx < 2 then none   -- `x(2)` exceeds the array bounds
  else
    let X := fun (_ : Fin ny.toNat) (j : Fin nx.toNat) => axis nx.toNat xShear j
    let Y := fun (i : Fin ny.toNat) (_ : Fin nx.toNat) => axis ny.toNat yShear i
    let dx := axis nx.toNat xShear 1 - axis nx.toNat xShear 0
    let RHO := fun i j => Real.sqrt (X i j * X i j + Y i j * Y i j)
    let halfWindowWidth := Real.sqrt 2 * dx
    let mask0 : Fin ny.toNat → Fin nx.toNat → ℝ := fun _ _ => -1
    let mask1 := fun i j => if |RHO i j| < roiRadiusPix - halfWindowWidth then 1 else mask0 i j
    let mask2 := fun i j => if |RHO i j| > roiRadiusPix + halfWindowWidth then 0 else mask1 i j
    let grayInds := (List.finRange nx.toNat).flatMap fun j =>
      ((List.finRange ny.toNat).map fun i => (i, j)).filter fun g => mask2 g.1 g.2 = -1
    let n := nSubpixels.toNat
    let dxHighRes := 1 / (n : ℝ)
    let xUp := fun s : ℕ => linspace (-((n : ℝ) - 1) / 2) (((n : ℝ) - 1) / 2) n s * dxHighRes
    let pixelValue := fun g : Fin ny.toNat × Fin nx.toNat =>
      (∑ a : Fin n, ∑ b : Fin n,
        if Real.sqrt ((xUp b + X g.1 g.2) ^ 2 + (xUp a + Y g.1 g.2) ^ 2) ≤ roiRadiusPix then (1 : ℝ) else 0) / ((n : ℝ) * n)
    some ⟨ny.toNat, nx.toNat, grayInds.foldl (setAt pixelValue) mask2⟩

/-- `sum(sum(mask .* image))`. -/
noncomputable def roiSum (mask img : Arr2 ℝ) : ℝ :=
  ∑ j : Fin mask.nc, ∑ i : Fin mask.nr, mask.val i j * (img.px (i : ℕ) (j : ℕ)).getD 0

/-- `calc_offset_from_spots(imageSpotted, xProbeRotDeg, xOffsetStar, yOffsetStar, fnTuning)`,
`matlab/calc_offset_from_spots.m` lines 74-157.  There is no target file: `xRatioTarget` is fixed at `1.0` (line 79). -/
noncomputable def calcOffsetFromSpots (img : Arr2 ℝ) (rotDeg xo yo : ℝ) (t : SpotTuning) : Option ℝ :=
  if t.spotSepPix ≤ 0 ∨ t.roiRadiusPix ≤ 0 ∨ t.nSubpixels ≤ 0 ∨ t.maxStep ≤ 0 ∨ t.fitCoefPow1 ≤ 0 ∨
      t.fitCoefPow2 ≤ 0 ∨ t.powerOfFit ≤ 0 then none
  else if ¬ (t.powerOfFit = 1 ∨ t.powerOfFit = 2) then none
  else if ¬ (t.maskIsInsideSpots = 0 ∨ t.maskIsInsideSpots = 1) then none
  else do
    let rot := Real.pi / 180 * rotDeg
    let plus := (Real.sin rot * t.spotSepPix + yo, Real.cos rot * t.spotSepPix + xo)
    let minus := (Real.sin (rot + Real.pi) * t.spotSepPix + yo, Real.cos (rot + Real.pi) * t.spotSepPix + xo)
    let plusMask ← circle img.nc img.nr t.roiRadiusPix plus.2 plus.1 t.nSubpixels
    let minusMask ← circle img.nc img.nr t.roiRadiusPix minus.2 minus.1 t.nSubpixels
    let ps := roiSum plusMask img
    let ms := roiSum minusMask img
    let ms := if ms ≤ 0 then macheps else ms
    let ps := if ps ≤ 0 then macheps else ps
    let ratio := ps / ms
    let solve := fun r => if t.powerOfFit = 1 then calcOffsetLinear t.fitCoefPow1 r
      else calcOffsetQuadratic t.fitCoefPow1 t.fitCoefPow2 r
    let x ← solve ratio
    let xt ← solve 1
    let y ← boundValue (x - xt) t.maxStep
    some (if t.maskIsInsideSpots = 0 then -1 * y else y)

end Coralign.Matlab
