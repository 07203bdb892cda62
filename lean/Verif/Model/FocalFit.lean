import Verif.Model.Shapes
import Verif.Model.FfUtil
import Verif.Model.FindOpt

/-!
# Model of `coralign/focalfit/focalfit.py`

The tuning and target files are represented by the values read from them; a missing key or an unreadable file raises
before any computation (see `Model/LoadYaml` for `loadyaml`).  Scalars are real or integral, so the type checks of
`check.py` are reduced to their range tests.  The `debug_plot` calls are not modelled.
-/

namespace Coralign

/-- `np.sum(mask * image)`; the shapes agree where it is used. -/
noncomputable def roiSum (mask img : Arr2 ℝ) : ℝ :=
  let p := mask.mulPx img
  ∑ i : Fin p.nr, ∑ j : Fin p.nc, p.val i j

/-- `if sum <= 0: sum = np.finfo(float).eps`, lines 164-172 and 340-344. -/
noncomputable def liftSum (s : ℝ) : ℝ := if s ≤ 0 then macheps else s

/-- The contents of the tuning file of `calc_offset_from_spots`, lines 293-301. -/
structure SpotTuning where
  spotSepPix : ℝ
  roiRadiusPix : ℝ
  nSubpixels : ℤ
  maxStep : ℝ
  fitCoefPow1 : ℝ
  fitCoefPow2 : ℝ
  powerOfFit : ℤ
  maskIsInsideSpots : ℤ

/-- The solver chosen by `powerOfFit`, lines 347-357. -/
noncomputable def SpotTuning.offset (t : SpotTuning) (ratio : ℝ) : Res ℝ :=
  if t.powerOfFit = 1 then calcOffsetLinear t.fitCoefPow1 ratio
  else calcOffsetQuadratic t.fitCoefPow1 t.fitCoefPow2 ratio

/-- `if not maskIsInsideSpots: xOffsetStarFromMask *= -1`, lines 363-365. -/
noncomputable def SpotTuning.orient (t : SpotTuning) (y : ℝ) : ℝ := if t.maskIsInsideSpots = 0 then y * (-1) else y

/-- `calc_offset_from_spots(imageSpotted, xProbeRotDeg, xOffsetStarFromCenterPixel, yOffsetStarFromCenterPixel, fnTuning,
fnTarget)`, `coralign/focalfit/focalfit.py` lines 281-367. -/
noncomputable def calcOffsetFromSpots (img : Arr2 ℝ) (rotDeg xo yo : ℝ) (t : SpotTuning) (target : ℝ) : Res ℝ :=
  -- lines 289-291, 303-309
  if target ≤ 0 ∨ t.spotSepPix ≤ 0 ∨ t.roiRadiusPix ≤ 0 ∨ t.nSubpixels ≤ 0 ∨ t.maxStep ≤ 0 ∨ t.fitCoefPow1 ≤ 0 ∨
      t.fitCoefPow2 ≤ 0 ∨ t.powerOfFit ≤ 0 then .error .typeError
  -- lines 310-314
  else if ¬ (t.powerOfFit = 1 ∨ t.powerOfFit = 2) then .error .valueError
  else if ¬ (t.maskIsInsideSpots = 0 ∨ t.maskIsInsideSpots = 1) then .error .valueError
  else do
    -- lines 320-328
    let rot := Real.pi / 180 * rotDeg
    let plusY := Real.sin rot * t.spotSepPix + yo
    let plusX := Real.cos rot * t.spotSepPix + xo
    let minusY := Real.sin (rot + Real.pi) * t.spotSepPix + yo
    let minusX := Real.cos (rot + Real.pi) * t.spotSepPix + xo
    -- lines 330-333
    let plusMask ← circle img.nc img.nr t.roiRadiusPix plusX plusY t.nSubpixels false
    let minusMask ← circle img.nc img.nr t.roiRadiusPix minusX minusY t.nSubpixels false
    -- lines 335-346
    let ratio := liftSum (roiSum plusMask img) / liftSum (roiSum minusMask img)
    -- lines 347-357
    let x ← t.offset ratio
    let xt ← t.offset target
    -- lines 359-365
    let y ← boundValue (x - xt) t.maxStep
    .ok (t.orient y)

/-- The contents of the tuning file of `calc_bowtie_offsets_from_spots`, lines 108-120. -/
structure BowtieTuning where
  spotSepPix : ℝ
  spotRotDeg : ℝ
  spotExtraRotDeg : ℝ
  roiRadiusPix : ℝ
  nSubpixels : ℤ
  maxStep : ℝ
  fitCoefPow1x : ℝ
  fitCoefPow2x : ℝ
  fitCoefPow1y : ℝ
  fitCoefPow2y : ℝ
  xRatioTarget : ℝ
  yRatioTarget : ℝ

/-- One axis of lines 179-195: `-calc_offset_quadratic(…, ratio) + calc_offset_quadratic(…, target)`, before clipping. -/
noncomputable def bowtieAxis (c1 c2 ratio target : ℝ) : Res ℝ := do
  let a ← calcOffsetQuadratic c1 c2 ratio
  let b ← calcOffsetQuadratic c1 c2 target
  .ok (-a - -b)

/-- `calc_bowtie_offsets_from_spots(imageSpotted, xOffsetStarFromCenterPixel, yOffsetStarFromCenterPixel, fnTuning)`,
`coralign/focalfit/focalfit.py` lines 102-201. Returns `(xOffsetStarFromMask, yOffsetStarFromMask)`. -/
noncomputable def calcBowtieOffsets (img : Arr2 ℝ) (xo yo : ℝ) (t : BowtieTuning) : Res (ℝ × ℝ) :=
  if t.spotSepPix ≤ 0 ∨ t.roiRadiusPix ≤ 0 ∨ t.nSubpixels ≤ 0 ∨ t.maxStep ≤ 0 ∨ t.fitCoefPow1x ≤ 0 ∨
      t.fitCoefPow2x ≤ 0 ∨ t.fitCoefPow1y ≤ 0 ∨ t.fitCoefPow2y ≤ 0 then .error .typeError
  else do
    let rot := Real.pi / 180 * t.spotRotDeg
    let clk := Real.pi / 180 * t.spotExtraRotDeg
    let roi1 ← circle img.nc img.nr t.roiRadiusPix (t.spotSepPix * Real.cos (rot + clk) + xo)
      (t.spotSepPix * Real.sin (rot + clk) + yo) t.nSubpixels false
    let roi2 ← circle img.nc img.nr t.roiRadiusPix (-t.spotSepPix * Real.cos (-rot + clk) + xo)
      (-t.spotSepPix * Real.sin (-rot + clk) + yo) t.nSubpixels false
    let roi3 ← circle img.nc img.nr t.roiRadiusPix (-t.spotSepPix * Real.cos (rot + clk) + xo)
      (-t.spotSepPix * Real.sin (rot + clk) + yo) t.nSubpixels false
    let roi4 ← circle img.nc img.nr t.roiRadiusPix (t.spotSepPix * Real.cos (-rot + clk) + xo)
      (t.spotSepPix * Real.sin (-rot + clk) + yo) t.nSubpixels false
    let s1 := liftSum (roiSum roi1 img)
    let s2 := liftSum (roiSum roi2 img)
    let s3 := liftSum (roiSum roi3 img)
    let s4 := liftSum (roiSum roi4 img)
    let up := s1 + s2
    let down := s3 + s4
    let left := s2 + s3
    let right := s1 + s4
    let x ← bowtieAxis t.fitCoefPow1x t.fitCoefPow2x (right / left) t.xRatioTarget
    let y ← bowtieAxis t.fitCoefPow1y t.fitCoefPow2y (up / down) t.yRatioTarget
    let x ← boundValue x t.maxStep
    let y ← boundValue y t.maxStep
    .ok (x, y)

end Coralign
