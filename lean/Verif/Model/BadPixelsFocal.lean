import Verif.Model.BadPixels
import Verif.Model.OccAstro
import Verif.Model.AmpThresh

/-!
# What NaN pixels do in the satellite-spot estimators and in `ampthresh`

Continues `Model/BadPixels` for `coralign/focalfit/focalfit.py`, `coralign/occastro/occastro.py` and `coralign/util/ampthresh.py`.
-/

namespace Coralign

/-- `np.sum(mask * image)` for an image with NaN pixels; the shapes agree where it is used.  A zero of the mask does not hide a
NaN pixel: `0 * nan` is NaN. -/
noncomputable def roiSumN (mask : Arr2 ℝ) (img : Arr2 (Fl ℝ)) : Fl ℝ :=
  ∑ i : Fin mask.nr, ∑ j : Fin mask.nc, .num (mask.val i j) * (img.px (i : ℕ) (j : ℕ)).getD 0

/-- `if sum <= 0: sum = np.finfo(float).eps`, `focalfit.py` lines 164-172 and 340-344: the test is false for NaN. -/
noncomputable def liftSumN : Fl ℝ → Fl ℝ
  | .num s => .num (liftSum s)
  | .nan => .nan

/-- `calc_offset_quadratic`, `coralign/focalfit/ff_util.py` lines 67-81.  A NaN ratio passes `real_positive_scalar` (`nan <= 0` is
false), is not below 1, and makes the discriminant NaN. -/
noncomputable def calcOffsetQuadraticN (fitCoefPow1 fitCoefPow2 : ℝ) : Fl ℝ → Res (Fl ℝ)
  | .num r => (calcOffsetQuadratic fitCoefPow1 fitCoefPow2 r).map .num
  | .nan => .ok .nan

/-- `calc_offset_linear`, `coralign/focalfit/ff_util.py` lines 107-118; a NaN ratio as in `calcOffsetQuadraticN`. -/
noncomputable def calcOffsetLinearN (fitCoefPow1 : ℝ) : Fl ℝ → Res (Fl ℝ)
  | .num r => (calcOffsetLinear fitCoefPow1 r).map .num
  | .nan => .ok .nan

/-- `bound_value`, `coralign/focalfit/ff_util.py` lines 23-35: both comparisons of a NaN are false, so it is returned. -/
noncomputable def boundValueN (inVal : Fl ℝ) (maxVal : ℝ) : Res (Fl ℝ) :=
  match inVal with
  | .num x => (boundValue x maxVal).map .num
  | .nan => if maxVal < 0 then .error .valueError else .ok .nan

/-- The solver chosen by `powerOfFit`, `focalfit.py` lines 347-357. -/
noncomputable def SpotTuning.offsetN (t : SpotTuning) (ratio : Fl ℝ) : Res (Fl ℝ) :=
  if t.powerOfFit = 1 then calcOffsetLinearN t.fitCoefPow1 ratio
  else calcOffsetQuadraticN t.fitCoefPow1 t.fitCoefPow2 ratio

open scoped Classical in
/-- `calc_offset_from_spots`, `coralign/focalfit/focalfit.py` lines 281-367, of an image with NaN pixels (`calcOffsetFromSpots` of
`Model/FocalFit`). -/
noncomputable def calcOffsetFromSpotsN (img : Arr2 (Fl ℝ)) (rotDeg xo yo : ℝ) (t : SpotTuning) (target : ℝ) : Res (Fl ℝ) :=
  if target ≤ 0 ∨ t.spotSepPix ≤ 0 ∨ t.roiRadiusPix ≤ 0 ∨ t.nSubpixels ≤ 0 ∨ t.maxStep ≤ 0 ∨ t.fitCoefPow1 ≤ 0 ∨
      t.fitCoefPow2 ≤ 0 ∨ t.powerOfFit ≤ 0 then .error .typeError
  else if ¬ (t.powerOfFit = 1 ∨ t.powerOfFit = 2) then .error .valueError
  else if ¬ (t.maskIsInsideSpots = 0 ∨ t.maskIsInsideSpots = 1) then .error .valueError
  else do
    let rot := Real.pi / 180 * rotDeg
    let plusY := Real.sin rot * t.spotSepPix + yo
    let plusX := Real.cos rot * t.spotSepPix + xo
    let minusY := Real.sin (rot + Real.pi) * t.spotSepPix + yo
    let minusX := Real.cos (rot + Real.pi) * t.spotSepPix + xo
    let plusMask ← circle img.nc img.nr t.roiRadiusPix plusX plusY t.nSubpixels false
    let minusMask ← circle img.nc img.nr t.roiRadiusPix minusX minusY t.nSubpixels false
    let ratio := (liftSumN (roiSumN plusMask img)).quot (liftSumN (roiSumN minusMask img))
    let x ← t.offsetN ratio
    let xt ← t.offsetN (.num target)
    let y ← boundValueN (x + xt.neg) t.maxStep
    .ok (y.map t.orient)

/-- One axis of `focalfit.py` lines 179-195. -/
noncomputable def bowtieAxisN (c1 c2 : ℝ) (ratio : Fl ℝ) (target : ℝ) : Res (Fl ℝ) := do
  let a ← calcOffsetQuadraticN c1 c2 ratio
  let b ← calcOffsetQuadraticN c1 c2 (.num target)
  .ok (a.neg + b.neg.neg)

open scoped Classical in
/-- `calc_bowtie_offsets_from_spots`, `coralign/focalfit/focalfit.py` lines 102-201, of an image with NaN pixels
(`calcBowtieOffsets` of `Model/FocalFit`). -/
noncomputable def calcBowtieOffsetsN (img : Arr2 (Fl ℝ)) (xo yo : ℝ) (t : BowtieTuning) : Res (Fl ℝ × Fl ℝ) :=
  if t.spotSepPix ≤ 0 ∨ t.roiRadiusPix ≤ 0 ∨ t.nSubpixels ≤ 0 ∨ t.maxStep ≤ 0 ∨ t.fitCoefPow1x ≤ 0 ∨
      t.fitCoefPow2x ≤ 0 ∨ t.fitCoefPow1y ≤ 0 ∨ t.fitCoefPow2y ≤ 0 then .error .typeError
  else do
    let rot := Real.pi / 180 * t.spotRotDeg
    let clk := Real.pi / 180 * t.spotExtraRotDeg
    let roi1 ← circle img.nc img.nr t.roiRadiusPix (t.spotSepPix * Real.cos (rot + clk) + xo)
      (t.spotSepPix * Real.sin (rot + clk) + yo) t.nSubpixels false
    let roi2 ← circle img.nc img.nr t.roiRadiusPix (-t.spotSepPix * Real.cos (-rot + clk) + xo)
      (-t.spotSepPix * Real.sin (-rot + clk) + yo) t.nSubpixels false
    let roi3 ← circle img.nc img.nr t.roiRadiusPix (-t.spotSepPix * Real.cos (rot + clk) + xo)
      (-t.spotSepPix * Real.sin (rot + clk) + yo) t.nSubpixels false
    let roi4 ← circle img.nc img.nr t.roiRadiusPix (t.spotSepPix * Real.cos (-rot + clk) + xo)
      (t.spotSepPix * Real.sin (-rot + clk) + yo) t.nSubpixels false
    let s1 := liftSumN (roiSumN roi1 img)
    let s2 := liftSumN (roiSumN roi2 img)
    let s3 := liftSumN (roiSumN roi3 img)
    let s4 := liftSumN (roiSumN roi4 img)
    let up := s1 + s2
    let down := s3 + s4
    let left := s2 + s3
    let right := s1 + s4
    let x ← bowtieAxisN t.fitCoefPow1x t.fitCoefPow2x (right.quot left) t.xRatioTarget
    let y ← bowtieAxisN t.fitCoefPow1y t.fitCoefPow2y (up.quot down) t.yRatioTarget
    let x ← boundValueN x t.maxStep
    let y ← boundValueN y t.maxStep
    .ok (x, y)

/-! ### `occastro` -/

/-- The mask of all regions of interest, `coralign/occastro/occastro.py` lines 112-131 and 243-262, when the trial position may be NaN:
`shapes.circle` makes the same checks, then every comparison with a NaN coordinate is false and the mask is zero. -/
noncomputable def roiMaskN (nx ny : ℤ) (radius : ℝ) (nSub : ℤ) (rots : List ℝ) : Fl ℝ → Fl ℝ → Fl ℝ → Res (Arr2 ℝ)
  | .num sep, .num xc, .num yc => roiMask nx ny radius nSub rots sep xc yc
  | _, _, _ => do
    let _ ← roiMask nx ny radius nSub rots 0 0 0
    .ok (Arr2.full ny.toNat nx.toNat 0)

/-- `np.sum(roiMask * spotArray)`, lines 112-133 and 243-264. -/
noncomputable def roiEnergyN (img : Arr2 (Fl ℝ)) (radius : ℝ) (nSub : ℤ) (rots : List ℝ) (sep xc yc : Fl ℝ) : Res (Fl ℝ) := do
  let mask ← roiMaskN img.nc img.nr radius nSub rots sep xc yc
  .ok (roiSumN mask img)

/-- The numbers of a list without NaN. -/
def allNums : List (Fl ℝ) → Option (List ℝ)
  | [] => some []
  | .nan :: _ => none
  | .num x :: l => (allNums l).map (x :: ·)

/-- What the external least-squares routine does when one of its inputs is NaN: it raises (`LinAlgError`) or returns NaN for every
coefficient.  In the second case the curvature tests of `findopt.py` lines 39 and 123 are false and the optimum is NaN. -/
def nanOutcome (nanFit : Option PyExc) : Res (Fl ℝ) :=
  match nanFit with
  | some e => .error e
  | none => .ok .nan

/-- `find_optimum_1d`, `coralign/util/findopt.py` lines 32-46, with NaN samples. -/
noncomputable def findOptimum1dN (S : Solver) (nanFit : Option PyExc) (xs cs : List (Fl ℝ)) : Res (Fl ℝ) :=
  if xs.length ≠ cs.length then .error .valueError
  else if xs.length = 0 then .error .typeError
  else match allNums xs, allNums cs with
    | some xs, some cs => (findOptimum1d S xs cs).map .num
    | _, _ => nanOutcome nanFit

/-- `np.arange(nSteps)*stepSize - (nSteps-1)/2*stepSize + centre`, lines 98-105 and 236-238. -/
noncomputable def stepVecN (n : ℕ) (step : ℝ) : Fl ℝ → List (Fl ℝ)
  | .num c => (stepVec n step c).map .num
  | .nan => List.replicate n .nan

/-- The cost matrix of lines 107-133. -/
def costGridN (xs ys : List (Fl ℝ)) (cost : Fl ℝ → Fl ℝ → Res (Fl ℝ)) : Res (Arr2 (Fl ℝ)) := do
  let rows ← ys.mapM fun y => xs.mapM fun x => cost x y
  .ok ⟨ys.length, xs.length, fun i j => (rows.getD i []).getD j .nan⟩

open scoped Classical in
/-- `find_optimum_2d(xVec, yVec, costMat, np.ones_like(costMat))`, lines 135-140, with NaN samples. -/
noncomputable def gridFitN (S : Solver) (nanFit : Option PyExc) (xs ys : List (Fl ℝ)) (cost : Arr2 (Fl ℝ)) : Res (Fl ℝ × Fl ℝ) :=
  match allNums xs, allNums ys with
  | some xs, some ys =>
    if HasNan cost then (nanOutcome nanFit).map fun v => (v, v)
    else (gridFit S xs ys cost.denan).map fun p => (.num p.1, .num p.2)
  | _, _ => (nanOutcome nanFit).map fun v => (v, v)

/-- The loop of `calc_star_location_from_spots`, lines 96-140. -/
noncomputable def starLoopN (S : Solver) (nanFit : Option PyExc) (cost : Fl ℝ → Fl ℝ → Res (Fl ℝ)) (nSteps : ℕ) (step : ℝ) :
    ℕ → Fl ℝ × Fl ℝ → Res (Fl ℝ × Fl ℝ)
  | 0, est => .ok est
  | n + 1, est => do
    let xs := stepVecN nSteps step est.1
    let ys := stepVecN nSteps step est.2
    let c ← costGridN xs ys cost
    let est' ← gridFitN S nanFit xs ys c
    starLoopN S nanFit cost nSteps step n est'

/-- `calc_star_location_from_spots`, `coralign/occastro/occastro.py` lines 69-142, of an image with NaN pixels. -/
noncomputable def calcStarLocationN (S : Solver) (nanFit : Option PyExc) (img : Arr2 (Fl ℝ)) (xGuess yGuess : ℝ) (t : StarTuning) :
    Res (Fl ℝ × Fl ℝ) :=
  if t.sepPix ≤ 0 ∨ t.roiRadiusPix ≤ 0 ∨ t.nSubpixels ≤ 0 ∨ t.nSteps ≤ 0 ∨ t.stepSize ≤ 0 ∨ t.nIter ≤ 0 then .error .typeError
  else
    starLoopN S nanFit (fun x y => roiEnergyN img t.roiRadiusPix t.nSubpixels t.probeRotVecDeg (.num t.sepPix) (.num xGuess + x)
      (.num yGuess + y)) t.nSteps.toNat t.stepSize t.nIter.toNat (.num 0, .num 0)

/-- `xs[np.argmax(costVec)]`, lines 269-270: `np.argmax` returns the first NaN if there is one. -/
noncomputable def lineArgmaxN (xs cost : List (Fl ℝ)) : Fl ℝ :=
  xs.getD (argmaxUptoN (fun k => cost.getD k (.num 0)) (cost.length - 1)) (.num 0)

/-- The loop of `calc_spot_separation`, lines 234-272, after the first iteration. -/
noncomputable def sepLoopN (S : Solver) (nanFit : Option PyExc) (cost : Fl ℝ → Res (Fl ℝ)) (nSteps : ℕ) (step : ℝ) :
    ℕ → Fl ℝ → Res (Fl ℝ)
  | 0, est => .ok est
  | n + 1, est => do
    let seps := stepVecN nSteps step est
    let c ← seps.mapM cost
    let est' ← findOptimum1dN S nanFit seps c
    sepLoopN S nanFit cost nSteps step n est'

/-- `calc_spot_separation`, `coralign/occastro/occastro.py` lines 208-274, of an image with NaN pixels. -/
noncomputable def calcSpotSeparationN (S : Solver) (nanFit : Option PyExc) (img : Arr2 (Fl ℝ)) (xOffset yOffset : ℝ) (t : StarTuning) :
    Res (Fl ℝ) :=
  if t.sepPix ≤ 0 ∨ t.roiRadiusPix ≤ 0 ∨ t.nSubpixels ≤ 0 ∨ t.nSteps ≤ 0 ∨ t.stepSize ≤ 0 ∨ t.nIter ≤ 0 then .error .typeError
  else
    let cost := fun sep => roiEnergyN img t.roiRadiusPix t.nSubpixels t.probeRotVecDeg sep (.num xOffset) (.num yOffset)
    if t.nIter > 1 then do
      let seps := stepVecN t.nSteps.toNat t.stepSize (.num t.sepPix)
      let c ← seps.mapM cost
      sepLoopN S nanFit cost t.nSteps.toNat t.stepSize (t.nIter.toNat - 1) (lineArgmaxN seps c)
    else sepLoopN S nanFit cost t.nSteps.toNat t.stepSize t.nIter.toNat (.num t.sepPix)

/-! ### `ampthresh` -/

open scoped Classical in
/-- `ampthresh`, `coralign/util/ampthresh.py` lines 29-65, for a real map with NaN pixels: `np.min` and `np.max` are NaN, line 36 finds
them different, and `np.histogram` (line 40) raises `ValueError` because the range is not finite. -/
noncomputable def ampthreshN (pupilMap : Arr2 (Fl ℝ)) (nBin : ℤ) : Res (Arr2 Bool) :=
  if nBin ≤ 0 then .error .valueError
  else if HasNan pupilMap then .error .valueError
  else ampthresh pupilMap.denan nBin

end Coralign
