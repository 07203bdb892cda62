import Verif.Model.AmpThresh
import Verif.Model.Lateral
import Verif.Model.MaskGen

/-!
# Model of `compute_clocking` in `coralign/pupil/util.py` and of the mask fits in `coralign/pupil/maskfit.py`

Scalars are real (integers where the source insists on them), so the type checks of `check.py` are reduced to their range tests.  The YAML
files and the FITS file with the reference mask are replaced by their contents.  Division by zero gives NaN or infinity in numpy and
zero here, and so does the square root of a negative number; the theorems which could be touched by this say so.
-/

namespace Coralign

/-- A boolean mask as the 0/1 array which arithmetic sees. -/
def Arr2.bits (m : Arr2 Bool) : Arr2 ℝ := m.map fun b : Bool => if b = true then (1 : ℝ) else 0

/-- `compute_norm_factor(img, ampthresh(thr), percentile)`: `pupil/util.py` lines 89-90 and 99-100, `pupil/maskfit.py` lines 222-224,
229-231, 508-510 and 595-596. -/
noncomputable def normFactorOf (img thr : Arr2 ℝ) (p : ℝ) : Res ℝ := do
  let m ← ampthresh thr 21
  computeNormFactor img m.bits p

/-- `np.sum(np.abs(a - b) < tol)` for two arrays of the same shape, `pupil/util.py` lines 102-103, `pupil/maskfit.py` lines 598-599. -/
noncomputable def countClose (a b : Arr2 ℝ) (tol : ℝ) : ℝ :=
  ∑ i : Fin a.nr, ∑ j : Fin a.nc, if |a.val i j - b.zext (i : ℕ) (j : ℕ)| < tol then 1 else 0

/-- `np.sum(a == b)` for two boolean arrays of the same shape, `pupil/util.py` line 115. -/
noncomputable def countEqual (a b : Arr2 Bool) : ℝ :=
  ∑ i : Fin a.nr, ∑ j : Fin a.nc, if b.px (i : ℕ) (j : ℕ) = some (a.val i j) then 1 else 0

/-- The reference mask on the detector: `rotate_shift_downsample_amplitude_mask(..)` followed by `pad_crop(.., shape)`;
`pupil/util.py` lines 95-97 and 110-112, `pupil/maskfit.py` lines 244-248, 525-529, 540-544 and 588-592. -/
noncomputable def referenceOn (Sp : ClampSpline) (R : Rotate) (mask : Arr2 ℝ) (rotDeg mag xo yo padFac : ℝ) (nr nc : ℕ) : Res (Arr2 ℝ) := do
  let r ← rotateShiftDownsample Sp R mask rotDeg mag xo yo padFac false
  padCrop r [(nr : ℤ), (nc : ℤ)] 0

open scoped Classical in
/-- The quadratic fit to the squared deficits: `pupil/util.py` lines 122-127, `pupil/maskfit.py` lines 611-616.  `fallback` is the value
taken when the leading coefficient is zero. -/
noncomputable def deficitVertex (S : Solver) (xs overlap : List ℝ) (fallback : ℝ) : ℝ :=
  let peak := overlap.getD (argmaxUpto (fun k => overlap.getD k 0) (overlap.length - 1)) 0
  let p := S.solve (vander2 fun i : Fin xs.length => xs.get i) (fun i : Fin xs.length => (overlap.getD i 0 - peak) ^ 2)
  if p 0 = 0 then fallback else -p 1 / (2 * p 0)

/-- `compute_clocking(ampMeas, diamBeamAtMask, maskRefHighRes, diamHighRes, xOffset, yOffset, clockDegMax, nClock, percentileForNorm,
deltaAmpMax, useAmpthresh)`, `coralign/pupil/util.py` lines 70-129. -/
noncomputable def computeClocking (S : Solver) (Sp : ClampSpline) (R : Rotate) (ampMeas : Arr2 ℂ) (diamBeam : ℝ) (mask : Arr2 ℝ)
    (diamHighRes xo yo clockMax : ℝ) (nClock : ℤ) (p tol : ℝ) (useAmpthresh : Bool) : Res ℝ :=
  if diamBeam ≤ 0 ∨ diamHighRes ≤ 0 ∨ nClock ≤ 0 ∨ p < 0 ∨ tol < 0 then .error .typeError
  else do
    let clocks := linspaceList (-clockMax) clockMax nClock.toNat
    let amp := ampMeas.map fun z : ℂ => ‖z‖
    let overlap ← if useAmpthresh = false then do
        let f ← normFactorOf amp (amp.map fun v : ℝ => v ^ 2) p
        let ampNorm := amp.map fun v : ℝ => v / f
        clocks.mapM fun c => do
          let ref ← referenceOn Sp R mask c (diamBeam / diamHighRes) xo yo 1 amp.nr amp.nc
          let g ← normFactorOf ref ref p
          .ok (countClose ampNorm (ref.map fun v : ℝ => v / g) tol)
      else do
        let ampBool ← ampthresh (amp.map fun v : ℝ => v ^ 2) 21
        clocks.mapM fun c => do
          let ref ← referenceOn Sp R mask c (diamBeam / diamHighRes) xo yo 1 amp.nr amp.nc
          let refBool ← ampthresh ref 21
          .ok (countEqual ampBool refBool)
    .ok (deficitVertex S clocks overlap 0)

/-- The contents of the two YAML files read by `fit_pupil_mask_offsets`, lines 206-219, and of the reference mask. -/
structure MaskTuning where
  nPadFFT : ℤ
  nFocusCrop : ℤ
  nPhaseSteps : ℤ
  dPixel : ℝ
  nIterOuterLoop : ℤ
  nIterInnerLoop : ℤ
  percentile : ℝ
  diamHighRes : ℝ
  mask : Arr2 ℝ

/-- Normalise, clip and take the square root: lines 225-227 and 232-234 of `fit_pupil_mask_offsets`, 511-518 of
`fit_lyot_stop_mag_clocking`. -/
noncomputable def imageToAmp (img : Arr2 ℝ) (f : ℝ) : Arr2 ℝ :=
  img.map fun v : ℝ => Real.sqrt (if v / f < 0 then 0 else v / f)

/-- The product of two arrays of the same shape. -/
noncomputable def Arr2.mulZ (a b : Arr2 ℝ) : Arr2 ℝ := ⟨a.nr, a.nc, fun i j => a.val i j * b.zext (i : ℕ) (j : ℕ)⟩

/-- The outer loop, lines 242-269: the number of rounds left and the estimate `(x, y)`. -/
noncomputable def maskOffsetLoop (S : Solver) (Sp : ClampSpline) (R : Rotate) (t : MaskTuning) (ampUnmasked ampMasked : Arr2 ℝ)
    (gain xPupil yPupil diamPupil magAtMask clockDeg : ℝ) : ℕ → ℝ × ℝ → Res (ℝ × ℝ)
  | 0, est => .ok est
  | left + 1, est => do
    let ref ← referenceOn Sp R t.mask clockDeg (diamPupil * magAtMask / t.diamHighRes) (est.1 + xPupil) (est.2 + yPupil) (6 / 5)
      ampUnmasked.nr ampUnmasked.nc
    let sim := ampUnmasked.mulZ ref
    let yc : ℝ := ((((ampUnmasked.nr / 2 : ℕ) : ℤ) + npRound yPupil : ℤ) : ℝ)
    let xc : ℝ := ((((ampUnmasked.nc / 2 : ℕ) : ℤ) + npRound xPupil : ℤ) : ℝ)
    let a ← offcenterCrop ampMasked 0 t.nPadFFT yc xc
    let b ← offcenterCrop sim 0 t.nPadFFT yc xc
    let d ← computeLateralOffsets S a b diamPupil t.nPhaseSteps t.dPixel t.nPadFFT t.nFocusCrop t.nIterInnerLoop 0 0
    maskOffsetLoop S Sp R t ampUnmasked ampMasked gain xPupil yPupil diamPupil magAtMask clockDeg left
      (est.1 + gain * d.2, est.2 + gain * d.1)

/-- `fit_pupil_mask_offsets(imageUnmasked, imageMasked, offsetGain, .., xOffsetPupil, yOffsetPupil, diamPupil, magAtMask, clockDegMask)`,
`coralign/pupil/maskfit.py` lines 184-271: the answer is `(x, y)`. -/
noncomputable def fitPupilMaskOffsets (S : Solver) (Sp : ClampSpline) (R : Rotate) (t : MaskTuning) (imageUnmasked imageMasked : Arr2 ℝ)
    (gain xPupil yPupil diamPupil magAtMask clockDeg : ℝ) : Res (ℝ × ℝ) :=
  if imageUnmasked.nr ≠ imageMasked.nr ∨ imageUnmasked.nc ≠ imageMasked.nc then .error .valueError
  else if gain ≤ 0 ∨ diamPupil ≤ 0 ∨ magAtMask ≤ 0 then .error .typeError
  else do
    let fu ← normFactorOf imageUnmasked imageUnmasked t.percentile
    let fm ← normFactorOf imageMasked imageMasked t.percentile
    maskOffsetLoop S Sp R t (imageToAmp imageUnmasked fu) (imageToAmp imageMasked fm) gain xPupil yPupil diamPupil magAtMask clockDeg
      t.nIterOuterLoop.toNat (0, 0)

/-- `fit_shaped_pupil_mask_offsets(..)`, `coralign/pupil/maskfit.py` lines 97-133: the unmasked image is moved by the shear and the pupil
offsets are increased by it. -/
noncomputable def fitShapedPupilMaskOffsets (S : Solver) (Sp : ClampSpline) (R : Rotate) (Sh : Shift) (t : MaskTuning)
    (imageUnmasked imageMasked : Arr2 ℝ) (gain xPupil yPupil diamPupil magAtMask clockDeg xSpm ySpm : ℝ) : Res (ℝ × ℝ) :=
  if imageUnmasked.nr ≠ imageMasked.nr ∨ imageUnmasked.nc ≠ imageMasked.nc then .error .valueError
  else if gain ≤ 0 ∨ diamPupil ≤ 0 ∨ magAtMask ≤ 0 then .error .typeError
  else fitPupilMaskOffsets S Sp R t (Sh.run ySpm xSpm imageUnmasked) imageMasked gain (xPupil + xSpm) (yPupil + ySpm) diamPupil magAtMask
    clockDeg

/-- The contents of the three YAML files read by `fit_lyot_stop_mag_clocking`, lines 461-496, and of the reference mask. -/
structure LyotTuning where
  clockMaxDeg : ℝ
  nClock : ℤ
  deltaAmpMax : ℝ
  diamPupil : ℝ
  magShrinkFac : ℝ
  deltaMag : ℝ
  nMag : ℤ
  nIterMag : ℤ
  diamHighRes : ℝ
  odLs : ℝ
  nPadFFT : ℤ
  nFocusCrop : ℤ
  nPhaseSteps : ℤ
  dPixel : ℝ
  percentile : ℝ
  mask : Arr2 ℝ

/-- The checks of lines 470-482. -/
noncomputable def lyotChecks (t : LyotTuning) : Res Unit :=
  if t.clockMaxDeg ≤ 0 ∨ t.nClock ≤ 0 ∨ t.deltaAmpMax ≤ 0 ∨ t.diamPupil ≤ 0 then .error .typeError
  else if 1 ≤ t.deltaAmpMax then .error .valueError
  else if t.magShrinkFac ≤ 0 then .error .typeError
  else if 1 ≤ t.magShrinkFac then .error .valueError
  else if t.deltaMag ≤ 0 ∨ t.nMag ≤ 0 ∨ t.nIterMag ≤ 0 then .error .typeError
  else .ok ()

/-- `np.sum(a[m])` for a boolean mask of the same shape, lines 535-537. -/
noncomputable def sumWhere (a : Arr2 ℝ) (m : Arr2 Bool) : ℝ :=
  ∑ i : Fin a.nr, ∑ j : Fin a.nc, if m.px (i : ℕ) (j : ℕ) = some true then a.val i j else 0

/-- One entry of `overlapVec`, lines 586-599. -/
noncomputable def lyotOverlap (Sp : ClampSpline) (R : Rotate) (t : LyotTuning) (ampMasked : Arr2 ℝ) (clock xo yo mag : ℝ) : Res ℝ := do
  let r ← referenceOn Sp R t.mask clock (mag * t.diamPupil / t.diamHighRes) xo yo (6 / 5) ampMasked.nr ampMasked.nc
  let ref := r.map fun v : ℝ => v ^ 2
  let g ← normFactorOf ref ref t.percentile
  .ok (countClose ampMasked (ref.map fun v : ℝ => v / g) t.deltaAmpMax)

/-- The line search of lines 582-616: the overlap is a parameter; the arguments are the rounds left, `iter_` and `magEst`.  The width of
the search is `magShrinkFac * deltaMag` in every round. -/
noncomputable def magLoop (S : Solver) (overlap : ℝ → Res ℝ) (shrink delta : ℝ) (nMag nIter : ℕ) : ℕ → ℕ → ℝ → Res ℝ
  | 0, _, mag => .ok mag
  | left + 1, iter, mag => do
    let mags := (linspaceList (-delta) delta nMag).map fun v : ℝ => mag + shrink * v
    let o ← mags.mapM overlap
    magLoop S overlap shrink delta nMag nIter left (iter + 1)
      (if iter = 0 ∧ nIter > 1 then lineArgmax mags o else deficitVertex S mags o 1)

/-- The images in units of the norm factor, negative values set to zero, lines 511-512 and 516-517. -/
noncomputable def clipUnits (img : Arr2 ℝ) (f : ℝ) : Arr2 ℝ := img.map fun v : ℝ => if v / f < 0 then 0 else v / f

/-- Lines 470-545: the unmasked and the masked amplitude, the first estimate of the magnification and the reference amplitude. -/
noncomputable def lyotStart (Sp : ClampSpline) (R : Rotate) (t : LyotTuning) (imageUnmasked imageMasked : Arr2 ℝ) (xPupil yPupil : ℝ) :
    Res (Arr2 ℝ × Arr2 ℝ × ℝ × Arr2 ℝ) := do
  let _ ← lyotChecks t
  let f ← normFactorOf imageUnmasked imageUnmasked t.percentile
  let imU := clipUnits imageUnmasked f
  let ampU := imageToAmp imageUnmasked f
  let imM := clipUnits imageMasked f
  let ampM := imageToAmp imageMasked f
  let ref0 ← referenceOn Sp R t.mask 0 (t.diamPupil / t.diamHighRes) xPupil yPupil (6 / 5) imU.nr imU.nc
  let thrM ← ampthresh imM 21
  let thrU ← ampthresh imU 21
  let mag0 := Real.sqrt (sumWhere ampM thrM / sumWhere (ampU.mulZ ref0) thrU)
  let ref1 ← referenceOn Sp R t.mask 0 (mag0 * t.diamPupil / t.diamHighRes) xPupil yPupil (6 / 5) imU.nr imU.nc
  .ok (ampU, ampM, mag0, ref1.mulZ ampU)

/-- Lines 558-618, after the coarse search has found `(x1, y1)`. -/
noncomputable def lyotFinish (S : Solver) (Sp : ClampSpline) (R : Rotate) (t : LyotTuning) (ampU ampM : Arr2 ℝ) (mag0 : ℝ) (ampRef : Arr2 ℝ)
    (xPupil yPupil : ℝ) (x1 y1 : ℤ) : Res (ℝ × ℝ) := do
  let n : ℤ := (max ampU.nr ampU.nc : ℕ)
  let yc : ℝ := ((y1 + ((ampU.nr / 2 : ℕ) : ℤ) : ℤ) : ℝ)
  let xc : ℝ := ((x1 + ((ampU.nc / 2 : ℕ) : ℤ) : ℤ) : ℝ)
  let a ← offcenterCrop ampM 0 n yc xc
  let b ← offcenterCrop ampRef 0 n yc xc
  let d ← computeLateralOffsets S a b (mag0 * t.diamPupil) t.nPhaseSteps t.dPixel t.nPadFFT t.nFocusCrop 2 0 0
  let clock ← computeClocking S Sp R ampM.toC (mag0 * t.diamPupil) t.mask t.diamHighRes (d.2 + xPupil) (d.1 + yPupil) t.clockMaxDeg
    t.nClock t.percentile t.deltaAmpMax false
  let mag ← magLoop S (lyotOverlap Sp R t ampM clock (d.2 + xPupil) (d.1 + yPupil)) t.magShrinkFac t.deltaMag t.nMag.toNat
    t.nIterMag.toNat t.nIterMag.toNat 0 mag0
  .ok (mag, clock)

/-- `fit_lyot_stop_mag_clocking(imageUnmasked, imageMasked, xOffsetPupil, yOffsetPupil, ..)`, `coralign/pupil/maskfit.py` lines 452-618:
`(magEst, clockEst)`.  `none` if the coarse search is still running after `fuel` rounds. -/
noncomputable def fitLyotStopMagClocking (fuel : ℕ) (S : Solver) (Sp : ClampSpline) (R : Rotate) (t : LyotTuning)
    (imageUnmasked imageMasked : Arr2 ℝ) (xPupil yPupil : ℝ) : Option (Res (ℝ × ℝ)) :=
  if imageUnmasked.nr ≠ imageMasked.nr ∨ imageUnmasked.nc ≠ imageMasked.nc then some (.error .valueError)
  else match lyotStart Sp R t imageUnmasked imageMasked xPupil yPupil with
    | .error e => some (.error e)
    | .ok (ampU, ampM, mag0, ampRef) =>
      match coarselyLocate fuel ampM (mag0 * t.diamPupil * t.odLs) 3 with
      | none => none
      | some (.error e) => some (.error e)
      | some (.ok ((x1, y1), _)) => some (lyotFinish S Sp R t ampU ampM mag0 ampRef xPupil yPupil x1 y1)

end Coralign
