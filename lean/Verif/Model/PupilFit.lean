import Verif.Model.FitShapes
import Verif.Model.Lateral
import Verif.Model.MaskFit
import Verif.Model.Zernike

/-!
# Model of `coralign/pupil/pupilfit.py`
-/

namespace Coralign

/-- The tuning parameters of `fit_unmasked_pupil` (`pupilfit.py` lines 81-96), the reference mask already loaded (line 126). -/
structure PupilTuning where
  nIterOffsets : ℤ
  nPadFFT : ℤ
  nFocusCrop : ℤ
  nPhaseSteps : ℤ
  dPixel : ℝ
  clockDegMax : ℝ
  nClock : ℤ
  mask : Arr2 ℝ
  diamHighRes : ℝ
  rotRef : ℝ
  flipxRef : Bool
  padFacRef : ℝ
  deltaAmpMax : ℝ
  percentile : ℝ
  zeroPadding : ℝ

/-- Lines 98-115: all of these raise `TypeError`. -/
noncomputable def pupilChecks (t : PupilTuning) : Res Unit :=
  if t.nIterOffsets ≤ 0 ∨ t.nPadFFT ≤ 0 ∨ t.nFocusCrop ≤ 0 ∨ t.nPhaseSteps ≤ 0 ∨ t.dPixel ≤ 0 ∨ t.clockDegMax ≤ 0 ∨ t.nClock ≤ 0 ∨
      t.diamHighRes ≤ 0 ∨ t.padFacRef ≤ 0 ∨ t.deltaAmpMax < 0 ∨ t.percentile ≤ 0 ∨ t.zeroPadding < 0 then .error .typeError
  else .ok ()

/-- `fit_unmasked_pupil(pupil, ..)`, `coralign/pupil/pupilfit.py` lines 30-147: `(xOffset, yOffset, clockEst, diamEst)`. -/
noncomputable def fitUnmaskedPupil (S : Solver) (Sp : ClampSpline) (R : Rotate) (E : EllipseFinder) (te : EllipseTuning) (t : PupilTuning)
    (pupil : Arr2 ℝ) : Res (ℝ × ℝ × ℝ × ℝ) := do
  let _ ← pupilChecks t
  let m ← ampthresh pupil 21                                                        -- line 119
  let p := m.bits
  let e ← fitEllipse E te p                                                         -- lines 120-121
  let r ← rotateShiftDownsample Sp R t.mask t.rotRef (e.1 / t.diamHighRes) 0 0 t.padFacRef t.flipxRef   -- lines 124-129
  let ref ← padCrop r [t.nPadFFT, t.nPadFFT] 0                                      -- line 130
  let o ← computeLateralOffsets S p ref e.1 t.nPhaseSteps t.dPixel t.nPadFFT t.nFocusCrop t.nIterOffsets e.2.1 e.2.2   -- lines 133-136
  let nPad := ceilEven (((max t.mask.nr t.mask.nc : ℕ) : ℝ) + t.zeroPadding)        -- lines 139-140
  let maskPad ← padCrop t.mask [nPad, nPad] 0                                       -- line 141
  let c ← computeClocking S Sp R p.toC e.1 maskPad t.diamHighRes o.2 o.1 t.clockDegMax t.nClock t.percentile t.deltaAmpMax false   -- 143-145
  .ok (o.2, o.1, c, e.1)

/-- The tuning parameters of `fit_unmasked_pupil_old` (lines 182-195), the two reference masks already loaded. -/
structure PupilTuningOld where
  nBeamNom : ℝ
  nBin : ℤ
  nPadFFT : ℤ
  nFocusCrop : ℤ
  nPhaseSteps : ℤ
  dPixel : ℝ
  clockDegMax : ℝ
  nClock : ℤ
  maskNomRes : Arr2 ℝ
  mask : Arr2 ℝ
  diamHighRes : ℝ
  deltaAmpMax : ℝ
  percentile : ℝ
  zeroPadding : ℝ

/-- The light of the bright pixels of an image in units of its norm factor: lines 238-250. -/
noncomputable def normedLight (img : Arr2 ℝ) (p : ℝ) : Res ℝ := do
  let f ← normFactorOf img img p
  let n := img.map fun v : ℝ => v / f
  let m ← ampthresh n 21
  .ok (sumWhere n m)

/-- `fit_unmasked_pupil_old(pupilAmp, fn_tuning)`, lines 150-277, for a real amplitude.  At most `fuel` rounds of the coarse search of
`compute_lateral_offsets`. -/
noncomputable def fitUnmaskedPupilOld (fuel : ℕ) (S : Solver) (Sp : ClampSpline) (R : Rotate) (t : PupilTuningOld) (amp : Arr2 ℝ) :
    Option (Res (ℝ × ℝ × ℝ × ℝ)) :=
  if t.deltaAmpMax < 0 ∨ t.percentile ≤ 0 ∨ t.zeroPadding < 0 then some (.error .typeError)   -- lines 219-224
  else match (do
      let m ← ampthresh amp t.nBin                                                  -- lines 232-233
      let a ← normedLight (amp.map fun v : ℝ => |v|) t.percentile
      let b ← normedLight (t.maskNomRes.map fun v : ℝ => |v|) t.percentile
      let diam := t.nBeamNom * Real.sqrt (a / b)                                    -- lines 248-250
      let r ← rotateShiftDownsample Sp R t.mask 0 (diam / t.diamHighRes) 0 0 (6 / 5) false   -- lines 254-260
      let ref ← padCrop r [t.nPadFFT, t.nPadFFT] 0
      .ok (m, diam, ref) : Res (Arr2 Bool × ℝ × Arr2 ℝ)) with
    | .error e => some (.error e)
    | .ok (m, diam, ref) =>
      match computeLateralOffsetsCoarse fuel S m.bits ref diam t.nPhaseSteps t.dPixel t.nPadFFT t.nFocusCrop 1 with   -- lines 262-264
      | none => none
      | some (.error e) => some (.error e)
      | some (.ok o) => some (do
        let nPad := ceilEven (((max t.mask.nr t.mask.nc : ℕ) : ℝ) + t.zeroPadding)  -- lines 269-272
        let maskPad ← padCrop t.mask [nPad, nPad] 0
        let c ← computeClocking S Sp R (amp.map fun v : ℝ => |v|).toC diam maskPad t.diamHighRes o.2 o.1 t.clockDegMax t.nClock t.percentile
          t.deltaAmpMax false
        .ok (o.2, o.1, c, diam))

/-- `wfe - bMask*z` for a square map `z` with as many rows as `wfe` (lines 393-400), with numpy's broadcasting.  `mask` has the shape of
`wfe` (`fit_zernikes` has checked it). -/
noncomputable def residualMap (wfe : Arr2 ℝ) (mask : Arr2 Bool) (z : Arr2 ℝ) : Res (Arr2 ℝ) :=
  let bit (i j : ℤ) : ℝ := if mask.px i j = some true then 1 else 0
  if wfe.nc = wfe.nr then .ok ⟨wfe.nr, wfe.nc, fun i j => wfe.val i j - bit (i : ℕ) (j : ℕ) * z.zext (i : ℕ) (j : ℕ)⟩
  else if wfe.nc = 1 then .ok ⟨wfe.nr, wfe.nr, fun i j => wfe.zext (i : ℕ) 0 - bit (i : ℕ) 0 * z.zext (i : ℕ) (j : ℕ)⟩
  else if wfe.nr = 1 then .ok ⟨wfe.nr, wfe.nc, fun i j => wfe.val i j - bit (i : ℕ) (j : ℕ) * z.zext 0 0⟩
  else .error .valueError

/-- The mask of lines 383-387: the given one, or that of the bright pixels of `amp`, eroded unless the structuring element is `None`.
(A structuring element of size zero is a `RuntimeError` of scipy.) -/
noncomputable def zernikeMask (amp : Arr2 ℝ) (bMask : Option (Arr2 Bool)) (selem : Option (Arr2 Bool)) : Res (Arr2 Bool) :=
  match bMask with
  | some m => .ok m
  | none => do
    let m ← ampthresh amp 21
    match selem with
    | none => .ok m
    | some s => binaryErosion m s

/-- What `fit_pupil_zernikes` returns: the coefficients (Noll orders 1, 2, ..) and the dictionary. -/
structure ZernikeFit where
  zvec : List ℝ
  bMask : Arr2 Bool
  resPtt : Arr2 ℝ
  res : Arr2 ℝ
  diam : ℝ
  x : ℝ
  y : ℝ

/-- `fit_pupil_zernikes(wfe, amp, .., bMask, Z_noll_max, mask_selem)`, `coralign/pupil/pupilfit.py` lines 280-416.  A given `bMask` is
already a boolean map (lines 360-364 raise `TypeError` for any value but 0 and 1). -/
noncomputable def fitPupilZernikes (S : Solver) (Sp : ClampSpline) (R : Rotate) (E : EllipseFinder) (te : EllipseTuning) (t : PupilTuning)
    (wfe amp : Arr2 ℝ) (bMask : Option (Arr2 Bool)) (zMax : ℤ) (selem : Option (Arr2 Bool)) : Res ZernikeFit :=
  if zMax ≤ 0 then .error .typeError                                                -- line 365
  else do
    let zMax := if zMax < 3 then 3 else zMax                                        -- lines 366-368
    let f ← fitUnmaskedPupil S Sp R E te t amp                                      -- lines 377-379
    let diam := f.2.2.2
    let mask ← zernikeMask amp bMask selem                                          -- lines 383-387
    let z ← fitZernikes S wfe mask zMax diam f.1 f.2.1                              -- line 390
    let zvec := List.ofFn z
    let ptt ← genZernikes [1, 2, 3] (zvec.take 3) f.1 f.2.1 diam wfe.nr             -- lines 393-396
    let resPtt ← residualMap wfe mask ptt
    let all ← genZernikes ((List.range zMax.toNat).map fun k : ℕ => (k : ℤ) + 1) zvec f.1 f.2.1 diam wfe.nr   -- lines 397-400
    let res ← residualMap wfe mask all
    .ok ⟨zvec, mask, resPtt, res, diam, f.1, f.2.1⟩

end Coralign
