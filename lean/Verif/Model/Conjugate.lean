import Verif.Base.Ndimage
import Verif.Model.FitSurf
import Verif.Model.Zernike
import Verif.Model.AmpThresh
import Verif.Model.DmShapes
import Verif.Model.Math
import Verif.Model.PadCrop
import Verif.Base.Round

/-!
# Model of `coralign/conjugate/conjugate.py`

The YAML and FITS files named in the arguments are read by the caller of the model: their contents are the structures `DmCal`,
`FcmCal` and `FlattenCfg`.
-/

namespace Coralign

/-- Lines 339-344: the coefficient vector brought to length `n`. -/
def fitLength (n : ℕ) (coef : List ℝ) : List ℝ := coef.take n ++ List.replicate (n - coef.length) 0

/-- `np.arange(lo, hi+1)` as a list of integers. -/
def arangeIncl (lo hi : ℤ) : List ℤ := (List.range (hi + 1 - lo).toNat).map fun k : ℕ => lo + k

open scoped Classical in
/-- `gen_split_wfe(flagUseFCM, maxNollZern, zernCoef, diamPupil, wfeShape, xOffset, yOffset)`, lines 285-371, for a shape of
two integers: the maps of modes 1-3, of mode 4 and of the modes above.  `np.zeros` of a negative size raises `ValueError`. -/
noncomputable def genSplitWfe (useFCM : Bool) (maxNoll : ℤ) (coef : List ℝ) (diam : ℝ) (h w : ℤ) (xo yo : ℝ) :
    Res (Arr2 ℝ × Arr2 ℝ × Arr2 ℝ) :=
  if maxNoll ≤ 0 then .error .valueError
  else if diam ≤ 0 then .error .valueError
  else
    let z := fitLength maxNoll.toNat coef
    let nArray := max h w
    if useFCM = true then
      match z[3]? with
      | none => .error .indexError
      | some c4 => do
        let m4 ← genZernikes [4] [c4] xo yo diam nArray
        let wfeZ4 ← padCrop m4 [h, w] 0
        let m1 ← genZernikes [1, 2, 3] (z.take 3) xo yo diam nArray
        let wfeZ1to3 ← padCrop m1 [h, w] 0
        let m5 ← genZernikes (arangeIncl 5 maxNoll) (z.drop 4) xo yo diam nArray
        let wfeHi ← padCrop m5 [h, w] 0
        .ok (wfeZ1to3, wfeZ4, wfeHi)
    else if h < 0 ∨ w < 0 then .error .valueError
    else do
      let m1 ← genZernikes [1, 2, 3] (z.take 3) xo yo diam nArray
      let wfeZ1to3 ← padCrop m1 [h, w] 0
      let m4 ← genZernikes (arangeIncl 4 maxNoll) (z.drop 3) xo yo diam nArray
      let wfeHi ← padCrop m4 [h, w] 0
      .ok (wfeZ1to3, Arr2.full h.toNat w.toNat 0, wfeHi)

/-- `a[u]` for a boolean map `u` of the same shape: one value per selected pixel. -/
noncomputable def selectPx (u : Arr2 Bool) (a : Arr2 ℝ) : Selected u.val → ℝ := fun q => a.zext (q.1.1 : ℕ) (q.1.2 : ℕ)

open scoped Classical in
/-- `phase_cost_function(alpha, wfeZ4or5toZmax, wfeAboveZmax, usablePixelMap)`, lines 532-553, for a boolean map. -/
noncomputable def phaseCost (alpha : ℝ) (low high : Arr2 ℝ) (u : Arr2 Bool) : Res ℝ :=
  if alpha < 0 ∨ alpha > 1 then .error .valueError
  else if ¬ (low.nr = u.nr ∧ low.nc = u.nc) then .error .valueError
  else if ¬ (high.nr = u.nr ∧ high.nc = u.nc) then .error .valueError
  else .ok ((rms (fun q => selectPx u high q + alpha * selectPx u low q) - rms (fun q => (1 - alpha) * selectPx u low q)) ^ 2)

/-- One pixel of a boolean map used as a number. -/
def boolVal (u : Arr2 Bool) (i j : ℤ) : ℝ := if u.px i j = some true then 1 else 0

/-- `wfeAboveZmax`, line 169.  All maps have the shape of `wfeIn`. -/
noncomputable def aboveZmax (wfeIn z1to3 z4 low : Arr2 ℝ) (u : Arr2 Bool) : Arr2 ℝ :=
  ⟨wfeIn.nr, wfeIn.nc, fun i j =>
    (wfeIn.val i j - low.zext (i : ℕ) (j : ℕ) - z4.zext (i : ℕ) (j : ℕ) - z1to3.zext (i : ℕ) (j : ℕ)) *
      boolVal u (i : ℕ) (j : ℕ)⟩

open scoped Classical in
/-- The split of the wavefront between the two mirrors, lines 172-194.  `sh1`, `sh2` are the `(rows, columns)` used for the
maps of zeros when the mirrors are not used. -/
noncomputable def splitPhase (F : FminBound) (useDMs highZern : Bool) (low high : Arr2 ℝ) (u : Arr2 Bool) (sh1 sh2 : ℤ × ℤ) :
    Res (Arr2 ℝ × Arr2 ℝ) :=
  if useDMs = true then
    if highZern = true then do
      let alpha ← (if rms (selectPx u low) > rms (selectPx u high) then F.run (fun a => phaseCost a low high u) 0 1
        else .ok 0)
      .ok (⟨low.nr, low.nc, fun i j => alpha * low.val i j + high.zext (i : ℕ) (j : ℕ) * boolVal u (i : ℕ) (j : ℕ)⟩,
        ⟨low.nr, low.nc, fun i j => (1 - alpha) * low.val i j⟩)
    else .ok (low.map fun v => 0.5 * v, low.map fun v => 0.5 * v)
  else if sh1.1 < 0 ∨ sh1.2 < 0 ∨ sh2.1 < 0 ∨ sh2.2 < 0 then .error .valueError
  else .ok (Arr2.full sh1.1.toNat sh1.2.toNat 0, Arr2.full sh2.1.toNat sh2.2.toNat 0)

/-- The values `a[u == 1]`, in row-major order. -/
noncomputable def selectList (u : Arr2 Bool) (a : Arr2 ℝ) : List ℝ :=
  (List.finRange u.nr).flatMap fun i => (List.finRange u.nc).filterMap fun j =>
    if u.val i j then some (a.zext (i : ℕ) (j : ℕ)) else none

open scoped Classical in
/-- Lines 202-205 and 208-211: the phase limited to its range over the usable pixels; `np.min` of nothing raises
`ValueError`. -/
noncomputable def clampPhase (u : Arr2 Bool) (a : Arr2 ℝ) : Res (Arr2 ℝ) :=
  match (selectList u a).min?, (selectList u a).max? with
  | some lo, some hi =>
    .ok (a.map fun v =>
      let v1 := if v < lo then lo else v
      if v1 > hi then hi else v1)
  | _, _ => .error .valueError

/-- `smooth_surface(arrayIn, windowWidth)`, lines 392-399. -/
noncomputable def smoothSurface (B : BoxSmooth) (a : Arr2 ℝ) (width : ℤ) : Res (Arr2 ℝ) :=
  if width ≤ 0 then .error .valueError
  else padCrop (B.run width a) [a.nr, a.nc] 0

/-- `surf[u] = phase[u]/2`, lines 226-227 and 234-235. -/
noncomputable def resetPupil (u : Arr2 Bool) (phase surf : Arr2 ℝ) : Arr2 ℝ :=
  ⟨surf.nr, surf.nc, fun i j => if u.px (i : ℕ) (j : ℕ) = some true then phase.zext (i : ℕ) (j : ℕ) / 2 else surf.val i j⟩

/-- The loops of lines 222-227 and 230-235. -/
noncomputable def smoothLoop (B : BoxSmooth) (u : Arr2 Bool) (phase : Arr2 ℝ) (width : ℤ) : ℕ → Arr2 ℝ → Res (Arr2 ℝ)
  | 0, s => .ok s
  | n + 1, s => do
    let t ← smoothSurface B s width
    smoothLoop B u phase width n (resetPupil u phase t)

/-- The calibration data of one mirror: registration, influence function, tie map and gain map. -/
structure DmCal where
  nact : ℤ
  pitch : ℝ
  ppactCx : ℝ
  ppactCy : ℝ
  dx : ℝ
  dy : ℝ
  thact : ℝ
  ppactD : ℝ
  flipx : Bool
  inf : Arr2 ℝ
  tie : Arr2 ℤ
  gain : Arr2 ℝ

/-- The calibration data of the focus mechanism, lines 138-142. -/
structure FcmCal where
  focusPerStroke : ℝ
  strokePerStep : ℝ

/-- The fixed settings, lines 147-155. -/
structure FlattenCfg where
  maxNoll : ℤ
  nIterSmooth : ℤ
  nBin : ℤ
  arrayExtFac : ℝ

/-- `np.fliplr`. -/
def Arr2.fliplr {α : Type} (a : Arr2 α) : Arr2 α := ⟨a.nr, a.nc, fun i j => a.val i j.rev⟩

/-- Lines 476-485: entry `k` of the coordinate vector of an axis of length `n`. -/
noncomputable def surfCoord (n : ℕ) (ppact : ℝ) (k : ℕ) : ℝ :=
  (if n % 2 = 0 then (k : ℝ) - (n : ℝ) / 2 else (k : ℝ) - ((n : ℝ) - 1) / 2) / ppact

open scoped Classical in
/-- `conv_surf_to_dm_cmd(surfaceToFit, dm, data_path)`, lines 429-499.  The cubic spline needs at least four samples per axis;
FITPACK raises its own error otherwise (here `user 0`). -/
noncomputable def convSurfToDmCmd (S : Spline) (R : Rotate) (L : SpSolve) (surf : Arr2 ℝ) (dm : DmCal) : Res (Arr2 ℝ) :=
  if dm.pitch ≤ 0 ∨ dm.ppactCx ≤ 0 ∨ dm.ppactCy ≤ 0 ∨ dm.nact ≤ 0 ∨ dm.ppactD ≤ 0 then .error .valueError
  else if dm.inf.nr ≠ dm.inf.nc then .error .valueError
  else
    let s1 := if dm.flipx = true then surf.fliplr else surf
    let s2 := R.run dm.thact s1
    if s2.nr < 4 ∨ s2.nc < 4 then .error (.user 0)
    else
      let n := dm.nact.toNat
      let grid : Arr2 ℝ := ⟨n, n, fun i j =>
        S.eval (surfCoord s2.nr dm.ppactCy) (surfCoord s2.nc dm.ppactCx) s2
          (dmAxis n i + dm.dy / dm.ppactCy) (dmAxis n j + dm.dx / dm.ppactCx)⟩
      do
        let A ← buildPrefilter S n n dm.inf (dm.pitch / (dm.pitch / dm.ppactD))
        fitSurfToDm L grid A

/-- Is actuator `(i, j)` dead: `tiemap == -1`, lines 248 and 257. -/
def isDead (tie : Arr2 ℤ) (i j : ℤ) : Bool := decide (tie.px i j = some (-1))

/-- Lines 243-263: the heights `(hdm1, hdm2)` after the strokes of dead actuators have moved to the other mirror.  Boolean
indexing with a map of the wrong shape raises `IndexError`; mirrors of different sizes cannot be added (`ValueError`, also when
one of them is 1x1, because one of the two in-place additions then has the wrong output shape). -/
noncomputable def reassign (h1 h2 : Arr2 ℝ) (nact1 nact2 : ℕ) (tie1 tie2 : Arr2 ℤ) : Res (Arr2 ℝ × Arr2 ℝ) :=
  if ¬ (tie1.nr = nact1 ∧ tie1.nc = nact1) then .error .indexError
  else if ¬ (h1.nr = h2.nr ∧ h1.nc = h2.nc) then .error .valueError
  else if ¬ (tie2.nr = nact2 ∧ tie2.nc = nact2) then .error .indexError
  else
    let dead1 : ℤ → ℤ → ℝ := fun i j => if isDead tie1 i j then 1 else 0
    let dead2 : ℤ → ℤ → ℝ := fun i j => if isDead tie2 i j then 1 else 0
    let h2' : Arr2 ℝ := ⟨h2.nr, h2.nc, fun i j => h2.val i j + dead1 (i : ℕ) (j : ℕ) * h1.zext (i : ℕ) (j : ℕ)⟩
    let h1' : Arr2 ℝ := ⟨h1.nr, h1.nc, fun i j => h1.val i j + dead2 (i : ℕ) (j : ℕ) * h2'.zext (i : ℕ) (j : ℕ)⟩
    .ok (⟨h1'.nr, h1'.nc, fun i j => if isDead tie1 (i : ℕ) (j : ℕ) then 0 else h1'.val i j⟩,
      ⟨h2'.nr, h2'.nc, fun i j => if isDead tie2 (i : ℕ) (j : ℕ) then 0 else h2'.val i j⟩)

/-- `cmd - delta`, lines 274-275.  Simplification: numpy would broadcast a 1x1 array; here a shape mismatch is an error. -/
noncomputable def subCmd (cmd delta : Arr2 ℝ) : Res (Arr2 ℝ) :=
  if h : cmd.nr = delta.nr ∧ cmd.nc = delta.nc then
    .ok ⟨cmd.nr, cmd.nc, fun i j => cmd.val i j - delta.val (i.cast h.1) (j.cast h.2)⟩
  else .error .valueError

open scoped Classical in
/-- Lines 278-280: the new focus-mechanism command.  Division by a zero calibration factor gives an infinite or undefined
number, which `round` refuses (here `user 1`). -/
noncomputable def fcmStep (useFCM : Bool) (cmdFCM : ℤ) (z4 lam : ℝ) (fc : FcmCal) : Res ℤ :=
  if useFCM = true then
    if fc.focusPerStroke = 0 ∨ fc.strokePerStep = 0 then .error (.user 1)
    else .ok (npRound ((cmdFCM : ℝ) + z4 * lam / (2 * Real.pi) / fc.focusPerStroke / fc.strokePerStep))
  else .ok cmdFCM

/-- The external routines used by `flatten`. -/
structure FlattenEnv where
  spline : Spline
  rotate : Rotate
  spsolve : SpSolve
  smooth : BoxSmooth
  fmin : FminBound
  lstsq : Solver

/-- `(nyres, nxres)`, lines 127-132: `round` of twice the number of actuators times the pixels per actuator. -/
noncomputable def wfeShape (dm : DmCal) : ℤ × ℤ :=
  (npRound (2 * (dm.nact : ℝ) * dm.ppactCy), npRound (2 * (dm.nact : ℝ) * dm.ppactCx))

/-- `windowWidth`, lines 221 and 229. -/
noncomputable def smoothWidth (dm : DmCal) : ℤ := npRound (max dm.ppactCx dm.ppactCy)

/-- What `flatten` works out before it turns to the mirrors: the desired surfaces and the fitted coefficients. -/
structure FlattenWork (N : ℕ) where
  usable : Arr2 Bool
  coefs : Fin N → ℝ
  surf1 : Arr2 ℝ
  surf2 : Arr2 ℝ

/-- Lines 198-235 for one mirror: crop, limit to the range over the pupil, halve, and fill in outside the pupil. -/
noncomputable def desiredSurface (B : BoxSmooth) (highZern : Bool) (nIter : ℕ) (width nSmall : ℤ) (uCrop : Arr2 Bool)
    (phase : Arr2 ℝ) : Res (Arr2 ℝ) := do
  let p ← padCrop phase [nSmall, nSmall] 0
  let p0 ← clampPhase uCrop p
  let s0 := p0.map fun v => v / 2
  if highZern = true then smoothLoop B uCrop p0 width nIter s0 else .ok s0

open scoped Classical in
/-- Lines 98-235 of `flatten`: the two desired surfaces.  The order in which the two mirrors are processed matters only for
which of two identical exceptions is raised. -/
noncomputable def flattenSurfaces (E : FlattenEnv) (useDMs useFCM highZern : Bool) (amp ph : Arr2 ℝ) (diam xo yo : ℝ)
    (dm1 dm2 : DmCal) (cfg : FlattenCfg) : Res (FlattenWork cfg.maxNoll.toNat) :=
  if diam ≤ 0 then .error .valueError
  else if cfg.maxNoll ≤ 0 ∨ cfg.nIterSmooth ≤ 0 ∨ cfg.nBin ≤ 0 ∨ cfg.arrayExtFac ≤ 0 then .error .valueError
  else do
    let ny := max (wfeShape dm1).1 (wfeShape dm2).1
    let nx := max (wfeShape dm1).2 (wfeShape dm2).2
    let wfeIn ← padCrop ph [ny, nx] 0
    let ampIn ← padCrop amp [ny, nx] 0
    let u ← ampthresh ampIn cfg.nBin
    let c ← fitZernikes E.lstsq wfeIn u cfg.maxNoll diam xo yo
    let maps ← genSplitWfe useFCM cfg.maxNoll (List.ofFn c) diam ny nx xo yo
    let phases ← splitPhase E.fmin useDMs highZern maps.2.2 (aboveZmax wfeIn maps.1 maps.2.1 maps.2.2 u) u
      (wfeShape dm1) (wfeShape dm2)
    let nSmall := ceilOdd (cfg.arrayExtFac * diam)
    let uCrop ← padCrop u [nSmall, nSmall] false
    let s1 ← desiredSurface E.smooth highZern cfg.nIterSmooth.toNat (smoothWidth dm1) nSmall uCrop phases.1
    let s2 ← desiredSurface E.smooth highZern cfg.nIterSmooth.toNat (smoothWidth dm2) nSmall uCrop phases.2
    .ok ⟨uCrop, c, s1, s2⟩

/-- What `flatten` returns. -/
structure FlattenOut (N : ℕ) where
  cmd1 : Arr2 ℝ
  cmd2 : Arr2 ℝ
  fcm : ℤ
  coefs : Fin N → ℝ

open scoped Classical in
/-- `flatten(...)`, lines 24-282. -/
noncomputable def flatten (E : FlattenEnv) (cmd1 cmd2 : Arr2 ℝ) (cmdFCM : ℤ) (useDMs useFCM highZern : Bool) (lam : ℝ)
    (amp ph : Arr2 ℝ) (diam xo yo : ℝ) (dm1 dm2 : DmCal) (fc : FcmCal) (cfg : FlattenCfg) :
    Res (FlattenOut cfg.maxNoll.toNat) :=
  if cmd1.nr ≠ cmd1.nc ∨ cmd2.nr ≠ cmd2.nc ∨ lam ≤ 0 then .error .valueError
  else do
    let wk ← flattenSurfaces E useDMs useFCM highZern amp ph diam xo yo dm1 dm2 cfg
    let h1 ← convSurfToDmCmd E.spline E.rotate E.spsolve wk.surf1 dm1
    let h2 ← convSurfToDmCmd E.spline E.rotate E.spsolve wk.surf2 dm2
    let hh ← reassign h1 h2 dm1.nact.toNat dm2.nact.toNat dm1.tie dm2.tie
    let d1 ← dmhToVolts dm1.gain hh.1 lam
    let d2 ← dmhToVolts dm2.gain hh.2 lam
    let o1 ← subCmd cmd1 d1
    let o2 ← subCmd cmd2 d2
    let f ← fcmStep useFCM cmdFCM (((List.ofFn wk.coefs)[3]?).getD 0) lam fc
    .ok ⟨o1, o2, f, wk.coefs⟩

end Coralign
