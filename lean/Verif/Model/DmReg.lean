import Verif.Model.GridSearch
import Verif.Model.Dmhtoph
import Verif.Model.DmShapes
import Verif.Model.SoftwareMask
import Mathlib.Analysis.SpecialFunctions.Complex.Arg

/-!
# Model of `calc_translation_clocking` and `calc_scale` in `coralign/dmreg/dmreg.py`

The YAML and FITS files are represented by the values read from them.  `usablePixelMap` is boolean, as documented.
-/

namespace Coralign

/-- The phase-retrieval arrays handed to both functions. -/
structure PhaseData where
  amp0 : Arr2 ℝ
  ph0 : Arr2 ℝ
  amp1 : Arr2 ℝ
  ph1 : Arr2 ℝ
  usable : Arr2 Bool

/-- The values read from the DM calibration file for one DM (`dmr` and the gain map), lines 220-232 and 423-434. -/
structure DmReg where
  gain : Arr2 ℝ
  inf : Arr2 ℝ
  nact : ℤ
  ppactD : ℤ
  cx : ℝ
  cy : ℝ
  thact : ℝ
  flipx : Bool

/-- The tuning values of `calc_translation_clocking`, lines 200-207. -/
structure ClockTuning where
  nIterBoth : ℤ
  offsetMax : ℝ
  nOffset : ℤ
  nIterOffset : ℤ
  shrinkFac : ℝ
  clockMaxDeg : ℝ
  nClock : ℤ
  nIterClock : ℤ

/-- The tuning values of `calc_scale`, lines 412-415. -/
structure ScaleTuning where
  maxDelta : ℝ
  nScale : ℤ
  nIter : ℤ
  shrinkFac : ℝ

/-- The shape checks of lines 176-188 and 387-399. -/
def PhaseData.shapesDiffer (d : PhaseData) : Prop :=
  ¬ (d.amp0.nr = d.ph0.nr ∧ d.amp0.nc = d.ph0.nc) ∨ ¬ (d.amp0.nr = d.amp1.nr ∧ d.amp0.nc = d.amp1.nc) ∨
  ¬ (d.amp0.nr = d.ph1.nr ∧ d.amp0.nc = d.ph1.nc) ∨ ¬ (d.amp0.nr = d.usable.nr ∧ d.amp0.nc = d.usable.nc)

instance (d : PhaseData) : Decidable d.shapesDiffer := by unfold PhaseData.shapesDiffer; infer_instance

/-- `np.angle(np.exp(1j*v))`, lines 236 and 439. -/
noncomputable def wrapPhase (v : ℝ) : ℝ := Complex.arg (Complex.exp (Complex.I * v))

/-- `phDiffMeas`, lines 235-237 and 438-440. -/
noncomputable def measuredDiff (S : Solver) (d : PhaseData) : Res (Arr2 ℝ) :=
  removePistonTipTilt S ((d.ph1.subPx d.ph0).map wrapPhase) d.usable

/-- `np.sum(usablePixelMap * np.abs(phDiffMeas - phDiffSim))`, lines 265-266, 296-297 and 460-461, for arrays of one shape. -/
noncomputable def misfit (usable : Arr2 Bool) (meas sim : Arr2 ℝ) : ℝ :=
  ∑ i : Fin usable.nr, ∑ j : Fin usable.nc,
    if usable.val i j = true then |meas.zext (i : ℕ) (j : ℕ) - sim.zext (i : ℕ) (j : ℕ)| else 0

section
variable (Sp : Spline) (R : Rotate) (T : Shift) (S : Solver)

/-- Lines 255-266: the misfit of the translation search, with twice the surface and without piston, tip and tilt. -/
noncomputable def offsetCost (usable : Arr2 Bool) (meas dmrad : Arr2 ℝ) (c : DmReg) (th x y : ℝ) : Res ℝ := do
  let sim ← dmhtoph Sp R T usable.nr usable.nc dmrad c.nact c.inf c.ppactD c.cx c.cy x y th c.flipx
  let sim ← removePistonTipTilt S (sim.map fun v : ℝ => v * 2) usable
  .ok (misfit usable meas sim)

/-- Lines 289-297: the misfit of the clocking search, with the surface itself. -/
noncomputable def clockCost (usable : Arr2 Bool) (meas dmrad : Arr2 ℝ) (c : DmReg) (x y th : ℝ) : Res ℝ := do
  let sim ← dmhtoph Sp R T usable.nr usable.nc dmrad c.nact c.inf c.ppactD c.cx c.cy x y th c.flipx
  .ok (misfit usable meas sim)

/-- Lines 450-458: the simulated phase of the scale search.  The two image dimensions are passed to `dmhtoph` in the opposite order. -/
noncomputable def scaleSim (nrow ncol : ℤ) (dmrad : Arr2 ℝ) (c : DmReg) (dx dy th cx cy : ℝ) : Res (Arr2 ℝ) := do
  let sim ← dmhtoph Sp R T ncol nrow dmrad c.nact c.inf c.ppactD cx cy dx dy th false
  padCrop (sim.map fun v : ℝ => v * 2) [nrow, ncol] 0

/-- Lines 450-461: the misfit of the scale search. -/
noncomputable def scaleCost (usable : Arr2 Bool) (meas dmrad : Arr2 ℝ) (c : DmReg) (dx dy th cx cy : ℝ) : Res ℝ := do
  let sim ← scaleSim Sp R T usable.nr usable.nc dmrad c dx dy th cx cy
  let sim ← removePistonTipTilt S sim usable
  .ok (misfit usable meas sim)

end

/-- The translation loop, lines 252-282.  The arguments are the iterations left, `iterOffset`, `(xOffsetVec, yOffsetVec)` and
`(xOffsetEst, yOffsetEst)`; the vectors are returned because the next round of the outer loop starts with them. -/
noncomputable def offsetLoop (S : Solver) (cost : ℝ → ℝ → Res ℝ) (t : ClockTuning) :
    ℕ → ℕ → List ℝ × List ℝ → ℝ × ℝ → Res ((List ℝ × List ℝ) × (ℝ × ℝ))
  | 0, _, v, est => .ok (v, est)
  | left + 1, iter, v, est => do
    let m ← costGrid v.1 v.2 fun x y => cost (est.1 + x) (est.2 + y)
    let d ← if iter = 0 ∧ t.nIterOffset > 1 then .ok (gridArgmin v.1 v.2 m) else gridFit S v.1 v.2 m
    let w := (linspaceList (-t.offsetMax) t.offsetMax t.nOffset.toNat).map fun z : ℝ => t.shrinkFac ^ iter * z
    offsetLoop S cost t left (iter + 1) (w, w) (est.1 + d.1, est.2 + d.2)

/-- The clocking loop, lines 285-305.  The arguments are the iterations left, `iterClock` and `clockEst`.  The trial angles are shrunk
(line 289), the vector given to the fit is not (lines 303 and 305). -/
noncomputable def clockLoop (S : Solver) (cost : ℝ → Res ℝ) (t : ClockTuning) : ℕ → ℕ → ℝ → Res ℝ
  | 0, _, est => .ok est
  | left + 1, iter, est => do
    let v := linspaceList (-t.clockMaxDeg) t.clockMaxDeg t.nClock.toNat
    let m ← (v.map fun z : ℝ => t.shrinkFac ^ iter * z).mapM fun z => cost (z + est)
    let d ← if iter = 0 ∧ t.nIterClock > 1 then .ok (lineArgmin v m) else findOptimum1d S v m
    clockLoop S cost t left (iter + 1) (est + d)

/-- The outer loop, lines 249-305. -/
noncomputable def bothLoop (S : Solver) (oCost : ℝ → ℝ → ℝ → Res ℝ) (cCost : ℝ → ℝ → ℝ → Res ℝ) (t : ClockTuning) :
    ℕ → List ℝ × List ℝ → ℝ × ℝ → ℝ → Res (ℝ × ℝ × ℝ)
  | 0, _, est, th => .ok (est.1, est.2, th)
  | left + 1, v, est, th => do
    let r ← offsetLoop S (oCost th) t t.nIterOffset.toNat 0 v est
    let th' ← clockLoop S (cCost r.2.1 r.2.2) t t.nIterClock.toNat 0 th
    bothLoop S oCost cCost t left r.1 r.2 th'

/-- `calc_translation_clocking`, lines 176-307. -/
noncomputable def calcTranslationClocking (Sp : Spline) (R : Rotate) (T : Shift) (S : Solver) (d : PhaseData) (whichDM : ℤ)
    (deltaV : Arr2 ℝ) (xPupil yPupil : ℝ) (dm1 dm2 : DmReg) (t : ClockTuning) (lam : ℝ) : Res (ℝ × ℝ × ℝ) :=
  if d.shapesDiffer then .error .valueError
  else if ¬ (whichDM = 1 ∨ whichDM = 2) then .error .valueError
  else if deltaV.nr ≠ deltaV.nc then .error .valueError
  else if lam ≤ 0 then .error .valueError
  else if t.nIterBoth ≤ 0 ∨ t.nOffset ≤ 0 ∨ t.nIterOffset ≤ 0 ∨ t.shrinkFac ≤ 0 ∨ t.shrinkFac > 1 ∨ t.nClock ≤ 0 ∨ t.nIterClock ≤ 0 then
    .error .valueError
  else do
    let c := if whichDM = 1 then dm1 else dm2
    let dmrad ← voltsToDmh c.gain deltaV lam
    let meas ← measuredDiff S d
    let v := linspaceList (-t.offsetMax) t.offsetMax t.nOffset.toNat
    bothLoop S (offsetCost Sp R T S d.usable meas dmrad c) (clockCost Sp R T d.usable meas dmrad c) t t.nIterBoth.toNat (v, v)
      (xPupil, yPupil) c.thact

/-- The loop of lines 447-474.  The arguments are the iterations left, `iter_`, `maxDeltaScaleFac` and `(xScale, yScale)`. -/
noncomputable def scaleLoop (S : Solver) (cost : ℝ → ℝ → Res ℝ) (t : ScaleTuning) : ℕ → ℕ → ℝ → ℝ × ℝ → Res (ℝ × ℝ)
  | 0, _, _, sc => .ok sc
  | left + 1, iter, delta, sc => do
    let v := linspaceList (1 - delta) (1 + delta) t.nScale.toNat
    let m ← costGrid v v fun x y => cost (x * sc.1) (y * sc.2)
    let r ← if iter = 0 ∧ t.nIter > 1 then .ok (gridArgmin v v m) else gridFit S v v m
    scaleLoop S cost t left (iter + 1) (t.shrinkFac * delta) (r.1 * sc.1, r.2 * sc.2)

/-- `calc_scale`, lines 387-479.  `flipx` is `False` (line 436). -/
noncomputable def calcScale (Sp : Spline) (R : Rotate) (T : Shift) (S : Solver) (d : PhaseData) (whichDM : ℤ) (deltaV : Arr2 ℝ)
    (dm1 dm2 : DmReg) (t : ScaleTuning) (lam xOffset yOffset clocking : ℝ) : Res (ℝ × ℝ) :=
  if d.shapesDiffer then .error .valueError
  else if ¬ (whichDM = 1 ∨ whichDM = 2) then .error .valueError
  else if deltaV.nr ≠ deltaV.nc then .error .valueError
  else if lam ≤ 0 then .error .valueError
  else if t.nScale ≤ 0 ∨ t.nIter ≤ 0 ∨ t.shrinkFac ≤ 0 ∨ t.shrinkFac > 1 then .error .valueError
  else do
    let c := if whichDM = 1 then dm1 else dm2
    let dmrad ← voltsToDmh c.gain deltaV lam
    let meas ← measuredDiff S d
    let r ← scaleLoop S (fun x y => scaleCost Sp R T S d.usable meas dmrad c xOffset yOffset clocking (x * c.cx) (y * c.cy)) t
      t.nIter.toNat 0 t.maxDelta (1, 1)
    .ok (r.1 * c.cx, r.2 * c.cy)

end Coralign
