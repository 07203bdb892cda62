import Verif.Model.BadPixelsFocal
import Verif.Model.DmReg
import Verif.Model.PlateSolv

/-!
# What NaN pixels do in the DM registration and in the plate scale search

Continues `Model/BadPixels` for `coralign/dmreg/dr_util.py`, `coralign/dmreg/dmreg.py` and `coralign/platesolv/platesolv.py`.
As in `Model/BadPixelsFocal`, `nanFit` says what the external least-squares routine does with a NaN sample: it raises the
exception, or (`none`) it returns NaN for every coefficient.
-/

namespace Coralign

open scoped Classical in
/-- `remove_piston_tip_tilt`, `coralign/dmreg/dr_util.py` lines 24-53, for a boolean mask and an array with NaN pixels.  Line 47 gives
the fit the pixels on the mask only, but line 51 multiplies every pixel by the mask, and `False * nan` is NaN. -/
noncomputable def removePistonTipTiltN (S : Solver) (nanFit : Option PyExc) (arr : Arr2 (Fl ℝ)) (mask : Arr2 Bool) : Res (Arr2 (Fl ℝ)) :=
  if h : arr.nr = mask.nr ∧ arr.nc = mask.nc then
    let k : Fin arr.nr → Fin arr.nc → Bool := fun i j => mask.val (i.cast h.1) (j.cast h.2)
    if ∃ i j, k i j = true ∧ arr.val i j = .nan then
      match nanFit with
      | some e => .error e
      | none => .ok ⟨arr.nr, arr.nc, fun _ _ => .nan⟩
    else
      let p := pttCoeffs S arr.denan.val k
      .ok ⟨arr.nr, arr.nc, fun i j => .num (if k i j = true then 1 else 0) *
        (arr.val i j + .num (-(p 0 * pttCoord arr.nc j + p 1 * pttCoord arr.nr i + p 2)))⟩
  else .error .valueError

/-- `a - b` for arrays of one shape with NaN pixels. -/
noncomputable def subPxN (a b : Arr2 (Fl ℝ)) : Arr2 (Fl ℝ) :=
  ⟨a.nr, a.nc, fun i j => a.val i j + ((b.px (i : ℕ) (j : ℕ)).getD 0).neg⟩

/-- `usablePixelMap[np.abs(phDiff) > thresh] = False`, `coralign/dmreg/dmreg.py` line 86: the comparison is false for NaN. -/
noncomputable def dropLargeN (m : Arr2 Bool) (ph : Arr2 (Fl ℝ)) (thresh : ℝ) : Arr2 Bool :=
  ⟨m.nr, m.nc, fun i j =>
    open Classical in
    if (((ph.px (i : ℕ) (j : ℕ)).getD 0).map fun v : ℝ => |v|).gt (.num thresh) then false else m.val i j⟩

/-- `calc_software_mask`, `coralign/dmreg/dmreg.py` lines 61-93, with NaN pixels (`calcSoftwareMask` of `Model/SoftwareMask`). -/
noncomputable def calcSoftwareMaskN (S : Solver) (nanFit : Option PyExc) (amp0 ph0 amp1 ph1 : Arr2 (Fl ℝ)) (whichDM nErode : ℤ)
    (deltaPhaseThresh : ℝ) : Res (Arr2 Bool) :=
  if amp0.nr ≠ ph0.nr ∨ amp0.nc ≠ ph0.nc then .error .valueError
  else if amp0.nr ≠ amp1.nr ∨ amp0.nc ≠ amp1.nc then .error .valueError
  else if ph0.nr ≠ ph1.nr ∨ ph0.nc ≠ ph1.nc then .error .valueError
  else if ¬ (whichDM = 1 ∨ whichDM = 2) then .error .valueError
  else if nErode < 0 then .error .valueError
  else if deltaPhaseThresh ≤ 0 then .error .valueError
  else do
    let t ← ampthreshN amp0 21
    let r ← removePistonTipTiltN S nanFit (subPxN ph1 ph0) t
    .ok (erode (dropLargeN t r deltaPhaseThresh) (squareElem nErode.toNat))

/-- The arrays handed to `calc_translation_clocking` and `calc_scale`, with NaN pixels. -/
structure PhaseDataN where
  amp0 : Arr2 (Fl ℝ)
  ph0 : Arr2 (Fl ℝ)
  amp1 : Arr2 (Fl ℝ)
  ph1 : Arr2 (Fl ℝ)
  usable : Arr2 Bool

/-- The shape checks of `dmreg.py` lines 176-188 and 387-399. -/
def PhaseDataN.shapesDiffer (d : PhaseDataN) : Prop :=
  ¬ (d.amp0.nr = d.ph0.nr ∧ d.amp0.nc = d.ph0.nc) ∨ ¬ (d.amp0.nr = d.amp1.nr ∧ d.amp0.nc = d.amp1.nc) ∨
  ¬ (d.amp0.nr = d.ph1.nr ∧ d.amp0.nc = d.ph1.nc) ∨ ¬ (d.amp0.nr = d.usable.nr ∧ d.amp0.nc = d.usable.nc)

instance (d : PhaseDataN) : Decidable d.shapesDiffer := by unfold PhaseDataN.shapesDiffer; infer_instance

/-- `phDiffMeas`, `dmreg.py` lines 235-237 and 438-440. -/
noncomputable def measuredDiffN (S : Solver) (nanFit : Option PyExc) (d : PhaseDataN) : Res (Arr2 (Fl ℝ)) :=
  removePistonTipTiltN S nanFit ((subPxN d.ph1 d.ph0).map (Fl.map wrapPhase)) d.usable

/-- `np.sum(usablePixelMap * np.abs(phDiffMeas - phDiffSim))`, `dmreg.py` lines 265-266, 296-297 and 460-461. -/
noncomputable def misfitN (usable : Arr2 Bool) (meas sim : Arr2 (Fl ℝ)) : Fl ℝ :=
  ∑ i : Fin usable.nr, ∑ j : Fin usable.nc, .num (if usable.val i j = true then 1 else 0) *
    ((meas.px (i : ℕ) (j : ℕ)).getD 0 + ((sim.px (i : ℕ) (j : ℕ)).getD 0).neg).map fun v : ℝ => |v|

/-- The DM surface at a registration which may be NaN, after a NaN has come out of an earlier fit.  `dmhtoph` is the model of
`Model/Dmhtoph` at numbers; what the external interpolation routines do with a NaN is a parameter, `atNan`. -/
noncomputable def surfaceN (atNan : Fl ℝ → Fl ℝ → Fl ℝ → Res (Arr2 (Fl ℝ))) (f : ℝ → ℝ → ℝ → Res (Arr2 ℝ)) : Fl ℝ → Fl ℝ → Fl ℝ → Res (Arr2 (Fl ℝ))
  | .num x, .num y, .num z => (f x y z).map Arr2.nums
  | x, y, z => atNan x y z

section
variable (Sp : Spline) (R : Rotate) (T : Shift) (S : Solver) (nanFit : Option PyExc) (atNan : Fl ℝ → Fl ℝ → Fl ℝ → Res (Arr2 (Fl ℝ)))

/-- `dmreg.py` lines 255-266, with NaN pixels. -/
noncomputable def offsetCostN (usable : Arr2 Bool) (meas : Arr2 (Fl ℝ)) (dmrad : Arr2 ℝ) (c : DmReg) (th x y : Fl ℝ) : Res (Fl ℝ) := do
  let sim ← surfaceN atNan (fun x y th => dmhtoph Sp R T usable.nr usable.nc dmrad c.nact c.inf c.ppactD c.cx c.cy x y th c.flipx) x y th
  let sim ← removePistonTipTiltN S nanFit (sim.map (Fl.map fun v : ℝ => v * 2)) usable
  .ok (misfitN usable meas sim)

/-- `dmreg.py` lines 289-297, with NaN pixels. -/
noncomputable def clockCostN (usable : Arr2 Bool) (meas : Arr2 (Fl ℝ)) (dmrad : Arr2 ℝ) (c : DmReg) (x y th : Fl ℝ) : Res (Fl ℝ) := do
  let sim ← surfaceN atNan (fun x y th => dmhtoph Sp R T usable.nr usable.nc dmrad c.nact c.inf c.ppactD c.cx c.cy x y th c.flipx) x y th
  .ok (misfitN usable meas sim)

/-- `dmreg.py` lines 450-461, with NaN pixels; `cx` and `cy` may be NaN, the third argument of `surfaceN` is not used. -/
noncomputable def scaleCostN (usable : Arr2 Bool) (meas : Arr2 (Fl ℝ)) (dmrad : Arr2 ℝ) (c : DmReg) (dx dy th : ℝ) (cx cy : Fl ℝ) : Res (Fl ℝ) := do
  let sim ← surfaceN atNan (fun cx cy _ => scaleSim Sp R T usable.nr usable.nc dmrad c dx dy th cx cy) cx cy (.num 0)
  let sim ← removePistonTipTiltN S nanFit sim usable
  .ok (misfitN usable meas sim)

end

/-- `np.unravel_index(np.argmin(costMat), costMat.shape)` and the values there, `dmreg.py` lines 271-273 and 464-466: `np.argmin`
returns the first NaN if there is one. -/
noncomputable def gridArgminN (xs ys : List ℝ) (cost : Arr2 (Fl ℝ)) : ℝ × ℝ :=
  let b := argmax2N (cost.map Fl.neg)
  (xs.getD b.2 0, ys.getD b.1 0)

/-- `clockVec[np.argmin(costVec)]`, `dmreg.py` lines 302-303. -/
noncomputable def lineArgminN (xs : List ℝ) (cost : List (Fl ℝ)) : ℝ :=
  xs.getD (argmaxUptoN (fun k => (cost.getD k (.num 0)).neg) (cost.length - 1)) 0

/-- The translation loop, `dmreg.py` lines 252-282 (`offsetLoop` of `Model/DmReg`). -/
noncomputable def offsetLoopN (S : Solver) (nanFit : Option PyExc) (cost : Fl ℝ → Fl ℝ → Res (Fl ℝ)) (t : ClockTuning) :
    ℕ → ℕ → List ℝ × List ℝ → Fl ℝ × Fl ℝ → Res ((List ℝ × List ℝ) × (Fl ℝ × Fl ℝ))
  | 0, _, v, est => .ok (v, est)
  | left + 1, iter, v, est => do
    let m ← costGridN (v.1.map .num) (v.2.map .num) fun x y => cost (est.1 + x) (est.2 + y)
    let d ← if iter = 0 ∧ t.nIterOffset > 1 then .ok ((.num (gridArgminN v.1 v.2 m).1, .num (gridArgminN v.1 v.2 m).2) : Fl ℝ × Fl ℝ)
      else gridFitN S nanFit (v.1.map .num) (v.2.map .num) m
    let w := (linspaceList (-t.offsetMax) t.offsetMax t.nOffset.toNat).map fun z : ℝ => t.shrinkFac ^ iter * z
    offsetLoopN S nanFit cost t left (iter + 1) (w, w) (est.1 + d.1, est.2 + d.2)

/-- The clocking loop, `dmreg.py` lines 285-305 (`clockLoop` of `Model/DmReg`). -/
noncomputable def clockLoopN (S : Solver) (nanFit : Option PyExc) (cost : Fl ℝ → Res (Fl ℝ)) (t : ClockTuning) : ℕ → ℕ → Fl ℝ → Res (Fl ℝ)
  | 0, _, est => .ok est
  | left + 1, iter, est => do
    let v := linspaceList (-t.clockMaxDeg) t.clockMaxDeg t.nClock.toNat
    let m ← (v.map fun z : ℝ => t.shrinkFac ^ iter * z).mapM fun z => cost (.num z + est)
    let d ← if iter = 0 ∧ t.nIterClock > 1 then .ok (.num (lineArgminN v m)) else findOptimum1dN S nanFit (v.map .num) m
    clockLoopN S nanFit cost t left (iter + 1) (est + d)

/-- The outer loop, `dmreg.py` lines 249-305. -/
noncomputable def bothLoopN (S : Solver) (nanFit : Option PyExc) (oCost cCost : Fl ℝ → Fl ℝ → Fl ℝ → Res (Fl ℝ)) (t : ClockTuning) :
    ℕ → List ℝ × List ℝ → Fl ℝ × Fl ℝ → Fl ℝ → Res (Fl ℝ × Fl ℝ × Fl ℝ)
  | 0, _, est, th => .ok (est.1, est.2, th)
  | left + 1, v, est, th => do
    let r ← offsetLoopN S nanFit (oCost th) t t.nIterOffset.toNat 0 v est
    let th' ← clockLoopN S nanFit (cCost r.2.1 r.2.2) t t.nIterClock.toNat 0 th
    bothLoopN S nanFit oCost cCost t left r.1 r.2 th'

/-- `calc_translation_clocking`, `dmreg.py` lines 176-307, with NaN pixels (`calcTranslationClocking` of `Model/DmReg`). -/
noncomputable def calcTranslationClockingN (Sp : Spline) (R : Rotate) (T : Shift) (S : Solver) (nanFit : Option PyExc)
    (atNan : Fl ℝ → Fl ℝ → Fl ℝ → Res (Arr2 (Fl ℝ))) (d : PhaseDataN) (whichDM : ℤ)
    (deltaV : Arr2 ℝ) (xPupil yPupil : ℝ) (dm1 dm2 : DmReg) (t : ClockTuning) (lam : ℝ) : Res (Fl ℝ × Fl ℝ × Fl ℝ) :=
  if d.shapesDiffer then .error .valueError
  else if ¬ (whichDM = 1 ∨ whichDM = 2) then .error .valueError
  else if deltaV.nr ≠ deltaV.nc then .error .valueError
  else if lam ≤ 0 then .error .valueError
  else if t.nIterBoth ≤ 0 ∨ t.nOffset ≤ 0 ∨ t.nIterOffset ≤ 0 ∨ t.shrinkFac ≤ 0 ∨ t.shrinkFac > 1 ∨ t.nClock ≤ 0 ∨ t.nIterClock ≤ 0 then
    .error .valueError
  else do
    let c := if whichDM = 1 then dm1 else dm2
    let dmrad ← voltsToDmh c.gain deltaV lam
    let meas ← measuredDiffN S nanFit d
    let v := linspaceList (-t.offsetMax) t.offsetMax t.nOffset.toNat
    bothLoopN S nanFit (offsetCostN Sp R T S nanFit atNan d.usable meas dmrad c) (clockCostN Sp R T atNan d.usable meas dmrad c) t
      t.nIterBoth.toNat (v, v) (.num xPupil, .num yPupil) (.num c.thact)

/-- The loop of `dmreg.py` lines 447-474 (`scaleLoop` of `Model/DmReg`). -/
noncomputable def scaleLoopN (S : Solver) (nanFit : Option PyExc) (cost : Fl ℝ → Fl ℝ → Res (Fl ℝ)) (t : ScaleTuning) :
    ℕ → ℕ → ℝ → Fl ℝ × Fl ℝ → Res (Fl ℝ × Fl ℝ)
  | 0, _, _, sc => .ok sc
  | left + 1, iter, delta, sc => do
    let v := linspaceList (1 - delta) (1 + delta) t.nScale.toNat
    let m ← costGridN (v.map .num) (v.map .num) fun x y => cost (x * sc.1) (y * sc.2)
    let r ← if iter = 0 ∧ t.nIter > 1 then .ok ((.num (gridArgminN v v m).1, .num (gridArgminN v v m).2) : Fl ℝ × Fl ℝ)
      else gridFitN S nanFit (v.map .num) (v.map .num) m
    scaleLoopN S nanFit cost t left (iter + 1) (t.shrinkFac * delta) (r.1 * sc.1, r.2 * sc.2)

/-- `calc_scale`, `dmreg.py` lines 387-479, with NaN pixels (`calcScale` of `Model/DmReg`). -/
noncomputable def calcScaleN (Sp : Spline) (R : Rotate) (T : Shift) (S : Solver) (nanFit : Option PyExc)
    (atNan : Fl ℝ → Fl ℝ → Fl ℝ → Res (Arr2 (Fl ℝ))) (d : PhaseDataN) (whichDM : ℤ) (deltaV : Arr2 ℝ)
    (dm1 dm2 : DmReg) (t : ScaleTuning) (lam xOffset yOffset clocking : ℝ) : Res (Fl ℝ × Fl ℝ) :=
  if d.shapesDiffer then .error .valueError
  else if ¬ (whichDM = 1 ∨ whichDM = 2) then .error .valueError
  else if deltaV.nr ≠ deltaV.nc then .error .valueError
  else if lam ≤ 0 then .error .valueError
  else if t.nScale ≤ 0 ∨ t.nIter ≤ 0 ∨ t.shrinkFac ≤ 0 ∨ t.shrinkFac > 1 then .error .valueError
  else do
    let c := if whichDM = 1 then dm1 else dm2
    let dmrad ← voltsToDmh c.gain deltaV lam
    let meas ← measuredDiffN S nanFit d
    let r ← scaleLoopN S nanFit (fun x y => scaleCostN Sp R T S nanFit atNan d.usable meas dmrad c xOffset yOffset clocking
      (x * .num c.cx) (y * .num c.cy)) t t.nIter.toNat 0 t.maxDelta (.num 1, .num 1)
    .ok (r.1 * .num c.cx, r.2 * .num c.cy)

/-! ### `platesolv` -/

open scoped Classical in
/-- One pass of the loop of `coralign/platesolv/platesolv.py`, lines 124-143, with NaN pixels (`plateResidual` of `Model/PlateSolv`): a NaN in
the recorded image makes its percentile NaN, one in the simulated image makes every pixel of the trial image NaN, and the standard
deviation is NaN in either case. -/
noncomputable def plateResidualN (img guess : Arr2 (Fl ℝ)) (ref : Arr2 ℂ) (pixperpupil pct p : ℝ) : Res (Option ℝ) := do
  let r ← plateResidual img.denan guess.denan ref pixperpupil pct p
  if HasNan img ∨ HasNan guess then .ok none else .ok r

open scoped Classical in
/-- `platesolv`, `coralign/platesolv/platesolv.py` lines 75-154, with NaN pixels (`platesolv` of `Model/PlateSolv`).  The checks do not look
at the pixels; `interp1d` of residuals with a NaN is NaN everywhere, and no point equals the minimum NaN (line 152). -/
noncomputable def platesolvN (I : Interp1d) (img guess : Arr2 (Fl ℝ)) (pg : ℝ) (c : PlateConsts) : Res (List ℝ × List ℝ × List (Option ℝ)) :=
  if pg ≤ 0 then .error plateSolvException
  else if img.nr ≠ guess.nr ∨ img.nc ≠ guess.nc then .error plateSolvException
  else match c.psWid, c.nTrials, c.percentileVal, c.interpStep with
    | some w, some n, some pct, some step =>
      if n = 0 then .error .zeroDivisionError
      else do
        let wid := pg * w
        let pix ← arange .zeroDivisionError (pg - wid) (pg + wid) (wid / (n / 2))
        let ppp : ℝ := ((max guess.nr guess.nc : ℕ) : ℝ)
        let ref ← doImft (guess.denan.map fun v : ℝ => (v : ℂ)) guess.nr guess.nc pg ppp
        let resid ← pix.mapM fun p => plateResidualN img guess ref ppp pct p
        match pix.min?, pix.max? with
        | some lo, some hi => do
          let xs ← arange .valueError lo hi step
          if pix.length < 4 then .error .valueError
          else if xs = [] then .error .valueError
          else match resid.mapM id with
            | none => .ok ([], pix, resid)
            | some ys =>
              let f := I.eval pix ys
              let low := ((xs.map f).min?).getD 0
              .ok (xs.filter fun x => f x = low, pix, resid)
        | _, _ => .error .valueError
    | _, _, _, _ => .error plateSolvException

end Coralign
