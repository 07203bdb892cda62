import Verif.Model.GridSearch
import Verif.Model.FocalFit

/-!
# Model of `coralign/occastro/occastro.py`

The tuning file is represented by the values read from it; `probeRotVecDeg` is a list of angles which passed `check.oneD_array`.
-/

namespace Coralign

/-- `a + b` for arrays of the same shape. -/
noncomputable def Arr2.addPx (a b : Arr2 ℝ) : Arr2 ℝ :=
  ⟨a.nr, a.nc, fun i j => a.val i j + (b.px (i : ℕ) (j : ℕ)).getD 0⟩

/-- The mask of all regions of interest around the position `(xc, yc)`, `coralign/occastro/occastro.py` lines 112-131 and 243-262. -/
noncomputable def roiMask (nx ny : ℤ) (radius : ℝ) (nSub : ℤ) (rots : List ℝ) (sep xc yc : ℝ) : Res (Arr2 ℝ) :=
  rots.foldlM (fun mask rotDeg => do
    let rot := Real.pi / 180 * rotDeg
    let plus ← circle nx ny radius (Real.cos rot * sep + xc) (Real.sin rot * sep + yc) nSub false
    let minus ← circle nx ny radius (Real.cos (rot + Real.pi) * sep + xc) (Real.sin (rot + Real.pi) * sep + yc) nSub false
    .ok ((mask.addPx plus).addPx minus)) (Arr2.full ny.toNat nx.toNat 0)

/-- `np.sum(roiMask * spotArray)`, lines 112-133 and 243-264. -/
noncomputable def roiEnergy (img : Arr2 ℝ) (radius : ℝ) (nSub : ℤ) (rots : List ℝ) (sep xc yc : ℝ) : Res ℝ := do
  let mask ← roiMask img.nc img.nr radius nSub rots sep xc yc
  .ok (roiSum mask img)

/-- The contents of the tuning files, lines 74-81 and 213-220.  `sepPix` is `spotSepPix` for the star location and `spotSepGuessPix` for
the spot separation. -/
structure StarTuning where
  sepPix : ℝ
  roiRadiusPix : ℝ
  probeRotVecDeg : List ℝ
  nSubpixels : ℤ
  nSteps : ℤ
  stepSize : ℝ
  nIter : ℤ

/-- The loop of `calc_star_location_from_spots`, lines 96-140. -/
noncomputable def starLoop (S : Solver) (cost : ℝ → ℝ → Res ℝ) (nSteps : ℕ) (step : ℝ) : ℕ → ℝ × ℝ → Res (ℝ × ℝ)
  | 0, est => .ok est
  | n + 1, est => do
    let xs := stepVec nSteps step est.1
    let ys := stepVec nSteps step est.2
    let c ← costGrid xs ys cost
    let est' ← gridFit S xs ys c
    starLoop S cost nSteps step n est'

/-- `calc_star_location_from_spots(spotArray, xOffsetGuess, yOffsetGuess, fnYAML)`, lines 69-142. -/
noncomputable def calcStarLocation (S : Solver) (img : Arr2 ℝ) (xGuess yGuess : ℝ) (t : StarTuning) : Res (ℝ × ℝ) :=
  if t.sepPix ≤ 0 ∨ t.roiRadiusPix ≤ 0 ∨ t.nSubpixels ≤ 0 ∨ t.nSteps ≤ 0 ∨ t.stepSize ≤ 0 ∨ t.nIter ≤ 0 then .error .typeError
  else
    starLoop S (fun x y => roiEnergy img t.roiRadiusPix t.nSubpixels t.probeRotVecDeg t.sepPix (xGuess + x) (yGuess + y))
      t.nSteps.toNat t.stepSize t.nIter.toNat (0, 0)

/-- The loop of `calc_spot_separation`, lines 234-272, after the first iteration. -/
noncomputable def sepLoop (S : Solver) (cost : ℝ → Res ℝ) (nSteps : ℕ) (step : ℝ) : ℕ → ℝ → Res ℝ
  | 0, est => .ok est
  | n + 1, est => do
    let seps := stepVec nSteps step est
    let c ← seps.mapM cost
    let est' ← findOptimum1d S seps c
    sepLoop S cost nSteps step n est'

/-- `calc_spot_separation(spotArray, xOffset, yOffset, fnYAML)`, lines 208-274. -/
noncomputable def calcSpotSeparation (S : Solver) (img : Arr2 ℝ) (xOffset yOffset : ℝ) (t : StarTuning) : Res ℝ :=
  if t.sepPix ≤ 0 ∨ t.roiRadiusPix ≤ 0 ∨ t.nSubpixels ≤ 0 ∨ t.nSteps ≤ 0 ∨ t.stepSize ≤ 0 ∨ t.nIter ≤ 0 then .error .typeError
  else
    let cost := fun sep => roiEnergy img t.roiRadiusPix t.nSubpixels t.probeRotVecDeg sep xOffset yOffset
    if t.nIter > 1 then do
      -- lines 268-270, first iteration
      let seps := stepVec t.nSteps.toNat t.stepSize t.sepPix
      let c ← seps.mapM cost
      sepLoop S cost t.nSteps.toNat t.stepSize (t.nIter.toNat - 1) (lineArgmax seps c)
    else sepLoop S cost t.nSteps.toNat t.stepSize t.nIter.toNat t.sepPix

end Coralign
