import Verif.Model.GridSearch
import Verif.Model.Fft
import Verif.Model.PadCrop
import Verif.Model.PsfFit
import Verif.Model.PupilSearch
import Verif.Base.Round

/-!
# Model of `compute_lateral_offsets` in `coralign/pupil/util.py`
-/

namespace Coralign

/-- Lines 224-226 and 237-239: the centred transform divided by `nPadFFT`, cropped to `nFocusCrop`. -/
noncomputable def focusField (n c : ℤ) (pupil : Arr2 ℝ) : Res (Arr2 ℂ) :=
  padCrop ((doFft pupil.toC).map fun z : ℂ => z / (n : ℂ)) [c, c] 0

/-- `XIS`, lines 283-285: `np.arange(-n/2, n/2)/n` along the columns. -/
noncomputable def xisArr (n : ℕ) : Arr2 ℝ := ⟨n, n, fun _ j => (-(n : ℝ) / 2 + ((j : ℕ) : ℝ)) / n⟩

/-- `ETAS`, lines 283-285. -/
noncomputable def etasArr (n : ℕ) : Arr2 ℝ := ⟨n, n, fun i _ => (-(n : ℝ) / 2 + ((i : ℕ) : ℝ)) / n⟩

/-- `np.sum(np.abs(EfocCrop * phaseTT - EfocRefCrop)**2)`, lines 308-311, for `c x c` arrays. -/
noncomputable def lateralCost (c : ℕ) (e eRef : Arr2 ℂ) (xi eta : Arr2 ℝ) (dx dy : ℝ) : ℝ :=
  ∑ i : Fin c, ∑ j : Fin c,
    ‖e.zext (i : ℕ) (j : ℕ) * cis (dx * xi.zext (i : ℕ) (j : ℕ) + dy * eta.zext (i : ℕ) (j : ℕ)) - eRef.zext (i : ℕ) (j : ℕ)‖ ^ 2

/-- The loop of lines 295-336.  The arguments are the number of iterations left, `iter_`, `dPixelNew` and `(deltaX, deltaY)`.
Line 297: the step is halved from the third iteration on; line 323: the first of several iterations takes the best grid point. -/
noncomputable def lateralLoop (S : Solver) (cost : ℝ → ℝ → ℝ) (nSteps nIter : ℕ) : ℕ → ℕ → ℝ → ℝ × ℝ → Res (ℝ × ℝ)
  | 0, _, _, est => .ok est
  | left + 1, iter, dPixel, est => do
    let d := if iter > 1 then dPixel / 2 else dPixel
    let xs := (linspaceList (-((nSteps : ℝ) - 1) / 2) (((nSteps : ℝ) - 1) / 2) nSteps).map fun v : ℝ => v * d + est.1
    let ys := (linspaceList (-((nSteps : ℝ) - 1) / 2) (((nSteps : ℝ) - 1) / 2) nSteps).map fun v : ℝ => v * d + est.2
    let c ← costGrid xs ys fun x y => .ok (cost x y)
    let sol ← if iter = 0 ∧ nIter > 1 then .ok (gridArgmin xs ys c) else gridFit S xs ys c
    lateralLoop S cost nSteps nIter left (iter + 1) d sol

/-- `compute_lateral_offsets(arrayMeas, arrayRef, diamEst, nPhaseSteps, dPixel, nPadFFT, nFocusCrop, nIter, useCoarse=False,
xOffsetCoarse, yOffsetCoarse)`, lines 191-338.  The answer is `(y, x)`. -/
noncomputable def computeLateralOffsets (S : Solver) (meas ref : Arr2 ℝ) (diamEst : ℝ) (nSteps : ℤ) (dPixel : ℝ) (nPad nFocus nIter : ℤ)
    (xCoarse yCoarse : ℝ) : Res (ℝ × ℝ) :=
  if diamEst ≤ 0 ∨ nSteps ≤ 0 ∨ dPixel ≤ 0 ∨ nPad ≤ 0 ∨ nFocus ≤ 0 ∨ nIter ≤ 0 then .error .typeError
  else do
    let xC := npRound xCoarse
    let yC := npRound yCoarse
    let refPad ← padCrop ref [nPad, nPad] 0
    let eRef ← focusField nPad nFocus refPad
    let measC ← offcenterCrop meas 0 nPad ((((meas.nr / 2 : ℕ) : ℤ) + yC : ℤ) : ℝ) ((((meas.nc / 2 : ℕ) : ℤ) + xC : ℤ) : ℝ)
    let e ← focusField nPad nFocus measC
    let xi ← padCrop (xisArr nPad.toNat) [nFocus, nFocus] 0
    let eta ← padCrop (etasArr nPad.toNat) [nFocus, nFocus] 0
    let sol ← lateralLoop S (lateralCost nFocus.toNat e eRef xi eta) nSteps.toNat nIter.toNat nIter.toNat 0 dPixel (0, 0)
    .ok (yC + sol.2, xC + sol.1)

/-- The same with `useCoarse=True`, lines 204-206: the offsets come from `coarsely_locate_pupil_offset` (at most `fuel` rounds). -/
noncomputable def computeLateralOffsetsCoarse (fuel : ℕ) (S : Solver) (meas ref : Arr2 ℝ) (diamEst : ℝ) (nSteps : ℤ) (dPixel : ℝ)
    (nPad nFocus nIter : ℤ) : Option (Res (ℝ × ℝ)) :=
  if diamEst ≤ 0 ∨ nSteps ≤ 0 ∨ dPixel ≤ 0 ∨ nPad ≤ 0 ∨ nFocus ≤ 0 ∨ nIter ≤ 0 then some (.error .typeError)
  else match coarselyLocate fuel meas diamEst 3 with
    | none => none
    | some (.error e) => some (.error e)
    | some (.ok ((x, y), _)) => some (computeLateralOffsets S meas ref diamEst nSteps dPixel nPad nFocus nIter x y)

end Coralign
