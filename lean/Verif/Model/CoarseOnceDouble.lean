import Verif.Model.PupilSearchDouble
import Verif.Model.QuadDouble

/-!
# The coarse pupil search with every operation in double precision, `coralign/pupil/util.py`

The sum of a list is a parameter `S`: `np.sum` may add in any order.
-/

namespace Coralign

/-- An entry of `RS`, line 489: `XS` and `YS` are arrays of `int`, so that the sum of the squares is exact, and `np.sqrt` turns it into a
double first.  Simplification: the 64-bit integers do not overflow. -/
noncomputable def beamRhoD (x y : ℤ) : ℝ := double (Real.sqrt (double ((x ^ 2 + y ^ 2 : ℤ) : ℝ)))

open scoped Classical in
/-- The entry of `overlap_matrix` for the offset `(x, y)`, lines 478-492, as in `overlapAt`. -/
noncomputable def overlapAtD (S : List ℝ → ℝ) (img : Arr2 ℝ) (nBeam : ℝ) (x y : ℤ) : ℝ :=
  if x + (img.nc / 2 : ℕ) ≥ 0 ∨ x + (img.nc / 2 : ℕ) ≤ (img.nc : ℤ) - 1 then
    if y + (img.nr / 2 : ℕ) ≥ 0 ∨ y + (img.nr / 2 : ℕ) ≤ (img.nr : ℤ) - 1 then
      S (((allPixels img).filter fun p => beamRhoD (coordOf img.nc p.2 - x) (coordOf img.nr p.1 - y) ≤ double (nBeam / 2)).map
        fun p => img.val p.1 p.2)
    else 0
  else 0

/-- `coarsely_locate_pupil_offset_once`, lines 453-501, as in `coarseOnce`. -/
noncomputable def coarseOnceD (S : List ℝ → ℝ) (img : Arr2 ℝ) (nBeam : ℝ) (xStart yStart radius step : ℤ) : Res ((ℤ × ℤ) × Arr2 ℝ) :=
  if ¬ 0 < nBeam then .error .typeError
  else if radius ≤ 0 then .error .typeError
  else if step ≤ 0 then .error .typeError
  else
    let n := gridSize radius step
    let overlap : Arr2 ℝ := ⟨n, n, fun iy ix =>
      overlapAtD S img nBeam (gridOffset radius step ix + xStart) (gridOffset radius step iy + yStart)⟩
    let best := argmax2 overlap
    .ok ((gridOffset radius step best.2 + xStart, gridOffset radius step best.1 + yStart), overlap)

/-- The `while` loop, lines 387-404, as in `coarseLoopD`. -/
noncomputable def coarseLoopDD (S : List ℝ → ℝ) (img : Arr2 ℝ) (nBeam shrink : ℝ) :
    ℕ → Option (ℤ × ℤ) → ℤ → ℤ → ℤ → ℤ → Option (Res ((ℤ × ℤ) × List ℤ))
  | 0, _, _, _, _, _ => none
  | fuel + 1, est, xStart, yStart, radius, step =>
    if step = 0 then
      match est with
      | none => some (.error .unboundLocalError)
      | some e => some (.ok (e, []))
    else match coarseOnceD S img nBeam xStart yStart radius step with
      | .error e => some (.error e)
      | .ok (e, _) =>
        match coarseLoopDD S img nBeam shrink fuel (some e) e.1 e.2 (2 * step) (nextStepD shrink step) with
        | none => none
        | some (.error e) => some (.error e)
        | some (.ok (r, steps)) => some (.ok (r, step :: steps))

/-- `coarsely_locate_pupil_offset`, lines 374-404, as in `coarselyLocateD`. -/
noncomputable def coarselyLocateDD (S : List ℝ → ℝ) (fuel : ℕ) (img : Arr2 ℝ) (nBeam shrink : ℝ) : Option (Res ((ℤ × ℤ) × List ℤ)) :=
  if ¬ 0 < nBeam then some (.error .typeError)
  else if ¬ 0 < shrink then some (.error .typeError)
  else if shrink ≤ 1 then some (.error .typeError)
  else coarseLoopDD S img nBeam shrink fuel none 0 0 (max (img.nc / 2 : ℕ) (img.nr / 2 : ℕ)) (max 1 ⌊double (nBeam / shrink)⌋)

end Coralign
