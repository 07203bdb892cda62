import Verif.Model.PupilSearch
import Verif.Base.Double

/-!
# The steps of the coarse pupil search in double precision, `coralign/pupil/util.py`

The two divisions by `shrink_factor` are rounded to the nearest double; one round of the search is the one of `Model/PupilSearch`.
-/

namespace Coralign

/-- Lines 397-402 with the rounded quotient.  The step is an `int`, which is turned into a double before the division. -/
noncomputable def nextStepD (shrink : ℝ) (step : ℤ) : ℤ :=
  if step = 1 then 0
  else
    let s := ⌊double (double step / shrink)⌋
    if s < 1 then 1 else s

/-- The `while` loop, lines 387-404, as in `coarseLoop`. -/
noncomputable def coarseLoopD (img : Arr2 ℝ) (nBeam shrink : ℝ) : ℕ → Option (ℤ × ℤ) → ℤ → ℤ → ℤ → ℤ → Option (Res ((ℤ × ℤ) × List ℤ))
  | 0, _, _, _, _, _ => none
  | fuel + 1, est, xStart, yStart, radius, step =>
    if step = 0 then
      match est with
      | none => some (.error .unboundLocalError)
      | some e => some (.ok (e, []))
    else match coarseOnce img nBeam xStart yStart radius step with
      | .error e => some (.error e)
      | .ok (e, _) =>
        match coarseLoopD img nBeam shrink fuel (some e) e.1 e.2 (2 * step) (nextStepD shrink step) with
        | none => none
        | some (.error e) => some (.error e)
        | some (.ok (r, steps)) => some (.ok (r, step :: steps))

/-- `coarsely_locate_pupil_offset`, lines 374-404, with the first step of line 383 rounded too. -/
noncomputable def coarselyLocateD (fuel : ℕ) (img : Arr2 ℝ) (nBeam shrink : ℝ) : Option (Res ((ℤ × ℤ) × List ℤ)) :=
  if ¬ 0 < nBeam then some (.error .typeError)
  else if ¬ 0 < shrink then some (.error .typeError)
  else if shrink ≤ 1 then some (.error .typeError)
  else coarseLoopD img nBeam shrink fuel none 0 0 (max (img.nc / 2 : ℕ) (img.nr / 2 : ℕ)) (max 1 ⌊double (nBeam / shrink)⌋)

end Coralign
