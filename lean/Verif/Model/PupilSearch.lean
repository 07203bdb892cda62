import Verif.Base.ArgMax
import Verif.Base.Sel
import Mathlib.Analysis.Real.Sqrt
import Mathlib.Algebra.Order.Floor.Ring

/-!
# Model of the coarse pupil search and of the normalisation factor in `coralign/pupil/util.py`
-/

namespace Coralign

/-- `np.arange(-search_radius, search_radius+1, search_step_size, dtype=int).size`, lines 471-474, for positive arguments. -/
def gridSize (radius step : ℤ) : ℕ := (2 * radius / step + 1).toNat

/-- Element `k` of `x_offsets`, line 471. -/
def gridOffset (radius step : ℤ) (k : ℕ) : ℤ := -radius + k * step

/-- Element `j` of `xs`, lines 466-467: `np.arange(np.ceil(-n/2.), np.ceil(n/2.))`. -/
def coordOf (n j : ℕ) : ℤ := -((n / 2 : ℕ) : ℤ) + j

open scoped Classical in
/-- The entry of `overlap_matrix` for the offset `(x, y)` (already including the start offset), lines 478-492.  The two bounds tests are
those of the source, with `or`. -/
noncomputable def overlapAt (img : Arr2 ℝ) (nBeam : ℝ) (x y : ℤ) : ℝ :=
  if x + (img.nc / 2 : ℕ) ≥ 0 ∨ x + (img.nc / 2 : ℕ) ≤ (img.nc : ℤ) - 1 then
    if y + (img.nr / 2 : ℕ) ≥ 0 ∨ y + (img.nr / 2 : ℕ) ≤ (img.nr : ℤ) - 1 then
      ∑ i : Fin img.nr, ∑ j : Fin img.nc,
        if Real.sqrt (((coordOf img.nc j - x : ℤ) : ℝ) ^ 2 + ((coordOf img.nr i - y : ℤ) : ℝ) ^ 2) ≤ nBeam / 2 then img.val i j else 0
    else 0
  else 0

/-- `coarsely_locate_pupil_offset_once(pupil_image, n_points_beam, x_offset_start, y_offset_start, search_radius,
search_step_size)`, lines 453-501: the estimates and the overlap matrix. -/
noncomputable def coarseOnce (img : Arr2 ℝ) (nBeam : ℝ) (xStart yStart radius step : ℤ) : Res ((ℤ × ℤ) × Arr2 ℝ) :=
  if ¬ 0 < nBeam then .error .typeError
  else if radius ≤ 0 then .error .typeError
  else if step ≤ 0 then .error .typeError
  else
    let n := gridSize radius step
    let overlap : Arr2 ℝ := ⟨n, n, fun iy ix =>
      overlapAt img nBeam (gridOffset radius step ix + xStart) (gridOffset radius step iy + yStart)⟩
    let best := argmax2 overlap
    .ok ((gridOffset radius step best.2 + xStart, gridOffset radius step best.1 + yStart), overlap)

/-- The next step size, lines 397-402. -/
noncomputable def nextStep (shrink : ℝ) (step : ℤ) : ℤ :=
  if step = 1 then 0
  else
    let s : ℤ := ⌊(step : ℝ) / shrink⌋
    if s < 1 then 1 else s

/-- The `while` loop of `coarsely_locate_pupil_offset`, lines 387-404, run for at most `fuel` rounds: `none` if it is still running
then.  Besides the estimate the model records the step sizes of the rounds (a ghost output).  `est` is the estimate so far; the
source leaves it unbound until the first round. -/
noncomputable def coarseLoop (img : Arr2 ℝ) (nBeam shrink : ℝ) : ℕ → Option (ℤ × ℤ) → ℤ → ℤ → ℤ → ℤ → Option (Res ((ℤ × ℤ) × List ℤ))
  | 0, _, _, _, _, _ => none
  | fuel + 1, est, xStart, yStart, radius, step =>
    if step = 0 then
      match est with
      | none => some (.error .unboundLocalError)
      | some e => some (.ok (e, []))
    else match coarseOnce img nBeam xStart yStart radius step with
      | .error e => some (.error e)
      | .ok (e, _) =>
        match coarseLoop img nBeam shrink fuel (some e) e.1 e.2 (2 * step) (nextStep shrink step) with
        | none => none
        | some (.error e) => some (.error e)
        | some (.ok (r, steps)) => some (.ok (r, step :: steps))

/-- `coarsely_locate_pupil_offset(pupil_image, n_points_beam, shrink_factor)`, lines 374-404: `(x, y)` and the (ghost) list of steps. -/
noncomputable def coarselyLocate (fuel : ℕ) (img : Arr2 ℝ) (nBeam shrink : ℝ) : Option (Res ((ℤ × ℤ) × List ℤ)) :=
  if ¬ 0 < nBeam then some (.error .typeError)
  else if ¬ 0 < shrink then some (.error .typeError)
  else if shrink ≤ 1 then some (.error .typeError)
  else coarseLoop img nBeam shrink fuel none 0 0 (max (img.nc / 2 : ℕ) (img.nr / 2 : ℕ)) (max 1 ⌊nBeam / shrink⌋)

variable {K : Type} [Field K] [LinearOrder K] [IsStrictOrderedRing K] [FloorRing K]

/-- `np.percentile(values, p)` with its default linear interpolation: the sorted values are read at position `(n - 1) p / 100`. -/
def percentile (values : List K) (p : K) : K :=
  let s := values.mergeSort (fun a b => decide (a ≤ b))
  let h : K := ((values.length : K) - 1) * p / 100
  let k : ℕ := ⌊h⌋.toNat
  let lo := s.getD k 0
  let hi := s.getD (k + 1) lo
  lo + (h - k) * (hi - lo)

/-- `compute_norm_factor(unnorm_image, software_mask, percentile_for_norm)`, lines 524-547. -/
def computeNormFactor (img mask : Arr2 K) (p : K) : Res K :=
  if img.nr ≠ mask.nr ∨ img.nc ≠ mask.nc then .error .typeError
  else if ∃ i j, mask.val i j ≠ 0 ∧ mask.val i j ≠ 1 then .error .typeError
  else if p < 0 ∨ 100 < p then .error .typeError
  else if ∀ i j, mask.val i j = 0 then .error .typeError
  else
    let values := (List.finRange img.nr).flatMap fun i : Fin img.nr =>
      ((List.finRange img.nc).filter fun j : Fin img.nc => mask.zext ((i : ℕ) : ℤ) ((j : ℕ) : ℤ) = 1).map fun j => img.val i j
    .ok (percentile values p)

end Coralign
