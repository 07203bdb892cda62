import Verif.Model.Center
import Verif.Base.DoubleSum

/-!
# `center_of_energy` and `rms` in double precision

The sum of a list is a parameter `S`: `np.sum` may add in any order.
-/

namespace Coralign

/-- `np.nonzero(image_array)`, `coralign/util/center.py` line 29: the non-zero pixels, row by row. -/
noncomputable def nonzeroList (a : Arr2 ℝ) : List (Fin a.nr × Fin a.nc) :=
  ((List.finRange a.nr) ×ˢ (List.finRange a.nc)).filter fun p => a.val p.1 p.2 ≠ 0

/-- `center_of_energy`, `coralign/util/center.py` lines 28-46: every quotient, product and sum is rounded.  Returns `(avg_col, avg_row)`; on a blank
image the sums are empty and zero; `none` stands for the NaN of a division by zero. -/
noncomputable def centerOfEnergyD (S : List ℝ → ℝ) (a : Arr2 ℝ) : Option (ℝ × ℝ) :=
  let px := nonzeroList a
  let total := S (px.map fun p => a.val p.1 p.2)
  if px = [] then some (0, 0)
  else if total = 0 then none
  else
    let weight : Fin a.nr × Fin a.nc → ℝ := fun p => double (a.val p.1 p.2 / total)
    let avgRow := S (px.map fun p => double (((p.1 : ℕ) : ℝ) * weight p))
    let avgCol := S (px.map fun p => double (((p.2 : ℕ) : ℝ) * weight p))
    some (avgCol, avgRow)

/-- `np.sqrt(np.mean(arrayIn**2))`, `coralign/util/math.py` line 11, for the entries of a non-empty array in the order in which they are stored: the squares, their
sum, the quotient by their number and the root are rounded. -/
noncomputable def rmsD (S : List ℝ → ℝ) (xs : List ℝ) : ℝ :=
  double (Real.sqrt (double (S (xs.map fun x => double (x * x)) / (xs.length : ℝ))))

end Coralign
