import Verif.Base.Arr2
import Mathlib.Algebra.BigOperators.Fin
import Mathlib.Algebra.Field.Basic

/-!
# Model of `coralign/util/center.py`
-/

namespace Coralign

variable {K : Type} [Field K] [DecidableEq K]

/-- `np.nonzero(a)`, `coralign/util/center.py` lines 29 and 32: the non-zero pixels. -/
def nonzeroPixels (a : Arr2 K) : Finset (Fin a.nr × Fin a.nc) :=
  Finset.univ.filter fun p => a.val p.1 p.2 ≠ 0

/-- `np.sum(energies)`, `coralign/util/center.py` line 35. -/
def totalEnergy (a : Arr2 K) : K := ∑ p ∈ nonzeroPixels a, a.val p.1 p.2

/-- `center_of_energy`, `coralign/util/center.py` lines 25-46.  Returns `(avg_col, avg_row)`, in this order,
as the code does (its docstring lists them the other way round).
On an image without a non-zero pixel every array is empty, nothing is divided, and the two sums (lines 43-44) are zero.
Otherwise, when the energies sum to zero numpy divides by zero and returns NaN or infinities; that outcome is `none`. -/
def centerOfEnergy (a : Arr2 K) : Option (K × K) :=
  let total := totalEnergy a
  if nonzeroPixels a = ∅ then some (0, 0)
  else if total = 0 then none
  else
    let avgRow := ∑ p ∈ nonzeroPixels a, ((p.1 : ℕ) : K) * (a.val p.1 p.2 / total)
    let avgCol := ∑ p ∈ nonzeroPixels a, ((p.2 : ℕ) : K) * (a.val p.1 p.2 / total)
    some (avgCol, avgRow)

end Coralign
