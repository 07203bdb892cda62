import Verif.Base.Rounding
import Verif.Model.Zernike

/-!
# The radial order in floating point, `coralign/util/nollzernikes.py` line 81
-/

namespace Coralign

/-- `np1 = (np.ceil((np.sqrt(1.+8.*moa)-1.)/2.)+0.5).astype(int)`, `nollzernikes.py` line 81, with the result of every operation rounded. -/
noncomputable def nollNp1Float (R : Rounding) (j : ℤ) : ℤ :=
  ⌊R.fl ((⌈R.fl (R.fl (R.fl (Real.sqrt (R.fl (1 + R.fl (8 * j)))) - 1) / 2)⌉ : ℝ) + 1 / 2)⌋

end Coralign
