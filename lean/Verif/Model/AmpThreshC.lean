import Verif.Model.AmpThresh
import Mathlib.Analysis.Complex.Norm

/-!
# Model of `coralign/util/ampthresh.py` for complex maps
-/

namespace Coralign

/-- `np.any(np.iscomplex(pupilMap))`, line 32: some pixel has a non-zero imaginary part. -/
def anyComplex (a : Arr2 ℂ) : Prop := ∃ i j, (a.val i j).im ≠ 0

open scoped Classical in
/-- `ampthresh`, `coralign/util/ampthresh.py` lines 29-65, for a complex map.  Lines 32-34 replace a map having some non-real pixel by
its modulus.  A map without one is used as it is; numpy orders complex numbers of equal (zero) imaginary part by their real part. -/
noncomputable def ampthreshC (pupilMap : Arr2 ℂ) (nBin : ℤ) : Res (Arr2 Bool) :=
  if anyComplex pupilMap then ampthresh (pupilMap.map fun v : ℂ => ‖v‖) nBin
  else ampthresh (pupilMap.map fun v : ℂ => v.re) nBin

end Coralign
