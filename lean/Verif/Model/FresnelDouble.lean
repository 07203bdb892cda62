import Verif.Model.Fresnel
import Verif.Base.Double

/-!
# The sampling criterion of `coralign/util/fresnelprop.py` in double precision

The least number of samples is computed in double precision, and with it the decision to refuse an array or a grid.  The propagated field and the
quadratic phase are as in `Verif.Model.Fresnel`, in exact arithmetic.  Overflow is not modelled, and the square `pixpermeter**2` is taken to be
correctly rounded, like a product.
-/

namespace Coralign

/-- `nSamplesMin`, `fresnelprop.py` lines 102 and 162: the products are taken from left to right, the square first, and each is rounded.
`np.abs` is exact. -/
noncomputable def nSamplesMinD (lam z ppm : ℝ) : ℤ := ⌈double (double (lam * |z|) * double (ppm ^ 2))⌉

open scoped Classical in
/-- `fresnelprop(e, lam, z, nxfresnel, pixpermeter)`, `fresnelprop.py` lines 59-122, with the criterion of lines 102-106 in double precision. -/
noncomputable def fresnelpropD (e : Arr2 ℂ) (lam z : ℝ) (nx : ℤ) (ppm : ℝ) : Res (Arr2 ℂ) := do
  fresnelChecks lam nx ppm
  if z = 0 then .ok e
  else if (min e.nr e.nc : ℤ) < nSamplesMinD lam z ppm then .error .valueError
  else angularSpectrum e nx (fresnelPhase lam z nx.toNat ppm)

/-- `get_fp(lam, z, nxfresnel, pixpermeter)`, `fresnelprop.py` lines 125-175, with the criterion of lines 162-166 in double precision. -/
noncomputable def getFpD (lam z : ℝ) (nx : ℤ) (ppm : ℝ) : Res (Arr2 ℂ) := do
  fresnelChecks lam nx ppm
  if nx < nSamplesMinD lam z ppm then .error .valueError
  else .ok (fresnelPhase lam z nx.toNat ppm)

end Coralign
