import Mathlib.Analysis.SpecialFunctions.Sqrt
import Verif.Base.Py

/-!
# Model of `coralign/focalfit/ff_util.py`
-/

namespace Coralign

/-- `bound_value`, `coralign/focalfit/ff_util.py` lines 24-35 (line 24 is the sign check on `maxVal`). -/
noncomputable def boundValue (inVal maxVal : ℝ) : Res ℝ :=
  if maxVal < 0 then .error .valueError
  else if inVal > maxVal then .ok maxVal
  else if inVal < -maxVal then .ok (-maxVal)
  else .ok inVal

/-- The sign/ratio normalisation shared by the two solvers, `ff_util.py` lines 71-75 and 110-114:
returns `(roiSumRatio, sign)`. -/
noncomputable def ratioAndSign (roiSumRatio : ℝ) : ℝ × ℝ :=
  if roiSumRatio < 1 then (1 / roiSumRatio, -1) else (roiSumRatio, 1)

/-- `calc_offset_quadratic`, `coralign/focalfit/ff_util.py` lines 67-81.
Simplifications: `fitCoefPow2 = 0` (numpy: NaN or infinity) and a negative discriminant (numpy: NaN) are not
distinguished from finite values here; the theorems assume `fitCoefPow2 ≠ 0` and a non-negative discriminant. -/
noncomputable def calcOffsetQuadratic (fitCoefPow1 fitCoefPow2 roiSumRatio : ℝ) : Res ℝ :=
  if roiSumRatio ≤ 0 then .error .valueError
  else
    let (r, sign) := ratioAndSign roiSumRatio
    .ok (sign * ((-fitCoefPow1 + Real.sqrt (fitCoefPow1 * fitCoefPow1 - 4 * fitCoefPow2 * (1 - r)))
      / (2 * fitCoefPow2)))

/-- `calc_offset_linear`, `coralign/focalfit/ff_util.py` lines 107-118.
Simplification: `fitCoefPow1 = 0` raises `ZeroDivisionError` on Python floats (and gives infinity on numpy
floats); the theorems assume it is positive, as documented. -/
noncomputable def calcOffsetLinear (fitCoefPow1 roiSumRatio : ℝ) : Res ℝ :=
  if roiSumRatio ≤ 0 then .error .valueError
  else
    let (r, sign) := ratioAndSign roiSumRatio
    .ok (sign * (r - 1) / fitCoefPow1)

end Coralign
