import Mathlib.Analysis.SpecialFunctions.Complex.Arg
import Mathlib.Analysis.SpecialFunctions.Sqrt
import Mathlib.Algebra.Order.Floor.Ring
import Verif.Base.Py

/-!
# Model of `coralign/util/math.py`
-/

namespace Coralign

/-- `rms`, `coralign/util/math.py` lines 7-11: `np.sqrt(np.mean(arrayIn**2))`.
The array is given by its elements, one per index of a finite type, so any number of dimensions is covered.
Simplification: numpy returns NaN for an empty array; here the index type is expected to be non-empty. -/
noncomputable def rms {ι : Type} [Fintype ι] (a : ι → ℝ) : ℝ :=
  Real.sqrt ((∑ i, a i ^ 2) / Fintype.card ι)

section
variable {K : Type} [Field K] [LinearOrder K] [IsStrictOrderedRing K] [FloorRing K]

/-- `ceil_odd`, `coralign/util/math.py` lines 30-33. -/
def ceilOdd (x : K) : ℤ :=
  let xOut := ⌈x⌉
  if xOut % 2 = 0 then xOut + 1 else xOut

/-- `ceil_even`, `coralign/util/math.py` line 52: `int(2 * np.ceil(0.5 * x_in))`. -/
def ceilEven (x : K) : ℤ := 2 * ⌈(1 / 2 : K) * x⌉
end

/-- `np.arctan2(y, x)`: the angle of the point `(x, y)`, in `(-pi, pi]`.
Simplification: reals have no signed zero (numpy returns -pi for `arctan2(-0.0, -1)`). -/
noncomputable def arctan2 (y x : ℝ) : ℝ := Complex.arg ⟨x, y⟩

/-- `cart2pol` for one coordinate pair, `coralign/util/math.py` lines 82-85.
On arrays numpy applies this elementwise (shapes checked equal, lines 73-80). -/
noncomputable def cart2pol (x y : ℝ) : ℝ × ℝ := (Real.sqrt (x ^ 2 + y ^ 2), arctan2 y x)

/-- `cart2pol` on two 1-D arrays, with the shape check of lines 76-77. -/
noncomputable def cart2polArray (x y : List ℝ) : Res (List (ℝ × ℝ)) :=
  if x.length ≠ y.length then .error .valueError
  else .ok (List.zipWith cart2pol x y)

end Coralign
