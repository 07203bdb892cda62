import Verif.Model.Shapes
import Verif.Base.Double

/-!
# `coralign/util/shapes.py`: `circle`, and `coralign/util/math.py`: `ceil_odd`, `ceil_even`, in double precision

`Verif.Model.Shapes` and `Verif.Model.Math` read the arithmetic of these functions as arithmetic of real numbers.  Here every operation on floats is
followed by the rounding `double`, in the order in which Python evaluates it.  Not modelled: overflow, infinities, NaN and negative zero.
-/

namespace Coralign

/-- Entry `k` of `np.linspace(a, b, n)` as numpy computes it: `step = (b - a) / (n - 1)`, `arange(n) * step + a`, and the last entry set to `b`.  For
`n = 1` numpy has no step and returns `a`; so does this formula, as `k = 0`.  A step of zero, which numpy treats apart, does not occur here. -/
noncomputable def linspaceD (a b : ℝ) (n k : ℕ) : ℝ :=
  if 1 < n ∧ k + 1 = n then b
  else
    let step := double (double (b - a) / double ((n : ℝ) - 1))
    double (double (double k * step) + a)

/-- Coordinate `k` along an axis of length `n`, shapes.py lines 113-121.  Python's whole numbers are exact; they are converted to doubles by `/2.`. -/
noncomputable def shapeAxisD (n : ℕ) (off : ℝ) (k : ℕ) : ℝ :=
  if n % 2 = 0 then double (linspaceD (double (double (-(n : ℝ)) / 2)) (double (double (double n / 2) - 1)) n k - off)
  else double (linspaceD (double (double (-((n : ℝ) - 1)) / 2)) (double (double ((n : ℝ) - 1) / 2)) n k - off)

/-- Sub-pixel coordinate `s` of `N`, shapes.py lines 134-136. -/
noncomputable def subAxisD (N s : ℕ) : ℝ :=
  double (linspaceD (double (double (-((N : ℝ) - 1)) / 2)) (double (double ((N : ℝ) - 1) / 2)) N s * double (1 / double N))

/-- The distance from the origin, shapes.py lines 125 and 150: `np.sqrt(x*x + y*y)`; numpy squares by multiplying. -/
noncomputable def rhoD (x y : ℝ) : ℝ := double (Real.sqrt (double (double (x * x) + double (y * y))))

open scoped Classical in
/-- How many sub-pixels of the pixel centred on `(xc, yc)` are set, shapes.py lines 146-154.  `np.sum` adds zeros and ones: its partial sums are whole
numbers, hence exact up to `2 ^ 53`, in whichever order they are added. -/
noncomputable def subCountD (N : ℕ) (radius xc yc : ℝ) : ℕ :=
  ∑ a : Fin N, ∑ b : Fin N, if rhoD (double (subAxisD N b + xc)) (double (subAxisD N a + yc)) ≤ radius then 1 else 0

open scoped Classical in
/-- The value of the pixel centred on `(x, y)`, shapes.py lines 128-155. -/
noncomputable def circleValD (hw radius : ℝ) (N : ℕ) (x y : ℝ) : ℝ :=
  let m0 : ℝ := -1
  let m1 := if |rhoD x y| < double (radius - hw) then 1 else m0
  let m2 := if |rhoD x y| > double (radius + hw) then 0 else m1
  if m2 = -1 then double (double (subCountD N radius x y) / double ((N : ℝ) * N)) else m2

/-- `circle(nx, ny, radius, xOffset, yOffset, nSubpixels, isDark)`, shapes.py lines 79-160, in double precision. -/
noncomputable def circleD (nx ny : ℤ) (radius xo yo : ℝ) (nSub : ℤ) (isDark : Bool) : Res (Arr2 ℝ) :=
  if nx ≤ 0 ∨ ny ≤ 0 ∨ radius ≤ 0 ∨ nSub ≤ 0 then .error .typeError
  else if nx = 1 then .error .indexError
  else
    let xs := shapeAxisD nx.toNat xo
    let ys := shapeAxisD ny.toNat yo
    let dx := double (xs 1 - xs 0)
    let hw := double (double (Real.sqrt 2) * dx)
    let m : Arr2 ℝ := ⟨ny.toNat, nx.toNat, fun i j => circleValD hw radius nSub.toNat (xs j) (ys i)⟩
    .ok (if isDark then m.map fun v => double (1 - v) else m)

/-- `ceil_odd(x_in)`, math.py lines 28-33, of a double: `np.ceil` of a double is exact. -/
noncomputable def ceilOddD (x : ℝ) : ℤ :=
  let n := ⌈x⌉
  if n % 2 = 0 then n + 1 else n

/-- `ceil_even(x_in)`, math.py line 52, of a double: `0.5 * x_in` is rounded, `np.ceil` and doubling are exact. -/
noncomputable def ceilEvenD (x : ℝ) : ℤ := 2 * ⌈double (double 0.5 * x)⌉

end Coralign
