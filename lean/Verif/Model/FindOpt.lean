import Verif.Base.LeastSq
import Verif.Base.Arr2

/-!
# Model of `coralign/util/findopt.py`

`np.polyfit` and `np.linalg.lstsq` are external least-squares routines (`Solver`).
-/

namespace Coralign

/-- Double-precision machine epsilon, `np.finfo(float).eps`. -/
noncomputable def macheps : ℝ := 1 / 2 ^ 52

/-- `np.finfo(float).resolution`. -/
noncomputable def fresolution : ℝ := 1 / 10 ^ 15

/-- Rows of the degree-2 Vandermonde matrix, highest power first (`np.polyfit(x, y, 2)`). -/
def vander2 {n : ℕ} (xs : Fin n → ℝ) : Fin n → Fin 3 → ℝ := fun i => ![xs i ^ 2, xs i, 1]

/-- `find_optimum_1d`, `coralign/util/findopt.py` lines 32-46.  The two arrays are equal-length lists of
samples.  Line 36: `np.polyfit` of order two; lines 39-41: the curvature test; line 44: the vertex. -/
noncomputable def findOptimum1d (S : Solver) (xVec arrayToFit : List ℝ) : Res ℝ :=
  if h : xVec.length ≠ arrayToFit.length then .error .valueError
  else if xVec.length = 0 then .error .typeError   -- np.polyfit: "expected non-empty vector for x"
  else
    let p := S.solve (vander2 fun i : Fin xVec.length => xVec.get i)
      (fun i => arrayToFit.get (i.cast (not_not.mp h)))
    if |p 0| < macheps then .error .quadraticException
    else .ok (-p 1 / (2 * p 0))

/-- The pixels selected by the mask, `coralign/util/findopt.py` lines 91, 104-110. -/
abbrev Masked (mask : Arr2 Bool) : Type := {p : Fin mask.nr × Fin mask.nc // mask.val p.1 p.2 = true}

/-- One row of the design matrix, `coralign/util/findopt.py` lines 95-109. -/
def quadRow (x y : ℝ) : Fin 6 → ℝ := ![x ^ 2, x * y, y ^ 2, x, y, 1]

/-- `find_optimum_2d`, `coralign/util/findopt.py` lines 78-133.
Lines 82-89: shape checks; 91-112: masked least squares; 119-131: stationary point. -/
noncomputable def findOptimum2d (S : Solver) (xVec yVec : List ℝ) (arrayToFit : Arr2 ℝ) (mask : Arr2 Bool) :
    Res (ℝ × ℝ) :=
  if hs : arrayToFit.nr ≠ mask.nr ∨ arrayToFit.nc ≠ mask.nc then .error .valueError
  else if hy : arrayToFit.nr ≠ yVec.length then .error .valueError
  else if hx : arrayToFit.nc ≠ xVec.length then .error .valueError
  else
    let p := S.solve (ι := Masked mask)
      (fun q => quadRow
        (xVec.get (q.1.2.cast (by omega)))
        (yVec.get (q.1.1.cast (by omega))))
      (fun q => arrayToFit.val (q.1.1.cast (by omega)) (q.1.2.cast (by omega)))
    let a := p 0
    let b := p 1
    let c := p 2
    let d := p 3
    let e := p 4
    let xDen := b * b - 4 * a * c
    let yDen := 2 * c
    if |xDen| < 4 * fresolution ∨ |yDen| < 2 * fresolution then .error .quadraticException
    else
      let xBest := (2 * c * d - e * b) / (b * b - 4 * a * c)
      let yBest := -(b * xBest + e) / (2 * c)
      .ok (xBest, yBest)

end Coralign
