import Verif.Model.FindOpt
import Verif.Model.Shapes
import Verif.Base.ArgMax

/-!
# Grid searches followed by a quadratic fit

The same few lines appear in `coralign/occastro/occastro.py`, `coralign/pupil/util.py` and `coralign/dmreg/dmreg.py`: evaluate a cost
on a grid of trial values, then take the best grid point or the stationary point of a fitted quadratic.  The cost is a parameter here; the
models of the individual functions supply it.
-/

namespace Coralign

/-- A cost matrix filled by the two nested loops `for iy ..: for ix ..: costMat[iy, ix] = cost`; an exception in the cost ends the loop.
`occastro.py` lines 107-133, `pupil/util.py` lines 305-311, `dmreg.py` lines 253-266 and 448-461.  (`pupil/util.py` runs over `ix` first;
its cost cannot raise.) -/
def costGrid (xs ys : List ℝ) (cost : ℝ → ℝ → Res ℝ) : Res (Arr2 ℝ) := do
  let rows ← ys.mapM fun y => xs.mapM fun x => cost x y
  .ok ⟨ys.length, xs.length, fun i j => (rows.getD i []).getD j 0⟩

/-- `bestInds = np.unravel_index(np.argmin(costMat), costMat.shape)` and the values of the two vectors there: `pupil/util.py` lines 324-326,
`dmreg.py` lines 271-273 and 464-466.  The first smallest element is the first largest of the negated array. -/
noncomputable def gridArgmin (xs ys : List ℝ) (cost : Arr2 ℝ) : ℝ × ℝ :=
  let b := argmax2 (cost.map fun v : ℝ => -v)
  (xs.getD b.2 0, ys.getD b.1 0)

/-- `find_optimum_2d(xVec, yVec, costMat, np.ones_like(costMat))`. -/
noncomputable def gridFit (S : Solver) (xs ys : List ℝ) (cost : Arr2 ℝ) : Res (ℝ × ℝ) :=
  findOptimum2d S xs ys cost (Arr2.full cost.nr cost.nc true)

/-- `xs[np.argmin(costVec)]`, `dmreg.py` lines 302-303. -/
noncomputable def lineArgmin (xs cost : List ℝ) : ℝ :=
  xs.getD (argmaxUpto (fun k => -cost.getD k 0) (cost.length - 1)) 0

/-- `xs[np.argmax(costVec)]`, `occastro.py` lines 269-270. -/
noncomputable def lineArgmax (xs cost : List ℝ) : ℝ :=
  xs.getD (argmaxUpto (fun k => cost.getD k 0) (cost.length - 1)) 0

/-- `np.linspace(a, b, n)` as a list. -/
noncomputable def linspaceList (a b : ℝ) (n : ℕ) : List ℝ := (List.range n).map fun k => linspace a b n k

/-- `np.arange(nSteps)*stepSize - (nSteps-1)/2*stepSize + centre`: `occastro.py` lines 98-105 and 236-238. -/
noncomputable def stepVec (n : ℕ) (step centre : ℝ) : List ℝ :=
  (List.range n).map fun k : ℕ => (k : ℝ) * step - ((n : ℝ) - 1) / 2 * step + centre

end Coralign
