import Verif.Model.FindOpt

/-!
# Specification vocabulary for the grid searches
-/

namespace Coralign.Spec

open Coralign

/-- `n` evenly spaced trial values, `step` apart, centred on `c`. -/
noncomputable def trials (n : ℕ) (step c : ℝ) : List ℝ := (List.range n).map fun k : ℕ => c + ((k : ℝ) - ((n : ℝ) - 1) / 2) * step

/-- On the trial values the function is a paraboloid centred on `(x0, y0)`, curved enough to pass the tests of `find_optimum_2d`. -/
structure Paraboloid (F : ℝ → ℝ → ℝ) (xs ys : List ℝ) (x0 y0 : ℝ) : Prop where
  form : ∃ a b c f : ℝ, 4 * (1 / 10 ^ 15) ≤ |b * b - 4 * a * c| ∧ 2 * (1 / 10 ^ 15) ≤ |2 * c| ∧
    ∀ x ∈ xs, ∀ y ∈ ys, F x y = a * (x - x0) ^ 2 + b * ((x - x0) * (y - y0)) + c * (y - y0) ^ 2 + f

/-- On the trial values the function is a parabola with its vertex at `s0`, curved enough to pass the test of `find_optimum_1d`. -/
def Parabola (F : ℝ → ℝ) (l : List ℝ) (s0 : ℝ) : Prop := ∃ a f : ℝ, 1 / 2 ^ 52 ≤ |a| ∧ ∀ s ∈ l, F s = a * (s - s0) ^ 2 + f

/-- A translation search that starts at `start`, tries `n x n` displacements `step` apart, and shrinks its steps by the factor `s` again and
again (`nIter` times), sees a paraboloid centred on `(x0, y0)` at every grid it can meet: grids centred on the start, on the centre of the
paraboloid, and (when there are several iterations) on the points of such grids. -/
def QuadraticSearch (F : ℝ → ℝ → ℝ) (n : ℕ) (s step : ℝ) (nIter : ℕ) (start : ℝ × ℝ) (x0 y0 : ℝ) : Prop :=
  ∀ p : ℝ × ℝ, (p = start ∨ p = (x0, y0)) → ∀ cx cy : ℝ,
    ((cx, cy) = p ∨ 1 < nIter ∧ ∃ j < nIter, cx ∈ trials n (s ^ j * step) p.1 ∧ cy ∈ trials n (s ^ j * step) p.2) →
    ∀ i < nIter, Paraboloid F (trials n (s ^ i * step) cx) (trials n (s ^ i * step) cy) x0 y0

/-- `G` is a parabola with vertex `s0` on the trial values, with enough curvature to be recognised after the values are magnified `1/m`
times. -/
def ScaledParabola (G : ℝ → ℝ) (l : List ℝ) (m s0 : ℝ) : Prop :=
  ∃ a f : ℝ, 1 / 2 ^ 52 ≤ |a| * m ^ 2 ∧ ∀ s ∈ l, G s = a * (s - s0) ^ 2 + f

/-- The factor by which the error of the clocking search has changed after `k` fits with shrunk trial angles. -/
noncomputable def driftFactor (s : ℝ) (k : ℕ) : ℝ := ∏ j ∈ Finset.range k, (1 - (s ^ (j + 1))⁻¹)

end Coralign.Spec
