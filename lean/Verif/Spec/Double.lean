import Mathlib.Analysis.SpecialFunctions.Sqrt

/-!
# Specification vocabulary for images computed in double precision
-/

namespace Coralign.Spec

/-- The centre of sub-pixel `(t, s)` of the unit pixel centred on `(x, y)`, divided into `N × N` equal sub-pixels: its distance from the origin. -/
noncomputable def centreDistance (N : ℕ) (x y : ℝ) (t s : Fin N) : ℝ :=
  Real.sqrt ((x + (((s : ℕ) + 1 / 2 : ℝ) / N - 1 / 2)) ^ 2 + (y + (((t : ℕ) + 1 / 2 : ℝ) / N - 1 / 2)) ^ 2)

open scoped Classical in
/-- How many of the `N × N` sub-pixel centres of the unit pixel centred on `(x, y)` are at most `ρ` away from the origin. -/
noncomputable def centresWithin (N : ℕ) (ρ x y : ℝ) : ℕ :=
  (Finset.univ.filter fun s : Fin N × Fin N => centreDistance N x y s.1 s.2 ≤ ρ).card

end Coralign.Spec
