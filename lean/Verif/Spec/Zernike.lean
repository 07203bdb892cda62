import Verif.Model.Math
import Mathlib.Algebra.BigOperators.Ring.Finset
import Mathlib.Data.Nat.Factorial.Basic

/-!
# Specification of Noll's Zernike polynomials (Noll 1976, equations 1 and 2)
-/

namespace Coralign.Spec

open Finset

/-- A radial order and azimuthal frequency that name a Zernike polynomial. -/
def ValidMode (n m : ℕ) : Prop := m ≤ n ∧ Even (n - m)

/-- The coefficient of `r^(n-2k)`: `(-1)^k (n-k)! / (k! ((n+m)/2-k)! ((n-m)/2-k)!)`. -/
noncomputable def radialCoef (n m k : ℕ) : ℝ :=
  (-1) ^ k * (n - k).factorial / (k.factorial * ((n + m) / 2 - k).factorial * ((n - m) / 2 - k).factorial)

/-- The radial polynomial `R_n^m(r)`. -/
noncomputable def radial (n m : ℕ) (r : ℝ) : ℝ := ∑ k ∈ range ((n - m) / 2 + 1), radialCoef n m k * r ^ (n - 2 * k)

/-- Noll's normalised mode: `sqrt(n+1) R_n^0` or `sqrt(2(n+1)) R_n^m(r) cos(m θ)` / `sin(m θ)`. -/
noncomputable def zernike (n m : ℕ) (sine : Bool) (r θ : ℝ) : ℝ :=
  if m = 0 then Real.sqrt (n + 1) * radial n 0 r
  else Real.sqrt (2 * (n + 1)) * radial n m r * (if sine then Real.sin (m * θ) else Real.cos (m * θ))

/-- Noll's numbering fills a triangle row by row: row `n` holds the `n + 1` modes of radial order `n`.  The row of index `j` is the number of
rows that end before `j`. -/
def nollRow (j : ℕ) : ℕ := ((List.range j).filter fun n => (n + 1) * (n + 2) / 2 < j).length

/-- Within a row the azimuthal frequencies increase, every one but 0 named twice: `0 2 2 4 4 ...` in even rows, `1 1 3 3 ...` in odd rows. -/
def nollFreq (j : ℕ) : ℕ :=
  let t := j - nollRow j * (nollRow j + 1) / 2
  if nollRow j % 2 = 0 then 2 * (t / 2) else 2 * ((t - 1) / 2) + 1

/-- The polynomial with Noll index `j` on the disc of radius `prad`, at the point `(x, y)`: cosine for even and sine for odd indices. -/
noncomputable def mode (j : ℕ) (prad x y : ℝ) : ℝ :=
  zernike (nollRow j) (nollFreq j) (j % 2 = 1) (Real.sqrt (x ^ 2 + y ^ 2) / prad) (Complex.arg ⟨x, y⟩)

example : (List.range 16).map (fun j => (nollRow j, nollFreq j)) = [(0, 0), (0, 0), (1, 1), (1, 1), (2, 0), (2, 2), (2, 2), (3, 1), (3, 1), (3, 3),
    (3, 3), (4, 0), (4, 2), (4, 2), (4, 4), (4, 4)] := by decide

end Coralign.Spec
