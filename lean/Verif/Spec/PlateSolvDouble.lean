import Verif.Spec.PlateSolv
import Verif.Model.PlateSolvDouble

/-!
# Specification vocabulary for the plate scale search in double precision
-/

namespace Coralign.Spec

open Coralign

/-- Searches of ordinary size: a guess between `2^-40` and `2^40`, a width between a thousandth of the guess and 255/256 of it, 4 to 65536 trials, and an
interpolation step of at most the guess and at least `2^-40` of it. -/
structure FairSearch (pg w step : ℝ) (N : ℕ) : Prop where
  pgLo : 1 / 2 ^ 40 ≤ pg
  pgHi : pg ≤ 2 ^ 40
  wLo : 1 / 2 ^ 10 ≤ w
  wHi : w ≤ 1 - 1 / 2 ^ 8
  nLo : 4 ≤ N
  nHi : N ≤ 2 ^ 16
  stepLo : pg / 2 ^ 40 ≤ step
  stepHi : step ≤ pg

/-- The plate scales `pix` are the `N` of exact arithmetic, or those and the end of the range which exact arithmetic leaves out, up to rounding. -/
def NearScales (pg w : ℝ) (N : ℕ) (pix : List ℝ) : Prop :=
  (pix.length = N ∨ pix.length = N + 1) ∧
    ∀ k (h : k < pix.length), |pix[k] - (pg * (1 - w) + k * (2 * pg * w / N))| ≤ (5 * k + 19) * (pg / 2 ^ 52)

/-- The points `xs` are those from `lo` in steps of `step`, up to rounding, up to the last before `hi`, none outside `[lo, hi]`. -/
def NearGrid (pg lo hi step : ℝ) (xs : List ℝ) : Prop :=
  (∀ j (h : j < xs.length), |xs[j] - (lo + j * step)| ≤ (5 * j + 11) * (pg / 2 ^ 52) ∧ lo ≤ xs[j] ∧ xs[j] ≤ hi) ∧
    hi ≤ lo + xs.length * step + 7 * (pg / 2 ^ 52)

/-- `best` lists the points of `xs` at which `f` is lowest, in the order of `xs`. -/
def LowestIn (xs : List ℝ) (f : ℝ → ℝ) (best : List ℝ) : Prop :=
  best ≠ [] ∧ best.Sublist xs ∧ ∀ x, x ∈ best ↔ x ∈ xs ∧ ∀ x' ∈ xs, f x ≤ f x'

/-- No point of the interpolation grid of exact arithmetic is within rounding of the last plate scale, be it the `N`-th or the one after. -/
def ClearOfEnd (pg w step : ℝ) (N : ℕ) : Prop :=
  ∀ T : ℕ, T = N ∨ T = N + 1 → ∀ j : ℕ, (20 * N + 5 * j + 60) * (pg / 2 ^ 52) < |((T : ℝ) - 1) * (2 * pg * w / N) - j * step|

end Coralign.Spec
