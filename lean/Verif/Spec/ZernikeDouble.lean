import Verif.Spec.Zernike
import Verif.Model.ZernikeDouble

/-!
# What is asked of the mathematical routines behind the Zernike polynomials (C107)
-/

namespace Coralign.Spec

open Finset

/-- `gamma(k + 1)` is `k!` to four units in the last place. -/
def GammaClose (gamma : ℕ → ℝ) : Prop := ∀ k : ℕ, k ≤ 150 → |gamma (k + 1) - k.factorial| ≤ k.factorial / 2 ^ 50

/-- `gamma(k + 1)` is `k!` itself for the factorials up to `N!`. -/
def GammaExact (N : ℕ) (gamma : ℕ → ℝ) : Prop := ∀ k : ℕ, k ≤ N → gamma (k + 1) = k.factorial

/-- The other routines are right to a few units in the last place. -/
structure RoutinesClose (P : ZernRoutines) : Prop where
  gamma : GammaClose P.gamma
  hypot : ∀ x y, |P.hypot x y - Real.sqrt (x ^ 2 + y ^ 2)| ≤ Real.sqrt (x ^ 2 + y ^ 2) / 2 ^ 52
  arctan2 : ∀ x y, |P.arctan2 y x - Complex.arg ⟨x, y⟩| ≤ 1 / 2 ^ 50
  cos : ∀ t, |P.cos t - Real.cos t| ≤ 1 / 2 ^ 52
  sin : ∀ t, |P.sin t - Real.sin t| ≤ 1 / 2 ^ 52

/-- The sum of the moduli of the coefficients of the radial polynomial: how much larger than the result its terms can be. -/
noncomputable def coefSum (n m : ℕ) : ℝ := ∑ k ∈ range ((n - m) / 2 + 1), |radialCoef n m k|

/-- Noll's normalisation. -/
noncomputable def nollNorm (n m : ℕ) : ℝ := if m = 0 then Real.sqrt (n + 1) else Real.sqrt (2 * (n + 1))

end Coralign.Spec
