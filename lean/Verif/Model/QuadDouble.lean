import Verif.Model.Quad
import Verif.Base.DoubleSum

/-!
# `quadrant_energy_balance` in double precision

The sum of a list is a parameter `S`: `np.sum` may add in any order.
-/

namespace Coralign

/-- All pixels of an image, row by row. -/
def allPixels (a : Arr2 ℝ) : List (Fin a.nr × Fin a.nc) := (List.finRange a.nr) ×ˢ (List.finRange a.nc)

/-- `rho` of a pixel with the integer coordinates `x`, `y`: `np.sqrt(x**2 + y**2)` with every operation rounded, `coralign/util/math.py` line 82. -/
noncomputable def pixelRhoD (x y : ℤ) : ℝ := double (Real.sqrt (double (double ((x : ℝ) ^ 2) + double ((y : ℝ) ^ 2))))

open Classical in
/-- `np.sum(norm_image_array[q == True])`, `coralign/util/quad.py` lines 44, 55-78: the quotients and the sum are rounded. -/
noncomputable def quadCountsD (S : List ℝ → ℝ) (a : Arr2 ℝ) (total : ℝ) (ox oy : ℤ) (radius : ℝ) (q : ℤ → ℤ → Prop) : ℝ :=
  S (((allPixels a).filter fun p => q ((p.2 : ℕ) - ox) ((p.1 : ℕ) - oy) ∧ pixelRhoD ((p.2 : ℕ) - ox) ((p.1 : ℕ) - oy) ≤ radius).map
    fun p => double (a.val p.1 p.2 / total))

/-- `quadrant_energy_balance`, `coralign/util/quad.py` lines 38-83, with every operation rounded.  The coordinates of line 55-58 are integers, which `np.linspace`
returns exactly.  Simplification: when the sum of the image is zero numpy yields NaN or infinities; that outcome is `.ok none`
(as in `Model/Quad`). -/
noncomputable def quadrantEnergyBalanceD (S : List ℝ → ℝ) (a : Arr2 ℝ) (xOrigin yOrigin : ℤ) (radius : ℝ) : Res (Option (ℝ × ℝ)) :=
  if radius < 0 then .error .typeError
  else if xOrigin < 0 then .error .typeError
  else if yOrigin < 0 then .error .typeError
  else if ¬ xOrigin < a.nr then .error .valueError
  else if ¬ yOrigin < a.nc then .error .valueError
  else
    let total := S ((allPixels a).map fun p => a.val p.1 p.2)
    if total = 0 then .ok none
    else
      let counts := quadCountsD S a total xOrigin yOrigin radius
      let q1 := counts fun x y => x ≥ 0 ∧ y ≥ 0
      let q2 := counts fun x y => x ≤ 0 ∧ y ≥ 0
      let q3 := counts fun x y => x ≥ 0 ∧ y ≤ 0
      let q4 := counts fun x y => x ≤ 0 ∧ y ≤ 0
      .ok (some (double (double (q1 + q3) - double (q2 + q4)), double (double (q1 + q2) - double (q3 + q4))))

end Coralign
