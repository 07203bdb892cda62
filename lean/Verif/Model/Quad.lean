import Verif.Base.Arr2
import Verif.Base.Sel
import Verif.Model.Math

/-!
# Model of `coralign/util/quad.py`
-/

namespace Coralign

/-- The sum of the (normalised) pixels whose coordinates relative to the origin satisfy `q` and lie in the disc:
`np.sum(norm_image_array[q == True])`, `coralign/util/quad.py` lines 55-78.
The coordinates are `x = col - originColumn`, `y = row - originRow` (linspace with unit step). -/
noncomputable def quadCounts (a : Arr2 ℝ) (ox oy : ℤ) (radius : ℝ) (q : ℝ → ℝ → Prop) : ℝ :=
  let total := ∑ i : Fin a.nr, ∑ j : Fin a.nc, a.val i j
  ∑ i : Fin a.nr, ∑ j : Fin a.nc,
    let x : ℝ := (((j : ℕ) : ℤ) - ox : ℤ)
    let y : ℝ := (((i : ℕ) : ℤ) - oy : ℤ)
    sel (q x y ∧ (cart2pol x y).1 ≤ radius) (a.val i j / total)

/-- `quadrant_energy_balance`, `coralign/util/quad.py` lines 38-83, on a real image.
Lines 40-42 are the sign checks, 48-51 the origin checks (with rows and columns exchanged, as in the code),
70-73 the quadrants, 75-81 the balances.
Simplification: when the image sums to zero numpy yields NaN or infinities; that outcome is `.ok none`
(also where the disc, centred beyond the rows or columns of a non-square image, holds no pixel, and numpy returns zeros). -/
noncomputable def quadrantEnergyBalance (a : Arr2 ℝ) (xOrigin yOrigin : ℤ) (radius : ℝ) :
    Res (Option (ℝ × ℝ)) :=
  if radius < 0 then .error .typeError
  else if xOrigin < 0 then .error .typeError
  else if yOrigin < 0 then .error .typeError
  else if ¬ xOrigin < a.nr then .error .valueError
  else if ¬ yOrigin < a.nc then .error .valueError
  else
    let total := ∑ i : Fin a.nr, ∑ j : Fin a.nc, a.val i j
    if total = 0 then .ok none
    else
      let counts := quadCounts a xOrigin yOrigin radius
      let q1 := counts fun x y => x ≥ 0 ∧ y ≥ 0
      let q2 := counts fun x y => x ≤ 0 ∧ y ≥ 0
      let q3 := counts fun x y => x ≥ 0 ∧ y ≤ 0
      let q4 := counts fun x y => x ≤ 0 ∧ y ≤ 0
      .ok (some ((q1 + q3) - (q2 + q4), (q1 + q2) - (q3 + q4)))

end Coralign
