import Verif.Model.FitSurf
import Verif.Model.Conjugate
import Verif.Base.Ndimage
import Verif.Model.Math

/-!
# Model of `dmhtoph` in `coralign/util/dmhtoph.py`
-/

namespace Coralign

/-- `arr0`, lines 123-124: the commands on a grid with `P` samples per actuator, zero in between. -/
noncomputable def spreadPokes (n P : ℕ) (dm : Arr2 ℝ) : Arr2 ℝ :=
  ⟨(n - 1) * P + 1, (n - 1) * P + 1, fun i j =>
    if (i : ℕ) % P = 0 ∧ (j : ℕ) % P = 0 then dm.zext (((i : ℕ) / P : ℕ) : ℤ) (((j : ℕ) / P : ℕ) : ℤ) else 0⟩

/-- `scipy.signal.convolve(a, w, mode='full')`, line 126, in exact arithmetic. -/
noncomputable def fullConvolve (a w : Arr2 ℝ) : Arr2 ℝ :=
  ⟨a.nr + w.nr - 1, a.nc + w.nc - 1, fun i j => ∑ p : Fin w.nr, ∑ q : Fin w.nc,
    w.val p q * a.zext ((i : ℕ) - (p : ℕ)) ((j : ℕ) - (q : ℕ))⟩

/-- `nxyres`, lines 136-141. -/
noncomputable def workSize (n : ℤ) (N : ℕ) (P : ℤ) (cx cy : ℝ) : ℤ := ceilOdd (Real.sqrt 2 * (n + N / P) * max cx cy)

open scoped Classical in
/-- Lines 143-158: the facesheet on the camera grid, zero where the spline would extrapolate.  `c` is square, and its
coordinates (line 131) are `infCoord c.nr P`. -/
noncomputable def cameraGrid (S : Spline) (c : Arr2 ℝ) (P : ℝ) (M : ℤ) (cx cy : ℝ) : Arr2 ℝ :=
  ⟨M.toNat, M.toNat, fun i j =>
    let y := (((i : ℕ) : ℤ) - M / 2 : ℤ) / cy
    let x := (((j : ℕ) : ℤ) - M / 2 : ℤ) / cx
    if (infCoord c.nr P 0 ≤ x ∧ x ≤ infCoord c.nr P (c.nr - 1)) ∧ (infCoord c.nr P 0 ≤ y ∧ y ≤ infCoord c.nr P (c.nr - 1))
    then S.eval (infCoord c.nr P) (infCoord c.nr P) c y x else 0⟩

open scoped Classical in
/-- `dmhtoph(nrow, ncol, dmin, nact, inf_func, ppact_d, ppact_cx, ppact_cy, dx, dy, thact, flipx)`, lines 94-167, for real
`dmin`.  The cubic spline needs at least four samples per axis; FITPACK raises its own error otherwise (here `user 0`). -/
noncomputable def dmhtoph (S : Spline) (R : Rotate) (T : Shift) (nrow ncol : ℤ) (dmin : Arr2 ℝ) (nact : ℤ) (w : Arr2 ℝ) (P : ℤ)
    (cx cy dx dy th : ℝ) (flipx : Bool) : Res (Arr2 ℝ) :=
  if nrow ≤ 0 ∨ ncol ≤ 0 ∨ nact ≤ 0 ∨ P ≤ 0 ∨ cx ≤ 0 ∨ cy ≤ 0 then .error .typeError
  else if nact * P ≤ w.nr ∨ nact * P ≤ w.nc then .error .typeError
  else if (dmin.nr : ℤ) ≠ nact ∨ (dmin.nc : ℤ) ≠ nact then .error .typeError
  else if P < cx ∨ P < cy then .error .typeError
  else if w.nr ≠ w.nc then .error .typeError
  else if w.nr % 2 ≠ 1 then .error .typeError
  else
    let c := fullConvolve (spreadPokes nact.toNat P.toNat dmin) w
    if c.nr < 4 then .error (.user 0)
    else
      let s0 := cameraGrid S c P (workSize nact w.nr P cx cy) cx cy
      let s1 := if flipx = true then s0.fliplr else s0
      padCrop (T.run dy dx (R.run (-th) s1)) [nrow, ncol] 0

end Coralign
