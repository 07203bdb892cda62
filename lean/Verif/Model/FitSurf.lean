import Verif.Base.Spline
import Verif.Model.PadCrop
import Verif.Base.ZSum
import Mathlib.Algebra.Order.Floor.Ring
import Mathlib.Algebra.Order.Archimedean.Real.Basic

/-!
# Model of `coralign/util/fit_surf_to_dm.py`
-/

namespace Coralign

/-- `scipy.ndimage.convolve(a, w, mode='constant', cval=0.0)`: the output at `(i, j)` is the sum over the pixels `(p, q)` of
`w` of `w[p, q] * a[i - (p - w.nr//2), j - (q - w.nc//2)]`, where `a` is zero outside. -/
noncomputable def ndConvolve (a w : Arr2 ℝ) : Arr2 ℝ :=
  ⟨a.nr, a.nc, fun i j => ∑ p : Fin w.nr, ∑ q : Fin w.nc,
    w.val p q * a.zext ((i : ℕ) - ((p : ℕ) - (w.nr : ℤ) / 2)) ((j : ℕ) - ((q : ℕ) - (w.nc : ℤ) / 2))⟩

/-- `np.linspace(-(n-1.)/2., (n-1.)/2., n)/ppa`, lines 137-138 and 145-146: entry `k`. -/
noncomputable def infCoord (n : ℕ) (ppa : ℝ) (k : ℕ) : ℝ := ((k : ℝ) - ((n : ℝ) - 1) / 2) / ppa

open scoped Classical in
/-- `resample_inf_func(inf_func, ppa_in, ppa_out)`, lines 128-153.  The cubic spline needs at least four samples per axis;
FITPACK raises its own error otherwise (here `user 0`). -/
noncomputable def resampleInfFunc (S : Spline) (w : Arr2 ℝ) (ppaIn ppaOut : ℝ) : Res (Arr2 ℝ) :=
  if ppaIn ≤ 0 then .error .typeError
  else if ppaOut ≤ 0 then .error .typeError
  else if ppaIn ≠ ppaOut then
    if w.nr < 4 ∨ w.nc < 4 then .error (.user 0)
    else
      let nr1 : ℤ := 2 * ⌊(1 / 2 : ℝ) * w.nr * ppaOut / ppaIn⌋ + 1
      let nc1 : ℤ := 2 * ⌊(1 / 2 : ℝ) * w.nc * ppaOut / ppaIn⌋ + 1
      .ok ⟨nr1.toNat, nc1.toNat, fun i j =>
        S.eval (infCoord w.nr ppaIn) (infCoord w.nc ppaIn) w (infCoord nr1.toNat ppaOut i) (infCoord nc1.toNat ppaOut j)⟩
  else .ok w

/-- `np.ravel` position of pixel `(i, j)` in an array with `nc` columns, and back. -/
def flatRow (nc k : ℕ) : ℕ := k / nc
def flatCol (nc k : ℕ) : ℕ := k % nc

/-- `single_poke` with entry `j` set, lines 90-93. -/
def singlePoke (nr nc j : ℕ) : Arr2 ℝ :=
  ⟨nr, nc, fun r c => if (r : ℕ) * nc + c = j then 1 else 0⟩

/-- `build_prefilter(nrow, ncol, inf_func, ppa_in)`, lines 78-105: row `j` of the matrix is the flattened surface of a unit
poke of actuator `j`. -/
noncomputable def buildPrefilter (S : Spline) (nrow ncol : ℤ) (w : Arr2 ℝ) (ppaIn : ℝ) :
    Res (Matrix (Fin (nrow.toNat * ncol.toNat)) (Fin (nrow.toNat * ncol.toNat)) ℝ) :=
  if nrow ≤ 0 ∨ ncol ≤ 0 then .error .typeError
  else do
    let wa ← resampleInfFunc S w ppaIn 1
    .ok fun j k => (ndConvolve (singlePoke nrow.toNat ncol.toNat j) wa).zext
      (flatRow ncol.toNat k : ℕ) (flatCol ncol.toNat k : ℕ)

/-- `fit_surf_to_dm(surf, act_effect)`, lines 33-45: the matrix is known to be `N × N`. -/
noncomputable def fitSurfToDm (L : SpSolve) (surf : Arr2 ℝ) {N : ℕ} (A : Matrix (Fin N) (Fin N) ℝ) : Res (Arr2 ℝ) :=
  if N ≠ surf.nr * surf.nc then .error .typeError
  else
    let x := L.solve A fun k => surf.zext (flatRow surf.nc k : ℕ) (flatCol surf.nc k : ℕ)
    .ok ⟨surf.nr, surf.nc, fun i j => if h : (i : ℕ) * surf.nc + j < N then x ⟨(i : ℕ) * surf.nc + j, h⟩ else 0⟩

end Coralign
