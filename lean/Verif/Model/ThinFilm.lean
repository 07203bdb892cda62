import Verif.Base.Py
import Mathlib.Analysis.SpecialFunctions.Pow.Complex
import Mathlib.LinearAlgebra.Matrix.Notation
import Mathlib.Data.Complex.Basic
import Mathlib.Analysis.SpecialFunctions.Pow.Real

/-!
# Model of `coralign/maskgen/util/thinfilm.py`

Refractive indices are complex numbers, as in the arrays that `calc_complex_occulter` builds.  (A caller who passes a *real*
numpy array beyond the critical angle gets NaN from `np.sqrt`; that is not modelled.)  Signed zeros are not modelled.
-/

namespace Coralign

open Matrix

/-- `np.sqrt` of a complex number: the root with argument in `(-pi/2, pi/2]`. -/
noncomputable def csqrt (z : ℂ) : ℂ := z ^ (2⁻¹ : ℂ)

/-- `kx = 2*np.pi*n[0]*np.sin(theta)/lam`, `thinfilm.py` line 214. -/
noncomputable def tfKx (n0 : ℂ) (theta lam : ℝ) : ℂ := 2 * Real.pi * n0 * Real.sin theta / lam

/-- `kz = -np.sqrt((2*np.pi*n/lam)**2 - kx*kx)`, `thinfilm.py` line 216. -/
noncomputable def tfKz (kx : ℂ) (lam : ℝ) (n : ℂ) : ℂ := -csqrt ((2 * Real.pi * n / lam) ^ 2 - kx * kx)

/-- `kzz`, `thinfilm.py` lines 218-221. -/
noncomputable def tfKzz (kx : ℂ) (lam : ℝ) (tetm : Bool) (n : ℂ) : ℂ :=
  if tetm then tfKz kx lam n / (n * n) else tfKz kx lam n

/-- One factor `tin[i]*[[eep[i], ri[i]*eep[i]], [ri[i]*eem[i], eem[i]]]`, `thinfilm.py` lines 223-224, 228-229 and 233-234. -/
noncomputable def tfStep (kz1 d1 kzz1 kzz2 : ℂ) : Matrix (Fin 2) (Fin 2) ℂ :=
  let eep := Complex.exp (-Complex.I * kz1 * d1)
  let eem := Complex.exp (Complex.I * kz1 * d1)
  let tin := 1 / 2 * (kzz1 + kzz2) / kzz1
  let ri := (kzz1 - kzz2) / (kzz1 + kzz2)
  tin • !![eep, ri * eep; ri * eem, eem]

/-- The values returned by `solver`: `[R, T, rr, tt]`. -/
structure FilmOut where
  R : ℝ
  T : ℝ
  rr : ℂ
  tt : ℂ

/-- The matrix `A` after the loop, `thinfilm.py` lines 231-234. -/
noncomputable def tfMatrix (n : List ℂ) (d : List ℝ) (kx : ℂ) (lam : ℝ) (tetm : Bool) : Matrix (Fin 2) (Fin 2) ℂ :=
  (List.range (n.length - 1)).foldl (fun A i =>
    A * tfStep (tfKz kx lam (n.getD i 0)) (d.getD i 0 : ℝ) (tfKzz kx lam tetm (n.getD i 0)) (tfKzz kx lam tetm (n.getD (i + 1) 0))) 1

open scoped Classical in
/-- `solver(n, d0, theta, lam, tetm)`, `thinfilm.py` lines 163-251. -/
noncomputable def solver (n : List ℂ) (d0 : List ℝ) (theta lam : ℝ) (tetm : Bool) : Res FilmOut :=
  if (d0.length : ℤ) ≠ (n.length : ℤ) - 2 then .error .valueError
  else if theta < 0 then .error .valueError
  else if theta ≥ Real.pi / 2 then .error .valueError
  else if lam ≤ 0 then .error .valueError
  else
    let d : List ℝ := 0 :: (d0 ++ [0])
    let n0 := n.getD 0 0
    let nl := n.getD (n.length - 1) 0
    let kx := tfKx n0 theta lam
    let A := tfMatrix n d kx lam tetm
    let rr := A 1 0 / A 0 0
    let tt := 1 / A 0 0
    let Pn : ℝ := if tetm then ((tfKz kx lam nl / nl ^ 2) / (tfKz kx lam n0 / n0 ^ 2)).re
      else (tfKz kx lam nl / tfKz kx lam n0).re
    .ok ⟨‖rr‖ ^ 2, Pn * ‖tt‖ ^ 2, rr, (Real.sqrt Pn : ℂ) * tt⟩

/-- The `SUBSTRATE` strings that `calc_complex_occulter` accepts, `thinfilm.py` line 70, and everything else. -/
inductive Substrate where
  | FS | FUSEDSILICA | NBK7 | NdashBK7 | BK7 | other (s : String)
  deriving DecidableEq

/-- The material data that `calc_complex_occulter` looks up for the wavelength, `thinfilm.py` lines 83-123: indices of the
substrate and of the resist, and index and extinction of titanium and nickel.  The tables and the dispersion formulas
themselves are modelled in `Model/Materials.lean`. -/
structure Materials where
  nSub : ℝ
  nPmgi : ℝ
  nTi : ℝ
  kTi : ℝ
  nNi : ℝ
  kNi : ℝ

open scoped Classical in
/-- One pass of the loop in `calc_complex_occulter`, `thinfilm.py` lines 130-158: `(tCoef[ii], rCoef[ii])`. -/
noncomputable def occulterCell (mat : Materials) (theta lam d0 dti dni dpm : ℝ) (pol : ℤ) (flagOPD : Bool) : Res (ℂ × ℂ) := do
  let nvec : List ℂ := [1, 1, mat.nPmgi, mat.nNi - Complex.I * mat.kNi, mat.nTi - Complex.I * mat.kTi, mat.nSub]
  let dvec : List ℝ := [d0 - dpm - dni - dti, dpm, dni, dti]
  let p ← if pol = 2 then do
      let s0 ← solver nvec dvec theta lam false
      let s1 ← solver nvec dvec theta lam true
      .ok ((s0.rr + s1.rr) / 2, (s0.tt + s1.tt) / 2)
    else if pol = 0 ∨ pol = 1 then do
      let s ← solver nvec dvec theta lam (decide (pol = 1))
      .ok (s.rr, s.tt)
    else (.error .valueError : Res (ℂ × ℂ))
  if flagOPD then .ok (p.2, p.1)
  else .ok ((starRingEnd ℂ) p.2, (starRingEnd ℂ) p.1)

open scoped Classical in
/-- `calc_complex_occulter`, `thinfilm.py` lines 9-160; `mat` gives the looked-up indices at the wavelength.  The result lists
`(tCoef[ii], rCoef[ii])`. -/
noncomputable def calcComplexOcculter (mat : ℝ → Materials) (lam aoi : ℝ) (tTi tNi tPmgi : List ℝ) (d0 : ℝ) (pol : ℤ)
    (flagOPD : Bool) (sub : Substrate) : Res (List (ℂ × ℂ)) :=
  if lam ≤ 0 then .error .valueError
  else if aoi < 0 then .error .valueError
  else if aoi ≥ 90 then .error .valueError
  else if tTi.length ≠ tNi.length ∨ tNi.length ≠ tPmgi.length then .error .valueError
  else if d0 ≤ 0 then .error .valueError
  else if ¬ (pol = 0 ∨ pol = 1 ∨ pol = 2) then .error .valueError
  else match sub with
    | .other _ => .error .valueError
    | .NBK7 | .NdashBK7 | .BK7 => .error .valueError
    | .FS | .FUSEDSILICA =>
      (List.range tNi.length).mapM fun ii =>
        occulterCell (mat lam) (aoi * (Real.pi / 180)) lam d0 (tTi.getD ii 0) (tNi.getD ii 0) (tPmgi.getD ii 0) pol flagOPD

end Coralign
