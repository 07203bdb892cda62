import Verif.Model.Fft
import Verif.Model.PadCrop

/-!
# Model of `fresnelprop`, `get_fp` and `fresnelprop_fp` in `coralign/util/fresnelprop.py`

Scalars are exact reals; array checks (`check.twoD_array`) are met by the type of the model's arrays.
-/

namespace Coralign

open scoped Classical in
/-- The scalar checks `real_positive_scalar(lam)`, `positive_scalar_integer(nxfresnel)`,
`real_positive_scalar(pixpermeter)`: `fresnelprop.py` lines 88-91 and 152-155. -/
noncomputable def fresnelChecks (lam : ℝ) (nx : ℤ) (ppm : ℝ) : Res Unit :=
  if lam ≤ 0 then .error .typeError
  else if nx ≤ 0 then .error .typeError
  else if ppm ≤ 0 then .error .typeError
  else .ok ()

/-- `nSamplesMin`, `fresnelprop.py` lines 102 and 162. -/
noncomputable def nSamplesMin (lam z ppm : ℝ) : ℤ := ⌈lam * |z| * ppm ^ 2⌉

/-- Entry of the angular-spectrum factor `exp(-1j*pi*lam*z*(rrf*(pixpermeter/nxfresnel))**2)`, `fresnelprop.py` lines
108-115 and 168-175; `rrf` is `np.hypot` of the centred pixel coordinates. -/
noncomputable def fresnelPhaseVal (lam z : ℝ) (nx : ℕ) (ppm : ℝ) (i j : Fin nx) : ℂ :=
  let x : ℝ := ((j : ℕ) : ℝ) - ((nx / 2 : ℕ) : ℝ)
  let y : ℝ := ((i : ℕ) : ℝ) - ((nx / 2 : ℕ) : ℝ)
  let r : ℝ := Real.sqrt (x ^ 2 + y ^ 2)
  Complex.exp (-1 * Complex.I * Real.pi * lam * z * ((r * (ppm / nx) : ℝ) : ℂ) ^ 2)

/-- The angular-spectrum factor as an array, `fresnelprop.py` lines 108-115 and 168-175. -/
noncomputable def fresnelPhase (lam z : ℝ) (nx : ℕ) (ppm : ℝ) : Arr2 ℂ := ⟨nx, nx, fresnelPhaseVal lam z nx ppm⟩

/-- numpy's in-place `a *= b` on 2-D arrays: `b` is broadcast to the shape of `a`, each axis of `b` having length 1 or
the length of that axis of `a`; anything else raises `ValueError`. -/
def imul (a b : Arr2 ℂ) : Res (Arr2 ℂ) :=
  if h : (b.nr = a.nr ∨ b.nr = 1) ∧ (b.nc = a.nc ∨ b.nc = 1) then
    .ok ⟨a.nr, a.nc, fun i j => a.val i j *
      b.val (if hr : b.nr = a.nr then ⟨i, by omega⟩ else ⟨0, by omega⟩)
        (if hc : b.nc = a.nc then ⟨j, by omega⟩ else ⟨0, by omega⟩)⟩
  else .error .valueError

/-- The common tail `pad_crop, do_fft, *= fp, do_ifft, pad_crop`: `fresnelprop.py` lines 117-122 and 216-221. -/
noncomputable def angularSpectrum (e : Arr2 ℂ) (nx : ℤ) (fp : Arr2 ℂ) : Res (Arr2 ℂ) := do
  let ef ← padCrop e [nx, nx] 0
  let fef ← imul (doFft ef) fp
  padCrop (doIfft fef) [e.nr, e.nc] 0

open scoped Classical in
/-- `fresnelprop(e, lam, z, nxfresnel, pixpermeter)`, `fresnelprop.py` lines 59-122.  `np.min(e.shape)` is `min nr nc`. -/
noncomputable def fresnelprop (e : Arr2 ℂ) (lam z : ℝ) (nx : ℤ) (ppm : ℝ) : Res (Arr2 ℂ) := do
  fresnelChecks lam nx ppm
  if z = 0 then .ok e
  else if (min e.nr e.nc : ℤ) < nSamplesMin lam z ppm then .error .valueError
  else angularSpectrum e nx (fresnelPhase lam z nx.toNat ppm)

/-- `get_fp(lam, z, nxfresnel, pixpermeter)`, `fresnelprop.py` lines 125-175. -/
noncomputable def getFp (lam z : ℝ) (nx : ℤ) (ppm : ℝ) : Res (Arr2 ℂ) := do
  fresnelChecks lam nx ppm
  if nx < nSamplesMin lam z ppm then .error .valueError
  else .ok (fresnelPhase lam z nx.toNat ppm)

open scoped Classical in
/-- `fresnelprop_fp(e, z, nxfresnel, fp)`, `fresnelprop.py` lines 178-221. -/
noncomputable def fresnelpropFp (e : Arr2 ℂ) (z : ℝ) (nx : ℤ) (fp : Arr2 ℂ) : Res (Arr2 ℂ) :=
  if nx ≤ 0 then .error .typeError
  else if z = 0 then .ok e
  else angularSpectrum e nx fp

end Coralign
