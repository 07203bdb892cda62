import Verif.Base.ArgMax
import Verif.Base.Ndimage
import Verif.Base.Round
import Verif.Model.Fft

/-!
# Model of `coralign/psffit/psffit.py`
-/

namespace Coralign

/-- `n * np.fft.fftfreq(n)[k]`: `0, 1, ..., (n-1)//2, -(n//2), ..., -1`. -/
def fftfreqNum (n k : ℕ) : ℤ := if k ≤ (n - 1) / 2 then (k : ℤ) else (k : ℤ) - n

/-- The kernel of one axis, lines 73-75: `exp(-2πi (u - offset) fftfreq(n, upsample_factor)[c])`. -/
noncomputable def dftKernel (n : ℕ) (kappa off : ℝ) (u c : ℕ) : ℂ :=
  cis (-(((u : ℝ) - off) * ((fftfreqNum n c : ℝ) / (n * kappa))))

/-- `np.tensordot(kernel, a, axes=(1, -1))`, line 76. -/
noncomputable def tensorPass (ups : ℕ) (k : ℕ → ℕ → ℂ) (a : Arr2 ℂ) : Arr2 ℂ :=
  ⟨ups, a.nr, fun u r => ∑ c : Fin a.nc, k u c * a.val r c⟩

open scoped Classical in
/-- `compute_upsampled_dft(image_dft, upsampled_region_size, upsample_factor, axis_offsets)`, lines 53-77 and 197-234, for a
two-dimensional `image_dft` and list arguments (a scalar region size and a missing offset are expanded to lists of length two
by lines 54-61).  `np.arange` of a non-positive size is empty; `np.fft.fftfreq` divides by the factor and by the axis length. -/
noncomputable def computeUpsampledDft (a : Arr2 ℂ) (sizes : List ℤ) (kappa : ℝ) (offs : List ℝ) : Res (Arr2 ℂ) :=
  match sizes, offs with
  | [s0, s1], [o0, o1] =>
    if kappa = 0 ∨ a.nr = 0 ∨ a.nc = 0 then .error .zeroDivisionError
    else .ok (tensorPass s0.toNat (dftKernel a.nr kappa o0) (tensorPass s1.toNat (dftKernel a.nc kappa o1) a))
  | _, _ => .error .valueError

/-- The constants read from the configuration file, lines 122-123, 152 and 179. -/
structure PsfConfig where
  upsample : ℝ
  pad : ℝ
  thresh : ℝ

/-- A real image as a complex one. -/
noncomputable def Arr2.toC (a : Arr2 ℝ) : Arr2 ℂ := a.map fun x : ℝ => (x : ℂ)

/-- `image_product`, lines 126-130. -/
noncomputable def imageProduct (src tgt : Arr2 ℝ) : Arr2 ℂ :=
  ⟨src.nr, src.nc, fun p q => (npFft2 src.toC).val p q *
    (starRingEnd ℂ) (((npFft2 tgt.toC).px (p : ℕ) (q : ℕ)).getD 0)⟩

/-- Lines 136-141 for one axis: positions beyond the middle stand for negative shifts. -/
def unwrapShift (n m : ℕ) : ℤ := if m > n / 2 then (m : ℤ) - n else m

/-- Lines 145-172: refine the shift estimate on the upsampled grid.  `np.argmax` raises ValueError on an empty grid. -/
noncomputable def refineShift (prod : Arr2 ℂ) (kappa pad : ℝ) (s0 s1 : ℤ) : Res (ℝ × ℝ) :=
  let t0 : ℝ := npRound ((s0 : ℝ) * kappa) / kappa
  let t1 : ℝ := npRound ((s1 : ℝ) * kappa) / kappa
  let region : ℤ := ⌈kappa * pad⌉
  let dftshift : ℤ := region / 2
  if region ≤ 0 then .error .valueError
  else do
    let up ← computeUpsampledDft (prod.map (starRingEnd ℂ)) [region, region] kappa
      [(dftshift : ℝ) - t0 * kappa, (dftshift : ℝ) - t1 * kappa]
    let cc := up.map fun z => (starRingEnd ℂ) z / (((prod.nr : ℂ) * prod.nc) * (kappa : ℂ) ^ 2)
    let mx := argmax2 (cc.map fun z => ‖z‖)
    .ok (t0 + (((mx.1 : ℕ) : ℝ) - dftshift) / kappa, t1 + (((mx.2 : ℕ) : ℝ) - dftshift) / kappa)

/-- The largest pixel, `np.amax`, of a non-empty image. -/
noncomputable def amax (a : Arr2 ℝ) : ℝ := a.zext ((argmax2 a).1 : ℕ) ((argmax2 a).2 : ℕ)

open scoped Classical in
/-- Lines 174-188: the amplitude ratio over the thresholded pixels.  When the shifted source vanishes on all of them numpy
returns NaN; the model then returns 0. -/
noncomputable def psfAmplitude (guess tgt : Arr2 ℝ) (thresh : ℝ) : ℝ :=
  (∑ i : Fin tgt.nr, ∑ j : Fin tgt.nc, if thresh * amax tgt < tgt.val i j then guess.zext (i : ℕ) (j : ℕ) * tgt.val i j else 0) /
  (∑ i : Fin tgt.nr, ∑ j : Fin tgt.nc,
    if thresh * amax tgt < tgt.val i j then guess.zext (i : ℕ) (j : ℕ) * guess.zext (i : ℕ) (j : ℕ) else 0)

open scoped Classical in
/-- `psffit(source_image, target_image, config_file)`, lines 118-194, once the configuration has been read: the shift of the
target from the source (rows, columns) and the amplitude ratio.  numpy refuses to transform an empty image. -/
noncomputable def psffit (T : Shift) (cfg : PsfConfig) (src tgt : Arr2 ℝ) : Res ((ℝ × ℝ) × ℝ) :=
  if src.nr ≠ tgt.nr ∨ src.nc ≠ tgt.nc then .error .valueError
  else if src.nr = 0 ∨ src.nc = 0 then .error .valueError
  else do
    let prod := imageProduct src tgt
    let mx := argmax2 ((npIfft2 prod).map fun z => ‖z‖)
    let s0 := unwrapShift src.nr mx.1
    let s1 := unwrapShift src.nc mx.2
    let s ← if cfg.upsample ≠ 1 then refineShift prod cfg.upsample cfg.pad s0 s1 else .ok ((s0 : ℝ), (s1 : ℝ))
    let guess := T.run (-1 * s.1) (-1 * s.2) src
    .ok ((-s.1, -s.2), psfAmplitude guess tgt cfg.thresh)

end Coralign
