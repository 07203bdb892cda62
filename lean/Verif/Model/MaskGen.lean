import Verif.Base.Spline
import Verif.Base.Ndimage
import Verif.Model.Fft
import Verif.Model.Math
import Verif.Model.PadCrop
import Verif.Model.Conjugate

/-!
# Model of `rotate_shift_downsample_amplitude_mask` in `coralign/maskgen/maskgen.py`

Scalars are real, so the type checks of `check.py` are reduced to their range tests.
-/

namespace Coralign

/-- `np.arange(-(n-1.)/2., n/2., 1)[k]`, lines 80, 97 and 98; the array has `n` entries. -/
noncomputable def maskAxis (n k : ℕ) : ℝ := (k : ℝ) - ((n : ℝ) - 1) / 2

open scoped Classical in
/-- The disc of diameter `d`, lines 80-84. -/
noncomputable def discWindow (n : ℕ) (d : ℝ) : Arr2 ℝ :=
  ⟨n, n, fun i j => if Real.sqrt (maskAxis n j ^ 2 + maskAxis n i ^ 2) ≤ d / 2 then 1 else 0⟩

/-- `Window/np.sum(Window)`, line 85. -/
noncomputable def normWindow (w : Arr2 ℝ) : Arr2 ℝ := w.map fun v => v / ∑ i : Fin w.nr, ∑ j : Fin w.nc, w.val i j

/-- Elementwise product of two arrays of the same shape. -/
noncomputable def Arr2.mulC (a b : Arr2 ℂ) : Arr2 ℂ := ⟨a.nr, a.nc, fun i j => a.val i j * (b.px (i : ℕ) (j : ℕ)).getD 0⟩

/-- The smoothed mask `A`, lines 89-92. -/
noncomputable def smoothMask (w m : Arr2 ℝ) : Arr2 ℝ :=
  let fw := (npIfft2 (ifftshift (w.map fun v : ℝ => (v : ℂ)))).map fun v => v * (m.nr : ℂ)
  let fm := (npIfft2 (ifftshift (m.map fun v : ℝ => (v : ℂ)))).map fun v => v * (m.nr : ℂ)
  (fftshift (npFft2 (fw.mulC fm))).map Complex.re

open scoped Classical in
/-- `rotate_shift_downsample_amplitude_mask(maskIn, rotDeg, mag, xOffset, yOffset, padFac, flipx)`,
`coralign/maskgen/maskgen.py` lines 18-107.  The cubic spline needs at least four samples per axis; FITPACK raises its own error otherwise
(here `user 0`). -/
noncomputable def rotateShiftDownsample (S : ClampSpline) (R : Rotate) (maskIn : Arr2 ℝ) (rotDeg mag xOffset yOffset padFac : ℝ) (flipx : Bool) :
    Res (Arr2 ℝ) :=
  if mag ≤ 0 ∨ 1 < mag ∨ padFac < 1 then .error .typeError
  else do
    -- lines 62-63
    let side := ceilOdd (padFac * (max maskIn.nr maskIn.nc : ℕ))
    let m0 ← padCrop maskIn [side, side] 0
    -- lines 66-67
    let m := if flipx = true then m0.fliplr else m0
    -- lines 70-75
    let dxOut := 1 / mag
    let nOut := ceilOdd ((m.nr : ℝ) * mag + 2 + 2 * max |xOffset| |yOffset|)
    -- lines 80-92
    let A := smoothMask (normWindow (discWindow m.nr dxOut)) m
    -- lines 94-95
    let A := if rotDeg = 0 then A else R.run (-rotDeg) A
    -- lines 97-105
    if m.nr < 4 then .error (.user 0)
    else
      .ok ⟨nOut.toNat + 1, nOut.toNat + 1, fun i j => if (i : ℕ) = 0 ∨ (j : ℕ) = 0 then 0 else
        S.eval (maskAxis m.nr) (maskAxis m.nr) A ((maskAxis nOut.toNat ((i : ℕ) - 1) - yOffset) * dxOut)
          ((maskAxis nOut.toNat ((j : ℕ) - 1) - xOffset) * dxOut)⟩

end Coralign
