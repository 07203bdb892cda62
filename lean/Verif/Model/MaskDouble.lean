import Verif.Model.MaskGen
import Verif.Model.ShapesDouble

/-!
# The array sizes, averaging window and sampling positions of `rotate_shift_downsample_amplitude_mask` in double precision

Every operation on floats that decides a size, the extent of the averaging window or a sampling position is rounded to the nearest double.  The
transforms, the rotation and the spline are as in `Verif.Model.MaskGen`, in exact arithmetic.  Overflow, infinities and `nan` are not modelled.
-/

namespace Coralign

open scoped Classical in
/-- The disc of diameter `d`, lines 80-84, in double precision.  The coordinates are exact: the side `n` is odd, so that they are whole numbers. -/
noncomputable def discWindowD (n : ℕ) (d : ℝ) : Arr2 ℝ :=
  ⟨n, n, fun i j => if rhoD (maskAxis n j) (maskAxis n i) ≤ double (d / 2) then 1 else 0⟩

/-- `newSideLength`, line 62: the product is rounded, `ceil_odd` of a double is exact. -/
noncomputable def maskSideD (maskIn : Arr2 ℝ) (padFac : ℝ) : ℤ := ceilOdd (double (padFac * (max maskIn.nr maskIn.nc : ℕ)))

/-- `nMaskOut`, lines 73-75, computed from left to right. -/
noncomputable def maskOutD (n : ℕ) (mag xOffset yOffset : ℝ) : ℤ :=
  ceilOdd (double (double (double ((n : ℝ) * mag) + 2) + double (2 * max |xOffset| |yOffset|)))

/-- A sampling position, lines 97-98: `(np.arange(-(n-1.)/2., n/2., 1) - offset)*dxOut`.  The `arange` is exact, the difference and the product are
rounded. -/
noncomputable def maskPosD (n k : ℕ) (off dxOut : ℝ) : ℝ := double (double (maskAxis n k - off) * dxOut)

open scoped Classical in
/-- `rotate_shift_downsample_amplitude_mask(maskIn, rotDeg, mag, xOffset, yOffset, padFac, flipx)`,
`coralign/maskgen/maskgen.py` lines 18-107, with the sizes, the window and the positions in double precision. -/
noncomputable def rotateShiftDownsampleD (S : ClampSpline) (R : Rotate) (maskIn : Arr2 ℝ) (rotDeg mag xOffset yOffset padFac : ℝ) (flipx : Bool) :
    Res (Arr2 ℝ) :=
  if mag ≤ 0 ∨ 1 < mag ∨ padFac < 1 then .error .typeError
  else do
    -- lines 62-63
    let side := maskSideD maskIn padFac
    let m0 ← padCrop maskIn [side, side] 0
    -- lines 66-67
    let m := if flipx = true then m0.fliplr else m0
    -- lines 70-75
    let dxOut := double (1 / mag)
    let nOut := maskOutD m.nr mag xOffset yOffset
    -- lines 80-92
    let A := smoothMask (normWindow (discWindowD m.nr dxOut)) m
    -- lines 94-95
    let A := if rotDeg = 0 then A else R.run (-rotDeg) A
    -- lines 97-105
    if m.nr < 4 then .error (.user 0)
    else
      .ok ⟨nOut.toNat + 1, nOut.toNat + 1, fun i j => if (i : ℕ) = 0 ∨ (j : ℕ) = 0 then 0 else
        S.eval (maskAxis m.nr) (maskAxis m.nr) A (maskPosD nOut.toNat ((i : ℕ) - 1) yOffset dxOut)
          (maskPosD nOut.toNat ((j : ℕ) - 1) xOffset dxOut)⟩

end Coralign
