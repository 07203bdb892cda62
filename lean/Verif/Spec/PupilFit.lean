import Verif.Model.PupilFit
import Verif.Spec.FitShapes
import Verif.Spec.MaskFit

/-!
# Specification vocabulary for the unmasked pupil fit
-/

namespace Coralign.Spec

open Coralign

/-- The tuning parameters are in range. -/
structure PupilArgs (t : PupilTuning) : Prop where
  iter : 0 < t.nIterOffsets
  pad : 0 < t.nPadFFT
  focus : 0 < t.nFocusCrop
  steps : 0 < t.nPhaseSteps
  pixel : 0 < t.dPixel
  clock : 0 < t.clockDegMax
  clocks : 0 < t.nClock
  diam : 0 < t.diamHighRes
  padFac : 0 < t.padFacRef
  tol : 0 ≤ t.deltaAmpMax
  percentile : 0 < t.percentile
  zeroPad : 0 ≤ t.zeroPadding

/-- `ref` is the reference pupil at diameter `d`, rotated and flipped as the tuning file says, on `nPadFFT x nPadFFT` pixels. -/
def PupilReference (Sp : ClampSpline) (R : Rotate) (t : PupilTuning) (d : ℝ) (ref : Arr2 ℝ) : Prop :=
  ∃ r, rotateShiftDownsample Sp R t.mask t.rotRef (d / t.diamHighRes) 0 0 t.padFacRef t.flipxRef = .ok r ∧
    padCrop r [t.nPadFFT, t.nPadFFT] 0 = .ok ref

/-- `M` is the mask, neither rotated nor flipped, in the smallest even square that leaves the zero padding. -/
def PaddedTo (mask : Arr2 ℝ) (pad : ℝ) (M : Arr2 ℝ) : Prop :=
  ∃ n : ℤ, n % 2 = 0 ∧ ((max mask.nr mask.nc : ℕ) : ℝ) + pad ≤ n ∧ (n : ℝ) < ((max mask.nr mask.nc : ℕ) : ℝ) + pad + 2 ∧
    padCrop mask [n, n] 0 = .ok M

/-- `M` is the reference mask as it was read, padded. -/
def PaddedMask (t : PupilTuning) (M : Arr2 ℝ) : Prop := PaddedTo t.mask t.zeroPadding M

/-- `L` is the light in the bright pixels of `img`, in units of the percentile of their values. -/
def BrightLight (img : Arr2 ℝ) (p L : ℝ) : Prop :=
  ∃ f m, NormBy img img p f ∧ ampthresh img 21 = .ok m ∧ L = lightIn img m / f

/-- The number of True pixels. -/
def trueCount (m : Arr2 Bool) : ℕ := (Finset.univ.filter fun q : Fin m.nr × Fin m.nc => m.val q.1 q.2 = true).card

/-- Every pixel of `img` at which `m` is True has the value `v`. -/
def Uniform (img : Arr2 ℝ) (m : Arr2 Bool) (v : ℝ) : Prop := ∀ i j : ℤ, m.px i j = some true → img.px i j = some v

end Coralign.Spec
