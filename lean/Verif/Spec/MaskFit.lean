import Verif.Model.AmpThresh
import Verif.Model.PupilSearch
import Verif.Model.MaskFit
import Verif.Spec.Lateral

/-!
# Specification vocabulary for the fits of pupil masks

Everything is said in terms of the functions specified elsewhere: `ampthresh` (C12), `compute_norm_factor` (C53), `pad_crop` (C01) and
`rotate_shift_downsample_amplitude_mask` (C60).
-/

namespace Coralign.Spec

open Coralign

/-- `n` evenly spaced values from `-m` to `m`. -/
noncomputable def spread (m : ℝ) (n : ℕ) : List ℝ := (List.range n).map fun k : ℕ => -m + 2 * m * ((k : ℝ) / ((n : ℝ) - 1))

/-- `ref` is the reference mask rotated, magnified and shifted as told, on an `nr x nc` detector. -/
def IsReference (Sp : ClampSpline) (R : Rotate) (mask : Arr2 ℝ) (rotDeg mag xo yo padFac : ℝ) (nr nc : ℕ) (ref : Arr2 ℝ) : Prop :=
  ∃ d, rotateShiftDownsample Sp R mask rotDeg mag xo yo padFac false = .ok d ∧ padCrop d [(nr : ℤ), (nc : ℤ)] 0 = .ok ref

/-- `f` is the `p`-th percentile of the pixels of `img` at which `thr` is bright. -/
def NormBy (img thr : Arr2 ℝ) (p f : ℝ) : Prop :=
  ∃ m, ampthresh thr 21 = .ok m ∧ computeNormFactor img (m.map fun b : Bool => if b = true then (1 : ℝ) else 0) p = .ok f

open scoped Classical in
/-- The number of pixels of `a` at which `a` and `b` differ by less than `tol`. -/
noncomputable def closePixels (a b : Arr2 ℝ) (tol : ℝ) : ℕ :=
  (Finset.univ.filter fun q : Fin a.nr × Fin a.nc => ∃ v, b.px (q.1 : ℕ) (q.2 : ℕ) = some v ∧ |a.val q.1 q.2 - v| < tol).card

open scoped Classical in
/-- The number of pixels at which two boolean masks have the same value. -/
noncomputable def equalPixels (a b : Arr2 Bool) : ℕ :=
  (Finset.univ.filter fun q : Fin a.nr × Fin a.nc => b.px (q.1 : ℕ) (q.2 : ℕ) = some (a.val q.1 q.2)).card

/-- `N` pixels of the measured amplitude match the reference: either both are normalised and compared within `tol`, or both are
thresholded (the measurement as an intensity) and compared for equality. -/
def Matches (amp ref : Arr2 ℝ) (p tol : ℝ) (binary : Bool) (N : ℕ) : Prop :=
  if binary = false then ∃ f g, NormBy amp (amp.map fun v : ℝ => v ^ 2) p f ∧ NormBy ref ref p g ∧
    N = closePixels (amp.map fun v : ℝ => v / f) (ref.map fun v : ℝ => v / g) tol
  else ∃ a b, ampthresh (amp.map fun v : ℝ => v ^ 2) 21 = .ok a ∧ ampthresh ref 21 = .ok b ∧ N = equalPixels a b

/-- One comparison of the masked image with the prediction made from the unmasked image `U`, for the mask offset `(x, y)` relative to the
pupil at `(xP, yP)`.  Both images are normalised by their bright pixels and turned into amplitudes, the prediction is the unmasked amplitude
times the reference mask at the assumed place, and both are windows of `nPadFFT` pixels about the pixel nearest to the pupil centre.
The lateral search finds the masked amplitude displaced from the prediction by `(dx, dy)`. -/
def Displaced (S : Solver) (Sp : ClampSpline) (R : Rotate) (t : MaskTuning) (U M : Arr2 ℝ) (xP yP diam mag clock x y dx dy : ℝ) : Prop :=
  ∃ fu fm ref a b, NormBy U U t.percentile fu ∧ NormBy M M t.percentile fm ∧
    IsReference Sp R t.mask clock (diam * mag / t.diamHighRes) (x + xP) (y + yP) (6 / 5) U.nr U.nc ref ∧
    (a.nr = t.nPadFFT.toNat ∧ a.nc = t.nPadFFT.toNat ∧ ∀ p ∈ window t.nPadFFT.toNat, ∀ q ∈ window t.nPadFFT.toNat,
      at0 a p q = Real.sqrt (max (at0 M (p + npRound yP) (q + npRound xP) / fm) 0)) ∧
    (b.nr = t.nPadFFT.toNat ∧ b.nc = t.nPadFFT.toNat ∧ ∀ p ∈ window t.nPadFFT.toNat, ∀ q ∈ window t.nPadFFT.toNat,
      at0 b p q = Real.sqrt (max (at0 U (p + npRound yP) (q + npRound xP) / fu) 0) * at0 ref (p + npRound yP) (q + npRound xP)) ∧
    computeLateralOffsets S a b diam t.nPhaseSteps t.dPixel t.nPadFFT t.nFocusCrop t.nIterInnerLoop 0 0 = .ok (dy, dx)

/-- An image in units of `f`, with negative values set to zero. -/
noncomputable def inUnits (img : Arr2 ℝ) (f : ℝ) : Arr2 ℝ := img.map fun v : ℝ => max (v / f) 0

/-- The amplitude of an image in units of `f`. -/
noncomputable def amplitude (img : Arr2 ℝ) (f : ℝ) : Arr2 ℝ := img.map fun v : ℝ => Real.sqrt (max (v / f) 0)

/-- The total of `a` over the pixels at which `m` is true. -/
noncomputable def lightIn (a : Arr2 ℝ) (m : Arr2 Bool) : ℝ := ∑ p ∈ Finset.range a.nr, ∑ q ∈ Finset.range a.nc,
  if m.px p q = some true then (a.px p q).getD 0 else 0

/-- `mag0` is the square root of the light in the bright pixels of the masked image over the light which the nominal mask passes in the
bright pixels of the unmasked one (amplitudes in units of `f`). -/
def LyotStart (Sp : ClampSpline) (R : Rotate) (t : LyotTuning) (U M : Arr2 ℝ) (xP yP f mag0 : ℝ) : Prop :=
  ∃ ref brightM brightU passed, IsReference Sp R t.mask 0 (t.diamPupil / t.diamHighRes) xP yP (6 / 5) U.nr U.nc ref ∧
    ampthresh (inUnits M f) 21 = .ok brightM ∧ ampthresh (inUnits U f) 21 = .ok brightU ∧
    (passed.nr = U.nr ∧ passed.nc = U.nc ∧ ∀ p q : ℤ, (passed.px p q).getD 0 = ((amplitude U f).px p q).getD 0 * (ref.px p q).getD 0) ∧
    mag0 = Real.sqrt (lightIn (amplitude M f) brightM / lightIn passed brightU)

/-- The Lyot stop is taken to be centred at `(x, y)`.  A coarse search of the masked amplitude for a disc of the outer diameter of the stop
(magnification `mag0`) gives a whole pixel `(x1, y1)`.  About that pixel the masked amplitude is compared with the prediction, which is the
unmasked amplitude times the reference stop of magnification `mag0` at the pupil centre `(xP, yP)`: both are square windows as large as the
longer side of the image.  The lateral search, of two iterations, finds the one displaced from the other by `(x - xP, y - yP)`. -/
def LyotPlaced (fuel : ℕ) (S : Solver) (Sp : ClampSpline) (R : Rotate) (t : LyotTuning) (U M : Arr2 ℝ) (xP yP f mag0 x y : ℝ) : Prop :=
  ∃ (x1 y1 : ℤ) (widths : List ℤ) (ref a b : Arr2 ℝ) (dx dy : ℝ),
    coarselyLocate fuel (amplitude M f) (mag0 * t.diamPupil * t.odLs) 3 = some (.ok ((x1, y1), widths)) ∧
    IsReference Sp R t.mask 0 (mag0 * t.diamPupil / t.diamHighRes) xP yP (6 / 5) U.nr U.nc ref ∧
    (a.nr = max U.nr U.nc ∧ a.nc = max U.nr U.nc ∧ ∀ p ∈ window (max U.nr U.nc), ∀ q ∈ window (max U.nr U.nc),
      at0 a p q = Real.sqrt (max (at0 M (p + y1) (q + x1) / f) 0)) ∧
    (b.nr = max U.nr U.nc ∧ b.nc = max U.nr U.nc ∧ ∀ p ∈ window (max U.nr U.nc), ∀ q ∈ window (max U.nr U.nc),
      at0 b p q = Real.sqrt (max (at0 U (p + y1) (q + x1) / f) 0) * at0 ref (p + y1) (q + x1)) ∧
    computeLateralOffsets S a b (mag0 * t.diamPupil) t.nPhaseSteps t.dPixel t.nPadFFT t.nFocusCrop 2 0 0 = .ok (dy, dx) ∧
    x = xP + dx ∧ y = yP + dy

/-- `N` pixels of the amplitude match the squared and normalised reference Lyot stop at magnification `m`. -/
def LyotMatches (Sp : ClampSpline) (R : Rotate) (t : LyotTuning) (amp : Arr2 ℝ) (clock x y m : ℝ) (N : ℕ) : Prop :=
  ∃ ref g, IsReference Sp R t.mask clock (m * t.diamPupil / t.diamHighRes) x y (6 / 5) amp.nr amp.nc ref ∧
    NormBy (ref.map fun v : ℝ => v ^ 2) (ref.map fun v : ℝ => v ^ 2) t.percentile g ∧
    N = closePixels amp (ref.map fun v : ℝ => v ^ 2 / g) t.deltaAmpMax

/-- The magnifications tried around `m`: evenly spaced, within the shrunken half width. -/
noncomputable def magGrid (t : LyotTuning) (m : ℝ) : List ℝ := (spread t.deltaMag t.nMag.toNat).map fun v : ℝ => m + t.magShrinkFac * v

/-- `m'` is the place of the largest value of `F` on `l`. -/
def IsLinePeak (l : List ℝ) (F : ℝ → ℕ) (m' : ℝ) : Prop := m' ∈ l ∧ ∀ m ∈ l, F m ≤ F m'

/-- `m'` is the vertex of a parabola `a m^2 + b m + c` fitted by least squares to the squared deficits of `F` below its peak, or `fb` if
`a = 0`. -/
def IsDeficitVertex (l : List ℝ) (F : ℝ → ℕ) (fb m' : ℝ) : Prop :=
  ∃ top a b c : ℝ, (∃ m ∈ l, (F m : ℝ) = top) ∧ (∀ m ∈ l, (F m : ℝ) ≤ top) ∧
    (∀ a' b' c' : ℝ, (l.map fun m : ℝ => (a * m ^ 2 + b * m + c - (F m - top) ^ 2) ^ 2).sum ≤
      (l.map fun m : ℝ => (a' * m ^ 2 + b' * m + c' - (F m - top) ^ 2) ^ 2).sum) ∧
    ((a = 0 ∧ m' = fb) ∨ (a ≠ 0 ∧ 2 * a * m' + b = 0))

end Coralign.Spec
