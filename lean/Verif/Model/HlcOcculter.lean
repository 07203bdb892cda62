import Verif.Model.MaskGen
import Verif.Model.ThinFilm
import Verif.Model.Fft
import Verif.Model.Math
import Verif.Model.PadCrop

/-!
# Model of `gen_hlc_occulter` in `coralign/maskgen/maskgen.py`

The two YAML files and the FITS file are given as their contents (`HlcCal`, `HlcDesign`); reading them is not modelled.  Scalars are
real, so the type checks of `check.py` are reduced to their range tests, and rounding is not modelled (in double precision the ratio `mag`
of line 257 can come out a unit in the last place above 1, which the next call refuses: see `HlcDouble.lean`).
-/

namespace Coralign

/-- The calibration file, `maskgen.py` lines 175-178. -/
structure HlcCal where
  ppl : ℝ
  rotDeg : ℝ
  aoi : ℝ

/-- The design file and the PMGI thickness map it names, `maskgen.py` lines 181-195 and 223. -/
structure HlcDesign where
  rOcc : ℝ
  lam0 : ℝ
  hTi : ℝ
  hNi : ℝ
  dx : ℝ
  fn : ℝ
  pol : ℤ
  hRefCoef : ℝ
  padFac : ℝ
  oversize : ℝ
  pmgi : Arr2 ℝ

open scoped Classical in
/-- The indices of the occulter pixels in row-major order, lines 226-230. -/
noncomputable def occPixels (p : Arr2 ℝ) : List (ℕ × ℕ) :=
  ((List.range p.nr).flatMap fun i => (List.range p.nc).map fun j => (i, j)).filter fun q =>
    decide (∃ v, p.px q.1 q.2 = some v ∧ 0 < v)

open scoped Classical in
/-- The transmission at file resolution divided by that of pixel `[0, 0]`, lines 224-246.  If pixel `[0, 0]` has transmission zero
`numpy` fills the array with `nan`; here the quotient is then 0. -/
noncomputable def occStart (mat : ℝ → Materials) (lam : ℝ) (c : HlcCal) (d : HlcDesign) : Res (Arr2 ℂ) := do
  -- lines 224-225
  let n := ceilOdd ((max d.pmgi.nr d.pmgi.nc : ℕ) : ℝ)
  let p ← padCrop d.pmgi [n, n] 0
  -- lines 226-237
  let ind := occPixels p
  let hRef := d.hRefCoef * d.lam0
  -- lines 238-241
  let cells ← calcComplexOcculter mat lam c.aoi (ind.map fun _ => d.hTi) (ind.map fun _ => d.hNi)
    (ind.map fun q => (p.px q.1 q.2).getD 0) hRef d.pol false .FS
  let sub ← calcComplexOcculter mat lam c.aoi [0] [0] [0] hRef d.pol false .FS
  -- lines 242-245
  let t : ℕ → ℕ → ℂ := fun i j =>
    if (i, j) ∈ ind then (cells.getD (ind.idxOf (i, j)) (0, 0)).1 else (sub.getD 0 (0, 0)).1
  -- line 246
  .ok ⟨p.nr, p.nc, fun i j => t i j / t 0 0⟩

/-- Pixel `[0, 0]`. -/
noncomputable def corner (a : Arr2 ℂ) : ℂ := (a.px 0 0).getD 0

/-- The steps from the starting mask to the output, `maskgen.py` lines 258-272, for `nEnd` output pixels and `nMid` intermediate samples across, the
magnification `mag` and the offsets `xo`, `yo` in intermediate samples. -/
noncomputable def hlcFinish (S : ClampSpline) (R : Rotate) (st : Arr2 ℂ) (c : HlcCal) (d : HlcDesign) (s0 s1 nEnd nMid : ℤ) (mag xo yo : ℝ) :
    Res (Arr2 ℂ) := do
  -- lines 258-265
  let re ← rotateShiftDownsample S R (st.map fun z => (z - corner st).re) c.rotDeg mag xo yo d.padFac false
  let im ← rotateShiftDownsample S R (st.map fun z => (z - corner st).im) c.rotDeg mag xo yo d.padFac false
  let mid : Arr2 ℂ := ⟨re.nr, re.nc, fun i j => (re.val i j : ℂ) + Complex.I * (((im.px (i : ℕ) (j : ℕ)).getD 0 : ℝ) : ℂ)⟩
  let mid ← padCrop mid [nMid, nMid] 0
  let mid := mid.map fun z => z + corner st
  -- lines 268-270
  let ft ← padCrop (doIfft mid) [nEnd, nEnd] 0
  let occEnd := doFft ft
  let occ ← padCrop (occEnd.map fun z => z - corner st) [s0, s1] 0
  .ok (occ.map fun z => z + corner st)

open scoped Classical in
/-- `gen_hlc_occulter(lam, scaleWithWavelength, shapeOut, fnCalibData, fnOccData, xOffset, yOffset)`, `maskgen.py` lines 110-272. -/
noncomputable def genHlcOcculter (S : ClampSpline) (R : Rotate) (mat : ℝ → Materials) (lam : ℝ) (scale : Bool) (s0 s1 : ℤ)
    (c : HlcCal) (d : HlcDesign) (xOffset yOffset : ℝ) : Res (Arr2 ℂ) :=
  -- lines 163-171
  if lam ≤ 0 ∨ s0 ≤ 0 ∨ s1 ≤ 0 then .error .typeError
  -- lines 198-220
  else if c.ppl ≤ 0 ∨ d.lam0 ≤ 0 ∨ d.hTi ≤ 0 ∨ d.hNi ≤ 0 ∨ d.dx ≤ 0 ∨ d.fn ≤ 0 ∨ ¬ (d.pol = 0 ∨ d.pol = 1 ∨ d.pol = 2) ∨
      d.hRefCoef ≤ 0 ∨ c.aoi < 0 ∨ 90 ≤ c.aoi ∨ d.padFac < 1 ∨ d.oversize < 2 then .error .typeError
  else do
    let st ← occStart mat lam c d
    -- lines 249-255
    let pplStart := d.fn * d.lam0 / d.dx
    let pplEnd := if scale then d.lam0 / lam * c.ppl else c.ppl
    let nEnd : ℤ := ⌈2 * d.rOcc * pplEnd * d.oversize⌉
    let nMid : ℤ := ⌊pplStart / pplEnd * nEnd⌋
    -- lines 256-257
    if nEnd = 0 then .error .zeroDivisionError
    else hlcFinish S R st c d s0 s1 nEnd nMid ((nMid : ℝ) / nEnd * pplEnd / pplStart) (xOffset * ((nMid : ℝ) / nEnd)) (yOffset * ((nMid : ℝ) / nEnd))

end Coralign
