import Verif.Model.HlcOcculter
import Verif.Base.DoubleRel

/-!
# The sampling numbers of `gen_hlc_occulter` in double precision, `coralign/maskgen/maskgen.py` lines 249-265

Every product and quotient of these lines is rounded to double precision; the numbers of pixels are then the ceiling and the floor of rounded values.
Simplifications: overflow and `nan` are not modelled, numbers of pixels are below `2 ^ 53` so their conversion to double is exact, and the arrays
themselves are still computed with real numbers.
-/

namespace Coralign

/-- `pplStart = (FN * lam0) / dx`, line 249. -/
noncomputable def startPplD (d : HlcDesign) : ℝ := double (double (d.fn * d.lam0) / d.dx)

/-- `pplEnd = (lam0 / lam) * ppl` or `pplEnd = ppl`, lines 250-253. -/
noncomputable def endPplD (lam : ℝ) (scale : Bool) (c : HlcCal) (d : HlcDesign) : ℝ :=
  if scale then double (double (d.lam0 / lam) * c.ppl) else c.ppl

/-- `nPadEnd = int(np.ceil(2*rOccLamD*pplEnd*minOversizeFacForFFT))`, line 254. -/
noncomputable def endPixelsD (pe : ℝ) (d : HlcDesign) : ℤ := ⌈double (double (double (2 * d.rOcc) * pe) * d.oversize)⌉

/-- `nPadMiddle = int(np.floor((pplStart/pplEnd) * nPadEnd))`, line 255. -/
noncomputable def midPixelsD (ps pe : ℝ) (nEnd : ℤ) : ℤ := ⌊double (double (ps / pe) * nEnd)⌋

/-- `nPadMiddle/nPadEnd`, a correctly rounded quotient of integers, lines 256, 260 and 263. -/
noncomputable def ratioD (nMid nEnd : ℤ) : ℝ := double ((nMid : ℝ) / nEnd)

/-- `pplMiddle = (nPadMiddle/nPadEnd) * pplEnd` and `mag = pplMiddle / pplStart`, lines 256-257. -/
noncomputable def magD (ps pe : ℝ) (nMid nEnd : ℤ) : ℝ := double (double (ratioD nMid nEnd * pe) / ps)

open scoped Classical in
/-- `gen_hlc_occulter` with the sampling numbers in double precision, `maskgen.py` lines 110-272. -/
noncomputable def genHlcOcculterD (S : ClampSpline) (R : Rotate) (mat : ℝ → Materials) (lam : ℝ) (scale : Bool) (s0 s1 : ℤ)
    (c : HlcCal) (d : HlcDesign) (xOffset yOffset : ℝ) : Res (Arr2 ℂ) :=
  -- lines 163-171
  if lam ≤ 0 ∨ s0 ≤ 0 ∨ s1 ≤ 0 then .error .typeError
  -- lines 198-220
  else if c.ppl ≤ 0 ∨ d.lam0 ≤ 0 ∨ d.hTi ≤ 0 ∨ d.hNi ≤ 0 ∨ d.dx ≤ 0 ∨ d.fn ≤ 0 ∨ ¬ (d.pol = 0 ∨ d.pol = 1 ∨ d.pol = 2) ∨
      d.hRefCoef ≤ 0 ∨ c.aoi < 0 ∨ 90 ≤ c.aoi ∨ d.padFac < 1 ∨ d.oversize < 2 then .error .typeError
  else do
    let st ← occStart mat lam c d
    -- lines 249-255
    let pplStart := startPplD d
    let pplEnd := endPplD lam scale c d
    let nEnd := endPixelsD pplEnd d
    let nMid := midPixelsD pplStart pplEnd nEnd
    -- lines 256-272
    if nEnd = 0 then .error .zeroDivisionError
    else hlcFinish S R st c d s0 s1 nEnd nMid (magD pplStart pplEnd nMid nEnd) (double (xOffset * ratioD nMid nEnd)) (double (yOffset * ratioD nMid nEnd))

end Coralign
