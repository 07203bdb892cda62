import Verif.Spec.Lateral
import Verif.Model.HlcOcculter

/-!
# Specification vocabulary for `gen_hlc_occulter` (C85)
-/

namespace Coralign.Spec
open Coralign

/-- `t` is the transmission `calc_complex_occulter` reports for a single pixel with the given thicknesses. -/
def IsTransmission (mat : ℝ → Materials) (lam : ℝ) (c : HlcCal) (d : HlcDesign) (ti ni pm : ℝ) (t : ℂ) : Prop :=
  ∃ r, calcComplexOcculter mat lam c.aoi [ti] [ni] [pm] (d.hRefCoef * d.lam0) d.pol false .FS = .ok [(t, r)]

/-- The PMGI thickness at a signed pixel offset from the centre of the design; no PMGI outside the design. -/
noncomputable def pmgiAt (d : HlcDesign) (k l : ℤ) : ℝ := at0 d.pmgi k l

/-- `t` is the transmission of the design there: metals below the PMGI only, bare substrate elsewhere. -/
def IsDesign (mat : ℝ → Materials) (lam : ℝ) (c : HlcCal) (d : HlcDesign) (k l : ℤ) (t : ℂ) : Prop :=
  (0 < pmgiAt d k l → IsTransmission mat lam c d d.hTi d.hNi (pmgiAt d k l) t) ∧
  (pmgiAt d k l ≤ 0 → IsTransmission mat lam c d 0 0 0 t)

/-- Samples per wavelength over focal ratio, in the design and in the output. -/
noncomputable def designPpl (d : HlcDesign) : ℝ := d.fn * d.lam0 / d.dx
noncomputable def outputPpl (lam : ℝ) (scale : Bool) (c : HlcCal) (d : HlcDesign) : ℝ :=
  if scale then d.lam0 / lam * c.ppl else c.ppl

/-- The band-limited interpolation kernel of `n` frequencies on a grid of `M` samples. -/
noncomputable def bandKernel (n M : ℕ) (x : ℝ) : ℂ := ∑ u ∈ window n, Complex.exp (2 * Real.pi * Complex.I * (u * x / M))

/-- The field `g`, sampled on a centred `M x M` grid, resampled on a centred `E x E` grid over the same extent: output sample `a`
lies at input position `a M / E`, and only frequencies present on both grids are kept. -/
noncomputable def bandSample (g : ℤ → ℤ → ℂ) (M E : ℕ) (a b : ℤ) : ℂ :=
  (∑ i ∈ window M, ∑ j ∈ window M, g i j * (bandKernel (min M E) M (i - a * M / E) * bandKernel (min M E) M (j - b * M / E))) / (M : ℂ) ^ 2

end Coralign.Spec
