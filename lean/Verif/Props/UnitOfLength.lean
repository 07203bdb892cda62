import Verif.Model.HlcOcculter
import Verif.Model.ZeroGain
import Verif.Props.ThinFilm
import Verif.Props.PatternSymmetry
import Verif.Props.Fresnel

/-!
# C130: the unit of length does not matter

Every length among the arguments is multiplied by the same positive number `c`, as when nanometres are given in place of metres; pixels per length are
divided by it.
-/

namespace Coralign.Props

open Coralign Coralign.Spec

/-! ### Propagation -/

theorem fresnelChecks_unit {c : ℝ} (hc : 0 < c) (lam : ℝ) (nx : ℤ) (ppm : ℝ) : fresnelChecks (c * lam) nx (ppm / c) = fresnelChecks lam nx ppm := by
  unfold fresnelChecks
  have h1 : c * lam ≤ 0 ↔ lam ≤ 0 := by
    constructor
    · intro h; by_contra h'; exact absurd (mul_pos hc (not_le.mp h')) (not_lt.mpr h)
    · intro h; exact mul_nonpos_of_nonneg_of_nonpos hc.le h
  have h2 : ppm / c ≤ 0 ↔ ppm ≤ 0 := by rw [div_le_iff₀ hc, zero_mul]
  simp only [h1, h2]

theorem nSamplesMin_unit {c : ℝ} (hc : 0 < c) (lam z ppm : ℝ) : nSamplesMin (c * lam) (c * z) (ppm / c) = nSamplesMin lam z ppm := by
  unfold nSamplesMin
  congr 1
  rw [abs_mul, abs_of_pos hc]
  field_simp

theorem fresnelPhase_unit {c : ℝ} (hc : 0 < c) (lam z : ℝ) (nx : ℕ) (ppm : ℝ) : fresnelPhase (c * lam) (c * z) nx (ppm / c) = fresnelPhase lam z nx ppm := by
  unfold fresnelPhase
  congr 1
  funext i j
  unfold fresnelPhaseVal
  have hc' : (c : ℂ) ≠ 0 := by exact_mod_cast hc.ne'
  simp only
  congr 1
  push_cast
  field_simp

/-- **C130.** `fresnelprop`: wavelength and distance in another unit, pixels per that unit - the same field, or the same exception. -/
theorem C130_fresnelprop {c : ℝ} (hc : 0 < c) (e : Arr2 ℂ) (lam z : ℝ) (nx : ℤ) (ppm : ℝ) :
    fresnelprop e (c * lam) (c * z) nx (ppm / c) = fresnelprop e lam z nx ppm := by
  unfold fresnelprop
  rw [fresnelChecks_unit hc, nSamplesMin_unit hc, fresnelPhase_unit hc]
  have : c * z = 0 ↔ z = 0 := by simp [hc.ne']
  simp only [this]

/-- **C130.** The same for `get_fp` and `fresnelprop_fp`. -/
theorem C130_get_fp {c : ℝ} (hc : 0 < c) (lam z : ℝ) (nx : ℤ) (ppm : ℝ) :
    getFp (c * lam) (c * z) nx (ppm / c) = getFp lam z nx ppm ∧
    ∀ (e : Arr2 ℂ) (fp : Arr2 ℂ), fresnelpropFp e (c * z) nx fp = fresnelpropFp e z nx fp := by
  constructor
  · unfold getFp
    rw [fresnelChecks_unit hc, nSamplesMin_unit hc, fresnelPhase_unit hc]
  · intro e fp
    unfold fresnelpropFp
    have : c * z = 0 ↔ z = 0 := by simp [hc.ne']
    simp only [this]

/-- **C130.** Wavelength and distance matter only through their product: light of half the wavelength over twice the distance. -/
theorem C130_product (e : Arr2 ℂ) (lam lam' z z' : ℝ) (hl : 0 < lam) (hl' : 0 < lam') (h : lam * z = lam' * z') (nx : ℤ) (ppm : ℝ) :
    fresnelprop e lam z nx ppm = fresnelprop e lam' z' nx ppm := by
  have k1 : fresnelChecks lam nx ppm = fresnelChecks lam' nx ppm := by
    unfold fresnelChecks
    rw [if_neg (not_le.mpr hl), if_neg (not_le.mpr hl')]
  have k2 : nSamplesMin lam z ppm = nSamplesMin lam' z' ppm := by
    unfold nSamplesMin
    have := congrArg abs h
    rw [abs_mul, abs_mul, abs_of_pos hl, abs_of_pos hl'] at this
    rw [this]
  have k3 : fresnelPhase lam z nx.toNat ppm = fresnelPhase lam' z' nx.toNat ppm := by
    unfold fresnelPhase
    congr 1
    funext i j
    unfold fresnelPhaseVal
    simp only
    have hC : (lam : ℂ) * z = lam' * z' := by exact_mod_cast h
    congr 1
    rw [mul_assoc (_ * (Real.pi : ℂ)) (lam : ℂ), mul_assoc (_ * (Real.pi : ℂ)) (lam' : ℂ), hC]
  have k4 : z = 0 ↔ z' = 0 := by
    constructor
    · rintro rfl
      rw [mul_zero] at h
      exact (mul_eq_zero.mp h.symm).resolve_left hl'.ne'
    · rintro rfl
      rw [mul_zero] at h
      exact (mul_eq_zero.mp h).resolve_left hl.ne'
  unfold fresnelprop
  rw [k1, k2, k3]
  simp only [k4]

/-! ### Thin films -/

theorem csqrt_unit {c : ℝ} (hc : 0 < c) (z : ℂ) : csqrt ((c : ℂ) ^ 2 * z) = c * csqrt z := by
  have hc' : (c : ℂ) ≠ 0 := by exact_mod_cast hc.ne'
  by_cases hz : z = 0
  · subst hz
    have : csqrt 0 = 0 := mul_self_eq_zero.mp (csqrt_sq 0)
    rw [mul_zero, this, mul_zero]
  · have hs : csqrt ((c : ℂ) ^ 2 * z) * csqrt ((c : ℂ) ^ 2 * z) = (c * csqrt z) * (c * csqrt z) := by
      rw [csqrt_sq, mul_mul_mul_comm, csqrt_sq]; ring
    have g1 := csqrt_good ((c : ℂ) ^ 2 * z) (mul_ne_zero (pow_ne_zero 2 hc') hz)
    have g2 := csqrt_good z hz
    rcases mul_self_eq_mul_self_iff.mp hs with h | h
    · exact h
    · exfalso
      rw [h] at g1
      simp only [Complex.neg_re, Complex.neg_im, Complex.re_ofReal_mul, Complex.im_ofReal_mul] at g1
      rcases g1 with g1 | ⟨g1, g1'⟩ <;> rcases g2 with g2 | ⟨g2, g2'⟩ <;> nlinarith

theorem tfKx_unit (c : ℝ) (n0 : ℂ) (theta lam : ℝ) : tfKx n0 theta (c * lam) = tfKx n0 theta lam / c := by
  unfold tfKx
  push_cast
  rw [div_div, mul_comm (lam : ℂ)]

theorem tfKz_unit {c : ℝ} (hc : 0 < c) (kx : ℂ) (lam : ℝ) (n : ℂ) : tfKz (kx / c) (c * lam) n = tfKz kx lam n / c := by
  have hc' : (c : ℂ) ≠ 0 := by exact_mod_cast hc.ne'
  unfold tfKz
  rw [neg_div]
  congr 1
  rw [eq_div_iff hc', mul_comm _ (c : ℂ), ← csqrt_unit hc]
  congr 1
  push_cast
  field_simp

theorem tfKzz_unit {c : ℝ} (hc : 0 < c) (kx : ℂ) (lam : ℝ) (tm : Bool) (n : ℂ) : tfKzz (kx / c) (c * lam) tm n = tfKzz kx lam tm n / c := by
  unfold tfKzz
  rw [tfKz_unit hc]
  split_ifs
  · rw [div_div, div_div, mul_comm]
  · rfl

theorem tfStep_unit {c : ℝ} (hc : 0 < c) (k d p q : ℂ) : tfStep (k / c) (c * d) (p / c) (q / c) = tfStep k d p q := by
  have hc' : (c : ℂ) ≠ 0 := by exact_mod_cast hc.ne'
  unfold tfStep
  have e1 : -Complex.I * (k / c) * (c * d) = -Complex.I * k * d := by field_simp
  have e2 : Complex.I * (k / c) * (c * d) = Complex.I * k * d := by field_simp
  have e3 : 1 / 2 * (p / c + q / c) / (p / c) = 1 / 2 * (p + q) / p := by
    rw [← add_div, ← mul_div_assoc, div_div_div_cancel_right₀ hc']
  have e4 : (p / c - q / c) / (p / c + q / c) = (p - q) / (p + q) := by
    rw [← add_div, ← sub_div, div_div_div_cancel_right₀ hc']
  simp only [e1, e2, e3, e4]

theorem getD_unit (c : ℝ) (d : List ℝ) (i : ℕ) : (d.map (c * ·)).getD i 0 = c * d.getD i 0 := by
  by_cases h : i < d.length
  · simp [List.getD_eq_getElem?_getD, h]
  · simp [List.getD_eq_getElem?_getD, not_lt.mp h]

theorem tfMatrix_unit {c : ℝ} (hc : 0 < c) (n : List ℂ) (d : List ℝ) (kx : ℂ) (lam : ℝ) (tm : Bool) :
    tfMatrix n (d.map (c * ·)) (kx / c) (c * lam) tm = tfMatrix n d kx lam tm := by
  unfold tfMatrix
  congr 1
  funext A i
  rw [getD_unit, tfKz_unit hc, tfKzz_unit hc, tfKzz_unit hc, Complex.ofReal_mul, tfStep_unit hc]

/-- **C130.** `solver`: thicknesses and wavelength in another unit - the same coefficients, or the same exception. -/
theorem C130_solver {c : ℝ} (hc : 0 < c) (n : List ℂ) (d : List ℝ) (theta lam : ℝ) (tetm : Bool) :
    solver n (d.map (c * ·)) theta (c * lam) tetm = solver n d theta lam tetm := by
  have hc' : (c : ℂ) ≠ 0 := by exact_mod_cast hc.ne'
  have h1 : c * lam ≤ 0 ↔ lam ≤ 0 := by
    constructor
    · intro h; by_contra h'; exact absurd (mul_pos hc (not_le.mp h')) (not_lt.mpr h)
    · intro h; exact mul_nonpos_of_nonneg_of_nonpos hc.le h
  have h2 : (0 : ℝ) :: (d.map (c * ·) ++ [0]) = ((0 : ℝ) :: (d ++ [0])).map (c * ·) := by simp
  unfold solver
  simp only [List.length_map, h1, h2, tfKx_unit c, tfMatrix_unit hc, tfKz_unit hc]
  have e1 : ∀ a b p q : ℂ, a / c / p / (b / c / q) = a / p / (b / q) := by
    intro a b p q
    rw [div_right_comm a, div_right_comm b, div_div_div_cancel_right₀ hc']
  have e2 : ∀ a b : ℂ, a / c / (b / c) = a / b := fun a b => div_div_div_cancel_right₀ hc' a b
  simp only [e1, e2]

theorem occulterCell_unit {c : ℝ} (hc : 0 < c) (mat : Materials) (theta lam d0 a b p : ℝ) (pol : ℤ) (f : Bool) :
    occulterCell mat theta (c * lam) (c * d0) (c * a) (c * b) (c * p) pol f = occulterCell mat theta lam d0 a b p pol f := by
  unfold occulterCell
  have : [c * d0 - c * p - c * b - c * a, c * p, c * b, c * a] = ([d0 - p - b - a, p, b, a] : List ℝ).map (c * ·) := by
    simp only [List.map_cons, List.map_nil, mul_sub]
  simp only [this, C130_solver hc]

/-- **C130.** `calc_complex_occulter`: all thicknesses and the wavelength in another unit, for materials with the same indices there. -/
theorem C130_occulter {c : ℝ} (hc : 0 < c) (mat mat' : ℝ → Materials) (lam aoi : ℝ) (hm : mat' (c * lam) = mat lam) (tTi tNi tPmgi : List ℝ)
    (d0 : ℝ) (pol : ℤ) (flagOPD : Bool) (sub : Substrate) :
    calcComplexOcculter mat' (c * lam) aoi (tTi.map (c * ·)) (tNi.map (c * ·)) (tPmgi.map (c * ·)) (c * d0) pol flagOPD sub =
      calcComplexOcculter mat lam aoi tTi tNi tPmgi d0 pol flagOPD sub := by
  have h1 : ∀ x : ℝ, c * x ≤ 0 ↔ x ≤ 0 := by
    intro x
    constructor
    · intro h; by_contra h'; exact absurd (mul_pos hc (not_le.mp h')) (not_lt.mpr h)
    · intro h; exact mul_nonpos_of_nonneg_of_nonpos hc.le h
  unfold calcComplexOcculter
  simp only [h1, List.length_map, hm, getD_unit, occulterCell_unit hc]

theorem padCrop_map {α β : Type} (f : α → β) (a : Arr2 α) (h w : ℤ) (ev : α) :
    padCrop (a.map f) [h, w] (f ev) = (padCrop a [h, w] ev).map (Arr2.map f) := by
  by_cases hp : 0 < h ∧ 0 < w
  · obtain ⟨o, ho, r1, c1, v1⟩ := C01_pad_crop_registered a h w ev hp.1 hp.2
    obtain ⟨q, hq, r2, c2, v2⟩ := C01_pad_crop_registered (a.map f) h w (f ev) hp.1 hp.2
    rw [ho, hq]
    show Except.ok _ = Except.ok (Arr2.map f _)
    congr 1
    refine Arr2.ext_px (show q.nr = o.nr by omega) (show q.nc = o.nc by omega) fun i j a1 a2 a3 a4 => ?_
    have e1 := v1 (i - h / 2) (j - w / 2) (by unfold Reaches; omega)
    have e2 := v2 (i - h / 2) (j - w / 2) (by unfold Reaches; omega)
    have t : (a.map f).centered (i - h / 2) (j - w / 2) = (a.centered (i - h / 2) (j - w / 2)).map f := by
      unfold Arr2.centered
      rw [Arr2.px_map]
      rfl
    rw [t] at e2
    unfold Arr2.centered at e1 e2
    rw [r1, c1] at e1
    rw [r2, c2] at e2
    rw [Arr2.px_map]
    have k1 : h / 2 + (i - h / 2) = i := by omega
    have k2 : w / 2 + (j - w / 2) = j := by omega
    rw [k1, k2] at e1 e2
    rw [e2, e1]
    cases a.px ((a.nr : ℤ) / 2 + (i - h / 2)) ((a.nc : ℤ) / 2 + (j - w / 2)) <;> rfl
  · rw [padCrop_error a _ ev (by rintro ⟨x, y, e, p, q⟩; injection e with e1 e; injection e with e2; exact hp ⟨e1 ▸ p, e2 ▸ q⟩),
      padCrop_error (a.map f) _ (f ev) (by rintro ⟨x, y, e, p, q⟩; injection e with e1 e; injection e with e2; exact hp ⟨e1 ▸ p, e2 ▸ q⟩)]
    rfl

/-- The design of an occulter with every length in another unit. -/
noncomputable def designIn (c : ℝ) (d : HlcDesign) : HlcDesign :=
  { d with lam0 := c * d.lam0, hTi := c * d.hTi, hNi := c * d.hNi, dx := c * d.dx, pmgi := d.pmgi.map (c * ·) }

theorem occPixels_unit {c : ℝ} (hc : 0 < c) (p : Arr2 ℝ) : occPixels (p.map (c * ·)) = occPixels p := by
  unfold occPixels
  congr 1
  funext q
  congr 1
  rw [Arr2.px_map]
  cases p.px q.1 q.2 with
  | none => simp
  | some v => simp [hc]

theorem occStart_unit {c : ℝ} (hc : 0 < c) (mat mat' : ℝ → Materials) (lam : ℝ) (hm : mat' (c * lam) = mat lam) (cal : HlcCal) (d : HlcDesign) :
    occStart mat' (c * lam) cal (designIn c d) = occStart mat lam cal d := by
  have hp := padCrop_map (c * ·) d.pmgi (ceilOdd ((max d.pmgi.nr d.pmgi.nc : ℕ) : ℝ)) (ceilOdd ((max d.pmgi.nr d.pmgi.nc : ℕ) : ℝ)) 0
  rw [mul_zero] at hp
  unfold occStart designIn
  simp only [Arr2.map_nr, Arr2.map_nc]
  generalize ceilOdd ((max d.pmgi.nr d.pmgi.nc : ℕ) : ℝ) = n at hp ⊢
  rw [hp]
  cases padCrop d.pmgi [n, n] 0 with
  | error e => simp only [Except.map, bind, Except.bind]
  | ok p =>
    simp only [Except.map, bind, Except.bind, occPixels_unit hc, Arr2.map_nr, Arr2.map_nc]
    have e1 : ∀ x : ℝ, ((occPixels p).map fun _ => c * x) = ((occPixels p).map fun _ => x).map (c * ·) := fun x => by simp
    have e2 : ((occPixels p).map fun q => ((p.map (c * ·)).px q.1 q.2).getD 0) = ((occPixels p).map fun q => (p.px q.1 q.2).getD 0).map (c * ·) := by
      rw [List.map_map]
      refine List.map_congr_left fun q _ => ?_
      show ((p.map (c * ·)).px q.1 q.2).getD 0 = c * (p.px q.1 q.2).getD 0
      rw [Arr2.px_map]
      cases p.px q.1 q.2 <;> simp
    have e3 : d.hRefCoef * (c * d.lam0) = c * (d.hRefCoef * d.lam0) := by ring
    have o1 := C130_occulter hc mat mat' lam cal.aoi hm ((occPixels p).map fun _ => d.hTi) ((occPixels p).map fun _ => d.hNi)
      ((occPixels p).map fun q => (p.px q.1 q.2).getD 0) (d.hRefCoef * d.lam0) d.pol false .FS
    have o2 := C130_occulter hc mat mat' lam cal.aoi hm [0] [0] [0] (d.hRefCoef * d.lam0) d.pol false .FS
    simp only [List.map_cons, List.map_nil, mul_zero] at o2
    rw [e1, e1, e2, e3, o1, o2]

/-- **C130.** `gen_hlc_occulter`: wavelengths, thicknesses and sampling of the design in another unit - the same mask or exception. -/
theorem C130_mask {c : ℝ} (hc : 0 < c) (S : ClampSpline) (R : Rotate) (mat mat' : ℝ → Materials) (lam : ℝ) (hm : mat' (c * lam) = mat lam)
    (scale : Bool) (s0 s1 : ℤ) (cal : HlcCal) (d : HlcDesign) (xo yo : ℝ) :
    genHlcOcculter S R mat' (c * lam) scale s0 s1 cal (designIn c d) xo yo = genHlcOcculter S R mat lam scale s0 s1 cal d xo yo := by
  have h1 : ∀ x : ℝ, c * x ≤ 0 ↔ x ≤ 0 := by
    intro x
    constructor
    · intro h; by_contra h'; exact absurd (mul_pos hc (not_le.mp h')) (not_lt.mpr h)
    · intro h; exact mul_nonpos_of_nonneg_of_nonpos hc.le h
  have f1 : d.fn * (c * d.lam0) / (c * d.dx) = d.fn * d.lam0 / d.dx := by
    rw [mul_left_comm, mul_div_mul_left _ _ hc.ne']
  have f2 : c * d.lam0 / (c * lam) = d.lam0 / lam := mul_div_mul_left _ _ hc.ne'
  unfold genHlcOcculter
  rw [occStart_unit hc mat mat' lam hm]
  simp only [designIn, h1, f1, f2]
  rfl

/-! ### Mirrors -/

/-- The calibration of a mirror with every length in another unit: the actuator pitch, and metres per volt. -/
noncomputable def dmIn (c : ℝ) (dm : DmCal) : DmCal := { dm with pitch := c * dm.pitch, gain := dm.gain.map (c * ·) }

/-- **C130.** `dmh_to_volts` and `volts_to_dmh`: wavelength and gains in another unit, zero gains included. -/
theorem C130_volts {c : ℝ} (hc : 0 < c) (gain a : Arr2 ℝ) (lam : ℝ) :
    dmhToVolts (gain.map (c * ·)) a (c * lam) = dmhToVolts gain a lam ∧ dmhToVoltsF (gain.map (c * ·)) a (c * lam) = dmhToVoltsF gain a lam ∧
    voltsToDmh (gain.map (c * ·)) a (c * lam) = voltsToDmh gain a lam := by
  have h1 : c * lam ≤ 0 ↔ lam ≤ 0 := by
    constructor
    · intro h; by_contra h'; exact absurd (mul_pos hc (not_le.mp h')) (not_lt.mpr h)
    · intro h; exact mul_nonpos_of_nonneg_of_nonpos hc.le h
  have v1 : ∀ g h : ℝ, h * (c * lam) / (2 * Real.pi) / (c * g) = h * lam / (2 * Real.pi) / g := by
    intro g h
    rw [mul_left_comm, mul_div_assoc, mul_div_mul_left _ _ hc.ne']
  refine ⟨?_, ?_, ?_⟩
  · unfold dmhToVolts voltsOf
    simp only [h1, Arr2.map, v1]
  · unfold dmhToVoltsF voltsOfF Fl.quot
    simp only [h1, Arr2.map, v1, mul_eq_zero, hc.ne', false_or]
  · unfold voltsToDmh dmhOf
    have v2 : ∀ g v : ℝ, v / (c * lam) * (2 * Real.pi) * (c * g) = v / lam * (2 * Real.pi) * g := by
      intro g v
      field_simp
    simp only [h1, Arr2.map, v2]

theorem convSurf_unit {c : ℝ} (hc : 0 < c) (S : Spline) (R : Rotate) (L : SpSolve) (surf : Arr2 ℝ) (dm : DmCal) :
    convSurfToDmCmd S R L surf (dmIn c dm) = convSurfToDmCmd S R L surf dm := by
  have h1 : c * dm.pitch ≤ 0 ↔ dm.pitch ≤ 0 := by
    constructor
    · intro h; by_contra h'; exact absurd (mul_pos hc (not_le.mp h')) (not_lt.mpr h)
    · intro h; exact mul_nonpos_of_nonneg_of_nonpos hc.le h
  have h2 : c * dm.pitch / (c * dm.pitch / dm.ppactD) = dm.pitch / (dm.pitch / dm.ppactD) := by
    rw [mul_div_assoc c dm.pitch dm.ppactD, mul_div_mul_left _ _ hc.ne']
  unfold convSurfToDmCmd dmIn
  simp only [h1, h2]

/-- **C130.** `flatten`: the wavelength, the pitch and gains of both mirrors and the focus per step in another unit - the same commands to the mirrors
and the focus mechanism and the same coefficients, or the same exception, zero gains included. -/
theorem C130_flatten {c : ℝ} (hc : 0 < c) (E : FlattenEnv) (cmd1 cmd2 : Arr2 ℝ) (cmdFCM : ℤ) (useDMs useFCM highZern : Bool) (lam : ℝ)
    (amp ph : Arr2 ℝ) (diam xo yo : ℝ) (dm1 dm2 : DmCal) (fc : FcmCal) (cfg : FlattenCfg) :
    flatten E cmd1 cmd2 cmdFCM useDMs useFCM highZern (c * lam) amp ph diam xo yo (dmIn c dm1) (dmIn c dm2)
        { fc with focusPerStroke := c * fc.focusPerStroke } cfg =
      flatten E cmd1 cmd2 cmdFCM useDMs useFCM highZern lam amp ph diam xo yo dm1 dm2 fc cfg ∧
    flattenF E cmd1 cmd2 cmdFCM useDMs useFCM highZern (c * lam) amp ph diam xo yo (dmIn c dm1) (dmIn c dm2)
        { fc with focusPerStroke := c * fc.focusPerStroke } cfg =
      flattenF E cmd1 cmd2 cmdFCM useDMs useFCM highZern lam amp ph diam xo yo dm1 dm2 fc cfg := by
  have h1 : c * lam ≤ 0 ↔ lam ≤ 0 := by
    constructor
    · intro h; by_contra h'; exact absurd (mul_pos hc (not_le.mp h')) (not_lt.mpr h)
    · intro h; exact mul_nonpos_of_nonneg_of_nonpos hc.le h
  have hs : flattenSurfaces E useDMs useFCM highZern amp ph diam xo yo (dmIn c dm1) (dmIn c dm2) cfg =
      flattenSurfaces E useDMs useFCM highZern amp ph diam xo yo dm1 dm2 cfg := rfl
  have hf : ∀ z4, fcmStep useFCM cmdFCM z4 (c * lam) { fc with focusPerStroke := c * fc.focusPerStroke } = fcmStep useFCM cmdFCM z4 lam fc := by
    intro z4
    have : z4 * (c * lam) / (2 * Real.pi) / (c * fc.focusPerStroke) = z4 * lam / (2 * Real.pi) / fc.focusPerStroke := by
      rw [mul_left_comm, mul_div_assoc, mul_div_mul_left _ _ hc.ne']
    unfold fcmStep
    simp only [mul_eq_zero, hc.ne', false_or, this]
  have g1 : ∀ a, dmhToVolts (dmIn c dm1).gain a (c * lam) = dmhToVolts dm1.gain a lam := fun a => (C130_volts hc dm1.gain a lam).1
  have g2 : ∀ a, dmhToVolts (dmIn c dm2).gain a (c * lam) = dmhToVolts dm2.gain a lam := fun a => (C130_volts hc dm2.gain a lam).1
  have g3 : ∀ a, dmhToVoltsF (dmIn c dm1).gain a (c * lam) = dmhToVoltsF dm1.gain a lam := fun a => (C130_volts hc dm1.gain a lam).2.1
  have g4 : ∀ a, dmhToVoltsF (dmIn c dm2).gain a (c * lam) = dmhToVoltsF dm2.gain a lam := fun a => (C130_volts hc dm2.gain a lam).2.1
  constructor
  · unfold flatten
    simp only [h1, hs, hf, convSurf_unit hc, g1, g2]
    rfl
  · unfold flattenF
    simp only [h1, hs, hf, convSurf_unit hc, g3, g4]
    rfl

/-! ### Concrete cases -/

/-- Metres and nanometres: 575 nm over 10 cm at 20000 pixels per metre. -/
example (e : Arr2 ℂ) : fresnelprop e 575 100000000 64 (20000 / 1000000000) = fresnelprop e (575 / 1000000000) (1 / 10) 64 20000 := by
  have := C130_fresnelprop (c := 1000000000) (by norm_num) e (575 / 1000000000) (1 / 10) 64 20000
  norm_num at this ⊢
  exact this

example : film 1 [(2, 1 / 8)] (3 / 2) (1 / 10) (1 / 2) true = film 1 [(2, 125)] (3 / 2) (1 / 10) 500 true := by
  have := C130_solver (c := 1000) (by norm_num) [1, 2, 3 / 2] [1 / 8] (1 / 10) (1 / 2) true
  norm_num at this
  exact this.symm

end Coralign.Props
