import Verif.Model.HlcDouble
import Verif.Base.DoubleProd
import Verif.Props.HlcOcculterCases

/-!
# Property C100: the sampling of the occulter in double precision
-/

namespace Coralign.Props

open Coralign Coralign.Spec

/-! ### Hypotheses -/

/-- The scalars are between `2 ^ -40` and `2 ^ 40`, so about `1e-12` and `1e12`. -/
def Fair (x : ℝ) : Prop := (2 : ℝ) ^ (-40 : ℤ) ≤ x ∧ x ≤ (2 : ℝ) ^ (40 : ℤ)

structure FairDesign (lam : ℝ) (c : HlcCal) (d : HlcDesign) : Prop where
  lam : Fair lam
  ppl : Fair c.ppl
  lam0 : Fair d.lam0
  fn : Fair d.fn
  dx : Fair d.dx
  rOcc : Fair d.rOcc
  oversize : Fair d.oversize

/-- `x` differs from every integer by more than one part in `2 ^ 50` of itself. -/
def ClearOfIntegers (x : ℝ) : Prop := ∀ n : ℤ, x / 2 ^ 50 < |x - n|

/-- The number `x` is a double. -/
def IsDouble (x : ℝ) : Prop := double x = x

/-- The window needed, in output pixels: `2 r ppl oversize`. -/
noncomputable def windowSize (lam : ℝ) (scale : Bool) (c : HlcCal) (d : HlcDesign) : ℝ := 2 * d.rOcc * outputPpl lam scale c d * d.oversize

/-- Every intermediate value of the output sampling is a double. -/
def OutputPplExact (lam : ℝ) (scale : Bool) (c : HlcCal) (d : HlcDesign) : Prop :=
  scale = true → IsDouble (d.lam0 / lam) ∧ IsDouble (d.lam0 / lam * c.ppl)

/-- The window is not close to a whole number of pixels, or it is computed without rounding. -/
def WindowClear (lam : ℝ) (scale : Bool) (c : HlcCal) (d : HlcDesign) : Prop :=
  ClearOfIntegers (windowSize lam scale c d) ∨
    (OutputPplExact lam scale c d ∧ IsDouble (2 * d.rOcc) ∧ IsDouble (2 * d.rOcc * outputPpl lam scale c d) ∧ IsDouble (windowSize lam scale c d))

/-- The same for the window in intermediate samples. -/
def SamplesClear (lam : ℝ) (scale : Bool) (c : HlcCal) (d : HlcDesign) (E : ℤ) : Prop :=
  ClearOfIntegers (designPpl d / outputPpl lam scale c d * E) ∨
    (OutputPplExact lam scale c d ∧ IsDouble (d.fn * d.lam0) ∧ IsDouble (designPpl d) ∧ IsDouble (designPpl d / outputPpl lam scale c d) ∧
      IsDouble (designPpl d / outputPpl lam scale c d * E))

variable {S : ClampSpline} {R : Rotate} {mat : ℝ → Materials} {lam : ℝ} {scale : Bool} {s0 s1 : ℤ} {c : HlcCal} {d : HlcDesign} {xo yo : ℝ}

/-! ### Floors and ceilings of nearby numbers -/

theorem floor_of_clear {x y : ℝ} (hc : ClearOfIntegers x) (h : |y - x| ≤ x / 2 ^ 50) : ⌊y⌋ = ⌊x⌋ := by
  rw [abs_le] at h
  have h1 := hc ⌊x⌋
  have h2 := hc (⌊x⌋ + 1)
  rw [abs_of_nonneg (sub_nonneg.mpr (Int.floor_le x))] at h1
  have hl := Int.lt_floor_add_one x
  rw [abs_of_neg (by push_cast; linarith)] at h2
  push_cast at h2
  rw [Int.floor_eq_iff]
  constructor <;> linarith [h.1, h.2]

theorem ceil_of_clear {x y : ℝ} (hc : ClearOfIntegers x) (h : |y - x| ≤ x / 2 ^ 50) : ⌈y⌉ = ⌈x⌉ := by
  rw [abs_le] at h
  have h1 := hc ⌈x⌉
  have h2 := hc (⌈x⌉ - 1)
  rw [abs_of_nonpos (sub_nonpos.mpr (Int.le_ceil x))] at h1
  have hl := Int.ceil_lt_add_one x
  rw [abs_of_pos (by push_cast; linarith)] at h2
  push_cast at h2
  rw [Int.ceil_eq_iff]
  constructor <;> linarith [h.1, h.2]

/-! ### The computed numbers -/

theorem Fair.appr {x : ℝ} (h : Fair x) : Appr 0 40 x x := appr_self (by exact_mod_cast h.1) (by exact_mod_cast h.2)

theorem start_appr (hf : FairDesign lam c d) : Appr 2 120 (startPplD d) (designPpl d) :=
  (((hf.fn.appr.mul hf.lam0.appr).double (by norm_num) (by norm_num)).div hf.dx.appr).double (by norm_num) (by norm_num)

theorem end_appr (hf : FairDesign lam c d) : Appr 2 120 (endPplD lam scale c d) (outputPpl lam scale c d) := by
  unfold endPplD outputPpl
  cases scale with
  | true => exact (((hf.lam0.appr.div hf.lam.appr).double (by norm_num) (by norm_num)).mul hf.ppl.appr).double (by norm_num) (by norm_num)
  | false => exact hf.ppl.appr.mono (by norm_num) (by norm_num)

theorem window_appr (hf : FairDesign lam c d) :
    Appr 5 201 (double (double (double (2 * d.rOcc) * endPplD lam scale c d) * d.oversize)) (windowSize lam scale c d) := by
  have h2 : Appr 0 1 (2 : ℝ) 2 := appr_self (by norm_num) (by norm_num)
  exact (((((h2.mul hf.rOcc.appr).double (by norm_num) (by norm_num)).mul (end_appr hf)).double (by norm_num) (by norm_num)).mul
    hf.oversize.appr).double (by norm_num) (by norm_num)

theorem window_pixels (hf : FairDesign lam c d) : 0 < endPixelsD (endPplD lam scale c d) d ∧
    ((endPixelsD (endPplD lam scale c d) d : ℤ) : ℝ) ≤ (2 : ℝ) ^ (203 : ℤ) := by
  have hw := window_appr (scale := scale) hf
  constructor
  · exact Int.ceil_pos.mpr hw.posD
  · have h1 := (Int.ceil_lt_add_one (double (double (double (2 * d.rOcc) * endPplD lam scale c d) * d.oversize))).le
    have h2 := hw.close (by norm_num)
    rw [abs_le] at h2
    have h3 := hw.hi
    have h0 := hw.pos
    have h4 : windowSize lam scale c d / 2 ^ 50 ≤ windowSize lam scale c d := div_le_self h0.le (by norm_num)
    have e : (2 : ℝ) ^ (203 : ℤ) = 4 * (2 : ℝ) ^ ((201 : ℕ) : ℤ) := by norm_num
    have h5 : (1 : ℝ) ≤ (2 : ℝ) ^ ((201 : ℕ) : ℤ) := one_le_zpow₀ (by norm_num) (by norm_num)
    rw [e]
    unfold endPixelsD
    linarith [h2.2]

theorem int_appr {k : ℕ} {n : ℤ} (h : 0 < n) (h2 : (n : ℝ) ≤ (2 : ℝ) ^ (k : ℤ)) : Appr 0 k (n : ℝ) (n : ℝ) := by
  have h1 : (1 : ℝ) ≤ n := by exact_mod_cast h
  refine appr_self (le_trans ?_ h1) h2
  exact zpow_le_one_of_nonpos₀ (by norm_num) (by simp)

theorem samples_appr (hf : FairDesign lam c d) :
    Appr 6 443 (double (double (startPplD d / endPplD lam scale c d) * (endPixelsD (endPplD lam scale c d) d : ℤ)))
      (designPpl d / outputPpl lam scale c d * (endPixelsD (endPplD lam scale c d) d : ℤ)) := by
  obtain ⟨h1, h2⟩ := window_pixels (scale := scale) hf
  exact ((((start_appr hf).div (end_appr hf)).double (by norm_num) (by norm_num)).mul (int_appr (k := 203) h1 h2)).double (by norm_num) (by norm_num)

theorem twice_of_close {m x y P : ℝ} (h0 : 0 < x) (h1 : x ≤ P) (h2 : |y - x| ≤ x / 2 ^ 50) (h3 : m ≤ y) : m ≤ 2 * P := by
  have h4 := div_le_self h0.le (show (1 : ℝ) ≤ 2 ^ 50 by norm_num)
  rw [abs_le] at h2
  linarith [h2.2]

theorem samples_le (hf : FairDesign lam c d) {M : ℤ} (hM : M = midPixelsD (startPplD d) (endPplD lam scale c d) (endPixelsD (endPplD lam scale c d) d)) :
    (M : ℝ) ≤ (2 : ℝ) ^ ((444 : ℕ) : ℤ) := by
  have hx := samples_appr (scale := scale) hf
  have h1 : (M : ℝ) ≤ double (double (startPplD d / endPplD lam scale c d) * (endPixelsD (endPplD lam scale c d) d : ℤ)) := by
    rw [hM]; exact Int.floor_le _
  rw [show ((444 : ℕ) : ℤ) = 1 + ((443 : ℕ) : ℤ) by norm_num, two_zpow_add, zpow_one]
  exact twice_of_close hx.pos hx.hi (hx.close (by norm_num)) h1

/-- The magnification before its last rounding. -/
theorem mag_appr (hf : FairDesign lam c d) {E M : ℤ} (hE : E = endPixelsD (endPplD lam scale c d) d)
    (hM : M = midPixelsD (startPplD d) (endPplD lam scale c d) E) (hM0 : 0 < M) :
    Appr 6 887 (double (ratioD M E * endPplD lam scale c d) / startPplD d) ((M : ℝ) / E * outputPpl lam scale c d / designPpl d) := by
  subst hE
  obtain ⟨h1, h2⟩ := window_pixels (scale := scale) hf
  have h3 := int_appr hM0 (samples_le hf hM)
  exact (((((h3.div (int_appr (k := 203) h1 h2)).double (by norm_num) (by norm_num)).mul (end_appr hf)).double (by norm_num) (by norm_num)).div (start_appr hf)).mono
    (by norm_num) (by norm_num)

/-- The offset in intermediate samples. -/
theorem offset_close (x : ℝ) {r rD : ℝ} (h : ∃ δ, |δ| ≤ roundoff ∧ rD = r * (1 + δ)) :
    |double (x * rD) - x * r| ≤ |x * r| / 2 ^ 51 + underflow := by
  obtain ⟨δ, hδ, rfl⟩ := h
  have h1 := double_error (x * (r * (1 + δ)))
  have e : double (x * (r * (1 + δ))) - x * r = (double (x * (r * (1 + δ))) - x * (r * (1 + δ))) + x * r * δ := by ring
  rw [e]
  refine (abs_add_le _ _).trans ?_
  have e2 : |x * (r * (1 + δ))| ≤ |x * r| * (1 + roundoff) := by
    rw [show x * (r * (1 + δ)) = x * r * (1 + δ) by ring, abs_mul]
    refine mul_le_mul_of_nonneg_left ?_ (abs_nonneg _)
    refine (abs_add_le _ _).trans ?_
    rw [abs_one]
    linarith
  have e3 : |x * r * δ| ≤ |x * r| * roundoff := by
    rw [abs_mul]; exact mul_le_mul_of_nonneg_left hδ (abs_nonneg _)
  have h0 := abs_nonneg (x * r)
  generalize |x * r| = A at *
  rw [roundoff_eq] at *
  have : (1 / 2 ^ 53 : ℝ) * |x * (r * (1 + δ))| ≤ 1 / 2 ^ 53 * (A * (1 + 1 / 2 ^ 53)) := mul_le_mul_of_nonneg_left e2 (by norm_num)
  norm_num at *
  linarith

theorem ratio_rel (hf : FairDesign lam c d) {E M : ℤ} (hE : E = endPixelsD (endPplD lam scale c d) d)
    (hM : M = midPixelsD (startPplD d) (endPplD lam scale c d) E) (hM0 : 0 < M) :
    ∃ δ, |δ| ≤ roundoff ∧ ratioD M E = (M : ℝ) / E * (1 + δ) := by
  subst hE
  obtain ⟨h1, h2⟩ := window_pixels (scale := scale) hf
  have h3 := int_appr hM0 (samples_le hf hM)
  have h4 := h3.div (int_appr (k := 203) h1 h2)
  have : SizeIn (-((444 + 203 : ℕ) : ℤ)) ((444 + 203 : ℕ) : ℤ) ((M : ℝ) / (endPixelsD (endPplD lam scale c d) d : ℤ)) :=
    .inr (by rw [abs_of_pos h4.pos]; exact ⟨h4.lo, h4.hi⟩)
  exact this.rel (by norm_num)

theorem end_exact (h : OutputPplExact lam scale c d) : endPplD lam scale c d = outputPpl lam scale c d := by
  unfold endPplD outputPpl
  cases scale with
  | false => rfl
  | true =>
    obtain ⟨h1, h2⟩ := h rfl
    simp only [if_true]
    rw [show double (d.lam0 / lam) = _ from h1, show double (d.lam0 / lam * c.ppl) = _ from h2]

theorem start_exact (h1 : IsDouble (d.fn * d.lam0)) (h2 : IsDouble (designPpl d)) : startPplD d = designPpl d := by
  unfold startPplD
  rw [show double (d.fn * d.lam0) = _ from h1]
  exact h2

theorem window_eq (hf : FairDesign lam c d) (hw : WindowClear lam scale c d) : endPixelsD (endPplD lam scale c d) d = ⌈windowSize lam scale c d⌉ := by
  rcases hw with hw | ⟨h1, h2, h3, h4⟩
  · exact ceil_of_clear hw ((window_appr hf).close (by norm_num))
  · unfold endPixelsD
    rw [end_exact h1, show double (2 * d.rOcc) = 2 * d.rOcc from h2, show double (2 * d.rOcc * outputPpl lam scale c d) = _ from h3]
    exact congrArg _ h4

theorem samples_eq (hf : FairDesign lam c d) {E : ℤ} (hE : E = endPixelsD (endPplD lam scale c d) d) (hx : SamplesClear lam scale c d E) :
    midPixelsD (startPplD d) (endPplD lam scale c d) E = ⌊designPpl d / outputPpl lam scale c d * E⌋ := by
  rcases hx with hx | ⟨h1, h2, h3, h4, h5⟩
  · subst hE
    exact floor_of_clear hx ((samples_appr hf).close (by norm_num))
  · unfold midPixelsD
    rw [end_exact h1, start_exact h2 h3, show double (designPpl d / outputPpl lam scale c d) = _ from h4]
    exact congrArg _ h5

/-- The magnification never comes out above 1 in a clear case. -/
theorem mag_le_one (hf : FairDesign lam c d) {E M : ℤ} (hE : E = endPixelsD (endPplD lam scale c d) d) (hE0 : 0 < E)
    (hM : M = midPixelsD (startPplD d) (endPplD lam scale c d) E) (hx : SamplesClear lam scale c d E) (hM0 : 0 < M) :
    magD (startPplD d) (endPplD lam scale c d) M E ≤ 1 := by
  have hER : (0 : ℝ) < E := by exact_mod_cast hE0
  have hMR : (0 : ℝ) < M := by exact_mod_cast hM0
  have hMe := samples_eq hf hE hx
  have hd1 : double 1 = 1 := by have := double_int 1 (by norm_num); exact_mod_cast this
  have hs := start_appr hf
  have he := end_appr (scale := scale) hf
  suffices hv : double (ratioD M E * endPplD lam scale c d) / startPplD d ≤ 1 by
    have := double_mono hv
    rwa [hd1] at this
  rw [← hM] at hMe
  rcases hx with hx | ⟨h1, h2, h3, h4, h5⟩
  · have hv := mag_appr hf hE hM hM0
    have hcl := hv.close (by norm_num)
    rw [abs_le] at hcl
    have hlt := hx M
    have hfl : (M : ℝ) ≤ designPpl d / outputPpl lam scale c d * E := by rw [hMe]; exact Int.floor_le _
    rw [abs_of_nonneg (by linarith)] at hlt
    have hps := hs.pos
    have hpe := he.pos
    have hx0 : 0 < designPpl d / outputPpl lam scale c d * E := by positivity
    have e : (M : ℝ) / E * outputPpl lam scale c d / designPpl d = M / (designPpl d / outputPpl lam scale c d * E) := by field_simp
    have h6 : (M : ℝ) / (designPpl d / outputPpl lam scale c d * E) ≤ 1 - 1 / 2 ^ 50 := by
      rw [div_le_iff₀ hx0]
      have : (1 - 1 / 2 ^ 50 : ℝ) * (designPpl d / outputPpl lam scale c d * E) =
        designPpl d / outputPpl lam scale c d * E - designPpl d / outputPpl lam scale c d * E / 2 ^ 50 := by ring
      linarith
    rw [e] at hcl
    have h7 := hcl.2
    have h8 : (M : ℝ) / (designPpl d / outputPpl lam scale c d * E) / 2 ^ 50 ≤ 1 / 2 ^ 50 := by
      apply div_le_div_of_nonneg_right _ (by norm_num)
      have : (0 : ℝ) ≤ 1 / 2 ^ 50 := by norm_num
      linarith
    linarith
  · rw [end_exact h1, start_exact h2 h3]
    have hps := hs.pos
    have hpe := he.pos
    have hq : (M : ℝ) / E ≤ designPpl d / outputPpl lam scale c d := by
      rw [div_le_iff₀ hER, hMe]; exact Int.floor_le _
    have hr : ratioD M E ≤ designPpl d / outputPpl lam scale c d := by
      have := double_mono hq
      rwa [show double (designPpl d / outputPpl lam scale c d) = _ from h4] at this
    have hp : ratioD M E * outputPpl lam scale c d ≤ designPpl d := by
      have := mul_le_mul_of_nonneg_right hr hpe.le
      rwa [div_mul_cancel₀ _ hpe.ne'] at this
    have := double_mono hp
    rw [show double (designPpl d) = _ from h3] at this
    rwa [div_le_one hps]

/-! ### The last steps -/

/-- With a magnification in range the remaining steps succeed. -/
theorem finish_ok {st : Arr2 ℂ} {mag x y : ℝ} {E M : ℤ} (ha : ∀ f : ℂ → ℝ, MaskArgs (st.map f) mag d.padFac) (hM0 : 0 < M) (hE0 : 0 < E)
    (hs : 0 < s0 ∧ 0 < s1) : ∃ (re im : Arr2 ℝ) (m ft oc : Arr2 ℂ),
      rotateShiftDownsample S R (st.map fun z => (z - corner st).re) c.rotDeg mag x y d.padFac false = .ok re ∧
      rotateShiftDownsample S R (st.map fun z => (z - corner st).im) c.rotDeg mag x y d.padFac false = .ok im ∧
      padCrop (⟨re.nr, re.nc, fun i j => (re.val i j : ℂ) + Complex.I * (((im.px (i : ℕ) (j : ℕ)).getD 0 : ℝ) : ℂ)⟩ : Arr2 ℂ) [M, M] 0 = .ok m ∧
      padCrop (doIfft (m.map fun z => z + corner st)) [E, E] 0 = .ok ft ∧
      padCrop ((doFft ft).map fun z => z - corner st) [s0, s1] 0 = .ok oc ∧
      hlcFinish S R st c d s0 s1 E M mag x y = .ok (oc.map fun z => z + corner st) := by
  obtain ⟨re, hre⟩ := (C60_accepts S R _ c.rotDeg mag x y d.padFac false).mpr (ha fun z => (z - corner st).re)
  obtain ⟨im, him⟩ := (C60_accepts S R _ c.rotDeg mag x y d.padFac false).mpr (ha fun z => (z - corner st).im)
  refine ⟨re, im, _, _, _, hre, him, padCrop_eq _ _ _ _ hM0 hM0, padCrop_eq _ _ _ _ hE0 hE0, padCrop_eq _ _ _ _ hs.1 hs.2, ?_⟩
  unfold hlcFinish
  rw [hre, res_ok_bind, him, res_ok_bind]
  simp only
  rw [padCrop_eq _ _ _ _ hM0 hM0, res_ok_bind, padCrop_eq _ _ _ _ hE0 hE0, res_ok_bind, padCrop_eq _ _ _ _ hs.1 hs.2, res_ok_bind]

/-- With a magnification out of range they do not. -/
theorem finish_bad {st : Arr2 ℂ} {mag x y : ℝ} {E M : ℤ} (h : mag ≤ 0 ∨ 1 < mag) : hlcFinish S R st c d s0 s1 E M mag x y = .error .typeError := by
  unfold hlcFinish
  rw [C60_rejects S R _ c.rotDeg mag x y d.padFac false (by tauto)]
  rfl

theorem hlcD_eq (h : HlcArgs lam scale s0 s1 c d) (hf : FairDesign lam c d) {st : Arr2 ℂ} (hst : occStart mat lam c d = .ok st) {E M : ℤ}
    (hE : E = endPixelsD (endPplD lam scale c d) d) (hM : M = midPixelsD (startPplD d) (endPplD lam scale c d) E) :
    genHlcOcculterD S R mat lam scale s0 s1 c d xo yo = hlcFinish S R st c d s0 s1 E M (magD (startPplD d) (endPplD lam scale c d) M E)
      (double (xo * ratioD M E)) (double (yo * ratioD M E)) := by
  unfold genHlcOcculterD
  rw [if_neg (by push Not; exact ⟨h.lamPos, h.shape.1, h.shape.2⟩), if_neg (by
    push Not
    exact ⟨h.ppl, h.lam0, h.metals.1, h.metals.2, h.scaleDesign.1, h.scaleDesign.2, by have := h.pol; tauto, h.hRef, h.aoi.1, h.aoi.2, h.pad, h.oversize⟩),
    hst, res_ok_bind]
  simp only
  rw [← hE, ← hM, if_neg (by rw [hE]; exact (window_pixels hf).1.ne')]

theorem hlc_mask (h : HlcArgs lam scale s0 s1 c d) {N : ℕ} (hN : IsLeast {n : ℤ | n % 2 = 1 ∧ ((max d.pmgi.nr d.pmgi.nc : ℕ) : ℝ) ≤ n} N)
    {st : Arr2 ℂ} (hst : occStart mat lam c d = .ok st) {mag : ℝ} (h1 : 0 < mag) (h2 : mag ≤ 1) (f : ℂ → ℝ) : MaskArgs (st.map f) mag d.padFac := by
  have hs := occStart_spec hst h.lamPos h.aoi (mul_pos h.hRef h.lam0) h.pol hN
  have hen := h.enough N hN
  refine ⟨h1, h2, h.pad, ?_⟩
  simp only [Arr2.map_nr, Arr2.map_nc, hs.1, hs.2.1, max_self]
  exact_mod_cast hen

/-! ### The property -/

/-- **C100.** With valid arguments of ordinary size, rounding can only make the call refuse, with a `TypeError`. -/
theorem C100_outcome (hm : MaterialsOK (mat lam)) (h : HlcArgs lam scale s0 s1 c d) (hf : FairDesign lam c d) :
    (∃ o, genHlcOcculterD S R mat lam scale s0 s1 c d xo yo = .ok o) ∨ genHlcOcculterD S R mat lam scale s0 s1 c d xo yo = .error .typeError := by
  obtain ⟨st, hst⟩ := occStart_ok mat hm h.lamPos h.aoi (mul_pos h.hRef h.lam0) h.pol
  rw [hlcD_eq h hf hst rfl rfl]
  obtain ⟨N, hN⟩ := isLeast_side d
  generalize hE : endPixelsD (endPplD lam scale c d) d = E
  generalize hM : midPixelsD (startPplD d) (endPplD lam scale c d) E = M
  by_cases hmag : 0 < magD (startPplD d) (endPplD lam scale c d) M E ∧ magD (startPplD d) (endPplD lam scale c d) M E ≤ 1
  · left
    have hE0 : 0 < E := by rw [← hE]; exact (window_pixels hf).1
    have hM0 : 0 < M := by
      by_contra hc
      have hMR : (M : ℝ) ≤ 0 := by exact_mod_cast (not_lt.mp hc)
      have hER : (0 : ℝ) < E := by exact_mod_cast hE0
      have hd0 : ∀ {x : ℝ}, x ≤ 0 → double x ≤ 0 := fun hx => by have := double_mono hx; rwa [double_zero] at this
      have h1 : ratioD M E ≤ 0 := hd0 (div_nonpos_of_nonpos_of_nonneg hMR hER.le)
      have h2 := hd0 (mul_nonpos_of_nonpos_of_nonneg h1 (end_appr (scale := scale) hf).posD.le)
      have h3 := hd0 (div_nonpos_of_nonpos_of_nonneg h2 (start_appr hf).posD.le)
      exact absurd hmag.1 (not_lt.mpr h3)
    obtain ⟨re, im, m, ft, oc, -, -, -, -, -, e⟩ := finish_ok (S := S) (R := R) (c := c) (d := d) (s0 := s0) (s1 := s1) (x := double (xo * ratioD M E))
      (y := double (yo * ratioD M E)) (hlc_mask h hN hst hmag.1 hmag.2) hM0 hE0 h.shape
    exact ⟨_, e⟩
  · right
    refine finish_bad ?_
    by_contra hc
    push Not at hc
    exact hmag hc

/-- **C100.** With valid arguments of ordinary size, and both pixel counts either clear of rounding or computed without any, the call succeeds, with
the same pixel counts as exact arithmetic, and every pixel of the answer follows the formula of C85 for a magnification and offsets within a few
units in the last place of the exact ones. -/
theorem C100_accepts_partial (hm : MaterialsOK (mat lam)) (h : HlcArgs lam scale s0 s1 c d) (hf : FairDesign lam c d) {E M : ℕ}
    (hE : (E : ℤ) = ⌈windowSize lam scale c d⌉) (hM : (M : ℤ) = ⌊designPpl d / outputPpl lam scale c d * E⌋)
    (hw : WindowClear lam scale c d) (hx : SamplesClear lam scale c d E) {N : ℕ}
    (hN : IsLeast {n : ℤ | n % 2 = 1 ∧ ((max d.pmgi.nr d.pmgi.nc : ℕ) : ℝ) ≤ n} N) {t0 : ℂ}
    (ht0 : IsDesign mat lam c d (-((N : ℤ) / 2)) (-((N : ℤ) / 2)) t0) (hne : t0 ≠ 0) :
    ∃ (o : Arr2 ℂ) (T : ℤ → ℤ → ℂ) (st : Arr2 ℂ) (re im : Arr2 ℝ) (mag x y : ℝ),
      genHlcOcculterD S R mat lam scale s0 s1 c d xo yo = .ok o ∧
      (∀ k l, Reaches N N k l → IsDesign mat lam c d k l (T k l)) ∧
      st.nr = N ∧ st.nc = N ∧ (∀ k l, Reaches N N k l → st.centered k l = some (T k l / t0)) ∧
      0 < mag ∧ mag ≤ 1 ∧
      |mag - (M : ℝ) / E * outputPpl lam scale c d / designPpl d| ≤ ((M : ℝ) / E * outputPpl lam scale c d / designPpl d) / 2 ^ 50 ∧
      |x - xo * (M / E)| ≤ |xo * (M / E)| / 2 ^ 51 + underflow ∧ |y - yo * (M / E)| ≤ |yo * (M / E)| / 2 ^ 51 + underflow ∧
      rotateShiftDownsample S R (st.map fun z => (z - 1).re) c.rotDeg mag x y d.padFac false = .ok re ∧
      rotateShiftDownsample S R (st.map fun z => (z - 1).im) c.rotDeg mag x y d.padFac false = .ok im ∧
      (o.nr : ℤ) = s0 ∧ (o.nc : ℤ) = s1 ∧
      ∀ k l, Reaches s0 s1 k l → o.centered k l = some (1 + if Reaches E E k l then
        bandSample (fun p q => (at0 re p q : ℂ) + Complex.I * (at0 im p q : ℂ)) M E k l else 0) := by
  obtain ⟨st, hst⟩ := occStart_ok mat hm h.lamPos h.aoi (mul_pos h.hRef h.lam0) h.pol
  have hE' : (E : ℤ) = endPixelsD (endPplD lam scale c d) d := by rw [window_eq hf hw, hE]
  have hM' : (M : ℤ) = midPixelsD (startPplD d) (endPplD lam scale c d) E := by rw [samples_eq hf hE' hx, hM]; rfl
  have hE0 : (0 : ℤ) < E := by rw [hE']; exact (window_pixels hf).1
  have hM0 : (0 : ℤ) < M := by
    rw [hM]
    have := h.mid
    change 1 ≤ designPpl d / outputPpl lam scale c d * ((⌈windowSize lam scale c d⌉ : ℤ) : ℝ) at this
    rw [← hE] at this
    exact Int.floor_pos.mpr (by exact_mod_cast this)
  have hap := (mag_appr hf hE' hM' hM0).double (by norm_num) (by norm_num)
  have hle := mag_le_one hf hE' hE0 hM' hx hM0
  have hcl := hap.close (by norm_num)
  simp only [Int.cast_natCast] at hcl
  obtain ⟨δ, hδ, hr⟩ := ratio_rel hf hE' hM' hM0
  simp only [Int.cast_natCast] at hr
  obtain ⟨q1, q2, q3, T, hT, hval⟩ := occStart_spec hst h.lamPos h.aoi (mul_pos h.hRef h.lam0) h.pol hN
  have hcR : Reaches N N (-((N : ℤ) / 2)) (-((N : ℤ) / 2)) := by unfold Reaches; omega
  have hTc : T (-((N : ℤ) / 2)) (-((N : ℤ) / 2)) = t0 := isDesign_unique (hT _ _ hcR) ht0
  rw [hTc] at hval
  have hcor : corner st = 1 := by
    have := hval _ _ hcR
    rw [hTc, div_self hne] at this
    unfold Arr2.centered at this
    rw [q1, q2, show (N : ℤ) / 2 + -((N : ℤ) / 2) = 0 by omega] at this
    unfold corner
    rw [this]
    rfl
  obtain ⟨re, im, m, ft, oc, hre, him, hmid, hft, hoc, e⟩ := finish_ok (S := S) (R := R) (c := c) (d := d) (s0 := s0) (s1 := s1)
    (x := double (xo * ratioD M E)) (y := double (yo * ratioD M E)) (hlc_mask h hN hst hap.posD hle) hM0 hE0 h.shape
  rw [hcor] at hre him hft hoc
  have ho := finish_at hre him hmid hft hoc rfl (by exact_mod_cast hM0) (by exact_mod_cast hE0)
  refine ⟨_, T, st, re, im, _, _, _, ?_, hT, q1, q2, hval, hap.posD, hle, hcl, offset_close xo ⟨δ, hδ, hr⟩, offset_close yo ⟨δ, hδ, hr⟩, hre, him, ho⟩
  rw [hlcD_eq h hf hst hE' hM']
  rw [hcor] at e
  exact e

/-! ### The missing part: a refused design -/

/-- 5.5 output pixels per wavelength over aperture. -/
noncomputable def narrowCal : HlcCal := ⟨11 / 2, 0, 5⟩

/-- 25 design samples per wavelength over aperture (`F/50`, `2 ^ -21` metres, samples of `2 ^ -20` metres), an occulter of radius 4 and a window
twice as wide. -/
noncomputable def narrowDesign : HlcDesign :=
  ⟨4, 1 / 2 ^ 21, 3 / 10 ^ 9, 1 / 10 ^ 7, 1 / 2 ^ 20, 50, 2, 4, 2, 2,
    ⟨5, 5, fun i j => if 1 ≤ (i : ℕ) ∧ (i : ℕ) ≤ 3 ∧ 1 ≤ (j : ℕ) ∧ (j : ℕ) ≤ 3 then 1 / 2 ^ 21 else 0⟩⟩

theorem narrow_side : IsLeast {n : ℤ | n % 2 = 1 ∧ ((max narrowDesign.pmgi.nr narrowDesign.pmgi.nc : ℕ) : ℝ) ≤ n} ((5 : ℕ) : ℤ) := sample_side

theorem narrow_ppl : outputPpl (1 / 2 ^ 21) true narrowCal narrowDesign = 11 / 2 ∧ designPpl narrowDesign = 25 := by
  constructor <;> norm_num [outputPpl, designPpl, narrowCal, narrowDesign]

theorem narrow_args : HlcArgs (1 / 2 ^ 21) true 64 64 narrowCal narrowDesign := by
  refine ⟨by norm_num, by norm_num, by norm_num [narrowCal], by norm_num [narrowDesign], by norm_num [narrowDesign], by norm_num [narrowDesign],
    Or.inr (Or.inr rfl), by norm_num [narrowDesign], by norm_num [narrowCal], by norm_num [narrowDesign], by norm_num [narrowDesign],
    by norm_num [narrowDesign], ?_, ?_⟩
  · rw [narrow_ppl.1, narrow_ppl.2]
    have : (2 * narrowDesign.rOcc * (11 / 2) * narrowDesign.oversize : ℝ) = ((88 : ℤ) : ℝ) := by norm_num [narrowDesign]
    rw [this, Int.ceil_intCast]
    norm_num
  · intro N hN
    rw [hN.unique narrow_side]
    norm_num [narrowDesign]

theorem isDouble_int (n : ℤ) (h : |n| ≤ 2 ^ 53) : IsDouble (n : ℝ) := double_int n h

theorem isDouble_bits {x : ℝ} (m e : ℤ) (hm : |m| < 2 ^ 53) (he : -1074 ≤ e) (hx : x = (m : ℝ) * (2 : ℝ) ^ e) : IsDouble x := by
  rw [hx]; exact double_of_bits m e hm he

theorem narrow_exact : OutputPplExact (1 / 2 ^ 21) true narrowCal narrowDesign := fun _ =>
  ⟨isDouble_bits 1 0 (by norm_num) (by norm_num) (by norm_num [narrowDesign]),
    isDouble_bits 11 (-1) (by norm_num) (by norm_num) (by norm_num [narrowDesign, narrowCal])⟩

theorem narrow_start : startPplD narrowDesign = 25 := by
  rw [start_exact, narrow_ppl.2]
  · exact isDouble_bits 25 (-20) (by norm_num) (by norm_num) (by norm_num [narrowDesign])
  · rw [narrow_ppl.2]
    exact isDouble_bits 25 0 (by norm_num) (by norm_num) (by norm_num)

theorem narrow_end : endPplD (1 / 2 ^ 21) true narrowCal narrowDesign = 11 / 2 := by rw [end_exact narrow_exact, narrow_ppl.1]

theorem narrow_E : endPixelsD (endPplD (1 / 2 ^ 21) true narrowCal narrowDesign) narrowDesign = 88 := by
  rw [narrow_end]
  unfold endPixelsD
  rw [show double (2 * narrowDesign.rOcc) = 8 from ?_, show double (8 * (11 / 2) : ℝ) = 44 from ?_, show double (44 * narrowDesign.oversize) = ((88 : ℤ) : ℝ) from ?_,
    Int.ceil_intCast]
  · rw [show (44 * narrowDesign.oversize : ℝ) = ((88 : ℤ) : ℝ) by norm_num [narrowDesign]]
    exact double_int 88 (by norm_num)
  · rw [show (8 * (11 / 2) : ℝ) = ((44 : ℤ) : ℝ) by norm_num]
    exact_mod_cast double_int 44 (by norm_num)
  · rw [show (2 * narrowDesign.rOcc : ℝ) = ((8 : ℤ) : ℝ) by norm_num [narrowDesign]]
    exact_mod_cast double_int 8 (by norm_num)

theorem narrow_quot : double (50 / 11 : ℝ) = 5117726849284655 / 2 ^ 50 := by
  rw [double_eq_of_near 5117726849284655 (-50) (by norm_num) (by norm_num) (by norm_num) (by norm_num [abs_lt])]
  norm_num

theorem narrow_M : midPixelsD 25 (11 / 2) 88 = 400 := by
  unfold midPixelsD
  rw [show (25 / (11 / 2) : ℝ) = 50 / 11 by norm_num, narrow_quot,
    double_eq_of_near 7036874417766401 (-44) (by norm_num) (by norm_num) (by norm_num) (by norm_num [abs_lt]), Int.floor_eq_iff]
  norm_num

theorem narrow_mag : magD 25 (11 / 2) 400 88 = 1 + 1 / 2 ^ 52 := by
  unfold magD ratioD
  rw [show (((400 : ℤ) : ℝ) / ((88 : ℤ) : ℝ)) = 50 / 11 by norm_num, narrow_quot,
    double_eq_of_near 7036874417766401 (-48) (x := 5117726849284655 / 2 ^ 50 * (11 / 2)) (by norm_num) (by norm_num) (by norm_num) (by norm_num [abs_lt]),
    double_eq_of_near (2 ^ 52 + 1) (-52) (by norm_num) (by norm_num) (by norm_num) (by norm_num [abs_lt])]
  norm_num

theorem narrow_fair : FairDesign (1 / 2 ^ 21) narrowCal narrowDesign := by
  refine ⟨?_, ?_, ?_, ?_, ?_, ?_, ?_⟩ <;> norm_num [Fair, narrowCal, narrowDesign]

/-- **C100, counterexample.** Arguments that satisfy every documented requirement, all of them doubles, for which exact arithmetic produces a mask and
double precision raises `TypeError`: the magnification, exactly 1, comes out one unit in the last place above 1. -/
theorem C100_refused (S : ClampSpline) (R : Rotate) {mat : ℝ → Materials} (hm : MaterialsOK (mat (1 / 2 ^ 21))) (xo yo : ℝ) :
    HlcArgs (1 / 2 ^ 21) true 64 64 narrowCal narrowDesign ∧ FairDesign (1 / 2 ^ 21) narrowCal narrowDesign ∧
    (∃ o, genHlcOcculter S R mat (1 / 2 ^ 21) true 64 64 narrowCal narrowDesign xo yo = .ok o) ∧
    genHlcOcculterD S R mat (1 / 2 ^ 21) true 64 64 narrowCal narrowDesign xo yo = .error .typeError := by
  refine ⟨narrow_args, narrow_fair, (C85_accepts hm).mpr narrow_args, ?_⟩
  obtain ⟨st, hst⟩ := occStart_ok mat (c := narrowCal) (d := narrowDesign) hm narrow_args.lamPos narrow_args.aoi (mul_pos narrow_args.hRef narrow_args.lam0) narrow_args.pol
  rw [hlcD_eq narrow_args narrow_fair hst rfl rfl, narrow_E, narrow_start, narrow_end, narrow_M, narrow_mag]
  exact finish_bad (Or.inr (by norm_num))

/-! ### Cases -/

/-- The refusal happens: with the sample materials. -/
example (S : ClampSpline) (R : Rotate) : genHlcOcculterD S R sampleMat (1 / 2 ^ 21) true 64 64 narrowCal narrowDesign (1 / 4) 0 = .error .typeError :=
  (C100_refused S R (mat := sampleMat) ⟨by norm_num [sampleMat], by norm_num [sampleMat], by norm_num [sampleMat], by norm_num [sampleMat]⟩ _ _).2.2.2

theorem clear_between {x : ℝ} (n : ℤ) (h0 : 0 ≤ x) (h1 : (n : ℝ) + x / 2 ^ 50 < x) (h2 : x < n + 1 - x / 2 ^ 50) : ClearOfIntegers x := by
  intro m
  rcases le_or_gt m n with h | h
  · have : (m : ℝ) ≤ n := by exact_mod_cast h
    exact lt_of_lt_of_le (by linarith) (le_abs_self _)
  · have : (n : ℝ) + 1 ≤ m := by exact_mod_cast h
    rw [abs_sub_comm]
    exact lt_of_lt_of_le (by linarith) (le_abs_self _)

/-- Arguments valid for the design above, for any output sampling above one pixel. -/
theorem narrow_with (p : ℝ) (hp : 1 ≤ p) (hp' : p ≤ 1000) :
    HlcArgs (1 / 2 ^ 21) true 64 64 ⟨p, 0, 5⟩ narrowDesign ∧ FairDesign (1 / 2 ^ 21) ⟨p, 0, 5⟩ narrowDesign ∧
    outputPpl (1 / 2 ^ 21) true ⟨p, 0, 5⟩ narrowDesign = p ∧ windowSize (1 / 2 ^ 21) true ⟨p, 0, 5⟩ narrowDesign = 16 * p := by
  have e : outputPpl (1 / 2 ^ 21) true ⟨p, 0, 5⟩ narrowDesign = p := by norm_num [outputPpl, narrowDesign]
  have ew : windowSize (1 / 2 ^ 21) true ⟨p, 0, 5⟩ narrowDesign = 16 * p := by
    unfold windowSize
    rw [e]
    simp only [narrowDesign]
    ring
  have g := narrow_args
  refine ⟨⟨g.lamPos, g.shape, by simp only; linarith, g.lam0, g.metals, g.scaleDesign, g.pol, g.hRef, g.aoi, g.pad, g.oversize, g.rOcc, ?_, g.enough⟩, ?_, e, ew⟩
  · have h1 := Int.le_ceil (windowSize (1 / 2 ^ 21) true ⟨p, 0, 5⟩ narrowDesign)
    change 1 ≤ designPpl narrowDesign / outputPpl (1 / 2 ^ 21) true ⟨p, 0, 5⟩ narrowDesign * ((⌈windowSize (1 / 2 ^ 21) true ⟨p, 0, 5⟩ narrowDesign⌉ : ℤ) : ℝ)
    rw [e, narrow_ppl.2]
    have hp0 : 0 < p := by linarith
    have h2 := mul_le_mul_of_nonneg_left h1 (show 0 ≤ 25 / p by positivity)
    refine le_trans ?_ h2
    rw [ew, show 25 / p * (16 * p) = 400 by field_simp; norm_num]
    norm_num
  · have f := narrow_fair
    refine ⟨f.lam, ⟨le_trans ?_ hp, hp'.trans (by norm_num)⟩, f.lam0, f.fn, f.dx, f.rOcc, f.oversize⟩
    norm_num

/-- 5.21875 pixels: a window of 83.5 pixels and 402.4 samples, both clear of rounding, so 84 pixels and 402 samples; the mask is produced. -/
example (S : ClampSpline) (R : Rotate) : ∃ o, genHlcOcculterD S R sampleMat (1 / 2 ^ 21) true 64 64 ⟨167 / 32, 0, 5⟩ narrowDesign (1 / 4) 0 = .ok o ∧
    (o.nr : ℤ) = 64 ∧ ∀ k l, Reaches (64 : ℤ) (64 : ℤ) k l → ¬ Reaches (84 : ℕ) (84 : ℕ) k l → o.centered k l = some 1 := by
  obtain ⟨ha, hf, he, hw⟩ := narrow_with (167 / 32) (by norm_num) (by norm_num)
  have hm : MaterialsOK (sampleMat (1 / 2 ^ 21)) := ⟨by norm_num [sampleMat], by norm_num [sampleMat], by norm_num [sampleMat], by norm_num [sampleMat]⟩
  obtain ⟨t0, ht, hne⟩ := C85_bare_nonzero (c := ⟨167 / 32, 0, 5⟩) (d := narrowDesign) hm ha.lamPos ha.aoi (mul_pos ha.hRef ha.lam0) ha.pol
  have hcorner : IsDesign sampleMat (1 / 2 ^ 21) ⟨167 / 32, 0, 5⟩ narrowDesign (-(((5 : ℕ) : ℤ) / 2)) (-(((5 : ℕ) : ℤ) / 2)) t0 := by
    have hv : pmgiAt narrowDesign (-(((5 : ℕ) : ℤ) / 2)) (-(((5 : ℕ) : ℤ) / 2)) = 0 := by
      unfold pmgiAt at0 Arr2.centered
      rw [Arr2.px_of_inB _ (by decide)]
      show (if 1 ≤ 0 ∧ 0 ≤ 3 ∧ 1 ≤ 0 ∧ 0 ≤ 3 then (1 / 2 ^ 21 : ℝ) else 0) = 0
      norm_num
    exact ⟨fun h => by rw [hv] at h; exact absurd h (lt_irrefl _), fun _ => ht⟩
  obtain ⟨o, T, st, re, im, mag, x, y, ho, -, -, -, -, -, -, -, -, -, -, -, o1, o2, o3⟩ := C100_accepts_partial (S := S) (R := R) (xo := 1 / 4) (yo := 0) (E := 84) (M := 402)
    hm ha hf (by rw [hw, eq_comm, Int.ceil_eq_iff]; norm_num) (by rw [he, narrow_ppl.2, eq_comm, Int.floor_eq_iff]; norm_num)
    (.inl (by rw [hw]; exact clear_between 83 (by norm_num) (by norm_num) (by norm_num)))
    (.inl (by rw [he, narrow_ppl.2]; exact clear_between 402 (by norm_num) (by norm_num) (by norm_num))) narrow_side hcorner hne
  exact ⟨o, ho, o1, fun k l hk hn => by rw [o3 k l hk, if_neg hn, add_zero]⟩

/-- 6.25 pixels: a window of exactly 100 pixels and 400 samples, both computed without rounding. -/
example : WindowClear (1 / 2 ^ 21) true ⟨25 / 4, 0, 5⟩ narrowDesign ∧ SamplesClear (1 / 2 ^ 21) true ⟨25 / 4, 0, 5⟩ narrowDesign 100 := by
  obtain ⟨-, -, he, hw⟩ := narrow_with (25 / 4) (by norm_num) (by norm_num)
  have hx : OutputPplExact (1 / 2 ^ 21) true ⟨25 / 4, 0, 5⟩ narrowDesign := fun _ =>
    ⟨isDouble_bits 1 0 (by norm_num) (by norm_num) (by norm_num [narrowDesign]),
      isDouble_bits 25 (-2) (by norm_num) (by norm_num) (by norm_num [narrowDesign])⟩
  refine ⟨.inr ⟨hx, ?_, ?_, ?_⟩, .inr ⟨hx, ?_, ?_, ?_, ?_⟩⟩
  · exact isDouble_bits 8 0 (by norm_num) (by norm_num) (by norm_num [narrowDesign])
  · rw [he]; exact isDouble_bits 50 0 (by norm_num) (by norm_num) (by norm_num [narrowDesign])
  · rw [hw]; exact isDouble_bits 100 0 (by norm_num) (by norm_num) (by norm_num)
  · exact isDouble_bits 25 (-20) (by norm_num) (by norm_num) (by norm_num [narrowDesign])
  · rw [narrow_ppl.2]; exact isDouble_bits 25 0 (by norm_num) (by norm_num) (by norm_num)
  · rw [he, narrow_ppl.2]; exact isDouble_bits 4 0 (by norm_num) (by norm_num) (by norm_num)
  · rw [he, narrow_ppl.2]; exact isDouble_bits 400 0 (by norm_num) (by norm_num) (by norm_num)

end Coralign.Props
