import Verif.Props.HlcOcculter
import Verif.Props.MaskGenWhole

/-!
# C85: consequences for particular designs
-/

namespace Coralign.Props

open Coralign Coralign.Spec

/-! ### Transmission of the bare substrate -/

/-- A transparent substrate denser than vacuum carries a propagating wave. -/
theorem sub_kz {theta lam n : ℝ} (hl : 0 < lam) (ht : 0 ≤ theta) (ht' : theta < Real.pi / 2) (hn : 1 ≤ n) :
    ∃ y : ℝ, 0 < y ∧ tfKz (kxOf 1 theta lam : ℝ) lam n = ((-y : ℝ) : ℂ) := by
  have hc : 0 < Real.cos theta := Real.cos_pos_of_mem_Ioo ⟨by linarith [Real.pi_pos], ht'⟩
  have hsc := Real.sin_sq_add_cos_sq theta
  have hx : 0 < n ^ 2 - Real.sin theta ^ 2 := by nlinarith [pow_pos hc 2]
  refine ⟨2 * Real.pi / lam * Real.sqrt (n ^ 2 - Real.sin theta ^ 2), by have := Real.pi_pos; have := Real.sqrt_pos.mpr hx; positivity, ?_⟩
  rw [tfKz_eq, rootW]
  have : (2 * Real.pi * (n : ℂ) / lam) ^ 2 - (kxOf 1 theta lam : ℂ) * (kxOf 1 theta lam : ℂ) =
      (((2 * Real.pi / lam * Real.sqrt (n ^ 2 - Real.sin theta ^ 2)) ^ 2 : ℝ) : ℂ) := by
    have e : (2 * Real.pi * n / lam) ^ 2 - kxOf 1 theta lam * kxOf 1 theta lam = (2 * Real.pi / lam * Real.sqrt (n ^ 2 - Real.sin theta ^ 2)) ^ 2 := by
      rw [mul_pow, Real.sq_sqrt hx.le]
      unfold kxOf
      ring
    rw [← e]; push_cast; ring
  rw [this, csqrt_ofReal_sq _ (by have := Real.pi_pos; positivity)]
  push_cast
  ring

theorem sub_kzz {theta lam n : ℝ} (hl : 0 < lam) (ht : 0 ≤ theta) (ht' : theta < Real.pi / 2) (hn : 1 ≤ n) (tm : Bool) :
    ∃ y : ℝ, 0 < y ∧ tfKzz (kxOf 1 theta lam : ℝ) lam tm n = ((-y : ℝ) : ℂ) := by
  obtain ⟨y, hy, h⟩ := sub_kz hl ht ht' hn
  unfold tfKzz
  rw [h]
  cases tm with
  | false => exact ⟨y, hy, by simp⟩
  | true => exact ⟨y / (n * n), by have : 0 < n := by linarith
                                   positivity, by simp; ring⟩

/-- A layer with the index of the incident medium on a transparent substrate: the transmission has the phase of the gap alone, the same for
both polarisations. -/
theorem bare_tt {m : Materials} (hm : MaterialsOK m) {theta lam : ℝ} (d0 : ℝ) (ht : 0 ≤ theta) (ht' : theta < Real.pi / 2) (hl : 0 < lam) :
    ∃ z : ℂ, z ≠ 0 ∧ ∀ tm : Bool, ∃ (o : FilmOut) (x : ℝ), 0 < x ∧ film (1 : ℝ) (occulterLayers m d0 0 0 0) m.nSub theta lam tm = .ok o ∧ o.tt = x * z := by
  obtain ⟨y1, hy1, hk1⟩ := sub_kz (n := 1) hl ht ht' le_rfl
  refine ⟨(Complex.exp (-Complex.I * ((-(y1 * d0) : ℝ) : ℂ)))⁻¹, inv_ne_zero (Complex.exp_ne_zero _), fun tm => ?_⟩
  have ha := occulter_args hm theta lam d0 0 0 0 ht ht' hl
  obtain ⟨a, b, e0, e1, hf⟩ := film_eq ha tm
  obtain ⟨ys, hys, hks⟩ := sub_kzz hl ht ht' hm.sub tm
  obtain ⟨y0, hy0, hk0⟩ := ha.y0 tm
  have hstack : stackMat (kxOf 1 theta lam : ℝ) lam tm (occulterLayers m d0 0 0 0) =
      layerMat ((-y0 : ℝ) : ℂ) ((-(y1 * d0) : ℝ) : ℂ) := by
    have h1 : ((1 : ℝ) : ℂ) = 1 := Complex.ofReal_one
    rw [h1] at hk0 hk1
    unfold occulterLayers
    simp only [stackMat_cons, Complex.ofReal_zero, mul_zero, layerMat_zero, one_mul, hk0, hk1]
    simp only [stackMat, List.map_nil, List.prod_nil, mul_one]
    congr 1
    push_cast
    ring
  rw [hstack, hks] at e0 e1
  rw [hk0] at e1
  have hy0C : ((-y0 : ℝ) : ℂ) ≠ 0 := by
    rw [Complex.ofReal_ne_zero]; linarith
  have hy0D : (y0 : ℂ) ≠ 0 := by
    rw [Complex.ofReal_ne_zero]; linarith
  have haval : a = (((y0 + ys) / (2 * y0) : ℝ) : ℂ) * Complex.exp (-Complex.I * ((-(y1 * d0) : ℝ) : ℂ)) := by
    have e1' : a - b = (layerMat ((-y0 : ℝ) : ℂ) ((-(y1 * d0) : ℝ) : ℂ) 1 0 + layerMat ((-y0 : ℝ) : ℂ) ((-(y1 * d0) : ℝ) : ℂ) 1 1 * ((-ys : ℝ) : ℂ)) / ((-y0 : ℝ) : ℂ) := by
      rw [eq_div_iff hy0C, ← e1]; ring
    have h2 : a = ((a + b) + (a - b)) / 2 := by ring
    rw [h2, e0, e1', exp_negI]
    generalize ((-(y1 * d0) : ℝ) : ℂ) = q
    simp only [layerMat, Matrix.of_apply, Matrix.cons_val_zero, Matrix.cons_val_one, Matrix.cons_val', Matrix.cons_val_fin_one]
    push_cast
    field_simp
    ring
  have hP : (((-ys : ℝ) : ℂ) / ((-y0 : ℝ) : ℂ)).re = ys / y0 := by
    rw [← Complex.ofReal_div, Complex.ofReal_re, neg_div_neg_eq]
  refine ⟨_, Real.sqrt (ys / y0) * (2 * y0 / (y0 + ys)), by have := Real.sqrt_pos.mpr (div_pos hys hy0); positivity, hf, ?_⟩
  simp only
  rw [hks, hk0, hP, haval]
  have hsum : ((y0 : ℂ) + ys) ≠ 0 := by
    rw [← Complex.ofReal_add, Complex.ofReal_ne_zero]; linarith
  have hex := Complex.exp_ne_zero (-Complex.I * ((-(y1 * d0) : ℝ) : ℂ))
  generalize Complex.exp (-Complex.I * ((-(y1 * d0) : ℝ) : ℂ)) = w at *
  push_cast
  field_simp

/-- **C85.** Bare substrate never has zero transmission, for any of the three polarisation choices. -/
theorem C85_bare_nonzero {mat : ℝ → Materials} {lam : ℝ} {c : HlcCal} {d : HlcDesign} (hm : MaterialsOK (mat lam)) (hl : 0 < lam)
    (ha : 0 ≤ c.aoi ∧ c.aoi < 90) (hd : 0 < d.hRefCoef * d.lam0) (hp : d.pol = 0 ∨ d.pol = 1 ∨ d.pol = 2) :
    ∃ t, IsTransmission mat lam c d 0 0 0 t ∧ t ≠ 0 := by
  have h : OcculterArgs lam c.aoi [0] [0] [0] (d.hRefCoef * d.lam0) d.pol := ⟨hl, ha.1, ha.2, by simp, hd, hp⟩
  obtain ⟨h0, h1⟩ := h.theta
  obtain ⟨z, hz, hb⟩ := bare_tt hm (d.hRefCoef * d.lam0) h0 h1 hl
  obtain ⟨oa, xa, hxa, hfa, hta⟩ := hb false
  obtain ⟨ob, xb, hxb, hfb, htb⟩ := hb true
  have hcell := occulterCell_eq (mat lam) _ lam (d.hRefCoef * d.lam0) 0 0 0 d.pol false oa ob hfa hfb hp
  have hcall : calcComplexOcculter mat lam c.aoi [0] [0] [0] (d.hRefCoef * d.lam0) d.pol false .FS = _ := occulter_loop mat h false .FS (Or.inl rfl)
  have hr : List.range ([0] : List ℝ).length = [0] := rfl
  rw [hr, List.mapM_cons] at hcall
  simp only [List.getD_cons_zero, hcell] at hcall
  refine ⟨_, ⟨_, hcall⟩, ?_⟩
  simp only [Bool.false_eq_true, if_false, ne_eq, map_eq_zero]
  rcases hp with hp | hp | hp
  · simp only [hp, hta]
    norm_num
    exact ⟨hxa.ne', hz⟩
  · simp only [hp, htb]
    norm_num
    exact ⟨hxb.ne', hz⟩
  · simp only [hp, hta, htb, if_true]
    rw [← add_mul, ← Complex.ofReal_add]
    have : ((xa + xb : ℝ) : ℂ) ≠ 0 := by rw [Complex.ofReal_ne_zero]; positivity
    exact div_ne_zero (mul_ne_zero this hz) two_ne_zero

variable {S : ClampSpline} {R : Rotate} {mat : ℝ → Materials} {lam : ℝ} {scale : Bool} {s0 s1 : ℤ} {c : HlcCal} {d : HlcDesign} {xo yo : ℝ}
  {o : Arr2 ℂ}

theorem isLeast_side (d : HlcDesign) : ∃ N : ℕ, IsLeast {n : ℤ | n % 2 = 1 ∧ ((max d.pmgi.nr d.pmgi.nc : ℕ) : ℝ) ≤ n} N := by
  have hc := C08_ceil_odd ((max d.pmgi.nr d.pmgi.nc : ℕ) : ℝ)
  have : (0 : ℝ) ≤ (ceilOdd ((max d.pmgi.nr d.pmgi.nc : ℕ) : ℝ) : ℤ) := le_trans (Nat.cast_nonneg _) hc.1.2
  obtain ⟨N, hN⟩ := Int.eq_ofNat_of_zero_le (show 0 ≤ ceilOdd ((max d.pmgi.nr d.pmgi.nc : ℕ) : ℝ) by exact_mod_cast this)
  exact ⟨N, by rw [← hN]; exact hc⟩

/-! ### Outside the occulter's window -/

/-- **C85.** Beyond the window of `E` pixels, at least twice the diameter of the occulter, the output is exactly 1. -/
theorem C85_substrate (h : genHlcOcculter S R mat lam scale s0 s1 c d xo yo = .ok o) {N : ℕ}
    (hN : IsLeast {n : ℤ | n % 2 = 1 ∧ ((max d.pmgi.nr d.pmgi.nc : ℕ) : ℝ) ≤ n} N) {t0 : ℂ}
    (ht0 : IsDesign mat lam c d (-((N : ℤ) / 2)) (-((N : ℤ) / 2)) t0) (hne : t0 ≠ 0) :
    (o.nr : ℤ) = s0 ∧ (o.nc : ℤ) = s1 ∧ ∃ E : ℕ, 2 * d.rOcc * outputPpl lam scale c d * d.oversize ≤ E ∧
      ∀ k l, Reaches s0 s1 k l → ¬ Reaches E E k l → o.centered k l = some 1 := by
  obtain ⟨M, E, T, st, re, im, hT, q1, q2, q3, hE, hM, hE0, hM0, hre, him, o1, o2, o3⟩ := C85_answer h hN ht0 hne
  refine ⟨o1, o2, E, ?_, fun k l hkl hn => ?_⟩
  · have : ((E : ℤ) : ℝ) = E := by push_cast; rfl
    rw [← this, hE]
    exact Int.le_ceil _
  · rw [o3 k l hkl, if_neg hn, add_zero]

/-! ### Uniform designs -/

/-- An array of zeros stays an array of zeros. -/
theorem rsd_zero {a : Arr2 ℝ} (ha : ∀ i j, a.val i j = 0) {rot mag x y pf : ℝ} {fl : Bool} {b : Arr2 ℝ}
    (h : rotateShiftDownsample S R a rot mag x y pf fl = .ok b) (k l : ℤ) : at0 b k l = 0 := by
  obtain ⟨n, m, f⟩ := a
  obtain ⟨b', hb', hv⟩ := C60_linear S R n m f f 0 0 rot mag x y pf fl b b h h
  have e : (fun (i : Fin n) (j : Fin m) => 0 * f i j + 0 * f i j) = f := by
    funext i j
    rw [show f i j = 0 from ha i j]; ring
  rw [e, h] at hb'
  obtain rfl := Except.ok.inj hb'
  unfold at0 Arr2.centered
  cases hp : b.px ((b.nr : ℤ) / 2 + k) ((b.nc : ℤ) / 2 + l) with
  | none => rfl
  | some v =>
    have := hv _ _ v v hp hp
    rw [hp] at this
    have := Option.some.inj this
    simp only [Option.getD_some]
    linarith

/-- **C85.** If every pixel of the design has the same transmission, the output is 1 everywhere: the mask is relative to its own corner
pixel. -/
theorem C85_uniform (h : genHlcOcculter S R mat lam scale s0 s1 c d xo yo = .ok o) {N : ℕ}
    (hN : IsLeast {n : ℤ | n % 2 = 1 ∧ ((max d.pmgi.nr d.pmgi.nc : ℕ) : ℝ) ≤ n} N) {t0 : ℂ} (hne : t0 ≠ 0)
    (hall : ∀ k l, Reaches N N k l → IsDesign mat lam c d k l t0) (k l : ℤ) (hkl : Reaches s0 s1 k l) : o.centered k l = some 1 := by
  have hN0 : (0 : ℤ) ≤ N := Int.natCast_nonneg _
  have hN1 : (N : ℤ) % 2 = 1 := hN.1.1
  obtain ⟨M, E, T, st, re, im, hT, q1, q2, q3, hE, hM, hE0, hM0, hre, him, o1, o2, o3⟩ := C85_answer h hN (hall _ _ (by unfold Reaches; omega)) hne
  have hst : ∀ (i : Fin st.nr) (j : Fin st.nc), st.val i j = 1 := by
    intro i j
    have hr : Reaches N N ((i : ℕ) - (N : ℤ) / 2) ((j : ℕ) - (N : ℤ) / 2) := by
      have := i.isLt
      have := j.isLt
      unfold Reaches
      omega
    have h1 := q3 _ _ hr
    rw [isDesign_unique (hT _ _ hr) (hall _ _ hr), div_self hne] at h1
    have h2 := atC_val st i j
    rw [h2]
    unfold atC
    have e1 : (st.nr : ℤ) = N := by rw [q1]
    have e2 : (st.nc : ℤ) = N := by rw [q2]
    rw [show ((i : ℕ) : ℤ) - (st.nr : ℤ) / 2 = (i : ℕ) - (N : ℤ) / 2 by omega, show ((j : ℕ) : ℤ) - (st.nc : ℤ) / 2 = (j : ℕ) - (N : ℤ) / 2 by omega, h1]
    rfl
  have hzre : ∀ (i : Fin st.nr) (j : Fin st.nc), (st.val i j - 1).re = 0 := fun i j => by rw [hst i j]; simp
  have hzim : ∀ (i : Fin st.nr) (j : Fin st.nc), (st.val i j - 1).im = 0 := fun i j => by rw [hst i j]; simp
  have z1 : ∀ k l, at0 re k l = 0 := rsd_zero (fun i j => hzre i j) hre
  have z2 : ∀ k l, at0 im k l = 0 := rsd_zero (fun i j => hzim i j) him
  rw [o3 k l hkl]
  congr 1
  split
  · rw [bandSample_congr (g := fun _ _ => 0) M E (fun i _ j _ => by rw [z1, z2]; simp), bandSample_const 0 M E hM0 hE0, add_zero]
  · rw [add_zero]

/-- **C85.** No PMGI anywhere: the output is 1 everywhere. -/
theorem C85_clear (hm : MaterialsOK (mat lam)) (h : genHlcOcculter S R mat lam scale s0 s1 c d xo yo = .ok o)
    (hc : ∀ k l, pmgiAt d k l ≤ 0) (k l : ℤ) (hkl : Reaches s0 s1 k l) : o.centered k l = some 1 := by
  have A := (C85_accepts hm).mp ⟨o, h⟩
  obtain ⟨N, hN⟩ := isLeast_side d
  obtain ⟨t, ht, hne⟩ := C85_bare_nonzero hm A.lamPos A.aoi (mul_pos A.hRef A.lam0) A.pol
  exact C85_uniform h hN hne (fun k l _ => ⟨fun hp => absurd hp (not_lt.mpr (hc k l)), fun _ => ht⟩) k l hkl

/-- **C85.** A design file of odd square shape wholly covered by one thickness of PMGI gives the same output as a bare substrate, however
opaque the stack is. -/
theorem C85_full_cover (h : genHlcOcculter S R mat lam scale s0 s1 c d xo yo = .ok o) (n : ℕ) (g : ℝ) (hg : 0 < g)
    (hp : d.pmgi = ⟨2 * n + 1, 2 * n + 1, fun _ _ => g⟩) {t0 : ℂ} (ht : IsTransmission mat lam c d d.hTi d.hNi g t0) (hne : t0 ≠ 0)
    (k l : ℤ) (hkl : Reaches s0 s1 k l) : o.centered k l = some 1 := by
  have hN : IsLeast {m : ℤ | m % 2 = 1 ∧ ((max d.pmgi.nr d.pmgi.nc : ℕ) : ℝ) ≤ m} ((2 * n + 1 : ℕ) : ℤ) := by
    rw [hp]
    simp only [max_self]
    refine ⟨⟨by omega, by push_cast; exact le_rfl⟩, fun m hm => ?_⟩
    exact_mod_cast hm.2
  refine C85_uniform h hN hne (fun k l hr => ?_) k l hkl
  have hv : pmgiAt d k l = g := by
    unfold pmgiAt at0
    rw [hp]
    unfold Arr2.centered
    rw [Arr2.px_of_inB _ (by exact hr)]
    rfl
  constructor
  · intro _; rw [hv]; exact ht
  · intro h0; rw [hv] at h0; linarith

/-! ### Sampling -/

/-- **C85.** The two steps together change the sampling from `designPpl` to exactly `outputPpl`; the first one hardly changes it at all. -/
theorem C85_scale {pe ps : ℝ} (hpe : 0 < pe) (hps : 0 < ps) {M E : ℕ} (hE : 0 < E) (hM : (M : ℤ) = ⌊ps / pe * E⌋) (hM0 : 0 < M) :
    ((M : ℝ) / E) / ((M : ℝ) / E * pe / ps) = ps / pe ∧ (M : ℝ) / (M + 1) < (M : ℝ) / E * pe / ps ∧ (M : ℝ) / E * pe / ps ≤ 1 := by
  have hER : (0 : ℝ) < E := by exact_mod_cast hE
  have hMR : (0 : ℝ) < M := by exact_mod_cast hM0
  have h1 := mag_facts (pe := pe) (ps := ps) hpe hps (E := E) (M := M) (by exact_mod_cast hE) (by exact_mod_cast hM) (by exact_mod_cast hM0)
  push_cast at h1
  refine ⟨by field_simp, ?_, h1.2⟩
  have : ps / pe * E < M + 1 := by
    have := Int.lt_floor_add_one (ps / pe * E)
    rw [← hM] at this
    exact_mod_cast this
  rw [div_lt_div_iff₀ (by linarith) hps, div_mul_eq_mul_div, div_mul_eq_mul_div, lt_div_iff₀ hER]
  have h2 : ps * E < (M + 1) * pe := by
    have := mul_lt_mul_of_pos_right this hpe
    have e : ps / pe * E * pe = ps * E := by field_simp
    linarith
  nlinarith

/-- **C85.** The mean of the output over its window, relative to the substrate, is the mean over the intermediate window: the Fourier step
keeps the total. -/
theorem C85_mean (h : genHlcOcculter S R mat lam scale s0 s1 c d xo yo = .ok o) {N : ℕ}
    (hN : IsLeast {n : ℤ | n % 2 = 1 ∧ ((max d.pmgi.nr d.pmgi.nc : ℕ) : ℝ) ≤ n} N) {t0 : ℂ}
    (ht0 : IsDesign mat lam c d (-((N : ℤ) / 2)) (-((N : ℤ) / 2)) t0) (hne : t0 ≠ 0) :
    ∃ (M E : ℕ) (re im : Arr2 ℝ), (E : ℤ) = ⌈2 * d.rOcc * outputPpl lam scale c d * d.oversize⌉ ∧
      (M : ℤ) = ⌊designPpl d / outputPpl lam scale c d * E⌋ ∧
      ((E : ℤ) ≤ s0 → (E : ℤ) ≤ s1 →
        (∑ k ∈ window E, ∑ l ∈ window E, (atC o k l - 1)) / (E : ℂ) ^ 2 =
          (∑ i ∈ window M, ∑ j ∈ window M, ((at0 re i j : ℂ) + Complex.I * (at0 im i j : ℂ))) / (M : ℂ) ^ 2) ∧
      (∃ st : Arr2 ℂ, (∀ k l t, Reaches N N k l → IsDesign mat lam c d k l t → st.centered k l = some (t / t0)) ∧
        rotateShiftDownsample S R (st.map fun z => (z - 1).re) c.rotDeg ((M : ℝ) / E * outputPpl lam scale c d / designPpl d)
          (xo * ((M : ℝ) / E)) (yo * ((M : ℝ) / E)) d.padFac false = .ok re ∧
        rotateShiftDownsample S R (st.map fun z => (z - 1).im) c.rotDeg ((M : ℝ) / E * outputPpl lam scale c d / designPpl d)
          (xo * ((M : ℝ) / E)) (yo * ((M : ℝ) / E)) d.padFac false = .ok im) := by
  obtain ⟨M, E, T, st, re, im, hT, q1, q2, q3, hE, hM, hE0, hM0, hre, him, o1, o2, o3⟩ := C85_answer h hN ht0 hne
  refine ⟨M, E, re, im, hE, hM, fun hs0 hs1 => ?_, st, fun k l t hr ht => ?_, hre, him⟩
  · rw [← bandSample_mean _ M E hM0 hE0]
    congr 1
    refine Finset.sum_congr rfl fun k hk => Finset.sum_congr rfl fun l hl => ?_
    have hr : Reaches E E k l := reaches_window.mpr ⟨hk, hl⟩
    have hs : Reaches s0 s1 k l := by unfold Reaches at hr ⊢; omega
    unfold atC
    rw [o3 k l hs, if_pos hr, Option.getD_some]
    ring
  · rw [q3 k l hr, isDesign_unique (hT k l hr) ht]

/-- **C85.** When the design sampling is an exact multiple `M / E` of the output sampling, there is no rotation and the offsets are whole
design pixels, the output inside the window is the Fourier resampling of the shifted design itself. -/
theorem C85_exact (h : genHlcOcculter S R mat lam scale s0 s1 c d xo yo = .ok o) {N : ℕ}
    (hN : IsLeast {n : ℤ | n % 2 = 1 ∧ ((max d.pmgi.nr d.pmgi.nc : ℕ) : ℝ) ≤ n} N) {t0 : ℂ}
    (ht0 : IsDesign mat lam c d (-((N : ℤ) / 2)) (-((N : ℤ) / 2)) t0) (hne : t0 ≠ 0) (hrot : c.rotDeg = 0) {M E : ℕ}
    (hE : (E : ℤ) = ⌈2 * d.rOcc * outputPpl lam scale c d * d.oversize⌉) (hM : (M : ℝ) = designPpl d / outputPpl lam scale c d * E)
    {X Y : ℤ} (hX : xo * ((M : ℝ) / E) = X) (hY : yo * ((M : ℝ) / E) = Y) (hpad : (N : ℝ) + 1 ≤ d.padFac * N) :
    ∃ D : ℤ → ℤ → ℂ, (∀ k l t, Reaches N N k l → IsDesign mat lam c d k l t → D k l = t / t0 - 1) ∧ (∀ k l, ¬ Reaches N N k l → D k l = 0) ∧
      ∀ k l, Reaches s0 s1 k l → Reaches E E k l → o.centered k l = some (1 + bandSample (fun p q => D (p - Y) (q - X)) M E k l) := by
  obtain ⟨M', E', T, st, re, im, hT, q1, q2, q3, hE', hM', hE0, hM0, hre, him, o1, o2, o3⟩ := C85_answer h hN ht0 hne
  obtain rfl : E' = E := by
    have : (E' : ℤ) = E := by rw [hE', hE]
    exact_mod_cast this
  obtain rfl : M' = M := by
    have : (M' : ℤ) = M := by
      rw [hM', ← hM]
      simp
    exact_mod_cast this
  have hER : (0 : ℝ) < E' := by exact_mod_cast hE0
  have hMR : (0 : ℝ) < M' := by exact_mod_cast hM0
  have hmag : (M' : ℝ) / E' * outputPpl lam scale c d / designPpl d = 1 / (1 : ℕ) := by
    have h1 : designPpl d / outputPpl lam scale c d ≠ 0 := by
      intro h0
      rw [h0, zero_mul] at hM
      linarith
    have h2 : designPpl d ≠ 0 := fun h0 => h1 (by rw [h0, zero_div])
    have h3 : outputPpl lam scale c d ≠ 0 := fun h0 => h1 (by rw [h0, div_zero])
    rw [hM]
    push_cast
    field_simp
  rw [hX, hY, hmag, hrot] at hre him
  have hN1 : (N : ℤ) % 2 = 1 := hN.1.1
  have whole : ∀ (f : ℂ → ℝ) (b : Arr2 ℝ), rotateShiftDownsample S R (st.map f) 0 (1 / (1 : ℕ)) X Y d.padFac false = .ok b →
      ∀ u v, at0 b u v = maskAt (st.map f) false (u - Y) (v - X) := by
    intro f b hb u v
    have := C60_downsample_whole S R (st.map f) 1 one_pos X Y d.padFac false ((N : ℤ) / 2) (by omega) (by
      intro x y hxy
      unfold maskAt
      simp only [Bool.false_eq_true, if_false]
      unfold Arr2.centered
      rw [Arr2.px_of_not_inB _ (by
        simp only [Arr2.map_nr, Arr2.map_nc, q1, q2]
        rcases hxy with hxy | hxy
        · rcases abs_cases x with ⟨e, _⟩ | ⟨e, _⟩ <;> omega
        · rcases abs_cases y with ⟨e, _⟩ | ⟨e, _⟩ <;> omega)]
      rfl) (by
      simp only [Arr2.map_nr, Arr2.map_nc, q1, q2, max_self]
      have : ((2 * ((N : ℤ) / 2) + 2 * ((1 : ℕ) : ℤ) : ℤ)) = (N : ℤ) + 1 := by push_cast; omega
      rw [this]
      push_cast
      exact hpad) b hb u v
    rw [this]
    simp only [Nat.cast_one, one_mul]
    exact discMean_one _ _ _
  have hmask : ∀ (f : ℂ → ℝ), f 1 = 0 → ∀ u v : ℤ, maskAt (st.map f) false u v = if Reaches N N u v then f (T u v / t0) else 0 := by
    intro f _ u v
    unfold maskAt
    simp only [Bool.false_eq_true, if_false]
    have hmc : (st.map f).centered u v = (st.centered u v).map f := by
      unfold Arr2.centered
      rw [Arr2.px_map]
      rfl
    rw [hmc]
    split
    · next hr => rw [q3 u v hr]; rfl
    · next hr =>
      have : st.centered u v = none := by
        unfold Arr2.centered
        exact Arr2.px_of_not_inB _ (by rw [q1, q2]; exact hr)
      rw [this]
      rfl
  refine ⟨fun k l => if Reaches N N k l then T k l / t0 - 1 else 0, ?_, ?_, ?_⟩
  · intro k l t hr ht
    simp only [if_pos hr]
    rw [isDesign_unique (hT k l hr) ht]
  · intro k l hr
    simp only [if_neg hr]
  · intro k l hs hr
    rw [o3 k l hs, if_pos hr]
    congr 2
    apply bandSample_congr
    intro i _ j _
    rw [whole _ re hre, whole _ im him, hmask _ (by simp), hmask _ (by simp)]
    split
    · next hr' =>
      simp only [if_pos hr']
      rw [mul_comm]
      exact Complex.re_add_im _
    · next hr' =>
      simp only [if_neg hr']
      simp

/-- **C85.** `scaleWithWavelength` does nothing but multiply the output sampling by `lam0 / lam`; at the design wavelength it does
nothing. -/
theorem C85_wavelength (hl : 0 < lam) (h0 : 0 < d.lam0) :
    genHlcOcculter S R mat lam true s0 s1 c d xo yo = genHlcOcculter S R mat lam false s0 s1 { c with ppl := d.lam0 / lam * c.ppl } d xo yo ∧
    (lam = d.lam0 → genHlcOcculter S R mat lam true s0 s1 c d xo yo = genHlcOcculter S R mat lam false s0 s1 c d xo yo) := by
  have hq : 0 < d.lam0 / lam := div_pos h0 hl
  have hiff : d.lam0 / lam * c.ppl ≤ 0 ↔ c.ppl ≤ 0 := by
    constructor
    · intro h; by_contra hc; push Not at hc; have := mul_pos hq hc; linarith
    · intro h; exact mul_nonpos_of_nonneg_of_nonpos hq.le h
  have key : genHlcOcculter S R mat lam true s0 s1 c d xo yo = genHlcOcculter S R mat lam false s0 s1 { c with ppl := d.lam0 / lam * c.ppl } d xo yo := by
    unfold genHlcOcculter
    simp only [hiff, Bool.false_eq_true, if_false, if_true]
    rfl
  refine ⟨key, fun he => ?_⟩
  rw [key, he, div_self h0.ne', one_mul]

/-! ### Refusals -/

/-- **C85.** Arguments out of their documented range raise `TypeError`; an occulter radius of zero, which is not checked, raises
`ZeroDivisionError`. -/
theorem C85_rejects (hm : MaterialsOK (mat lam)) :
    (lam ≤ 0 ∨ s0 ≤ 0 ∨ s1 ≤ 0 ∨ c.ppl ≤ 0 ∨ d.lam0 ≤ 0 ∨ d.hTi ≤ 0 ∨ d.hNi ≤ 0 ∨ d.dx ≤ 0 ∨ d.fn ≤ 0 ∨
        (d.pol ≠ 0 ∧ d.pol ≠ 1 ∧ d.pol ≠ 2) ∨ d.hRefCoef ≤ 0 ∨ c.aoi < 0 ∨ 90 ≤ c.aoi ∨ d.padFac < 1 ∨ d.oversize < 2 →
      genHlcOcculter S R mat lam scale s0 s1 c d xo yo = .error .typeError) ∧
    (HlcArgs lam scale s0 s1 c { d with rOcc := 1 } → d.rOcc = 0 →
      genHlcOcculter S R mat lam scale s0 s1 c d xo yo = .error .zeroDivisionError) := by
  constructor
  · intro h
    unfold genHlcOcculter
    by_cases h1 : lam ≤ 0 ∨ s0 ≤ 0 ∨ s1 ≤ 0
    · rw [if_pos h1]
    · rw [if_neg h1, if_pos (by tauto)]
  · intro h h0
    obtain ⟨st, hst⟩ := occStart_ok (d := d) mat hm h.lamPos h.aoi (mul_pos h.hRef h.lam0) h.pol
    unfold genHlcOcculter
    rw [if_neg (by push Not; exact ⟨h.lamPos, h.shape.1, h.shape.2⟩), if_neg (by
      push Not
      exact ⟨h.ppl, h.lam0, h.metals.1, h.metals.2, h.scaleDesign.1, h.scaleDesign.2, by have := h.pol; tauto, h.hRef, h.aoi.1, h.aoi.2, h.pad, h.oversize⟩),
      hst, res_ok_bind]
    simp only
    rw [if_pos (by rw [h0]; simp)]

/-! ### The hypotheses are met -/

/-- Indices like those of fused silica, PMGI, titanium and nickel. -/
noncomputable def sampleMat : ℝ → Materials := fun _ => ⟨3 / 2, 8 / 5, 2, 3, 2, 4⟩

noncomputable def sampleCal : HlcCal := ⟨2, 0, 5⟩

/-- A square of PMGI, three pixels out of five, 0.5 micrometres thick, at a wavelength of 0.5 micrometres and 4 pixels per wavelength. -/
noncomputable def sampleDesign : HlcDesign :=
  ⟨1, 1 / 2, 3 / 1000, 1 / 10, 1, 8, 2, 4, 2, 2, ⟨5, 5, fun i j => if 1 ≤ (i : ℕ) ∧ (i : ℕ) ≤ 3 ∧ 1 ≤ (j : ℕ) ∧ (j : ℕ) ≤ 3 then 1 / 2 else 0⟩⟩

theorem sampleMat_ok : MaterialsOK (sampleMat (1 / 2)) := ⟨by norm_num [sampleMat], by norm_num [sampleMat], by norm_num [sampleMat], by norm_num [sampleMat]⟩

theorem sample_side : IsLeast {n : ℤ | n % 2 = 1 ∧ ((max sampleDesign.pmgi.nr sampleDesign.pmgi.nc : ℕ) : ℝ) ≤ n} ((5 : ℕ) : ℤ) := by
  have : max sampleDesign.pmgi.nr sampleDesign.pmgi.nc = 5 := rfl
  rw [this]
  refine ⟨⟨by norm_num, by norm_num⟩, fun m hm => ?_⟩
  have := hm.2
  exact_mod_cast this

theorem sample_ppl : outputPpl (1 / 2) true sampleCal sampleDesign = 2 ∧ designPpl sampleDesign = 4 := by
  constructor <;> norm_num [outputPpl, designPpl, sampleCal, sampleDesign]

theorem sample_hlc : HlcArgs (1 / 2) true 16 16 sampleCal sampleDesign := by
  refine ⟨by norm_num, by norm_num, by norm_num [sampleCal], by norm_num [sampleDesign], by norm_num [sampleDesign], by norm_num [sampleDesign],
    Or.inr (Or.inr rfl), by norm_num [sampleDesign], by norm_num [sampleCal], by norm_num [sampleDesign], by norm_num [sampleDesign],
    by norm_num [sampleDesign], ?_, ?_⟩
  · rw [sample_ppl.1, sample_ppl.2]
    have : (2 * sampleDesign.rOcc * 2 * sampleDesign.oversize : ℝ) = ((8 : ℤ) : ℝ) := by norm_num [sampleDesign]
    rw [this, Int.ceil_intCast]
    norm_num
  · intro N hN
    rw [hN.unique sample_side]
    norm_num [sampleDesign]

/-- The hypotheses of `C85_exact` hold for a design sampled twice as finely as the output and moved by three pixels. -/
example (S : ClampSpline) (R : Rotate) : ∃ (o : Arr2 ℂ) (t0 : ℂ) (D : ℤ → ℤ → ℂ),
    genHlcOcculter S R sampleMat (1 / 2) true 16 16 sampleCal sampleDesign (3 / 2) 0 = .ok o ∧ t0 ≠ 0 ∧
    (∀ k l t, Reaches (5 : ℕ) (5 : ℕ) k l → IsDesign sampleMat (1 / 2) sampleCal sampleDesign k l t → D k l = t / t0 - 1) ∧
    (∀ k l, Reaches (16 : ℤ) (16 : ℤ) k l → Reaches (8 : ℕ) (8 : ℕ) k l →
      o.centered k l = some (1 + bandSample (fun p q => D (p - 0) (q - 3)) 16 8 k l)) ∧
    (∀ k l, Reaches (16 : ℤ) (16 : ℤ) k l → ¬ Reaches (8 : ℕ) (8 : ℕ) k l → o.centered k l = some 1) := by
  obtain ⟨o, ho⟩ := (C85_accepts (S := S) (R := R) (xo := 3 / 2) (yo := 0) sampleMat_ok).mpr sample_hlc
  obtain ⟨t0, ht, hne⟩ := C85_bare_nonzero (c := sampleCal) (d := sampleDesign) sampleMat_ok (by norm_num) sample_hlc.aoi (mul_pos sample_hlc.hRef sample_hlc.lam0) sample_hlc.pol
  have h8 : ((8 : ℕ) : ℤ) = ⌈2 * sampleDesign.rOcc * outputPpl (1 / 2) true sampleCal sampleDesign * sampleDesign.oversize⌉ := by
    rw [sample_ppl.1]
    have : (2 * sampleDesign.rOcc * 2 * sampleDesign.oversize : ℝ) = ((8 : ℤ) : ℝ) := by norm_num [sampleDesign]
    rw [this, Int.ceil_intCast]
    rfl
  have hcorner : IsDesign sampleMat (1 / 2) sampleCal sampleDesign (-(((5 : ℕ) : ℤ) / 2)) (-(((5 : ℕ) : ℤ) / 2)) t0 := by
    have hv : pmgiAt sampleDesign (-(((5 : ℕ) : ℤ) / 2)) (-(((5 : ℕ) : ℤ) / 2)) = 0 := by
      unfold pmgiAt at0 Arr2.centered
      rw [Arr2.px_of_inB _ (by decide)]
      show (if 1 ≤ 0 ∧ 0 ≤ 3 ∧ 1 ≤ 0 ∧ 0 ≤ 3 then (1 / 2 : ℝ) else 0) = 0
      norm_num
    exact ⟨fun h => by rw [hv] at h; exact absurd h (lt_irrefl _), fun _ => ht⟩
  obtain ⟨D, d1, d2, d3⟩ := C85_exact ho sample_side hcorner hne rfl h8 (M := 16) (by rw [sample_ppl.1, sample_ppl.2]; norm_num) (X := 3) (Y := 0)
    (by norm_num) (by norm_num) (by norm_num [sampleDesign])
  refine ⟨o, t0, D, ho, hne, d1, d3, fun k l hs hn => ?_⟩
  obtain ⟨M, E, T, st, re, im, hT, q1, q2, q3, hE, hM, hE0, hM0, hre, him, o1, o2, o3⟩ := C85_answer ho sample_side hcorner hne
  obtain rfl : E = 8 := by
    have : (E : ℤ) = (8 : ℕ) := by rw [hE, h8]
    exact_mod_cast this
  rw [o3 k l hs, if_neg hn, add_zero]

end Coralign.Props
