import Verif.Lemmas.ThinFilm
import Verif.Spec.ThinFilm
import Mathlib.LinearAlgebra.Matrix.Determinant.Basic

/-!
# Properties C34, C35 and C69 to C72: the thin-film solver
-/

namespace Coralign.Props

open Coralign Coralign.Spec Matrix

/-! ### Wavenumbers of a medium -/

/-- The medium is not at exactly grazing refraction. -/
def NotGrazing (n0 theta : ℝ) (n : ℂ) : Prop := n * n ≠ ((n0 * Real.sin theta : ℝ) : ℂ) * ((n0 * Real.sin theta : ℝ) : ℂ)

/-- The transverse wavenumber, `2 pi n0 sin theta / lam`. -/
noncomputable def kxOf (n0 theta lam : ℝ) : ℝ := 2 * Real.pi * n0 * Real.sin theta / lam

theorem tfKx_real (n0 theta lam : ℝ) : tfKx (n0 : ℂ) theta lam = ((kxOf n0 theta lam : ℝ) : ℂ) := by
  simp [tfKx, kxOf]

/-- `w = -kz`, the root taken by the code. -/
noncomputable def rootW (kx lam : ℝ) (n : ℂ) : ℂ := csqrt ((2 * Real.pi * n / lam) ^ 2 - (kx : ℂ) * kx)

theorem tfKz_eq (kx lam : ℝ) (n : ℂ) : tfKz (kx : ℂ) lam n = -rootW kx lam n := rfl

theorem tfKzz_eq (kx lam : ℝ) (tm : Bool) (n : ℂ) :
    tfKzz (kx : ℂ) lam tm n = if tm then -(rootW kx lam n / (n * n)) else -rootW kx lam n := by
  cases tm <;> simp [tfKzz, tfKz_eq, neg_div]

theorem rootW_sq (kx lam : ℝ) (n : ℂ) : rootW kx lam n * rootW kx lam n = (2 * Real.pi * n / lam) ^ 2 - (kx : ℂ) * kx :=
  csqrt_sq _

theorem rootW_re_im (kx lam : ℝ) (n : ℂ) :
    (rootW kx lam n).re ^ 2 - (rootW kx lam n).im ^ 2 + kx ^ 2 = (2 * Real.pi / lam) ^ 2 * (n * n).re ∧
    2 * (rootW kx lam n).re * (rootW kx lam n).im = (2 * Real.pi / lam) ^ 2 * (n * n).im := by
  have h := rootW_sq kx lam n
  have e : (2 * Real.pi * n / lam) ^ 2 = (((2 * Real.pi / lam) ^ 2 : ℝ) : ℂ) * (n * n) := by push_cast; ring
  rw [e] at h
  have h1 := congrArg Complex.re h
  have h2 := congrArg Complex.im h
  rw [← Complex.ofReal_mul] at h1 h2
  rw [Complex.sub_re, Complex.re_ofReal_mul, Complex.ofReal_re, Complex.mul_re] at h1
  rw [Complex.sub_im, Complex.im_ofReal_mul, Complex.ofReal_im, Complex.mul_im] at h2
  constructor
  · linarith
  · linarith

theorem rootW_ne (n0 theta lam : ℝ) (hl : 0 < lam) (n : ℂ) (h : NotGrazing n0 theta n) :
    rootW (kxOf n0 theta lam) lam n ≠ 0 := by
  intro h0
  have := rootW_sq (kxOf n0 theta lam) lam n
  rw [h0, mul_zero] at this
  apply h
  have hc : ((2 * Real.pi / lam : ℝ) : ℂ) ≠ 0 := by
    rw [Complex.ofReal_ne_zero]; exact (div_pos (by positivity) hl).ne'
  have e : ((2 * Real.pi / lam : ℝ) : ℂ) ^ 2 * (n * n - ((n0 * Real.sin theta : ℝ) : ℂ) * ((n0 * Real.sin theta : ℝ) : ℂ)) = 0 := by
    rw [this]; simp only [kxOf]; push_cast; ring
  exact sub_eq_zero.1 ((mul_eq_zero.1 e).resolve_left (pow_ne_zero _ hc))

/-- What the proofs use about a passive medium: the root `w = p + i s` and `k = w` or `w/n^2`. -/
structure MediumFacts (w k : ℂ) : Prop where
  good : 0 < k.re ∨ (k.re = 0 ∧ 0 < k.im)
  damp : (0 < w.re ∧ w.im ≤ 0 ∧ 0 ≤ k.re ∧ |k.im| * w.re ≤ k.re * -w.im) ∨ (w.re = 0 ∧ k.re = 0)

theorem MediumFacts.re_nonneg {w k : ℂ} (h : MediumFacts w k) : 0 ≤ k.re := by
  rcases h.good with h | h
  · exact h.le
  · exact h.1.ge

theorem medium (n0 theta lam : ℝ) (hl : 0 < lam) (tm : Bool) (n : ℂ) (hn : Passive n) (h : NotGrazing n0 theta n) :
    MediumFacts (rootW (kxOf n0 theta lam) lam n)
      (if tm then rootW (kxOf n0 theta lam) lam n / (n * n) else rootW (kxOf n0 theta lam) lam n) := by
  set kx := kxOf n0 theta lam
  obtain ⟨h1, h2⟩ := rootW_re_im kx lam n
  have hw0 := rootW_ne n0 theta lam hl n h
  have hg : 0 < (rootW kx lam n).re ∨ ((rootW kx lam n).re = 0 ∧ 0 < (rootW kx lam n).im) := by
    apply csqrt_good
    intro hz
    exact hw0 (by rw [← mul_self_eq_zero, rootW_sq]; exact hz)
  generalize rootW kx lam n = w at h1 h2 hw0 hg ⊢
  have hc : 0 < (2 * Real.pi / lam) ^ 2 := pow_pos (div_pos (by positivity) hl) 2
  generalize (2 * Real.pi / lam) ^ 2 = c at h1 h2 hc
  obtain ⟨hn1, hn2⟩ := hn
  have hNim : (n * n).im = 2 * n.re * n.im := by rw [Complex.mul_im]; ring
  have hNre : (n * n).re = n.re ^ 2 - n.im ^ 2 := by rw [Complex.mul_re]; ring
  have hNle : (n * n).im ≤ 0 := by rw [hNim]; nlinarith
  have hn0 : n * n ≠ 0 := by
    rw [Ne, mul_self_eq_zero]; rintro rfl; simp at hn1
  have hs : 0 < w.re → w.im ≤ 0 := by
    intro hp
    by_contra hlt
    have : 0 < 2 * w.re * w.im := by push Not at hlt; positivity
    rw [h2] at this
    nlinarith
  cases tm with
  | false =>
    refine ⟨by simpa using hg, ?_⟩
    simp only [Bool.false_eq_true, if_false]
    rcases hg with hg | hg
    · left
      refine ⟨hg, hs hg, hg.le, ?_⟩
      rw [abs_of_nonpos (hs hg)]; linarith
    · right; exact ⟨hg.1, hg.1⟩
  | true =>
    simp only [if_true]
    have hns : 0 < Complex.normSq (n * n) := Complex.normSq_pos.2 hn0
    have hkre : (w / (n * n)).re * (c * Complex.normSq (n * n)) = w.re * (w.re ^ 2 + w.im ^ 2 + kx ^ 2) := by
      clear hNim hNre hNle hn0
      generalize n * n = N at h1 h2 hns ⊢
      rw [Complex.div_re]
      field_simp
      linear_combination (-w.re) * h1 - w.im * h2
    have hkim : (w / (n * n)).im * (c * Complex.normSq (n * n)) = w.im * (kx ^ 2 - (w.re ^ 2 + w.im ^ 2)) := by
      clear hNim hNre hNle hn0 hkre
      generalize n * n = N at h1 h2 hns ⊢
      rw [Complex.div_im]
      field_simp
      linear_combination (-w.im) * h1 + w.re * h2
    have hcn : 0 < c * Complex.normSq (n * n) := mul_pos hc hns
    generalize hk : w / (n * n) = k at hkre hkim
    generalize c * Complex.normSq (n * n) = m at hkre hkim hcn
    rcases hg with hg | hg
    · have hkp : 0 < k.re := by
        have : 0 < k.re * m := by rw [hkre]; positivity
        exact pos_of_mul_pos_left this hcn.le
      refine ⟨Or.inl hkp, Or.inl ⟨hg, hs hg, hkp.le, ?_⟩⟩
      have hab : |k.im| * m = -w.im * |kx ^ 2 - (w.re ^ 2 + w.im ^ 2)| := by
        rw [← abs_of_nonpos (hs hg), ← abs_mul, ← hkim, abs_mul, abs_of_pos hcn]
      refine le_of_mul_le_mul_right ?_ hcn
      calc |k.im| * w.re * m = w.re * (-w.im) * |kx ^ 2 - (w.re ^ 2 + w.im ^ 2)| := by
            linear_combination w.re * hab
        _ ≤ w.re * (-w.im) * (kx ^ 2 + (w.re ^ 2 + w.im ^ 2)) := by
            apply mul_le_mul_of_nonneg_left _ (mul_nonneg hg.le (by linarith [hs hg]))
            rw [abs_le]
            constructor <;> nlinarith [sq_nonneg kx, sq_nonneg w.re, sq_nonneg w.im]
        _ = k.re * -w.im * m := by linear_combination w.im * hkre
    · have hkr : k.re = 0 := by
        have : k.re * m = 0 := by rw [hkre, hg.1, zero_mul]
        exact (mul_eq_zero.1 this).resolve_right hcn.ne'
      have hNi : (n * n).im = 0 := by
        have : c * (n * n).im = 0 := by rw [← h2, hg.1]; ring
        exact (mul_eq_zero.1 this).resolve_left hc.ne'
      have hni : n.im = 0 := by
        rw [hNim] at hNi
        exact (mul_eq_zero.1 hNi).resolve_left (by positivity)
      have hNr : 0 < (n * n).re := by rw [hNre, hni]; nlinarith [pow_pos hn1 2]
      refine ⟨Or.inr ⟨hkr, ?_⟩, Or.inr ⟨hg.1, hkr⟩⟩
      rw [← hk, Complex.div_im, hg.1]
      have := div_pos (mul_pos hg.2 hNr) hns
      simpa using this

theorem kzz_facts (n0 theta lam : ℝ) (hl : 0 < lam) (tm : Bool) (n : ℂ) (hn : Passive n) (h : NotGrazing n0 theta n) :
    ∃ w k : ℂ, MediumFacts w k ∧ tfKz (kxOf n0 theta lam : ℝ) lam n = -w ∧ tfKzz (kxOf n0 theta lam : ℝ) lam tm n = -k := by
  refine ⟨_, _, medium n0 theta lam hl tm n hn h, rfl, ?_⟩
  rw [tfKzz_eq]; cases tm <;> simp

theorem goodK (n0 theta lam : ℝ) (hl : 0 < lam) (tm : Bool) (n : ℂ) (hn : Passive n) (h : NotGrazing n0 theta n) :
    GoodK (tfKzz (kxOf n0 theta lam : ℝ) lam tm n) := by
  obtain ⟨w, k, hm, -, hk⟩ := kzz_facts n0 theta lam hl tm n hn h
  rw [hk]
  rcases hm.good with h | h
  · left; simpa using h
  · right; simpa using h

/-! ### Energy flux -/

/-- Normal energy flux of tangential fields, up to a constant. -/
noncomputable def flux (E H : ℂ) : ℝ := ((starRingEnd ℂ) E * H).re

theorem flux_ab (k a b : ℂ) :
    flux (a + b) (k * (a - b)) = k.re * (Complex.normSq a - Complex.normSq b) - 2 * k.im * ((starRingEnd ℂ) b * a).im := by
  simp only [flux, Complex.normSq_apply, Complex.mul_re, Complex.mul_im, Complex.add_re, Complex.add_im, Complex.sub_re,
    Complex.sub_im, Complex.conj_re, Complex.conj_im]
  ring

theorem layer_split (k p E H : ℂ) (hk : k ≠ 0) :
    ∃ a b : ℂ, E = a + b ∧ H = k * (a - b) ∧
      (layerMat k p).mulVec ![E, H] = ![a * Complex.exp (-Complex.I * p) + b * Complex.exp (Complex.I * p),
        k * (a * Complex.exp (-Complex.I * p) - b * Complex.exp (Complex.I * p))] := by
  refine ⟨(E + H / k) / 2, (E - H / k) / 2, by ring, by field_simp; ring, ?_⟩
  rw [exp_negI, exp_posI]
  ext i
  fin_cases i <;> simp [layerMat, Matrix.mulVec, dotProduct, Fin.sum_univ_two] <;> field_simp <;> ring

theorem normSq_exp (a p : ℂ) :
    Complex.normSq (a * Complex.exp (-Complex.I * p)) = Complex.normSq a * (Real.exp p.im * Real.exp p.im) ∧
    Complex.normSq (a * Complex.exp (Complex.I * p)) = Complex.normSq a * (Real.exp (-p.im) * Real.exp (-p.im)) := by
  constructor <;> rw [Complex.normSq_mul, Complex.normSq_eq_norm_sq (Complex.exp _), Complex.norm_exp, pow_two] <;> simp

theorem cross_exp (a b p : ℂ) :
    (starRingEnd ℂ) (b * Complex.exp (Complex.I * p)) * (a * Complex.exp (-Complex.I * p)) =
      (starRingEnd ℂ) b * a * Complex.exp (Complex.I * ((-(2 * p.re) : ℝ) : ℂ)) := by
  rw [map_mul, ← Complex.exp_conj, map_mul, Complex.conj_I]
  have : Complex.exp (Complex.I * ((-(2 * p.re) : ℝ) : ℂ)) =
      Complex.exp (-Complex.I * (starRingEnd ℂ) p) * Complex.exp (-Complex.I * p) := by
    rw [← Complex.exp_add]
    congr 1
    rw [← mul_add, add_comm, Complex.add_conj]
    push_cast; ring
  rw [this]; ring

theorem flux_layer_eq (k p E H : ℂ) (hk : k ≠ 0) (h : (p.im = 0 ∧ k.im = 0) ∨ (p.re = 0 ∧ k.re = 0)) :
    flux ((layerMat k p).mulVec ![E, H] 0) ((layerMat k p).mulVec ![E, H] 1) = flux E H := by
  obtain ⟨a, b, rfl, rfl, hm⟩ := layer_split k p E H hk
  rw [hm]
  simp only [Matrix.cons_val_zero, Matrix.cons_val_one, Matrix.cons_val_fin_one]
  rw [flux_ab, flux_ab, (normSq_exp a p).1, (normSq_exp b p).2, cross_exp]
  rcases h with ⟨h1, h2⟩ | ⟨h1, h2⟩
  · rw [h1, h2]; simp
  · rw [h1, h2]; simp

theorem flux_layer_le (w k E H : ℂ) (d : ℝ) (hd : 0 ≤ d) (hm : MediumFacts w k) :
    flux ((layerMat (-k) (-w * d)).mulVec ![E, H] 0) ((layerMat (-k) (-w * d)).mulVec ![E, H] 1) ≤ flux E H := by
  have hk : -k ≠ 0 := by
    rw [neg_ne_zero]; rintro rfl
    rcases hm.good with h | h <;> simp at h
  rcases hm.damp with ⟨hp, hs, hP, hQ⟩ | ⟨h1, h2⟩
  · obtain ⟨a, b, rfl, rfl, hm⟩ := layer_split (-k) (-w * d) E H hk
    rw [hm]
    simp only [Matrix.cons_val_zero, Matrix.cons_val_one, Matrix.cons_val_fin_one]
    rw [flux_ab, flux_ab, (normSq_exp a _).1, (normSq_exp b _).2, cross_exp]
    have him : (-w * (d : ℂ)).im = -w.im * d := by simp [Complex.mul_im]
    have hre : (-w * (d : ℂ)).re = -w.re * d := by simp [Complex.mul_re]
    rw [him, hre, Complex.normSq_eq_norm_sq, Complex.normSq_eq_norm_sq]
    have hz : ‖(starRingEnd ℂ) b * a‖ = ‖a‖ * ‖b‖ := by rw [norm_mul, Complex.norm_conj, mul_comm]
    generalize (starRingEnd ℂ) b * a = z at hz
    have hA := norm_nonneg a
    have hB := norm_nonneg b
    generalize ‖a‖ = A at *
    generalize ‖b‖ = B at *
    set y := -w.im * d with hy
    have hy0 : 0 ≤ y := mul_nonneg (by linarith) hd
    have hAB : 0 ≤ A * B := mul_nonneg hA hB
    -- the oscillating term
    have ho : |(z * Complex.exp (Complex.I * ((-(2 * (-w.re * d)) : ℝ) : ℂ))).im - z.im| ≤ A * B * (2 * w.re * d) := by
      rw [← Complex.sub_im]
      refine (Complex.abs_im_le_norm _).trans ?_
      rw [show ∀ u : ℂ, z * u - z = z * (u - 1) from fun u => by ring, norm_mul, hz]
      refine mul_le_mul_of_nonneg_left ?_ hAB
      refine (Real.norm_exp_I_mul_ofReal_sub_one_le).trans ?_
      rw [Real.norm_eq_abs, abs_of_nonneg (by nlinarith)]
      linarith
    -- the growing term
    have he : A * B * (4 * y) ≤ A ^ 2 * (Real.exp y * Real.exp y - 1) + B ^ 2 * (1 - Real.exp (-y) * Real.exp (-y)) := by
      have hsh := Real.self_le_sinh_iff.2 hy0
      rw [Real.sinh_eq] at hsh
      have e1 : Real.exp y * Real.exp (-y) = 1 := by rw [← Real.exp_add]; simp
      have hf : Real.exp (y / 2) * Real.exp (y / 2) = Real.exp y := by rw [← Real.exp_add]; congr 1; ring
      have hg : Real.exp (-(y / 2)) * Real.exp (-(y / 2)) = Real.exp (-y) := by rw [← Real.exp_add]; congr 1; ring
      have hfg : Real.exp (y / 2) * Real.exp (-(y / 2)) = 1 := by rw [← Real.exp_add]; simp
      have h2 : 2 * (A * B) ≤ A ^ 2 * Real.exp y + B ^ 2 * Real.exp (-y) := by
        have := sq_nonneg (A * Real.exp (y / 2) - B * Real.exp (-(y / 2)))
        rw [← hf, ← hg]
        nlinarith
      have h3 : 0 ≤ Real.exp y - Real.exp (-y) := by linarith
      calc A * B * (4 * y) ≤ (Real.exp y - Real.exp (-y)) * (2 * (A * B)) := by nlinarith
        _ ≤ (Real.exp y - Real.exp (-y)) * (A ^ 2 * Real.exp y + B ^ 2 * Real.exp (-y)) := mul_le_mul_of_nonneg_left h2 h3
        _ = _ := by linear_combination (B ^ 2 - A ^ 2) * e1
    simp only [Complex.neg_re, Complex.neg_im]
    set o := (z * Complex.exp (Complex.I * ((-(2 * (-w.re * d)) : ℝ) : ℂ))).im
    have h5 : k.im * (o - z.im) ≤ A * B * (2 * (k.re * -w.im) * d) := by
      calc k.im * (o - z.im) ≤ |k.im * (o - z.im)| := le_abs_self _
        _ = |k.im| * |o - z.im| := abs_mul _ _
        _ ≤ |k.im| * (A * B * (2 * w.re * d)) := mul_le_mul_of_nonneg_left ho (abs_nonneg _)
        _ = (|k.im| * w.re) * (2 * (A * B) * d) := by ring
        _ ≤ (k.re * -w.im) * (2 * (A * B) * d) := mul_le_mul_of_nonneg_right hQ (by positivity)
        _ = _ := by ring
    have h6 := mul_le_mul_of_nonneg_left he hP
    rw [hy] at h6 ⊢
    nlinarith
  · refine (flux_layer_eq _ _ _ _ hk (Or.inr ⟨?_, ?_⟩)).le
    · simp [Complex.mul_re, h1]
    · simpa using h2

/-! ### The stack -/

/-- Arguments of a thin-film call: incident index `n0`, layers `(n, d)` from front to back, substrate `ns`. -/
structure FilmArgs (n0 : ℝ) (layers : List (ℂ × ℝ)) (ns : ℂ) (theta lam : ℝ) : Prop where
  n0_pos : 0 < n0
  theta_nonneg : 0 ≤ theta
  theta_lt : theta < Real.pi / 2
  lam_pos : 0 < lam
  layer : ∀ a ∈ layers, Passive a.1 ∧ NotGrazing n0 theta a.1
  sub : Passive ns ∧ NotGrazing n0 theta ns

/-- The call `solver(n, d0, theta, lam, tetm)` for such a stack. -/
noncomputable def film (n0 : ℂ) (layers : List (ℂ × ℝ)) (ns : ℂ) (theta lam : ℝ) (tm : Bool) : Res FilmOut :=
  solver (n0 :: (layers.map Prod.fst ++ [ns])) (layers.map Prod.snd) theta lam tm

section
variable {n0 : ℝ} {layers : List (ℂ × ℝ)} {ns : ℂ} {theta lam : ℝ}

theorem FilmArgs.cos_pos (h : FilmArgs n0 layers ns theta lam) : 0 < Real.cos theta :=
  Real.cos_pos_of_mem_Ioo ⟨by linarith [h.theta_nonneg, Real.pi_pos], h.theta_lt⟩

theorem FilmArgs.inc (h : FilmArgs n0 layers ns theta lam) : Passive (n0 : ℂ) ∧ NotGrazing n0 theta n0 := by
  refine ⟨⟨by simpa using h.n0_pos, by simp⟩, ?_⟩
  intro he
  have he' : n0 * n0 = n0 * Real.sin theta * (n0 * Real.sin theta) := by exact_mod_cast he
  have h1 : n0 * n0 * Real.cos theta ^ 2 = 0 := by
    have := Real.sin_sq_add_cos_sq theta
    linear_combination he' + n0 * n0 * this
  have := h.cos_pos
  have := h.n0_pos
  have : 0 < n0 * n0 * Real.cos theta ^ 2 := by positivity
  linarith

theorem csqrt_ofReal_sq (x : ℝ) (hx : 0 ≤ x) : csqrt ((x ^ 2 : ℝ) : ℂ) = x := by
  unfold csqrt
  have : ((2 : ℝ)⁻¹ : ℂ) = (((2 : ℝ)⁻¹ : ℝ) : ℂ) := by push_cast; rfl
  rw [show (2⁻¹ : ℂ) = (((2 : ℝ)⁻¹ : ℝ) : ℂ) by push_cast; rfl, ← Complex.ofReal_cpow (by positivity)]
  congr 1
  rw [← Real.rpow_natCast, ← Real.rpow_mul hx]; norm_num

/-- In the incident medium the normal wavenumber is `-2 pi n0 cos theta / lam`. -/
theorem FilmArgs.kz0 (h : FilmArgs n0 layers ns theta lam) :
    tfKz (kxOf n0 theta lam : ℝ) lam n0 = ((-(2 * Real.pi * n0 * Real.cos theta / lam) : ℝ) : ℂ) := by
  have h1 := h.cos_pos
  have h2 := h.n0_pos
  have h3 := h.lam_pos
  rw [tfKz_eq, rootW]
  have : (2 * Real.pi * (n0 : ℂ) / lam) ^ 2 - (kxOf n0 theta lam : ℂ) * (kxOf n0 theta lam : ℂ) =
      (((2 * Real.pi * n0 * Real.cos theta / lam) ^ 2 : ℝ) : ℂ) := by
    have e : (2 * Real.pi * n0 / lam) ^ 2 - kxOf n0 theta lam * kxOf n0 theta lam =
        (2 * Real.pi * n0 * Real.cos theta / lam) ^ 2 := by
      have := Real.sin_sq_add_cos_sq theta
      unfold kxOf
      linear_combination (-(2 * Real.pi * n0 / lam) ^ 2) * this
    rw [← e]; push_cast; ring
  rw [this, csqrt_ofReal_sq _ (by positivity)]
  push_cast; ring

/-- The admittance of the incident medium: negative real. -/
theorem FilmArgs.y0 (h : FilmArgs n0 layers ns theta lam) (tm : Bool) :
    ∃ y : ℝ, 0 < y ∧ tfKzz (kxOf n0 theta lam : ℝ) lam tm n0 = ((-y : ℝ) : ℂ) := by
  have h1 := h.cos_pos
  have h2 := h.n0_pos
  have h3 := h.lam_pos
  unfold tfKzz
  rw [h.kz0]
  cases tm with
  | false => exact ⟨2 * Real.pi * n0 * Real.cos theta / lam, by positivity, by simp⟩
  | true => exact ⟨2 * Real.pi * n0 * Real.cos theta / lam / (n0 * n0), by positivity, by simp; ring⟩

theorem FilmArgs.good (h : FilmArgs n0 layers ns theta lam) (tm : Bool) :
    ∀ b ∈ ((n0 : ℂ), (0 : ℝ)) :: layers ++ [(ns, (0 : ℝ))], GoodK (tfKzz (kxOf n0 theta lam : ℝ) lam tm b.1) := by
  intro b hb
  rw [List.cons_append, List.mem_cons, List.mem_append, List.mem_singleton] at hb
  rcases hb with rfl | hb | rfl
  · exact goodK _ _ _ h.lam_pos _ _ h.inc.1 h.inc.2
  · exact goodK _ _ _ h.lam_pos _ _ (h.layer b hb).1 (h.layer b hb).2
  · exact goodK _ _ _ h.lam_pos _ _ h.sub.1 h.sub.2

/-- The two matrix entries that determine the result, from the fields at the front of the stack. -/
theorem matrix_entries (h : FilmArgs n0 layers ns theta lam) (tm : Bool) (A : Matrix (Fin 2) (Fin 2) ℂ)
    (hA : A = tfMatrix ((n0 : ℂ) :: (layers.map Prod.fst ++ [ns])) (0 :: (layers.map Prod.snd ++ [0]))
      (kxOf n0 theta lam : ℝ) lam tm) :
    let M := stackMat (kxOf n0 theta lam : ℝ) lam tm layers
    let ks := tfKzz (kxOf n0 theta lam : ℝ) lam tm ns
    let k0 := tfKzz (kxOf n0 theta lam : ℝ) lam tm n0
    A 0 0 + A 1 0 = M 0 0 + M 0 1 * ks ∧ k0 * (A 0 0 - A 1 0) = M 1 0 + M 1 1 * ks := by
  intro M ks k0
  have e : A = tfRec (kxOf n0 theta lam : ℝ) lam tm (((n0 : ℂ), (0 : ℝ)) :: layers ++ [(ns, (0 : ℝ))]) := by
    rw [hA, ← tfMatrix_eq_rec]; simp
  have := field_rec _ _ tm _ _ _ (h.good tm)
  rw [← e, stackMat_cons] at this
  simp only [Complex.ofReal_zero, mul_zero, layerMat_zero, one_mul] at this
  have e0 := congrFun (congrFun this 0) 0
  have e1 := congrFun (congrFun this 1) 0
  simp only [Matrix.mul_apply, Fin.sum_univ_two, fieldMat, Matrix.of_apply, Matrix.cons_val', Matrix.cons_val_zero,
    Matrix.cons_val_one, Matrix.cons_val_fin_one, one_mul, mul_one] at e0 e1
  refine ⟨e0, ?_⟩
  linear_combination e1

theorem det_layerMat (k p : ℂ) (hk : k ≠ 0) : (layerMat k p).det = 1 := by
  rw [Matrix.det_fin_two]
  simp only [layerMat, Matrix.of_apply, Matrix.cons_val', Matrix.cons_val_zero, Matrix.cons_val_one, Matrix.cons_val_fin_one]
  have := Complex.sin_sq_add_cos_sq p
  have hI := Complex.I_mul_I
  field_simp
  linear_combination this - (Complex.sin p ^ 2) * hI

theorem FilmArgs.det (h : FilmArgs n0 layers ns theta lam) (tm : Bool) :
    (stackMat (kxOf n0 theta lam : ℝ) lam tm layers).det = 1 := by
  have hl : ∀ a ∈ layers, GoodK (tfKzz (kxOf n0 theta lam : ℝ) lam tm a.1) := fun a ha => h.good tm a (by simp [ha])
  clear h
  induction layers with
  | nil => simp [stackMat]
  | cons a l ih =>
    rw [stackMat_cons, Matrix.det_mul, det_layerMat _ _ (hl a (by simp)).ne, one_mul]
    exact ih fun b hb => hl b (by simp [hb])

/-- Energy flux through the stack. -/
theorem flux_stack_le (tm : Bool) (hlam : 0 < lam)
    (hl : ∀ a ∈ layers, Passive a.1 ∧ NotGrazing n0 theta a.1) (hd : ∀ a ∈ layers, 0 ≤ a.2) (E H : ℂ) :
    flux ((stackMat (kxOf n0 theta lam : ℝ) lam tm layers).mulVec ![E, H] 0)
      ((stackMat (kxOf n0 theta lam : ℝ) lam tm layers).mulVec ![E, H] 1) ≤ flux E H := by
  induction layers with
  | nil => simp [stackMat]
  | cons a l ih =>
    have ih' := ih (fun b hb => hl b (by simp [hb])) fun b hb => hd b (by simp [hb])
    refine le_trans ?_ ih'
    rw [stackMat_cons, ← Matrix.mulVec_mulVec]
    generalize (stackMat (kxOf n0 theta lam : ℝ) lam tm l).mulVec ![E, H] = v
    obtain ⟨w, k, hm, hz, hk⟩ := kzz_facts n0 theta lam hlam tm a.1 (hl a (by simp)).1 (hl a (by simp)).2
    have := flux_layer_le w k (v 0) (v 1) a.2 (hd a (by simp)) hm
    rw [hz, hk]
    have hv : ![v 0, v 1] = v := by ext i; fin_cases i <;> rfl
    rwa [hv] at this

theorem flux_stack_eq (tm : Bool) (hlam : 0 < lam)
    (hl : ∀ a ∈ layers, Lossless a.1 ∧ NotGrazing n0 theta a.1) (E H : ℂ) :
    flux ((stackMat (kxOf n0 theta lam : ℝ) lam tm layers).mulVec ![E, H] 0)
      ((stackMat (kxOf n0 theta lam : ℝ) lam tm layers).mulVec ![E, H] 1) = flux E H := by
  induction layers with
  | nil => simp [stackMat]
  | cons a l ih =>
    have ih' := ih (fun b hb => hl b (by simp [hb]))
    refine Eq.trans ?_ ih'
    rw [stackMat_cons, ← Matrix.mulVec_mulVec]
    generalize (stackMat (kxOf n0 theta lam : ℝ) lam tm l).mulVec ![E, H] = v
    obtain ⟨⟨hn1, hn2⟩, hg⟩ := hl a (by simp)
    have hgk := goodK n0 theta lam hlam tm a.1 ⟨hn1, hn2.le⟩ hg
    have hv : ![v 0, v 1] = v := by ext i; fin_cases i <;> rfl
    have := flux_layer_eq (tfKzz (kxOf n0 theta lam : ℝ) lam tm a.1) (tfKz (kxOf n0 theta lam : ℝ) lam a.1 * (a.2 : ℝ))
      (v 0) (v 1) hgk.ne ?_
    · rwa [hv] at this
    · have h2 := (rootW_re_im (kxOf n0 theta lam) lam a.1).2
      have hNi : (a.1 * a.1).im = 0 := by rw [Complex.mul_im, hn2]; ring
      rw [hNi, mul_zero] at h2
      have hN : a.1 * a.1 = (((a.1 * a.1).re : ℝ) : ℂ) := Complex.ext (by simp) (by simp [hNi])
      rw [tfKzz_eq, tfKz_eq]
      rcases mul_eq_zero.1 h2 with h3 | h3
      · right
        have h3 : (rootW (kxOf n0 theta lam) lam a.1).re = 0 := by linarith
        refine ⟨by simp [Complex.mul_re, h3], ?_⟩
        cases tm
        · simp [h3]
        · simp only [if_true]
          rw [hN, Complex.neg_re, Complex.div_ofReal_re, h3]; simp
      · left
        refine ⟨by simp [Complex.mul_im, h3], ?_⟩
        cases tm
        · simp [h3]
        · simp only [if_true]
          rw [hN, Complex.neg_im, Complex.div_ofReal_im, h3]; simp

/-- The value of a valid call in terms of its matrix. -/
theorem film_eq (h : FilmArgs n0 layers ns theta lam) (tm : Bool) :
    ∃ a b : ℂ,
      (let M := stackMat (kxOf n0 theta lam : ℝ) lam tm layers
       let ks := tfKzz (kxOf n0 theta lam : ℝ) lam tm ns
       let k0 := tfKzz (kxOf n0 theta lam : ℝ) lam tm n0
       a + b = M 0 0 + M 0 1 * ks ∧ k0 * (a - b) = M 1 0 + M 1 1 * ks ∧
       film n0 layers ns theta lam tm =
         .ok ⟨‖b / a‖ ^ 2, (ks / k0).re * ‖1 / a‖ ^ 2, b / a, (Real.sqrt (ks / k0).re : ℂ) * (1 / a)⟩) := by
  have ht0 := h.theta_nonneg
  have ht1 := h.theta_lt
  have hl := h.lam_pos
  set A := tfMatrix ((n0 : ℂ) :: (layers.map Prod.fst ++ [ns])) (0 :: (layers.map Prod.snd ++ [0]))
      (kxOf n0 theta lam : ℝ) lam tm with hA
  obtain ⟨e0, e1⟩ := matrix_entries h tm A hA
  refine ⟨A 0 0, A 1 0, e0, e1, ?_⟩
  have hlast : ((n0 : ℂ) :: (layers.map Prod.fst ++ [ns])).getD (((n0 : ℂ) :: (layers.map Prod.fst ++ [ns])).length - 1) 0 = ns := by
    rw [← List.cons_append, List.length_append, List.length_singleton, Nat.add_sub_cancel]
    simp [List.getD_eq_getElem?_getD]
  unfold film solver
  rw [if_neg (not_not.2 (by
    simp only [List.length_map, List.length_cons, List.length_append, List.length_nil]; push_cast; ring)), if_neg (not_lt.2 ht0), if_neg (not_le.2 ht1), if_neg (not_le.2 hl)]
  simp only [hlast, List.getD_cons_zero, tfKx_real, ← hA]
  have hP : (if tm = true then ((tfKz (kxOf n0 theta lam : ℝ) lam ns / ns ^ 2) / (tfKz (kxOf n0 theta lam : ℝ) lam n0 / (n0 : ℂ) ^ 2)).re
      else (tfKz (kxOf n0 theta lam : ℝ) lam ns / tfKz (kxOf n0 theta lam : ℝ) lam n0).re) =
      (tfKzz (kxOf n0 theta lam : ℝ) lam tm ns / tfKzz (kxOf n0 theta lam : ℝ) lam tm n0).re := by
    cases tm <;> simp [tfKzz, pow_two]
  rw [hP]

theorem re_div_neg (k : ℂ) (y : ℝ) : (k / ((-y : ℝ) : ℂ)).re = -k.re / y := by
  rw [Complex.div_ofReal_re, div_neg, neg_div]

/-- If the stack does not create energy then the result is well defined and passive; if it conserves energy so does the result. -/
theorem film_energy (h : FilmArgs n0 layers ns theta lam) (tm : Bool) (F : ℝ)
    (hF : ∀ ks, ks = tfKzz (kxOf n0 theta lam : ℝ) lam tm ns →
      F = flux ((stackMat (kxOf n0 theta lam : ℝ) lam tm layers).mulVec ![1, ks] 0)
        ((stackMat (kxOf n0 theta lam : ℝ) lam tm layers).mulVec ![1, ks] 1))
    (hle : F ≤ (tfKzz (kxOf n0 theta lam : ℝ) lam tm ns).re) :
    ∃ (a b : ℂ) (y P : ℝ), a ≠ 0 ∧ (0 < y ∧ tfKzz (kxOf n0 theta lam : ℝ) lam tm n0 = ((-y : ℝ) : ℂ)) ∧ 0 ≤ P ∧ P = -(tfKzz (kxOf n0 theta lam : ℝ) lam tm ns).re / y ∧
      ‖a‖ ^ 2 - ‖b‖ ^ 2 = -F / y ∧
      (stackMat (kxOf n0 theta lam : ℝ) lam tm layers).mulVec ![1, tfKzz (kxOf n0 theta lam : ℝ) lam tm ns] =
        ![a + b, tfKzz (kxOf n0 theta lam : ℝ) lam tm n0 * (a - b)] ∧
      film n0 layers ns theta lam tm = .ok ⟨‖b / a‖ ^ 2, P * ‖1 / a‖ ^ 2, b / a, (Real.sqrt P : ℂ) * (1 / a)⟩ := by
  obtain ⟨a, b, hab⟩ := film_eq h tm
  obtain ⟨e0, e1, hf⟩ := hab
  obtain ⟨y, hy, hk0⟩ := h.y0 tm
  have hF := hF _ rfl
  set M := stackMat (kxOf n0 theta lam : ℝ) lam tm layers with hM
  have hdet : M.det = 1 := h.det tm
  rw [hk0] at e1 hf
  obtain ⟨w, k, hm, -, hk⟩ := kzz_facts n0 theta lam h.lam_pos tm ns h.sub.1 h.sub.2
  have hks : (tfKzz (kxOf n0 theta lam : ℝ) lam tm ns).re ≤ 0 := by
    rw [hk, Complex.neg_re]; linarith [hm.re_nonneg]
  generalize tfKzz (kxOf n0 theta lam : ℝ) lam tm ns = ks at *
  rw [re_div_neg] at hf
  have hv : M.mulVec ![1, ks] = ![a + b, ((-y : ℝ) : ℂ) * (a - b)] := by
    ext i
    fin_cases i
    · simp [Matrix.mulVec, dotProduct, Fin.sum_univ_two, e0]
    · simp only [Matrix.mulVec, dotProduct, Fin.sum_univ_two]
      simpa using e1.symm
  have hfl : F = -y * (‖a‖ ^ 2 - ‖b‖ ^ 2) := by
    rw [hF, hv]
    simp only [Matrix.cons_val_zero, Matrix.cons_val_one, Matrix.cons_val_fin_one]
    rw [flux_ab, Complex.ofReal_re, Complex.ofReal_im, Complex.normSq_eq_norm_sq, Complex.normSq_eq_norm_sq]; ring
  have ha : a ≠ 0 := by
    rintro rfl
    have hb : ‖b‖ ^ 2 = 0 := by
      rw [norm_zero] at hfl
      have : 0 ≤ ‖b‖ ^ 2 := by positivity
      nlinarith
    have hb : b = 0 := by simpa using hb
    subst hb
    rw [Matrix.det_fin_two] at hdet
    have e0' : M 0 0 + M 0 1 * ks = 0 := by rw [← e0]; ring
    have e1' : M 1 0 + M 1 1 * ks = 0 := by rw [← e1]; ring
    have : (1 : ℂ) = 0 := by rw [← hdet]; linear_combination M 1 1 * e0' - M 0 1 * e1'
    exact one_ne_zero this
  refine ⟨a, b, y, -ks.re / y, ha, ⟨hy, hk0⟩, div_nonneg (by linarith) hy.le, rfl, ?_, ?_, hf⟩
  · rw [hfl]; field_simp
  · rw [hv, hk0]

/-- `R`, `T`, `rr`, `tt` of a result are consistent: `R = |rr|^2` and `T = |tt|^2`. -/
def Consistent (o : FilmOut) : Prop := o.R = ‖o.rr‖ ^ 2 ∧ o.T = ‖o.tt‖ ^ 2

theorem consistent_of (a b : ℂ) (P : ℝ) (hP : 0 ≤ P) :
    Consistent ⟨‖b / a‖ ^ 2, P * ‖1 / a‖ ^ 2, b / a, (Real.sqrt P : ℂ) * (1 / a)⟩ := by
  refine ⟨rfl, ?_⟩
  show P * _ = ‖_ * _‖ ^ 2
  rw [norm_mul, mul_pow, Complex.norm_real, Real.norm_eq_abs, sq_abs, Real.sq_sqrt hP]

/-- **C34.** Transparent layers between transparent media, any number, any thicknesses, any wavelength, any angle below 90
degrees (also with frustrated or total internal reflection), either polarisation: `R + T = 1`. -/
theorem C34_lossless_energy (h : FilmArgs n0 layers ns theta lam) (hl : ∀ a ∈ layers, Lossless a.1) (tm : Bool) :
    ∃ o, film n0 layers ns theta lam tm = .ok o ∧ o.R + o.T = 1 ∧ 0 ≤ o.R ∧ 0 ≤ o.T ∧ Consistent o := by
  set ks := tfKzz (kxOf n0 theta lam : ℝ) lam tm ns with hks
  have hfl := flux_stack_eq (n0 := n0) (theta := theta) (layers := layers) tm h.lam_pos (fun a ha => ⟨hl a ha, (h.layer a ha).2⟩) 1 ks
  have h1 : flux 1 ks = ks.re := by simp [flux]
  obtain ⟨a, b, y, P, ha, ⟨hy, -⟩, hP, hPe, hab, -, hf⟩ := film_energy h tm _ (fun k hk => by rw [hk]) (hfl.trans h1).le
  rw [hfl, h1] at hab
  refine ⟨_, hf, ?_, by positivity, by positivity, consistent_of a b P hP⟩
  show ‖b / a‖ ^ 2 + P * ‖1 / a‖ ^ 2 = 1
  have hna : ‖a‖ ≠ 0 := norm_ne_zero_iff.2 ha
  rw [← hks] at hPe
  rw [← hPe] at hab
  rw [norm_div, norm_div, norm_one, div_pow, div_pow, one_pow]
  field_simp
  linarith

/-- **C69.** Layers that do not amplify, with non-negative thicknesses: `R + T <= 1`, so `|rr| <= 1` and `|tt| <= 1`. -/
theorem C69_passive_energy (h : FilmArgs n0 layers ns theta lam) (hd : ∀ a ∈ layers, 0 ≤ a.2) (tm : Bool) :
    ∃ o, film n0 layers ns theta lam tm = .ok o ∧ o.R + o.T ≤ 1 ∧ 0 ≤ o.R ∧ 0 ≤ o.T ∧ ‖o.rr‖ ≤ 1 ∧ ‖o.tt‖ ≤ 1 ∧ Consistent o := by
  set ks := tfKzz (kxOf n0 theta lam : ℝ) lam tm ns with hks
  have hfl := flux_stack_le (n0 := n0) (theta := theta) (layers := layers) tm h.lam_pos h.layer hd 1 ks
  have h1 : flux 1 ks = ks.re := by simp [flux]
  rw [h1] at hfl
  obtain ⟨a, b, y, P, ha, ⟨hy, -⟩, hP, hPe, hab, -, hf⟩ := film_energy h tm _ (fun k hk => by rw [hk]) hfl
  have hna : ‖a‖ ≠ 0 := norm_ne_zero_iff.2 ha
  have hc := consistent_of a b P hP
  have hsum : ‖b / a‖ ^ 2 + P * ‖1 / a‖ ^ 2 ≤ 1 := by
    have : P ≤ ‖a‖ ^ 2 - ‖b‖ ^ 2 := by
      rw [hab, hPe]
      exact div_le_div_of_nonneg_right (by linarith) hy.le
    rw [norm_div, norm_div, norm_one, div_pow, div_pow, one_pow, mul_one_div, ← add_div, div_le_one (by positivity)]
    linarith
  have hR : 0 ≤ ‖b / a‖ ^ 2 := by positivity
  have hT : 0 ≤ P * ‖1 / a‖ ^ 2 := by positivity
  refine ⟨_, hf, hsum, hR, hT, ?_, ?_, hc⟩
  · have : ‖b / a‖ ^ 2 ≤ 1 := by linarith
    exact (sq_le_one_iff₀ (norm_nonneg _)).1 this
  · have h2 : P * ‖1 / a‖ ^ 2 ≤ 1 := by linarith
    have h3 := hc.2
    simp only at h3
    rw [h3] at h2
    exact (sq_le_one_iff₀ (norm_nonneg _)).1 h2

/-! ### Optical structure -/

theorem film_congr {layers' : List (ℂ × ℝ)} (h : FilmArgs n0 layers ns theta lam) (h' : FilmArgs n0 layers' ns theta lam) (tm : Bool)
    (hM : stackMat (kxOf n0 theta lam : ℝ) lam tm layers = stackMat (kxOf n0 theta lam : ℝ) lam tm layers') :
    film n0 layers ns theta lam tm = film n0 layers' ns theta lam tm := by
  obtain ⟨a, b, e0, e1, hf⟩ := film_eq h tm
  obtain ⟨a', b', e0', e1', hf'⟩ := film_eq h' tm
  rw [hM] at e0 e1
  have hk := (goodK n0 theta lam h.lam_pos tm n0 h.inc.1 h.inc.2).ne
  have h1 : a + b = a' + b' := e0.trans e0'.symm
  have h2 : a - b = a' - b' := mul_left_cancel₀ hk (e1.trans e1'.symm)
  have ha : a = a' := by linear_combination (h1 + h2) / 2
  have hb : b = b' := by linear_combination (h1 - h2) / 2
  rw [hf, hf', ha, hb]

/-- **C35.** Cutting a layer into two of the same index changes nothing, anywhere in any stack. -/
theorem C35_split_layer (l1 l2 : List (ℂ × ℝ)) (n : ℂ) (d1 d2 : ℝ)
    (h : FilmArgs n0 (l1 ++ (n, d1 + d2) :: l2) ns theta lam) (tm : Bool) :
    film n0 (l1 ++ (n, d1) :: (n, d2) :: l2) ns theta lam tm = film n0 (l1 ++ (n, d1 + d2) :: l2) ns theta lam tm := by
  have hn := h.layer (n, d1 + d2) (by simp)
  have h' : FilmArgs n0 (l1 ++ (n, d1) :: (n, d2) :: l2) ns theta lam := by
    refine ⟨h.n0_pos, h.theta_nonneg, h.theta_lt, h.lam_pos, ?_, h.sub⟩
    intro a ha
    rw [List.mem_append, List.mem_cons, List.mem_cons] at ha
    rcases ha with ha | rfl | rfl | ha
    · exact h.layer a (by simp [ha])
    · exact hn
    · exact hn
    · exact h.layer a (by simp [ha])
  apply film_congr h' h
  have hk := (goodK n0 theta lam h.lam_pos tm n hn.1 hn.2).ne
  simp only [stackMat_append, stackMat_cons]
  rw [Complex.ofReal_add, mul_add, layerMat_add _ _ _ hk]
  simp only [mul_assoc]

/-- **C35.** A layer of zero thickness, of any index and at any place, changes nothing. -/
theorem C35_zero_layer (l1 l2 : List (ℂ × ℝ)) (n : ℂ) (hn : Passive n ∧ NotGrazing n0 theta n)
    (h : FilmArgs n0 (l1 ++ l2) ns theta lam) (tm : Bool) :
    film n0 (l1 ++ (n, 0) :: l2) ns theta lam tm = film n0 (l1 ++ l2) ns theta lam tm := by
  have h' : FilmArgs n0 (l1 ++ (n, 0) :: l2) ns theta lam := by
    refine ⟨h.n0_pos, h.theta_nonneg, h.theta_lt, h.lam_pos, ?_, h.sub⟩
    intro a ha
    rw [List.mem_append, List.mem_cons] at ha
    rcases ha with ha | rfl | ha
    · exact h.layer a (by simp [ha])
    · exact hn
    · exact h.layer a (by simp [ha])
  apply film_congr h' h
  simp only [stackMat_append, stackMat_cons, Complex.ofReal_zero, mul_zero, layerMat_zero, one_mul]

/-- **C35.** A uniform medium reflects nothing and delays by the optical path: `rr = 0`, `R = 0`, `T = 1` and
`tt = exp(-i 2 pi n0 cos(theta) D/lam)` with `D` the total thickness. -/
theorem C35_uniform (d : List ℝ) (hn0 : 0 < n0) (ht : 0 ≤ theta) (ht' : theta < Real.pi / 2) (hlam : 0 < lam) (tm : Bool) :
    film n0 (d.map fun x => ((n0 : ℂ), x)) n0 theta lam tm =
      .ok ⟨0, 1, 0, Complex.exp (-Complex.I * ((2 * Real.pi * n0 * Real.cos theta / lam * d.sum : ℝ) : ℂ))⟩ := by
  have hcos : 0 < Real.cos theta := Real.cos_pos_of_mem_Ioo ⟨by linarith [Real.pi_pos], ht'⟩
  have hng : NotGrazing n0 theta n0 := by
    intro he
    have he' : n0 * n0 = n0 * Real.sin theta * (n0 * Real.sin theta) := by exact_mod_cast he
    have h1 : n0 * n0 * Real.cos theta ^ 2 = 0 := by
      have := Real.sin_sq_add_cos_sq theta
      linear_combination he' + n0 * n0 * this
    have : 0 < n0 * n0 * Real.cos theta ^ 2 := by positivity
    linarith
  have hp : Passive (n0 : ℂ) := ⟨by simpa using hn0, by simp⟩
  have h : FilmArgs n0 (d.map fun x => ((n0 : ℂ), x)) n0 theta lam := by
    refine ⟨hn0, ht, ht', hlam, ?_, hp, hng⟩
    intro a ha
    obtain ⟨x, -, rfl⟩ := List.mem_map.1 ha
    exact ⟨hp, hng⟩
  have hk := (goodK n0 theta lam hlam tm n0 hp hng).ne
  obtain ⟨a, b, e0, e1, hf⟩ := film_eq h tm
  have hM : stackMat (kxOf n0 theta lam : ℝ) lam tm (d.map fun x => ((n0 : ℂ), x)) =
      layerMat (tfKzz (kxOf n0 theta lam : ℝ) lam tm n0) (tfKz (kxOf n0 theta lam : ℝ) lam n0 * (d.sum : ℝ)) := by
    clear e0 e1 hf h
    induction d with
    | nil => simp [stackMat, layerMat_zero]
    | cons x d ih =>
      rw [List.map_cons, stackMat_cons, ih, List.sum_cons, Complex.ofReal_add, mul_add, layerMat_add _ _ _ hk]
  have hphase : tfKz (kxOf n0 theta lam : ℝ) lam n0 * (d.sum : ℝ) =
      ((-(2 * Real.pi * n0 * Real.cos theta / lam * d.sum) : ℝ) : ℂ) := by
    rw [h.kz0, ← Complex.ofReal_mul]; congr 1; ring
  rw [hM, hphase] at e0 e1
  set p : ℂ := ((-(2 * Real.pi * n0 * Real.cos theta / lam * d.sum) : ℝ) : ℂ) with hpdef
  simp only [layerMat, Matrix.of_apply, Matrix.cons_val', Matrix.cons_val_zero, Matrix.cons_val_one, Matrix.cons_val_fin_one] at e0 e1
  have s0 : a + b = Complex.exp (-Complex.I * p) := by
    rw [exp_negI, e0]; field_simp; ring
  have s1 : a - b = Complex.exp (-Complex.I * p) := by
    apply mul_left_cancel₀ hk
    rw [e1, exp_negI]; ring
  have hb : b = 0 := by linear_combination (s0 - s1) / 2
  have ha : a = Complex.exp (-Complex.I * p) := by linear_combination (s0 + s1) / 2
  have hna : ‖a‖ = 1 := by
    rw [ha, hpdef, Complex.norm_exp]; simp
  rw [hf, div_self hk, hb]
  simp only [zero_div, norm_zero, Complex.one_re, one_mul, Real.sqrt_one, Complex.ofReal_one, norm_div, norm_one, hna, div_one]
  have : 1 / a = Complex.exp (-Complex.I * ((2 * Real.pi * n0 * Real.cos theta / lam * d.sum : ℝ) : ℂ)) := by
    rw [ha, one_div, ← Complex.exp_neg, hpdef]; congr 1; push_cast; ring
  rw [this]; norm_num

/-! ### Reciprocity -/

/-- Exchange of the diagonal entries, which reversal of a stack amounts to. -/
def flipDiag (M : Matrix (Fin 2) (Fin 2) ℂ) : Matrix (Fin 2) (Fin 2) ℂ := !![M 1 1, M 0 1; M 1 0, M 0 0]

theorem flipDiag_mul (M N : Matrix (Fin 2) (Fin 2) ℂ) : flipDiag (M * N) = flipDiag N * flipDiag M := by
  ext i j
  fin_cases i <;> fin_cases j <;> simp [flipDiag, Matrix.mul_apply, Fin.sum_univ_two] <;> ring

theorem flipDiag_layer (k p : ℂ) : flipDiag (layerMat k p) = layerMat k p := by
  ext i j
  fin_cases i <;> fin_cases j <;> simp [flipDiag, layerMat]

theorem stackMat_reverse (kx : ℂ) (lam : ℝ) (tm : Bool) (l : List (ℂ × ℝ)) :
    stackMat kx lam tm l.reverse = flipDiag (stackMat kx lam tm l) := by
  induction l with
  | nil =>
    ext i j
    fin_cases i <;> fin_cases j <;> simp [stackMat, flipDiag]
  | cons a l ih =>
    rw [List.reverse_cons, stackMat_append, ih, stackMat_cons, stackMat_cons, flipDiag_mul, flipDiag_layer]
    simp [stackMat]

/-- **C70.** Reciprocity: light sent backwards along the refracted ray is transmitted with the same complex coefficient and the
same transmittance, also through absorbing layers. -/
theorem C70_reciprocity {n1 theta' : ℝ} (h : FilmArgs n0 layers (n1 : ℂ) theta lam)
    (ht : 0 ≤ theta') (ht' : theta' < Real.pi / 2) (snell : n0 * Real.sin theta = n1 * Real.sin theta') (tm : Bool) :
    ∃ o o', film n0 layers n1 theta lam tm = .ok o ∧ film n1 layers.reverse n0 theta' lam tm = .ok o' ∧
      o'.tt = o.tt ∧ o'.T = o.T := by
  have hkx : kxOf n1 theta' lam = kxOf n0 theta lam := by
    unfold kxOf; rw [mul_assoc, ← snell]; ring
  have hn1 : 0 < n1 := by simpa using h.sub.1.1
  have h' : FilmArgs n1 layers.reverse (n0 : ℂ) theta' lam := by
    refine ⟨hn1, ht, ht', h.lam_pos, ?_, h.inc.1, ?_⟩
    · intro a ha
      have := h.layer a (List.mem_reverse.1 ha)
      refine ⟨this.1, ?_⟩
      unfold NotGrazing; rw [← snell]; exact this.2
    · unfold NotGrazing; rw [← snell]; exact h.inc.2
  obtain ⟨a, b, e0, e1, hf⟩ := film_eq h tm
  obtain ⟨a', b', e0', e1', hf'⟩ := film_eq h' tm
  obtain ⟨y, hy, hk0⟩ := h.y0 tm
  obtain ⟨y', hy', hks⟩ := h'.y0 tm
  rw [hkx, stackMat_reverse] at e0' e1'
  rw [hkx] at hf' hks
  simp only [hk0, hks] at e0 e1 e0' e1' hf hf'
  generalize stackMat (kxOf n0 theta lam : ℝ) lam tm layers = M at e0 e1 e0' e1'
  simp only [flipDiag, Matrix.of_apply, Matrix.cons_val', Matrix.cons_val_zero, Matrix.cons_val_one, Matrix.cons_val_fin_one]
    at e0' e1'
  have hrel : (y : ℂ) * a = y' * a' := by
    push_cast at e0 e1 e0' e1'
    linear_combination (y * e0 - e1 - y' * e0' + e1') / 2
  have hyc : (y : ℂ) ≠ 0 := Complex.ofReal_ne_zero.2 hy.ne'
  have hyc' : (y' : ℂ) ≠ 0 := Complex.ofReal_ne_zero.2 hy'.ne'
  refine ⟨_, _, hf, hf', ?_, ?_⟩
  · show (Real.sqrt _ : ℂ) * (1 / a') = (Real.sqrt _ : ℂ) * (1 / a)
    rw [re_div_neg, re_div_neg, Complex.ofReal_re, Complex.ofReal_re, neg_neg, neg_neg]
    have ha : a' = ((y / y' : ℝ) : ℂ) * a := by push_cast; field_simp; linear_combination -hrel
    rw [ha, one_div, mul_inv, ← mul_assoc, one_div]
    congr 1
    rw [← Complex.ofReal_inv, ← Complex.ofReal_mul]
    congr 1
    rw [inv_div]
    have hs := Real.mul_self_sqrt (div_pos hy hy').le
    have hm : Real.sqrt (y / y') * Real.sqrt (y' / y) = 1 := by
      rw [← Real.sqrt_mul (div_pos hy hy').le, div_mul_div_cancel₀ hy'.ne', div_self hy.ne', Real.sqrt_one]
    have hs' := Real.mul_self_sqrt (div_pos hy' hy).le
    calc Real.sqrt (y / y') * (y' / y) = Real.sqrt (y / y') * (Real.sqrt (y' / y) * Real.sqrt (y' / y)) := by rw [hs']
      _ = Real.sqrt (y' / y) := by rw [← mul_assoc, hm, one_mul]
  · show _ * ‖1 / a'‖ ^ 2 = _ * ‖1 / a‖ ^ 2
    rw [re_div_neg, re_div_neg, Complex.ofReal_re, Complex.ofReal_re, neg_neg, neg_neg]
    have hn : y * ‖a‖ = y' * ‖a'‖ := by
      have := congrArg norm hrel
      rwa [norm_mul, norm_mul, Complex.norm_real, Complex.norm_real, Real.norm_eq_abs, Real.norm_eq_abs, abs_of_pos hy,
        abs_of_pos hy'] at this
    have hn' : ‖a'‖ = y / y' * ‖a‖ := by field_simp; linarith
    rw [norm_div, norm_div, norm_one, hn']
    by_cases ha : ‖a‖ = 0
    · simp [ha]
    · field_simp

/-! ### The result solves the field equations -/

theorem layerMat_neg (k p : ℂ) : layerMat (-k) (-p) = layerMat k p := by
  ext i j
  fin_cases i <;> fin_cases j <;> simp [layerMat, div_neg, neg_div]

theorem normalWave_iff (kx lam : ℝ) (n q : ℂ) :
    NormalWave kx lam n q ↔ q = tfKz (kx : ℂ) lam n ∨ q = -tfKz (kx : ℂ) lam n := by
  rw [tfKz_eq, neg_neg]
  have h := rootW_sq kx lam n
  unfold NormalWave
  constructor
  · intro hq
    have : q * q = rootW kx lam n * rootW kx lam n := by rw [h]; linear_combination hq
    rcases mul_self_eq_mul_self_iff.1 this with h | h
    · right; exact h
    · left; exact h
  · rintro (hq | hq) <;> rw [hq] <;> linear_combination h

theorem slab_iff (kx lam : ℝ) (tm : Bool) (n : ℂ) (d : ℝ) (hk : tfKzz (kx : ℂ) lam tm n ≠ 0) (front back : ℂ × ℂ) :
    SlabFields kx lam tm n d front back ↔
      ![front.1, front.2] = (layerMat (tfKzz (kx : ℂ) lam tm n) (tfKz (kx : ℂ) lam n * (d : ℝ))).mulVec ![back.1, back.2] := by
  have hz : tfKz (kx : ℂ) lam n ≠ 0 := by
    intro h0; apply hk; unfold tfKzz; rw [h0]; cases tm <;> simp
  have hadm : admittance tm n (tfKz (kx : ℂ) lam n) = tfKzz (kx : ℂ) lam tm n := rfl
  have hadm' : admittance tm n (-tfKz (kx : ℂ) lam n) = -tfKzz (kx : ℂ) lam tm n := by
    rw [← hadm]; unfold admittance; cases tm <;> simp [neg_div]
  constructor
  · rintro ⟨q, a, b, hq, hq0, hb, hf⟩
    have hL : layerMat (tfKzz (kx : ℂ) lam tm n) (tfKz (kx : ℂ) lam n * (d : ℝ)) = layerMat (admittance tm n q) (q * d) ∧
        admittance tm n q ≠ 0 := by
      rcases (normalWave_iff kx lam n q).1 hq with h | h
      · rw [h, hadm]; exact ⟨rfl, hk⟩
      · rw [h, hadm', neg_mul, layerMat_neg]; exact ⟨rfl, neg_ne_zero.2 hk⟩
    rw [hL.1, hb, hf, exp_negI, exp_posI]
    have hne := hL.2
    ext i
    fin_cases i <;> simp [layerMat, Matrix.mulVec, dotProduct, Fin.sum_univ_two] <;> field_simp <;> ring
  · intro h
    obtain ⟨a, b, hE, hH, hm⟩ := layer_split (tfKzz (kx : ℂ) lam tm n) (tfKz (kx : ℂ) lam n * (d : ℝ)) back.1 back.2 hk
    refine ⟨tfKz (kx : ℂ) lam n, a, b, (normalWave_iff _ _ _ _).2 (Or.inl rfl), hz, ?_, ?_⟩
    · rw [hadm]; exact Prod.ext hE hH
    · rw [hm] at h
      have h0 := congrFun h 0
      have h1 := congrFun h 1
      rw [hadm]
      exact Prod.ext (by simpa using h0) (by simpa using h1)

theorem stack_iff (kx lam : ℝ) (tm : Bool) (layers : List (ℂ × ℝ)) (hl : ∀ a ∈ layers, tfKzz (kx : ℂ) lam tm a.1 ≠ 0)
    (front back : ℂ × ℂ) :
    StackFields kx lam tm layers front back ↔
      ![front.1, front.2] = (stackMat (kx : ℂ) lam tm layers).mulVec ![back.1, back.2] := by
  induction layers generalizing front with
  | nil =>
    simp only [StackFields, stackMat, List.map_nil, List.prod_nil, Matrix.one_mulVec]
    constructor
    · rintro rfl; rfl
    · intro h
      exact Prod.ext (by simpa using congrFun h 0) (by simpa using congrFun h 1)
  | cons a l ih =>
    rw [stackMat_cons, ← Matrix.mulVec_mulVec]
    simp only [StackFields]
    constructor
    · rintro ⟨mid, h1, h2⟩
      rw [slab_iff _ _ _ _ _ (hl a (by simp))] at h1
      rw [ih fun b hb => hl b (by simp [hb])] at h2
      rw [h1, h2]
    · intro h
      refine ⟨((stackMat (kx : ℂ) lam tm l).mulVec ![back.1, back.2] 0, (stackMat (kx : ℂ) lam tm l).mulVec ![back.1, back.2] 1), ?_, ?_⟩
      · rw [slab_iff _ _ _ _ _ (hl a (by simp)), h]
        congr 1
        ext i; fin_cases i <;> rfl
      · rw [ih fun b hb => hl b (by simp [hb])]
        ext i; fin_cases i <;> rfl

/-- The normal wavenumber `q` of the transmitted wave that travels (or, in the code's choice, varies) away from the stack. -/
def Outgoing (q : ℂ) : Prop := q.re < 0 ∨ (q.re = 0 ∧ q.im < 0)

theorem outgoing_unique (n0 theta lam : ℝ) (hl : 0 < lam) (n : ℂ) (h : Passive n) (hg : NotGrazing n0 theta n) (q : ℂ)
    (hq : NormalWave (kxOf n0 theta lam) lam n q) (ho : Outgoing q) : q = tfKz (kxOf n0 theta lam : ℝ) lam n := by
  have hgood := goodK n0 theta lam hl false n h hg
  simp only [tfKzz, Bool.false_eq_true, if_false] at hgood
  rcases (normalWave_iff _ _ _ _).1 hq with h | h
  · exact h
  · exfalso
    rw [h] at ho
    have := GoodK.add hgood ho
    rw [add_neg_cancel] at this
    exact this.ne rfl

/-- **C72.** The returned coefficients are exactly the scattering amplitudes of the stack: with the plane waves of each medium
matched at every interface, the reflected amplitude is `rr` and the transmitted amplitude is the `t` for which
`tt = sqrt(P) t` and `T = P |t|^2` with `P` the flux ratio of the outer media; no other amplitudes solve the matching problem. -/
theorem C72_scattering_partial (h : FilmArgs n0 layers ns theta lam) (hd : ∀ a ∈ layers, 0 ≤ a.2) (tm : Bool)
    (qs : ℂ) (hqs : NormalWave (kxOf n0 theta lam) lam ns qs) (hout : Outgoing qs) :
    ∃ o t, film n0 layers ns theta lam tm = .ok o ∧
      let y0 := admittance tm n0 ((-(2 * Real.pi * n0 * Real.cos theta / lam) : ℝ) : ℂ)
      let ys := admittance tm ns qs
      Scatters (kxOf n0 theta lam) lam tm y0 layers ys o.rr t ∧
      (∀ r' t', Scatters (kxOf n0 theta lam) lam tm y0 layers ys r' t' → r' = o.rr ∧ t' = t) ∧
      o.R = ‖o.rr‖ ^ 2 ∧ o.T = (ys / y0).re * ‖t‖ ^ 2 ∧ o.tt = (Real.sqrt (ys / y0).re : ℂ) * t := by
  have hq := outgoing_unique n0 theta lam h.lam_pos ns h.sub.1 h.sub.2 qs hqs hout
  have hy0 : admittance tm n0 ((-(2 * Real.pi * n0 * Real.cos theta / lam) : ℝ) : ℂ) =
      tfKzz (kxOf n0 theta lam : ℝ) lam tm n0 := by rw [← h.kz0]; rfl
  have hys : admittance tm ns qs = tfKzz (kxOf n0 theta lam : ℝ) lam tm ns := by rw [hq]; rfl
  rw [hy0, hys]
  have hg : ∀ a ∈ layers, tfKzz (kxOf n0 theta lam : ℝ) lam tm a.1 ≠ 0 := fun a ha => (h.good tm a (by simp [ha])).ne
  have hk0 := (goodK n0 theta lam h.lam_pos tm n0 h.inc.1 h.inc.2).ne
  have hfl := flux_stack_le (n0 := n0) (theta := theta) (layers := layers) tm h.lam_pos h.layer hd 1 (tfKzz (kxOf n0 theta lam : ℝ) lam tm ns)
  have h1 : flux 1 (tfKzz (kxOf n0 theta lam : ℝ) lam tm ns) = (tfKzz (kxOf n0 theta lam : ℝ) lam tm ns).re := by simp [flux]
  rw [h1] at hfl
  obtain ⟨a, b, y, P, ha, ⟨hy, hy0'⟩, hP, hPe, hab, hv, hf⟩ := film_energy h tm _ (fun k hk => by rw [hk]) hfl
  have hPr : (tfKzz (kxOf n0 theta lam : ℝ) lam tm ns / tfKzz (kxOf n0 theta lam : ℝ) lam tm n0).re = P := by
    rw [hy0', hPe, re_div_neg]
  simp only [hPr]
  generalize tfKzz (kxOf n0 theta lam : ℝ) lam tm ns = ks at *
  generalize tfKzz (kxOf n0 theta lam : ℝ) lam tm n0 = k0 at *
  refine ⟨_, 1 / a, hf, ?_, ?_, rfl, rfl, rfl⟩
  · unfold Scatters
    rw [stack_iff _ _ _ _ hg]
    have : (![1 / a, ks * (1 / a)] : Fin 2 → ℂ) = (1 / a) • ![1, ks] := by
      ext i; fin_cases i <;> simp [mul_comm]
    rw [this, Matrix.mulVec_smul, hv]
    ext i; fin_cases i <;> simp <;> field_simp
  · intro r' t' hs
    unfold Scatters at hs
    rw [stack_iff _ _ _ _ hg] at hs
    have : (![t', ks * t'] : Fin 2 → ℂ) = t' • ![1, ks] := by
      ext i; fin_cases i <;> simp [mul_comm]
    rw [this, Matrix.mulVec_smul, hv] at hs
    have c0 : 1 + r' = t' * (a + b) := by simpa using congrFun hs 0
    have c1 : k0 * (1 - r') = t' * (k0 * (a - b)) := by simpa using congrFun hs 1
    have c1 : 1 - r' = t' * (a - b) := mul_left_cancel₀ hk0 (by linear_combination c1)
    have ht : t' = 1 / a := by field_simp; linear_combination -(c0 + c1) / 2
    refine ⟨?_, ht⟩
    have : r' = t' * b := by linear_combination (c0 - c1) / 2
    rw [this, ht]; show 1 / a * b = b / a; ring
end

/-! ### The occulter -/

/-- What the material tables provide: the dielectrics are at least as dense as vacuum, the metals absorb. -/
structure MaterialsOK (m : Materials) : Prop where
  sub : 1 ≤ m.nSub
  pmgi : 1 ≤ m.nPmgi
  ti : 0 < m.nTi ∧ 0 < m.kTi
  ni : 0 < m.nNi ∧ 0 < m.kNi

theorem notGrazing_real (theta : ℝ) (ht : 0 ≤ theta) (ht' : theta < Real.pi / 2) (n : ℝ) (hn : 1 ≤ n) :
    NotGrazing 1 theta (n : ℂ) := by
  intro he
  have he' : n * n = 1 * Real.sin theta * (1 * Real.sin theta) := by exact_mod_cast he
  have hc : 0 < Real.cos theta := Real.cos_pos_of_mem_Ioo ⟨by linarith [Real.pi_pos], ht'⟩
  have := Real.sin_sq_add_cos_sq theta
  nlinarith [pow_pos hc 2]

theorem notGrazing_metal (n0 theta : ℝ) (n k : ℝ) (hn : 0 < n) (hk : 0 < k) :
    NotGrazing n0 theta ((n : ℂ) - Complex.I * k) := by
  intro he
  have := congrArg Complex.im he
  rw [← Complex.ofReal_mul, Complex.ofReal_im] at this
  simp [Complex.mul_im] at this
  nlinarith [mul_pos hn hk]

theorem passive_real (n : ℝ) (hn : 1 ≤ n) : Passive (n : ℂ) := ⟨by simp; linarith, by simp⟩

theorem passive_metal (n k : ℝ) (hn : 0 < n) (hk : 0 < k) : Passive ((n : ℂ) - Complex.I * k) :=
  ⟨by simpa using hn, by simpa using hk.le⟩

/-- The stack of an occulter cell: gap in vacuum, resist, nickel, titanium. -/
noncomputable def occulterLayers (m : Materials) (d0 dti dni dpm : ℝ) : List (ℂ × ℝ) :=
  [(1, d0 - dpm - dni - dti), (m.nPmgi, dpm), (m.nNi - Complex.I * m.kNi, dni), (m.nTi - Complex.I * m.kTi, dti)]

theorem occulter_args {m : Materials} (hm : MaterialsOK m) (theta lam d0 dti dni dpm : ℝ) (ht : 0 ≤ theta) (ht' : theta < Real.pi / 2)
    (hl : 0 < lam) : FilmArgs 1 (occulterLayers m d0 dti dni dpm) (m.nSub : ℂ) theta lam := by
  refine ⟨one_pos, ht, ht', hl, ?_, passive_real _ hm.sub, notGrazing_real theta ht ht' _ hm.sub⟩
  intro a ha
  simp only [occulterLayers, List.mem_cons, List.not_mem_nil, or_false] at ha
  rcases ha with rfl | rfl | rfl | rfl
  · have h1 := passive_real 1 le_rfl
    have h2 := notGrazing_real theta ht ht' 1 le_rfl
    rw [Complex.ofReal_one] at h1 h2
    exact ⟨h1, h2⟩
  · exact ⟨passive_real _ hm.pmgi, notGrazing_real theta ht ht' _ hm.pmgi⟩
  · exact ⟨passive_metal _ _ hm.ni.1 hm.ni.2, notGrazing_metal 1 theta _ _ hm.ni.1 hm.ni.2⟩
  · exact ⟨passive_metal _ _ hm.ti.1 hm.ti.2, notGrazing_metal 1 theta _ _ hm.ti.1 hm.ti.2⟩

theorem occulterCell_eq (m : Materials) (theta lam d0 dti dni dpm : ℝ) (pol : ℤ) (flag : Bool) (o0 o1 : FilmOut)
    (h0 : film (1 : ℝ) (occulterLayers m d0 dti dni dpm) m.nSub theta lam false = .ok o0)
    (h1 : film (1 : ℝ) (occulterLayers m d0 dti dni dpm) m.nSub theta lam true = .ok o1) (hp : pol = 0 ∨ pol = 1 ∨ pol = 2) :
    occulterCell m theta lam d0 dti dni dpm pol flag =
      (let p : ℂ × ℂ := if pol = 2 then ((o0.tt + o1.tt) / 2, (o0.rr + o1.rr) / 2) else if pol = 1 then (o1.tt, o1.rr) else (o0.tt, o0.rr)
       .ok (if flag then p else ((starRingEnd ℂ) p.1, (starRingEnd ℂ) p.2))) := by
  simp only [film, occulterLayers, List.map_cons, List.map_nil, List.cons_append, List.nil_append, Complex.ofReal_one] at h0 h1
  unfold occulterCell
  simp only [h0, h1]
  rcases hp with rfl | rfl | rfl <;> cases flag <;> simp [h0, h1, bind, Except.bind]

theorem norm_half (a b : ℂ) (ha : ‖a‖ ≤ 1) (hb : ‖b‖ ≤ 1) : ‖(a + b) / 2‖ ≤ 1 := by
  rw [norm_div, Complex.norm_two, div_le_one two_pos]
  linarith [norm_add_le a b]

theorem mapM_ok {α β : Type} (f : α → Res β) (g : α → β) (l : List α) (h : ∀ x ∈ l, f x = .ok (g x)) :
    l.mapM f = .ok (l.map g) := by
  induction l with
  | nil => rfl
  | cons a l ih =>
    rw [List.mapM_cons, h a (by simp), ih fun x hx => h x (by simp [hx])]
    rfl

/-- The arguments `calc_complex_occulter` accepts. -/
structure OcculterArgs (lam aoi : ℝ) (tTi tNi tPmgi : List ℝ) (d0 : ℝ) (pol : ℤ) : Prop where
  lam_pos : 0 < lam
  aoi_nonneg : 0 ≤ aoi
  aoi_lt : aoi < 90
  len : tTi.length = tNi.length ∧ tNi.length = tPmgi.length
  d0_pos : 0 < d0
  pol : pol = 0 ∨ pol = 1 ∨ pol = 2

theorem occulter_loop (mat : ℝ → Materials) {lam aoi : ℝ} {tTi tNi tPmgi : List ℝ} {d0 : ℝ} {pol : ℤ}
    (h : OcculterArgs lam aoi tTi tNi tPmgi d0 pol) (flag : Bool) (sub : Substrate) (hs : sub = .FS ∨ sub = .FUSEDSILICA) :
    calcComplexOcculter mat lam aoi tTi tNi tPmgi d0 pol flag sub =
      (List.range tNi.length).mapM fun ii =>
        occulterCell (mat lam) (aoi * (Real.pi / 180)) lam d0 (tTi.getD ii 0) (tNi.getD ii 0) (tPmgi.getD ii 0) pol flag := by
  unfold calcComplexOcculter
  rw [if_neg (not_le.2 h.lam_pos), if_neg (not_lt.2 h.aoi_nonneg), if_neg (not_le.2 h.aoi_lt),
    if_neg (by simp [h.len.1, h.len.2]), if_neg (not_le.2 h.d0_pos), if_neg (not_not.2 h.pol)]
  rcases hs with rfl | rfl <;> rfl

theorem OcculterArgs.theta {lam aoi : ℝ} {tTi tNi tPmgi : List ℝ} {d0 : ℝ} {pol : ℤ}
    (h : OcculterArgs lam aoi tTi tNi tPmgi d0 pol) : 0 ≤ aoi * (Real.pi / 180) ∧ aoi * (Real.pi / 180) < Real.pi / 2 := by
  have := h.aoi_nonneg
  have := h.aoi_lt
  have := Real.pi_pos
  constructor
  · positivity
  · nlinarith

/-- **C71.** Every cell of an occulter has transmission and reflection of modulus at most 1, for every list of layer thicknesses
that fit below the reference height, at every wavelength, angle and polarisation choice, in both phase conventions. -/
theorem C71_occulter_bounded (mat : ℝ → Materials) {lam aoi : ℝ} {tTi tNi tPmgi : List ℝ} {d0 : ℝ} {pol : ℤ}
    (h : OcculterArgs lam aoi tTi tNi tPmgi d0 pol) (hm : MaterialsOK (mat lam))
    (ht : ∀ ii < tNi.length, 0 ≤ tTi.getD ii 0 ∧ 0 ≤ tNi.getD ii 0 ∧ 0 ≤ tPmgi.getD ii 0 ∧
      tTi.getD ii 0 + tNi.getD ii 0 + tPmgi.getD ii 0 ≤ d0)
    (flag : Bool) (sub : Substrate) (hs : sub = .FS ∨ sub = .FUSEDSILICA) :
    ∃ cells, calcComplexOcculter mat lam aoi tTi tNi tPmgi d0 pol flag sub = .ok cells ∧ cells.length = tNi.length ∧
      ∀ p ∈ cells, ‖p.1‖ ≤ 1 ∧ ‖p.2‖ ≤ 1 := by
  obtain ⟨h0, h1⟩ := h.theta
  have key : ∀ ii ∈ List.range tNi.length, ∃ p : ℂ × ℂ, occulterCell (mat lam) (aoi * (Real.pi / 180)) lam d0 (tTi.getD ii 0)
      (tNi.getD ii 0) (tPmgi.getD ii 0) pol flag = .ok p ∧ ‖p.1‖ ≤ 1 ∧ ‖p.2‖ ≤ 1 := by
    intro ii hii
    obtain ⟨t1, t2, t3, t4⟩ := ht ii (List.mem_range.1 hii)
    have ha := occulter_args hm (aoi * (Real.pi / 180)) lam d0 (tTi.getD ii 0) (tNi.getD ii 0) (tPmgi.getD ii 0) h0 h1 h.lam_pos
    have hd : ∀ a ∈ occulterLayers (mat lam) d0 (tTi.getD ii 0) (tNi.getD ii 0) (tPmgi.getD ii 0), 0 ≤ a.2 := by
      intro a ha
      simp only [occulterLayers, List.mem_cons, List.not_mem_nil, or_false] at ha
      rcases ha with rfl | rfl | rfl | rfl
      · show 0 ≤ d0 - tPmgi.getD ii 0 - tNi.getD ii 0 - tTi.getD ii 0; linarith
      · exact t3
      · exact t2
      · exact t1
    obtain ⟨o0, e0, -, -, -, r0, s0, -⟩ := C69_passive_energy ha hd false
    obtain ⟨o1, e1, -, -, -, r1, s1, -⟩ := C69_passive_energy ha hd true
    refine ⟨_, occulterCell_eq _ _ _ _ _ _ _ pol flag o0 o1 e0 e1 h.pol, ?_⟩
    have hc : ∀ p : ℂ × ℂ, ‖p.1‖ ≤ 1 ∧ ‖p.2‖ ≤ 1 →
        ‖(if flag = true then p else ((starRingEnd ℂ) p.1, (starRingEnd ℂ) p.2)).1‖ ≤ 1 ∧
        ‖(if flag = true then p else ((starRingEnd ℂ) p.1, (starRingEnd ℂ) p.2)).2‖ ≤ 1 := by
      intro p hp
      cases flag
      · simpa using hp
      · simpa using hp
    apply hc
    rcases h.pol with rfl | rfl | rfl
    · exact ⟨s0, r0⟩
    · exact ⟨s1, r1⟩
    · exact ⟨norm_half _ _ s0 s1, norm_half _ _ r0 r1⟩
  choose! g hg using key
  refine ⟨(List.range tNi.length).map g, ?_, by simp, ?_⟩
  · rw [occulter_loop mat h flag sub hs]
    exact mapM_ok _ _ _ fun ii hii => (hg ii hii).1
  · intro p hp
    obtain ⟨ii, hii, rfl⟩ := List.mem_map.1 hp
    exact (hg ii hii).2

theorem mapM_map {α β γ : Type} (f : α → Res β) (g : β → γ) (l : List α) :
    l.mapM (fun x => (f x).map g) = (l.mapM f).map (List.map g) := by
  induction l with
  | nil => rfl
  | cons a l ih =>
    rw [List.mapM_cons, List.mapM_cons, ih]
    cases f a with
    | error e => rfl
    | ok b =>
      cases l.mapM f with
      | error e => rfl
      | ok c => rfl

/-- **C71.** The two phase conventions are complex conjugates of each other, whatever the arguments (including the errors). -/
theorem C71_occulter_convention (mat : ℝ → Materials) (lam aoi : ℝ) (tTi tNi tPmgi : List ℝ) (d0 : ℝ) (pol : ℤ) (sub : Substrate) :
    calcComplexOcculter mat lam aoi tTi tNi tPmgi d0 pol false sub =
      (calcComplexOcculter mat lam aoi tTi tNi tPmgi d0 pol true sub).map
        (List.map fun p => ((starRingEnd ℂ) p.1, (starRingEnd ℂ) p.2)) := by
  have hcell : ∀ m theta lam d0 dti dni dpm, occulterCell m theta lam d0 dti dni dpm pol false =
      (occulterCell m theta lam d0 dti dni dpm pol true).map fun p => ((starRingEnd ℂ) p.1, (starRingEnd ℂ) p.2) := by
    intro m theta lam d0 dti dni dpm
    unfold occulterCell
    simp only [Bool.false_eq_true, if_false, if_true]
    split_ifs
    · generalize solver _ _ _ _ false = A
      generalize solver _ _ _ _ true = B
      cases A <;> cases B <;> rfl
    · generalize solver _ _ _ _ _ = A
      cases A <;> rfl
    · rfl
  unfold calcComplexOcculter
  split_ifs
  all_goals first
    | rfl
    | (cases sub
       all_goals first
         | rfl
         | (simp only [hcell]
            rw [← mapM_map]))

/-- **C71.** Cells are independent: entry `ii` is what a call with only the thicknesses of cell `ii` returns. -/
theorem C71_occulter_cellwise (mat : ℝ → Materials) {lam aoi : ℝ} {tTi tNi tPmgi : List ℝ} {d0 : ℝ} {pol : ℤ}
    (h : OcculterArgs lam aoi tTi tNi tPmgi d0 pol) (flag : Bool) (sub : Substrate) (cells : List (ℂ × ℂ))
    (hr : calcComplexOcculter mat lam aoi tTi tNi tPmgi d0 pol flag sub = .ok cells) :
    cells.length = tNi.length ∧ ∀ (ii : ℕ) (hii : ii < cells.length),
      calcComplexOcculter mat lam aoi [tTi.getD ii 0] [tNi.getD ii 0] [tPmgi.getD ii 0] d0 pol flag sub = .ok [cells[ii]] := by
  have hs : sub = .FS ∨ sub = .FUSEDSILICA := by
    unfold calcComplexOcculter at hr
    rw [if_neg (not_le.2 h.lam_pos), if_neg (not_lt.2 h.aoi_nonneg), if_neg (not_le.2 h.aoi_lt),
      if_neg (by simp [h.len.1, h.len.2]), if_neg (not_le.2 h.d0_pos), if_neg (not_not.2 h.pol)] at hr
    cases sub <;> simp_all
  rw [occulter_loop mat h flag sub hs] at hr
  have hone : ∀ ii, calcComplexOcculter mat lam aoi [tTi.getD ii 0] [tNi.getD ii 0] [tPmgi.getD ii 0] d0 pol flag sub =
      (occulterCell (mat lam) (aoi * (Real.pi / 180)) lam d0 (tTi.getD ii 0) (tNi.getD ii 0) (tPmgi.getD ii 0) pol flag).map
        fun p => [p] := by
    intro ii
    have h1 : OcculterArgs lam aoi [tTi.getD ii 0] [tNi.getD ii 0] [tPmgi.getD ii 0] d0 pol :=
      ⟨h.lam_pos, h.aoi_nonneg, h.aoi_lt, ⟨rfl, rfl⟩, h.d0_pos, h.pol⟩
    rw [occulter_loop mat h1 flag sub hs]
    simp only [List.length_cons, List.length_nil, zero_add, List.range_one, List.mapM_cons, List.mapM_nil, List.getD_cons_zero]
    cases occulterCell (mat lam) (aoi * (Real.pi / 180)) lam d0 (tTi.getD ii 0) (tNi.getD ii 0) (tPmgi.getD ii 0) pol flag <;> rfl
  have gen : ∀ (f : ℕ → Res (ℂ × ℂ)) (l : List ℕ) (cs : List (ℂ × ℂ)), l.mapM f = .ok cs →
      cs.length = l.length ∧ ∀ (i : ℕ) (hi : i < cs.length) (hi' : i < l.length), f l[i] = .ok cs[i] := by
    intro f l
    induction l with
    | nil =>
      intro cs hcs
      have : cs = [] := by simpa [pure, Except.pure] using hcs.symm
      subst this
      exact ⟨rfl, fun i hi => absurd hi (by simp)⟩
    | cons a l ih =>
      intro cs hcs
      rw [List.mapM_cons] at hcs
      cases hfa : f a with
      | error e => rw [hfa] at hcs; simp [bind, Except.bind] at hcs
      | ok b =>
        rw [hfa] at hcs
        cases hl : l.mapM f with
        | error e => rw [hl] at hcs; simp [bind, Except.bind] at hcs
        | ok c =>
          rw [hl] at hcs
          have : cs = b :: c := by simpa [bind, Except.bind, pure, Except.pure] using hcs.symm
          subst this
          obtain ⟨h1, h2⟩ := ih c hl
          refine ⟨by simp [h1], ?_⟩
          intro i hi hi'
          cases i with
          | zero => simpa using hfa
          | succ i => simpa using h2 i (by simpa using hi) (by simpa using hi')
  obtain ⟨h1, h2⟩ := gen _ _ _ hr
  rw [List.length_range] at h1
  refine ⟨h1, fun ii hii => ?_⟩
  have := h2 ii hii (by rw [List.length_range]; omega)
  rw [List.getElem_range] at this
  rw [hone, this]; rfl

/-- **C71** (finding).  The substrate names `NBK7`, `N-BK7` and `BK7` pass the argument check, but no call with any of them ever
succeeds. -/
theorem C71_bk7_never_available (mat : ℝ → Materials) (lam aoi : ℝ) (tTi tNi tPmgi : List ℝ) (d0 : ℝ) (pol : ℤ) (flag : Bool)
    (sub : Substrate) (hs : sub = .NBK7 ∨ sub = .NdashBK7 ∨ sub = .BK7) :
    calcComplexOcculter mat lam aoi tTi tNi tPmgi d0 pol flag sub = .error .valueError := by
  unfold calcComplexOcculter
  split_ifs <;> first | rfl | (rcases hs with rfl | rfl | rfl <;> rfl)

/-! ### Total internal reflection: the branch of the square root (finding) -/

theorem csqrt_below (z : ℂ) (hz : z.im < 0) :
    csqrt z = (Real.sqrt ((‖z‖ + z.re) / 2) : ℝ) - Complex.I * (Real.sqrt ((‖z‖ - z.re) / 2) : ℝ) := by
  apply Complex.ext
  · simp [csqrt, Complex.cpow_inv_two_re]
  · simp [csqrt, Complex.cpow_inv_two_im_eq_neg_sqrt hz]

theorem csqrt_neg_real (x : ℝ) (hx : 0 < x) : csqrt (((-(x ^ 2) : ℝ)) : ℂ) = Complex.I * x := by
  apply Complex.ext
  · have : ‖(((-(x ^ 2) : ℝ)) : ℂ)‖ = x ^ 2 := by
      rw [Complex.norm_real, Real.norm_eq_abs, abs_neg, abs_of_pos (by positivity)]
    rw [csqrt, Complex.cpow_inv_two_re, this, Complex.ofReal_re]; simp
  · have : ‖(((-(x ^ 2) : ℝ)) : ℂ)‖ = x ^ 2 := by
      rw [Complex.norm_real, Real.norm_eq_abs, abs_neg, abs_of_pos (by positivity)]
    rw [csqrt, Complex.cpow_inv_two_im_eq_sqrt (Complex.ofReal_im _).ge, this, Complex.ofReal_re]
    rw [show (x ^ 2 - -(x ^ 2)) / 2 = x ^ 2 by ring, Real.sqrt_sq hx.le]; simp

/-- The reflection coefficient of a result. -/
noncomputable def rrOf : Res FilmOut → ℂ
  | .ok o => o.rr
  | .error _ => 0

theorem rr_interface {n0 theta lam : ℝ} {ns : ℂ} (h : FilmArgs n0 [] ns theta lam) (tm : Bool) :
    (∃ o, film n0 [] ns theta lam tm = .ok o) ∧
    rrOf (film n0 [] ns theta lam tm) =
      (tfKzz (kxOf n0 theta lam : ℝ) lam tm n0 - tfKzz (kxOf n0 theta lam : ℝ) lam tm ns) /
      (tfKzz (kxOf n0 theta lam : ℝ) lam tm n0 + tfKzz (kxOf n0 theta lam : ℝ) lam tm ns) := by
  obtain ⟨a, b, e0, e1, hf⟩ := film_eq h tm
  refine ⟨⟨_, hf⟩, ?_⟩
  have hk := (goodK n0 theta lam h.lam_pos tm n0 h.inc.1 h.inc.2)
  have hs := (hk.add (goodK n0 theta lam h.lam_pos tm ns h.sub.1 h.sub.2)).ne
  simp only [stackMat, List.map_nil, List.prod_nil, Matrix.one_apply_eq] at e0 e1
  rw [Matrix.one_apply_ne (by decide)] at e0
  rw [Matrix.one_apply_ne (by decide)] at e1
  rw [hf]
  show b / a = _
  generalize tfKzz (kxOf n0 theta lam : ℝ) lam tm n0 = k0 at *
  generalize tfKzz (kxOf n0 theta lam : ℝ) lam tm ns = ks at *
  have hk := hk.ne
  have ha : a = (k0 + ks) / (2 * k0) := by field_simp; linear_combination k0 * e0 + e1
  have hb : b = (k0 - ks) / (2 * k0) := by field_simp; linear_combination k0 * e0 - e1
  rw [ha, hb]; field_simp

open Filter Topology in
/-- **C72** (finding).  Beyond the critical angle the solver uses, for an exactly real substrate index, the evanescent wave that
grows away from the interface: the reflection coefficient is not real, and it is the complex conjugate of (so different from)
the limit of the coefficients for substrates `n1 - i eps` of vanishing absorption. -/
theorem C72_total_reflection_branch {n0 n1 theta lam : ℝ} (hn0 : 0 < n0) (hn1 : 0 < n1) (ht : 0 ≤ theta) (ht' : theta < Real.pi / 2)
    (hl : 0 < lam) (htir : n1 < n0 * Real.sin theta) :
    ∃ o, film n0 [] n1 theta lam false = .ok o ∧ (starRingEnd ℂ) o.rr ≠ o.rr ∧
      Tendsto (fun eps : ℝ => rrOf (film n0 [] ((n1 : ℂ) - Complex.I * eps) theta lam false)) (𝓝[>] 0) (𝓝 ((starRingEnd ℂ) o.rr)) := by
  have hp : Passive (n1 : ℂ) := ⟨by simpa using hn1, by simp⟩
  have hng : NotGrazing n0 theta n1 := by
    intro he
    have he' : n1 * n1 = n0 * Real.sin theta * (n0 * Real.sin theta) := by exact_mod_cast he
    nlinarith
  have h : FilmArgs n0 [] (n1 : ℂ) theta lam := ⟨hn0, ht, ht', hl, by simp, hp, hng⟩
  have he : ∀ eps : ℝ, 0 < eps → FilmArgs n0 [] ((n1 : ℂ) - Complex.I * eps) theta lam := fun eps hep =>
    ⟨hn0, ht, ht', hl, by simp, passive_metal _ _ hn1 hep, notGrazing_metal n0 theta _ _ hn1 hep⟩
  obtain ⟨⟨o, ho⟩, hr⟩ := rr_interface h false
  refine ⟨o, ho, ?_⟩
  rw [ho] at hr
  have hcos := h.cos_pos
  set q := 2 * Real.pi * n0 * Real.cos theta / lam with hq
  have hq0 : 0 < q := by positivity
  set c := 2 * Real.pi / lam with hc
  have hc0 : 0 < c := by positivity
  set kx := kxOf n0 theta lam with hkx
  have hkxc : kx = c * (n0 * Real.sin theta) := by rw [hkx, hc, kxOf]; ring
  have hpos : 0 < kx ^ 2 - (c * n1) ^ 2 := by
    have : 0 < c ^ 2 * ((n0 * Real.sin theta) ^ 2 - n1 ^ 2) := mul_pos (by positivity) (by nlinarith)
    rw [hkxc]; linarith
  set x := Real.sqrt (kx ^ 2 - (c * n1) ^ 2) with hx
  have hx0 : 0 < x := Real.sqrt_pos.2 hpos
  have hx2 : x ^ 2 = kx ^ 2 - (c * n1) ^ 2 := Real.sq_sqrt hpos.le
  have hk0 : tfKzz (kx : ℝ) lam false n0 = ((-q : ℝ) : ℂ) := by
    show tfKz (kx : ℝ) lam n0 = _
    exact h.kz0
  have harg : (2 * Real.pi * (n1 : ℂ) / lam) ^ 2 - (kx : ℂ) * kx = ((-(x ^ 2) : ℝ) : ℂ) := by
    rw [hx2, hc]; push_cast; ring
  have hks : tfKzz (kx : ℝ) lam false n1 = -(Complex.I * x) := by
    show -csqrt _ = _
    rw [harg, csqrt_neg_real x hx0]
  have hden : ((-q : ℝ) : ℂ) + Complex.I * x ≠ 0 := by
    intro h0
    have := congrArg Complex.re h0
    simp at this; linarith
  have hden' : ((-q : ℝ) : ℂ) - Complex.I * x ≠ 0 := by
    intro h0
    have := congrArg Complex.re h0
    simp at this; linarith
  have hrr : o.rr = (((-q : ℝ) : ℂ) + Complex.I * x) / (((-q : ℝ) : ℂ) - Complex.I * x) := by
    have : o.rr = _ := hr
    rw [this, hk0, hks]; ring_nf
  have hconj : (starRingEnd ℂ) o.rr = (((-q : ℝ) : ℂ) - Complex.I * x) / (((-q : ℝ) : ℂ) + Complex.I * x) := by
    rw [hrr, map_div₀, map_add, map_sub, map_mul, Complex.conj_I, Complex.conj_ofReal, Complex.conj_ofReal]
    ring_nf
  constructor
  · rw [hconj, hrr, Ne, div_eq_div_iff hden hden']
    intro h0
    have := congrArg Complex.im h0
    simp [Complex.mul_im] at this
    nlinarith [mul_pos hq0 hx0]
  · rw [hconj]
    have hform : ∀ eps : ℝ, 0 < eps → rrOf (film n0 [] ((n1 : ℂ) - Complex.I * eps) theta lam false) =
        (((-q : ℝ) : ℂ) - tfKz (kx : ℝ) lam ((n1 : ℂ) - Complex.I * eps)) /
        (((-q : ℝ) : ℂ) + tfKz (kx : ℝ) lam ((n1 : ℂ) - Complex.I * eps)) := by
      intro eps hep
      rw [(rr_interface (he eps hep) false).2]
      show (tfKzz (kx : ℝ) lam false n0 - _) / (tfKzz (kx : ℝ) lam false n0 + _) = _
      rw [hk0]; rfl
    have hZ : Tendsto (fun eps : ℝ => (2 * Real.pi * ((n1 : ℂ) - Complex.I * eps) / lam) ^ 2 - (kx : ℂ) * kx) (𝓝[>] 0)
        (𝓝 ((-(x ^ 2) : ℝ) : ℂ)) := by
      have hcont : Continuous fun eps : ℝ => (2 * Real.pi * ((n1 : ℂ) - Complex.I * eps) / lam) ^ 2 - (kx : ℂ) * kx := by
        fun_prop
      have := hcont.tendsto 0
      rw [Complex.ofReal_zero, mul_zero, sub_zero, harg] at this
      exact this.mono_left nhdsWithin_le_nhds
    have hkz : Tendsto (fun eps : ℝ => tfKz (kx : ℝ) lam ((n1 : ℂ) - Complex.I * eps)) (𝓝[>] 0) (𝓝 (Complex.I * x)) := by
      have hg : Continuous fun z : ℂ => -(((Real.sqrt ((‖z‖ + z.re) / 2) : ℝ) : ℂ) - Complex.I * ((Real.sqrt ((‖z‖ - z.re) / 2) : ℝ) : ℂ)) := by
        fun_prop
      have hlim := (hg.tendsto ((-(x ^ 2) : ℝ) : ℂ)).comp hZ
      have hnorm : ‖((-(x ^ 2) : ℝ) : ℂ)‖ = x ^ 2 := by
        rw [Complex.norm_real, Real.norm_eq_abs, abs_neg, abs_of_pos (by positivity)]
      have hval : -(((Real.sqrt ((‖((-(x ^ 2) : ℝ) : ℂ)‖ + ((-(x ^ 2) : ℝ) : ℂ).re) / 2) : ℝ) : ℂ) -
          Complex.I * ((Real.sqrt ((‖((-(x ^ 2) : ℝ) : ℂ)‖ - ((-(x ^ 2) : ℝ) : ℂ).re) / 2) : ℝ) : ℂ)) = Complex.I * x := by
        rw [hnorm, Complex.ofReal_re, show (x ^ 2 + -(x ^ 2)) / 2 = 0 by ring, show (x ^ 2 - -(x ^ 2)) / 2 = x ^ 2 by ring,
          Real.sqrt_zero, Real.sqrt_sq hx0.le]
        simp
      rw [hval] at hlim
      refine hlim.congr' ?_
      filter_upwards [self_mem_nhdsWithin] with eps hep
      have hep : 0 < eps := hep
      show -(_ - _) = -csqrt _
      rw [csqrt_below]
      have : (2 * Real.pi * ((n1 : ℂ) - Complex.I * eps) / lam) ^ 2 - (kx : ℂ) * kx =
          ((c ^ 2 * (n1 ^ 2 - eps ^ 2) - kx ^ 2 : ℝ) : ℂ) + ((-(2 * c ^ 2 * n1 * eps) : ℝ) : ℂ) * Complex.I := by
        rw [hc]; push_cast
        linear_combination (2 * Real.pi / lam) ^ 2 * (eps : ℂ) ^ 2 * Complex.I_sq
      rw [this, Complex.add_im, Complex.ofReal_im, Complex.im_ofReal_mul, Complex.I_im]
      have : 0 < 2 * c ^ 2 * n1 * eps := by positivity
      linarith
    have := (tendsto_const_nhds (x := ((-q : ℝ) : ℂ))).sub hkz |>.div ((tendsto_const_nhds (x := ((-q : ℝ) : ℂ))).add hkz) hden
    refine this.congr' ?_
    filter_upwards [self_mem_nhdsWithin] with eps hep
    exact (hform eps hep).symm

/-! ### The hypotheses are met -/

/-- A quarter-wave-like stack of glass and resist on glass, at 30 degrees. -/
theorem exampleFilm : FilmArgs 1 [((3 / 2 : ℝ), 1 / 7), ((2 : ℝ), 1 / 9)] ((3 / 2 : ℝ) : ℂ) (Real.pi / 6) (1 / 2) := by
  have h1 : 0 ≤ Real.pi / 6 := by positivity
  have h2 : Real.pi / 6 < Real.pi / 2 := by linarith [Real.pi_pos]
  refine ⟨one_pos, h1, h2, by norm_num, ?_, passive_real _ (by norm_num), notGrazing_real _ h1 h2 _ (by norm_num)⟩
  intro a ha
  simp only [List.mem_cons, List.not_mem_nil, or_false] at ha
  rcases ha with rfl | rfl
  · exact ⟨passive_real _ (by norm_num), notGrazing_real _ h1 h2 _ (by norm_num)⟩
  · exact ⟨passive_real _ (by norm_num), notGrazing_real _ h1 h2 _ (by norm_num)⟩

example : ∃ o, film (1 : ℝ) [((3 / 2 : ℝ), 1 / 7), ((2 : ℝ), 1 / 9)] ((3 / 2 : ℝ) : ℂ) (Real.pi / 6) (1 / 2) true = .ok o ∧
    o.R + o.T = 1 ∧ 0 ≤ o.R ∧ 0 ≤ o.T ∧ Consistent o := by
  refine C34_lossless_energy exampleFilm ?_ true
  intro a ha
  simp only [List.mem_cons, List.not_mem_nil, or_false] at ha
  rcases ha with rfl | rfl <;> exact ⟨by simp, by simp⟩

/-- Metal on glass meets the hypotheses of the absorbing case and of the occulter. -/
example : OcculterArgs (1 / 2) 5 [3 / 1000, 3 / 1000] [0, 1 / 10] [0, 1 / 20] 4 2 ∧ MaterialsOK ⟨3 / 2, 8 / 5, 2, 3, 2, 4⟩ :=
  ⟨⟨by norm_num, by norm_num, by norm_num, ⟨rfl, rfl⟩, by norm_num, by norm_num⟩,
    ⟨by norm_num, by norm_num, by norm_num, by norm_num⟩⟩

/-- Total reflection does occur: glass to vacuum at 60 degrees. -/
example : (1 : ℝ) < 3 / 2 * Real.sin (Real.pi / 3) := by
  rw [Real.sin_pi_div_three]
  have : (1.7 : ℝ) < Real.sqrt 3 := by rw [Real.lt_sqrt] <;> norm_num
  linarith

end Coralign.Props
