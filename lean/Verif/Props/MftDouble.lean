import Verif.Model.MftDouble
import Verif.Props.Mft
import Verif.Props.CenterDouble
import Verif.Props.ZernikeDouble
import Mathlib.Analysis.SpecialFunctions.Trigonometric.Bounds

/-!
# C110: matrix Fourier transforms in double precision
-/

namespace Coralign.Props

/-! ### Coordinates -/

theorem signed_rounded {n : ℕ} {xD x : ℝ} (hn : n ≤ 2 ^ 50) (h : ∃ r, Rel n r ∧ xD = x * r) (hx : x = 0 ∨ (2 : ℝ) ^ (-1000 : ℤ) ≤ |x|) :
    ∃ r, Rel (n + 1) r ∧ double xD = x * r := by
  rcases le_total 0 x with h0 | h0
  · rw [abs_of_nonneg h0] at hx
    exact rel_rounded hn h hx
  · rw [abs_of_nonpos h0] at hx
    obtain ⟨r, hr, e⟩ := h
    obtain ⟨q, hq, e'⟩ := rel_rounded (x := -x) (xD := -xD) hn ⟨r, hr, by rw [e]; ring⟩ (hx.imp (fun h => by rw [h, neg_zero]) id)
    rw [double_neg] at e'
    exact ⟨q, hq, by linarith⟩

/-- A computed coordinate with three roundings, of ordinary size. -/
def CoordOk (xD x : ℝ) : Prop := (∃ r, Rel 3 r ∧ xD = x * r) ∧ (x = 0 ∨ (2 : ℝ) ^ (-300 : ℤ) ≤ |x|)

/-- Ordinary sampling: between 2⁻¹⁰⁰ and 2¹⁰⁰ pixels. -/
def OrdinarySampling (s : ℝ) : Prop := (2 : ℝ) ^ (-100 : ℤ) ≤ s ∧ s ≤ (2 : ℝ) ^ (100 : ℤ)

theorem OrdinarySampling.pos {s : ℝ} (h : OrdinarySampling s) : 0 < s := lt_of_lt_of_le (two_zpow_pos _) h.1

theorem inv_sampling {s : ℝ} (h : OrdinarySampling s) : (2 : ℝ) ^ (-100 : ℤ) ≤ 1 / s ∧ 1 / s ≤ (2 : ℝ) ^ (100 : ℤ) := by
  have s0 := h.pos
  have e : (2 : ℝ) ^ (-100 : ℤ) * (2 : ℝ) ^ (100 : ℤ) = 1 := by rw [← two_zpow_add]; norm_num
  have a := two_zpow_pos (-100)
  have b := two_zpow_pos (100)
  constructor
  · rw [le_div_iff₀ s0]
    calc (2 : ℝ) ^ (-100 : ℤ) * s ≤ (2 : ℝ) ^ (-100 : ℤ) * (2 : ℝ) ^ (100 : ℤ) := mul_le_mul_of_nonneg_left h.2 a.le
      _ = 1 := e
  · rw [div_le_iff₀ s0]
    calc (1 : ℝ) = (2 : ℝ) ^ (100 : ℤ) * (2 : ℝ) ^ (-100 : ℤ) := by rw [mul_comm, e]
      _ ≤ (2 : ℝ) ^ (100 : ℤ) * s := mul_le_mul_of_nonneg_left h.1 b.le

theorem interval_close (n : ℤ) (s : ℝ) (hn : 0 < n) (hs : OrdinarySampling s) : ∃ x dx, mftIntervalD (double ((n : ℝ) / s)) n = .ok (x, dx) ∧
    (∃ r, Rel 2 r ∧ dx = 1 / s * r) ∧ ∀ k, CoordOk (x k) (((-(n / 2) + k : ℤ) : ℝ) * (1 / s)) := by
  have n1 : (1 : ℝ) ≤ n := by exact_mod_cast hn
  have n0 : (0 : ℝ) < n := by linarith
  obtain ⟨s1, s2⟩ := inv_sampling hs
  have s0 : 0 < 1 / s := lt_of_lt_of_le (two_zpow_pos _) s1
  have hlow : (2 : ℝ) ^ (-1000 : ℤ) ≤ (2 : ℝ) ^ (-100 : ℤ) := two_zpow_mono (by norm_num)
  have h1 : ∃ r, Rel 1 r ∧ double ((n : ℝ) / s) = (n : ℝ) * (1 / s) * r := rel_rounded (n := 0) (by norm_num) ⟨1, rel_one, by ring⟩ (Or.inr ((hlow.trans s1).trans (le_mul_of_one_le_left s0.le n1)))
  obtain ⟨r1, hr1, e1⟩ := h1
  have wpos : 0 < double ((n : ℝ) / s) := by rw [e1]; exact mul_pos (mul_pos n0 s0) hr1.pos
  have h2 : ∃ r, Rel 2 r ∧ double (double ((n : ℝ) / s) / n) = 1 / s * r :=
    rel_rounded (n := 1) (by norm_num) ⟨r1, hr1, by rw [e1]; field_simp⟩ (Or.inr (hlow.trans s1))
  refine ⟨_, _, by unfold mftIntervalD; rw [if_neg (not_le.mpr wpos), if_neg (not_le.mpr hn)], h2, fun k => ?_⟩
  obtain ⟨r2, hr2, e2⟩ := h2
  have size : ((-(n / 2) + k : ℤ) : ℝ) * (1 / s) = 0 ∨ (2 : ℝ) ^ (-300 : ℤ) ≤ |((-(n / 2) + k : ℤ) : ℝ) * (1 / s)| := by
    by_cases hk : (-(n / 2) + k : ℤ) = 0
    · left; rw [hk]; simp
    · right
      rw [abs_mul, abs_of_pos s0]
      have : (1 : ℝ) ≤ |((-(n / 2) + k : ℤ) : ℝ)| := by
        rw [← Int.cast_abs]
        exact_mod_cast Int.one_le_abs hk
      have h3 : (2 : ℝ) ^ (-300 : ℤ) ≤ (2 : ℝ) ^ (-100 : ℤ) := two_zpow_mono (by norm_num)
      exact (h3.trans s1).trans (le_mul_of_one_le_left s0.le this)
  refine ⟨signed_rounded (n := 2) (by norm_num) ⟨r2, hr2, ?_⟩ (size.imp id fun h => le_trans (two_zpow_mono (by norm_num)) h), size⟩
  rw [e2]
  ring

/-! ### Phase factors -/

theorem cis_close (s t : ℝ) : ‖cis s - cis t‖ ≤ 2 * Real.pi * |s - t| := by
  have e : cis s - cis t = cis t * (Complex.exp (Complex.I * ((2 * Real.pi * (s - t) : ℝ) : ℂ)) - 1) := by
    rw [mul_sub, mul_one]
    congr 1
    unfold cis
    rw [← Complex.exp_add]
    congr 1
    push_cast
    ring
  rw [e, norm_mul, norm_cis, one_mul]
  refine Real.norm_exp_I_mul_ofReal_sub_one_le.trans ?_
  rw [Real.norm_eq_abs, abs_mul, abs_of_pos (by positivity)]

theorem expI_cis (θ : ℝ) : Complex.exp (θ * Complex.I) = cis (θ / (2 * Real.pi)) := by
  unfold cis
  congr 1
  have : (Real.pi : ℂ) ≠ 0 := by exact_mod_cast Real.pi_ne_zero
  push_cast
  field_simp

/-- The complex exponential is computed to four units of the last place. -/
def CloseExp (R : MftRoutines) : Prop := ∀ θ : ℝ, ‖R.expI θ - Complex.exp (θ * Complex.I)‖ ≤ 4 / 2 ^ 52

theorem factor_close (R : MftRoutines) (hE : CloseExp R) (s : ℝ) (hs : s = 1 ∨ s = -1) (xD x yD y W : ℝ) (hx : CoordOk xD x) (hy : CoordOk yD y) (hW : |x * y| ≤ W / 4) :
    ‖mftFactorD R s xD yD - cis (s * (x * y))‖ ≤ (4 + 15 * W) / 2 ^ 52 := by
  obtain ⟨⟨rx, hrx, ex⟩, sx⟩ := hx
  obtain ⟨⟨ry, hry, ey⟩, sy⟩ := hy
  have sxy : x * y = 0 ∨ (2 : ℝ) ^ (-600 : ℤ) ≤ |x * y| := by
    rcases sx with h | h
    · left; rw [h, zero_mul]
    rcases sy with h' | h'
    · left; rw [h', mul_zero]
    · right
      rw [abs_mul, show (-600 : ℤ) = -300 + -300 by norm_num, two_zpow_add]
      exact mul_le_mul h h' (two_zpow_pos _).le (abs_nonneg _)
  have hlow : (2 : ℝ) ^ (-1000 : ℤ) ≤ (2 : ℝ) ^ (-600 : ℤ) := two_zpow_mono (by norm_num)
  obtain ⟨q, hq, eq⟩ := signed_rounded (n := 6) (xD := xD * yD) (x := x * y) (by norm_num) ⟨rx * ry, hrx.mul hry, by rw [ex, ey]; ring⟩ (sxy.imp id fun h => hlow.trans h)
  have hpi : (3 : ℝ) < Real.pi := Real.pi_gt_three
  have hpi2 : Real.pi < 3.15 := Real.pi_lt_d2
  obtain ⟨w, hw, ew⟩ := rel_rounded (n := 0) (xD := Real.pi) (x := Real.pi) (by norm_num) ⟨1, rel_one, by ring⟩
    (Or.inr (le_trans (show (2 : ℝ) ^ (-1000 : ℤ) ≤ (2 : ℝ) ^ (0 : ℤ) from two_zpow_mono (by norm_num)) (by rw [zpow_zero]; linarith)))
  have sabs : |s| = 1 := by rcases hs with h | h <;> rw [h] <;> norm_num
  obtain ⟨v, hv, ev⟩ := signed_rounded (n := 8) (xD := s * (2 * double Real.pi) * double (xD * yD)) (x := 2 * Real.pi * (s * (x * y))) (by norm_num)
    ⟨w * q, (hw.mul hq).mono (by norm_num), by rw [ew, eq]; ring⟩ (by
      rcases sxy with h | h
      · left; rw [h]; ring
      · right
        rw [abs_mul, abs_mul s, sabs, one_mul, abs_of_pos (by positivity)]
        nlinarith [abs_nonneg (x * y)])
  unfold mftFactorD
  rw [ev]
  have t1 := hE (2 * Real.pi * (s * (x * y)) * v)
  rw [expI_cis] at t1
  have e3 : 2 * Real.pi * (s * (x * y)) * v / (2 * Real.pi) = s * (x * y) * v := by
    field_simp
  rw [e3] at t1
  have t2 := cis_close (s * (x * y) * v) (s * (x * y))
  have t3 : |s * (x * y) * v - s * (x * y)| ≤ W / 4 * (9 / 2 ^ 52) := by
    rw [show s * (x * y) * v - s * (x * y) = s * (x * y) * (v - 1) by ring, abs_mul, abs_mul s, sabs, one_mul]
    have := hv.leMany (by norm_num)
    push_cast at this
    exact mul_le_mul hW (this.trans (by norm_num)) (abs_nonneg _) (le_trans (abs_nonneg _) hW)
  have W0 : 0 ≤ W := by linarith [abs_nonneg (x * y)]
  have tri := norm_add_le (R.expI (2 * Real.pi * (s * (x * y)) * v) - cis (s * (x * y) * v)) (cis (s * (x * y) * v) - cis (s * (x * y)))
  rw [sub_add_sub_cancel] at tri
  refine tri.trans ?_
  have t4 : 2 * Real.pi * |s * (x * y) * v - s * (x * y)| ≤ 2 * Real.pi * (W / 4 * (9 / 2 ^ 52)) := mul_le_mul_of_nonneg_left t3 (by positivity)
  have t5 : 2 * Real.pi * (W / 4 * (9 / 2 ^ 52)) ≤ 15 * W / 2 ^ 52 := by
    rw [show 2 * Real.pi * (W / 4 * (9 / 2 ^ 52)) = 9 / 2 * Real.pi * W / 2 ^ 52 by ring]
    refine div_le_div_of_nonneg_right ?_ (by norm_num)
    nlinarith
  rw [add_div]
  linarith

/-! ### The two matrix products -/

theorem finRange_sum {M : Type} [AddCommMonoid M] (n : ℕ) (f : Fin n → M) : ((List.finRange n).map f).sum = ∑ i, f i := by
  rw [← List.ofFn_eq_map, List.sum_ofFn]

theorem stage_close {depth : ℕ → ℕ} {dot : List (ℝ × ℝ) → ℝ} (h : RoundedDot depth dot) (n D : ℕ) (hD : D + 1 ≤ 2 ^ 50) (hd : depth (2 * n) ≤ D) (a' a b' b : Fin n → ℂ)
    (A B : Fin n → ℝ) (α β τ : ℝ) (hα : 1 ≤ α) (hτ : 0 ≤ τ) (hA : ∀ i, ‖a i‖ ≤ A i) (hB : ∀ i, ‖b i‖ ≤ B i)
    (ha : ∀ i, ‖a' i - a i‖ ≤ (α - 1) * A i + τ) (hb : ∀ i, ‖b' i - b i‖ ≤ (β - 1) * B i) :
    ‖complexDot dot ((List.finRange n).map fun i => (a' i, b' i)) - ∑ i, a i * b i‖ ≤
      ((1 + 2 * (D + 1) / 2 ^ 52) * (α * β) - 1) * ∑ i, A i * B i + (1 + 2 * (D + 1) / 2 ^ 52) * (β * τ) * ∑ i, B i + 16 * n * underflow := by
  have e := complexDot_error h ((List.finRange n).map fun i => (a' i, b' i)) (by rw [List.length_map, List.length_finRange]; omega)
  rw [List.length_map, List.length_finRange, List.map_map, List.map_map, finRange_sum, finRange_sum] at e
  simp only [Function.comp_apply] at e
  have A0 : ∀ i, 0 ≤ A i := fun i => (norm_nonneg _).trans (hA i)
  have B0 : ∀ i, 0 ≤ B i := fun i => (norm_nonneg _).trans (hB i)
  have na : ∀ i, ‖a' i‖ ≤ α * A i + τ := fun i => by
    have := norm_add_le (a' i - a i) (a i)
    rw [sub_add_cancel] at this
    linarith [ha i, hA i]
  have nb : ∀ i, ‖b' i‖ ≤ β * B i := fun i => by
    have := norm_add_le (b' i - b i) (b i)
    rw [sub_add_cancel] at this
    linarith [hb i, hB i]
  have s1 : ∑ i, ‖a' i‖ * ‖b' i‖ ≤ α * β * ∑ i, A i * B i + β * τ * ∑ i, B i := by
    rw [Finset.mul_sum, Finset.mul_sum, ← Finset.sum_add_distrib]
    refine Finset.sum_le_sum fun i _ => ?_
    calc ‖a' i‖ * ‖b' i‖ ≤ (α * A i + τ) * (β * B i) := mul_le_mul (na i) (nb i) (norm_nonneg _) (by nlinarith [A0 i])
      _ = _ := by ring
  have s2 : ‖∑ i, a' i * b' i - ∑ i, a i * b i‖ ≤ (α * β - 1) * ∑ i, A i * B i + β * τ * ∑ i, B i := by
    rw [← Finset.sum_sub_distrib, Finset.mul_sum, Finset.mul_sum, ← Finset.sum_add_distrib]
    refine (norm_sum_le _ _).trans (Finset.sum_le_sum fun i _ => ?_)
    have e1 : a' i * b' i - a i * b i = a' i * (b' i - b i) + (a' i - a i) * b i := by ring
    rw [e1]
    refine (norm_add_le _ _).trans ?_
    rw [norm_mul, norm_mul]
    calc ‖a' i‖ * ‖b' i - b i‖ + ‖a' i - a i‖ * ‖b i‖ ≤ (α * A i + τ) * ((β - 1) * B i) + ((α - 1) * A i + τ) * B i :=
          add_le_add (mul_le_mul (na i) (hb i) (norm_nonneg _) (by nlinarith [A0 i])) (mul_le_mul (ha i) (hB i) (norm_nonneg _) (by nlinarith [A0 i]))
      _ = _ := by ring
  have hδ : 2 * ((depth (2 * n) : ℝ) + 1) / 2 ^ 52 ≤ 2 * (D + 1) / 2 ^ 52 := by
    have : (depth (2 * n) : ℝ) ≤ D := by exact_mod_cast hd
    refine div_le_div_of_nonneg_right (by linarith) (by norm_num)
  have tri := norm_add_le (complexDot dot ((List.finRange n).map fun i => (a' i, b' i)) - ∑ i, a' i * b' i) (∑ i, a' i * b' i - ∑ i, a i * b i)
  rw [sub_add_sub_cancel] at tri
  have P0 : 0 ≤ ∑ i, ‖a' i‖ * ‖b' i‖ := Finset.sum_nonneg fun i _ => mul_nonneg (norm_nonneg _) (norm_nonneg _)
  have δ0 : (0 : ℝ) ≤ 2 * (D + 1) / 2 ^ 52 := by positivity
  have e' := e.trans (add_le_add_left (mul_le_mul_of_nonneg_right hδ P0) _)
  have s3 := mul_le_mul_of_nonneg_left s1 δ0
  generalize (2 * ((D : ℝ) + 1) / 2 ^ 52) = δ at *
  refine tri.trans ((add_le_add e' s2).trans ?_)
  linarith

/-! ### The scale factors -/

theorem scaleD_close (zD z : ℂ) (B g τ cD c ρ : ℝ) (hB : ‖z‖ ≤ B) (hz : ‖zD - z‖ ≤ (g - 1) * B + τ) (hg : 1 ≤ g) (hτ : 0 ≤ τ) (hc : 0 < c)
    (hcD : |cD - c| ≤ c * ρ) : ‖scaleD zD cD - z * c‖ ≤ ((1 + roundoff) * (1 + ρ) * g - 1) * (B * c) + (1 + roundoff) * (1 + ρ) * c * τ + 2 * underflow := by
  have u0 : 0 < roundoff := two_zpow_pos _
  have B0 : 0 ≤ B := (norm_nonneg _).trans hB
  have nz : ‖zD‖ ≤ g * B + τ := by
    have := norm_add_le (zD - z) z
    rw [sub_add_cancel] at this
    linarith
  have ncD : |cD| ≤ c * (1 + ρ) := by
    have := abs_add_le (cD - c) c
    rw [sub_add_cancel, abs_of_pos hc] at this
    linarith
  -- rounding of the parts
  have r1 : ‖scaleD zD cD - zD * cD‖ ≤ roundoff * (‖zD‖ * |cD|) + 2 * underflow := by
    have η0 := underflow_gt
    have hre := double_error (zD.re * cD)
    have him := double_error (zD.im * cD)
    have e1 : (scaleD zD cD - zD * cD).re = double (zD.re * cD) - zD.re * cD := by simp [scaleD]
    have e2 : (scaleD zD cD - zD * cD).im = double (zD.im * cD) - zD.im * cD := by simp [scaleD]
    -- the norm of the error is below the norm of the bounds
    set p := scaleD zD cD - zD * cD
    have nrm : ‖(⟨roundoff * |zD.re * cD|, roundoff * |zD.im * cD|⟩ : ℂ)‖ = roundoff * (‖zD‖ * |cD|) := by
      rw [complex_norm_sqrt, complex_norm_sqrt]
      simp only
      rw [show (roundoff * |zD.re * cD|) ^ 2 + (roundoff * |zD.im * cD|) ^ 2 = (roundoff * |cD|) ^ 2 * (zD.re ^ 2 + zD.im ^ 2) by
        rw [mul_pow, mul_pow, sq_abs, sq_abs, mul_pow roundoff, sq_abs]; ring]
      rw [Real.sqrt_mul (by positivity), Real.sqrt_sq (by positivity)]
      ring
    have le : ‖p‖ ≤ ‖(⟨roundoff * |zD.re * cD| + underflow, roundoff * |zD.im * cD| + underflow⟩ : ℂ)‖ := by
      rw [complex_norm_sqrt, complex_norm_sqrt]
      refine Real.sqrt_le_sqrt (add_le_add ?_ ?_)
      · rw [← sq_abs p.re, e1]; exact pow_le_pow_left₀ (abs_nonneg _) hre 2
      · rw [← sq_abs p.im, e2]; exact pow_le_pow_left₀ (abs_nonneg _) him 2
    refine le.trans ?_
    have e3 : (⟨roundoff * |zD.re * cD| + underflow, roundoff * |zD.im * cD| + underflow⟩ : ℂ) =
        ⟨roundoff * |zD.re * cD|, roundoff * |zD.im * cD|⟩ + ⟨underflow, underflow⟩ := by
      apply Complex.ext <;> simp
    rw [e3]
    refine (norm_add_le _ _).trans ?_
    rw [nrm]
    have : ‖(⟨underflow, underflow⟩ : ℂ)‖ ≤ 2 * underflow := by
      refine (Complex.norm_le_abs_re_add_abs_im _).trans ?_
      rw [abs_of_pos η0]
      linarith
    linarith
  have r2 : ‖zD * cD - z * c‖ ≤ ((1 + ρ) * g - 1) * (B * c) + (1 + ρ) * c * τ := by
    have e1 : zD * cD - z * c = (zD - z) * cD + z * ((cD - c : ℝ) : ℂ) := by push_cast; ring
    rw [e1]
    refine (norm_add_le _ _).trans ?_
    rw [norm_mul, norm_mul, Complex.norm_real, Complex.norm_real, Real.norm_eq_abs, Real.norm_eq_abs]
    calc ‖zD - z‖ * |cD| + ‖z‖ * |cD - c| ≤ ((g - 1) * B + τ) * (c * (1 + ρ)) + B * (c * ρ) :=
          add_le_add (mul_le_mul hz ncD (abs_nonneg _) (by nlinarith)) (mul_le_mul hB hcD (abs_nonneg _) B0)
      _ = _ := by ring
  have r3 : ‖zD‖ * |cD| ≤ (g * B + τ) * (c * (1 + ρ)) := mul_le_mul nz ncD (abs_nonneg _) (by nlinarith)
  have r4 := mul_le_mul_of_nonneg_left r3 u0.le
  have tri := norm_add_le (scaleD zD cD - zD * cD) (zD * cD - z * c)
  rw [sub_add_sub_cancel] at tri
  calc _ ≤ roundoff * ((g * B + τ) * (c * (1 + ρ))) + 2 * underflow + (((1 + ρ) * g - 1) * (B * c) + (1 + ρ) * c * τ) := by linarith
    _ = _ := by ring

theorem small_growth (x y u v : ℝ) (hx : 0 ≤ x) (hy : 0 ≤ y) (hu : 0 ≤ u) (hv : 0 ≤ v) (h : 2 * (x + y + u + v) ≤ 1) :
    (1 + u) * (1 + v) * ((1 + u) * (1 + v) * ((1 + x) * ((1 + x) * (1 + y) * (1 + y)))) - 1 ≤ 4 * (x + y + u + v) := by
  have e1 : ∀ t : ℝ, 1 + t ≤ Real.exp t := fun t => by linarith [Real.add_one_le_exp t]
  have sq : ∀ t : ℝ, 0 ≤ t → (1 + t) ^ 2 ≤ Real.exp (2 * t) := fun t ht => by
    rw [two_mul, Real.exp_add, ← sq]
    exact pow_le_pow_left₀ (by linarith) (e1 t) 2
  have key : (1 + u) * (1 + v) * ((1 + u) * (1 + v) * ((1 + x) * ((1 + x) * (1 + y) * (1 + y)))) ≤ Real.exp (2 * (x + y + u + v)) := by
    rw [show (1 + u) * (1 + v) * ((1 + u) * (1 + v) * ((1 + x) * ((1 + x) * (1 + y) * (1 + y)))) = (1 + x) ^ 2 * (1 + y) ^ 2 * (1 + u) ^ 2 * (1 + v) ^ 2 by ring,
      show 2 * (x + y + u + v) = 2 * x + 2 * y + 2 * u + 2 * v by ring, Real.exp_add, Real.exp_add, Real.exp_add]
    have := sq x hx
    have := sq y hy
    have := sq u hu
    have := sq v hv
    gcongr
  have b := Real.abs_exp_sub_one_le (x := 2 * (x + y + u + v)) (by rw [abs_of_nonneg (by positivity)]; exact h)
  rw [abs_of_nonneg (show 0 ≤ 2 * (x + y + u + v) by positivity)] at b
  have := le_of_abs_le b
  linarith

theorem two_bound {x y : ℝ} (hx : 0 ≤ x) (hy : 0 ≤ y) (h : x + y ≤ 1 / 4) : (1 + x) * (1 + y) ≤ 2 := by nlinarith

theorem tail_small (τ d A : ℝ) (N : ℝ) (hN : N ≤ 2 ^ 50) (hd : 0 < d) (hd2 : d ≤ (2 : ℝ) ^ (100 : ℤ)) (hA : 0 ≤ A) (hA2 : A ≤ 2) (hτ : 0 ≤ τ) (hτ2 : τ ≤ 48 * N * underflow) :
    A * d * (A * d * τ + 2 * underflow) + 2 * underflow ≤ (2 : ℝ) ^ (-800 : ℤ) := by
  have η0 := underflow_gt
  have P : (1 : ℝ) ≤ (2 : ℝ) ^ (100 : ℤ) := by rw [← zpow_zero (2 : ℝ)]; exact two_zpow_mono (by norm_num)
  have e : (2 : ℝ) ^ (-800 : ℤ) = (2 : ℝ) ^ (100 : ℤ) * (2 : ℝ) ^ (100 : ℤ) * (2 ^ 75 * underflow) := by
    rw [underflow, ← zpow_natCast (2 : ℝ) 75, ← two_zpow_add, ← two_zpow_add, ← two_zpow_add]
    norm_num
  rw [e]
  generalize (2 : ℝ) ^ (100 : ℤ) = Q at *
  have τb : τ ≤ 2 ^ 60 * underflow := hτ2.trans (mul_le_mul_of_nonneg_right (by linarith) η0.le)
  have Ad : A * d ≤ 2 * Q := mul_le_mul hA2 hd2 hd.le (by norm_num)
  have Ad0 : 0 ≤ A * d := mul_nonneg hA hd.le
  have s1 : A * d * τ ≤ 2 * Q * (2 ^ 60 * underflow) := mul_le_mul Ad τb hτ (by linarith)
  have Qη : underflow ≤ Q * underflow := le_mul_of_one_le_left η0.le P
  have s2 : A * d * τ + 2 * underflow ≤ Q * (2 ^ 62 * underflow) := by linarith
  have s3 : A * d * (A * d * τ + 2 * underflow) ≤ 2 * Q * (Q * (2 ^ 62 * underflow)) := mul_le_mul Ad s2 (by positivity) (by linarith)
  have QQη : underflow ≤ Q * (Q * underflow) := Qη.trans (mul_le_mul_of_nonneg_left Qη (by linarith))
  calc _ ≤ 2 * Q * (Q * (2 ^ 62 * underflow)) + 2 * (Q * (Q * underflow)) := by linarith
    _ ≤ Q * Q * (2 ^ 75 * underflow) := by
      have : 0 ≤ Q * (Q * underflow) := by positivity
      linarith

/-- Total magnitude of a field. -/
noncomputable def fieldSum (e : Arr2 ℂ) : ℝ := ∑ j : Fin e.nc, ∑ i : Fin e.nr, ‖e.val i j‖

theorem product_close (R : MftRoutines) (depth : ℕ → ℕ) (hR : RoundedDot depth R.dot) (hE : CloseExp R) (s : ℝ) (hs : s = 1 ∨ s = -1) (e : Arr2 ℂ) (hr : 0 < e.nr)
    (hc : 0 < e.nc) (hN : e.nr * e.nc ≤ 2 ^ 50) (D : ℕ) (hD : D ≤ 2 ^ 40) (hdr : depth (2 * e.nr) ≤ D) (hdc : depth (2 * e.nc) ≤ D) (W : ℝ) (hW : W ≤ 2 ^ 40) (n m : ℕ)
    (rowD row colD col rppD rpp cppD cpp : ℕ → ℝ) (k1 : ∀ k, CoordOk (rowD k) (row k)) (k2 : ∀ k, CoordOk (colD k) (col k)) (k3 : ∀ k, CoordOk (rppD k) (rpp k))
    (k4 : ∀ k, CoordOk (cppD k) (cpp k)) (p : Fin n) (q : Fin m) (w1 : ∀ i : Fin e.nr, |rpp p * row i| ≤ W / 4) (w2 : ∀ j : Fin e.nc, |col j * cpp q| ≤ W / 4)
    (drD dcD d : ℝ) (hd1 : 0 < d) (hd2 : d ≤ (2 : ℝ) ^ (100 : ℤ)) (d1 : ∃ r, Rel 2 r ∧ drD = d * r) (d2 : ∃ r, Rel 2 r ∧ dcD = d * r) :
    ‖(mftProductD R s e n m rowD colD rppD cppD drD dcD).val p q - (mftProduct s e n m row col rpp cpp d d).val p q‖ ≤
      (8 * D + 34 + 60 * W) / 2 ^ 52 * (fieldSum e * d ^ 2) + (2 : ℝ) ^ (-800 : ℤ) := by
  have W0 : 0 ≤ W := by have := (abs_nonneg _).trans (w1 ⟨0, hr⟩); linarith
  have η0 := underflow_gt
  have DR : (D : ℝ) ≤ 2 ^ 40 := by exact_mod_cast hD
  have D0 : (0 : ℝ) ≤ D := Nat.cast_nonneg D
  obtain ⟨ε, hε⟩ : ∃ ε, ε = (4 + 15 * W) / 2 ^ 52 := ⟨_, rfl⟩
  obtain ⟨δ, hδ⟩ : ∃ δ : ℝ, δ = 2 * (D + 1) / 2 ^ 52 := ⟨_, rfl⟩
  have ε0 : 0 ≤ ε := by rw [hε]; positivity
  have δ0 : 0 ≤ δ := by rw [hδ]; positivity
  have small : 2 * (δ + ε + roundoff + 2 / 2 ^ 52) ≤ 1 / 4 := by
    rw [hε, hδ, roundoff_eq]
    norm_num
    linarith
  have u0 : 0 < roundoff := two_zpow_pos _
  -- first product
  have st1 : ∀ j : Fin e.nc, ‖complexDot R.dot ((List.finRange e.nr).map fun (i : Fin e.nr) => (mftFactorD R s (rppD p) (rowD i), e.val i j)) -
      ∑ i : Fin e.nr, cis (s * (rpp p * row i)) * e.val i j‖ ≤ ((1 + δ) * (1 + ε) - 1) * (∑ i : Fin e.nr, ‖e.val i j‖) + 16 * e.nr * underflow := by
    intro j
    have := stage_close hR e.nr D (by omega) hdr (fun i => mftFactorD R s (rppD p) (rowD i)) (fun i => cis (s * (rpp p * row i))) (fun i => e.val i j) (fun i => e.val i j)
      (fun _ => 1) (fun i => ‖e.val i j‖) (1 + ε) 1 0 (by linarith) le_rfl (fun i => by rw [norm_cis]) (fun i => le_rfl)
      (fun i => by
        have := factor_close R hE s hs _ _ _ _ W (k3 p) (k1 i) (w1 i)
        rw [← hε] at this
        linarith) (fun i => by simp)
    rw [← hδ] at this
    simp only [one_mul, mul_one, mul_zero, zero_mul, add_zero] at this
    exact this
  -- second product
  have exactNorm : ∀ j : Fin e.nc, ‖∑ i : Fin e.nr, cis (s * (rpp p * row i)) * e.val i j‖ ≤ ∑ i : Fin e.nr, ‖e.val i j‖ := fun j =>
    (norm_sum_le _ _).trans (Finset.sum_le_sum fun i _ => by rw [norm_mul, norm_cis, one_mul])
  have st2 := stage_close hR e.nc D (by omega) hdc
    (fun j => complexDot R.dot ((List.finRange e.nr).map fun (i : Fin e.nr) => (mftFactorD R s (rppD p) (rowD i), e.val i j)))
    (fun j => ∑ i : Fin e.nr, cis (s * (rpp p * row i)) * e.val i j) (fun j => mftFactorD R s (colD j) (cppD q)) (fun j => cis (s * (col j * cpp q)))
    (fun j => ∑ i : Fin e.nr, ‖e.val i j‖) (fun _ => 1) ((1 + δ) * (1 + ε)) (1 + ε) (16 * e.nr * underflow) (one_le_mul_of_one_le_of_one_le (by linarith) (by linarith)) (by positivity) exactNorm
    (fun j => by rw [norm_cis]) st1
    (fun j => by
      have := factor_close R hE s hs _ _ _ _ W (k2 j) (k4 q) (w2 j)
      rw [← hε] at this
      linarith)
  rw [← hδ] at st2
  simp only [mul_one] at st2
  rw [Finset.sum_const, Finset.card_univ, Fintype.card_fin, nsmul_eq_mul, mul_one] at st2
  have outNorm : ‖∑ j : Fin e.nc, (∑ i : Fin e.nr, cis (s * (rpp p * row i)) * e.val i j) * cis (s * (col j * cpp q))‖ ≤ fieldSum e :=
    (norm_sum_le _ _).trans (Finset.sum_le_sum fun j _ => by rw [norm_mul, norm_cis, mul_one]; exact exactNorm j)
  obtain ⟨τ, hτ⟩ : ∃ τ : ℝ, τ = (1 + δ) * ((1 + ε) * (16 * e.nr * underflow)) * e.nc + 16 * e.nc * underflow := ⟨_, rfl⟩
  have τ0 : 0 ≤ τ := by rw [hτ]; positivity
  have G1 : 1 ≤ (1 + δ) * ((1 + δ) * (1 + ε) * (1 + ε)) := by
    have a : 1 ≤ 1 + δ := by linarith
    have b : 1 ≤ 1 + ε := by linarith
    exact one_le_mul_of_one_le_of_one_le a (one_le_mul_of_one_le_of_one_le (one_le_mul_of_one_le_of_one_le a b) b)
  have st2' : ‖complexDot R.dot ((List.finRange e.nc).map fun (j : Fin e.nc) => (complexDot R.dot ((List.finRange e.nr).map fun (i : Fin e.nr) =>
      (mftFactorD R s (rppD p) (rowD i), e.val i j)), mftFactorD R s (colD j) (cppD q))) -
      ∑ j : Fin e.nc, (∑ i : Fin e.nr, cis (s * (rpp p * row i)) * e.val i j) * cis (s * (col j * cpp q))‖ ≤
      ((1 + δ) * ((1 + δ) * (1 + ε) * (1 + ε)) - 1) * fieldSum e + τ := by
    rw [hτ, ← add_assoc]
    exact st2
  have close2 : ∀ x : ℝ, (∃ r, Rel 2 r ∧ x = d * r) → |x - d| ≤ d * (2 / 2 ^ 52) := fun x hx => by
    have := rel_close (n := 2) (by norm_num) hd1.le hx
    exact_mod_cast this
  have sc1 := scaleD_close _ _ (fieldSum e) _ τ drD d (2 / 2 ^ 52) outNorm st2' G1 τ0 hd1 (close2 _ d1)
  have nn : ‖(∑ j : Fin e.nc, (∑ i : Fin e.nr, cis (s * (rpp p * row i)) * e.val i j) * cis (s * (col j * cpp q))) * (d : ℂ)‖ ≤ fieldSum e * d := by
    rw [norm_mul, Complex.norm_real, Real.norm_eq_abs, abs_of_pos hd1]
    exact mul_le_mul_of_nonneg_right outNorm hd1.le
  have G2 : 1 ≤ (1 + roundoff) * (1 + 2 / 2 ^ 52) * ((1 + δ) * ((1 + δ) * (1 + ε) * (1 + ε))) :=
    one_le_mul_of_one_le_of_one_le (one_le_mul_of_one_le_of_one_le (by linarith) (by norm_num)) G1
  have sc2 := scaleD_close _ _ (fieldSum e * d) _ ((1 + roundoff) * (1 + 2 / 2 ^ 52) * d * τ + 2 * underflow) dcD d (2 / 2 ^ 52) nn (by rw [← add_assoc]; exact sc1) G2
    (by positivity) hd1 (close2 _ d2)
  show ‖scaleD (scaleD _ drD) dcD - _‖ ≤ _
  refine sc2.trans ?_
  have g := small_growth δ ε roundoff (2 / 2 ^ 52) δ0 ε0 u0.le (by norm_num) (by linarith)
  have F0 : 0 ≤ fieldSum e * d ^ 2 := mul_nonneg (Finset.sum_nonneg fun j _ => Finset.sum_nonneg fun i _ => norm_nonneg _) (by positivity)
  have main := mul_le_mul_of_nonneg_right g F0
  have coeff : 4 * (δ + ε + roundoff + 2 / 2 ^ 52) = (8 * D + 34 + 60 * W) / 2 ^ 52 := by
    rw [hε, hδ, roundoff_eq]
    ring
  rw [coeff] at main
  have N2 : (e.nr * e.nc : ℝ) ≤ 2 ^ 50 := by exact_mod_cast hN
  have tl := tail_small τ d ((1 + roundoff) * (1 + 2 / 2 ^ 52)) (e.nr * e.nc) N2 hd1 hd2 (by positivity) (two_bound u0.le (by norm_num) (by linarith)) τ0 (by
    rw [hτ]
    have a : (1 + δ) * (1 + ε) ≤ 2 := two_bound δ0 ε0 (by linarith)
    have b : (1 : ℝ) ≤ e.nr := by exact_mod_cast hr
    have c0 : (0 : ℝ) ≤ e.nc := Nat.cast_nonneg _
    have b' : (e.nc : ℝ) ≤ e.nr * e.nc := le_mul_of_one_le_left c0 b
    have c : (1 + δ) * (1 + ε) * (16 * (e.nr * e.nc) * underflow) ≤ 2 * (16 * (e.nr * e.nc) * underflow) := mul_le_mul_of_nonneg_right a (by positivity)
    have d : 16 * e.nc * underflow ≤ 16 * (e.nr * e.nc) * underflow := by
      refine mul_le_mul_of_nonneg_right ?_ η0.le
      linarith
    linarith)
  rw [show fieldSum e * d * d = fieldSum e * d ^ 2 by ring, add_assoc]
  exact add_le_add main tl

theorem half_offset {n : ℕ} (k : Fin n) : |((offc n k : ℤ) : ℝ)| ≤ n / 2 := by
  rw [abs_le]
  unfold offc
  have h1 := k.isLt
  have h2 : (2 : ℝ) * ((n / 2 : ℕ) : ℝ) ≤ n := by exact_mod_cast Nat.mul_div_le n 2
  have h3 : (n : ℝ) ≤ 2 * ((n / 2 : ℕ) : ℝ) + 1 := by exact_mod_cast (by omega : n ≤ 2 * (n / 2) + 1)
  have h4 : ((k : ℕ) : ℝ) + 1 ≤ n := by exact_mod_cast h1
  have h5 : (0 : ℝ) ≤ ((k : ℕ) : ℝ) := Nat.cast_nonneg _
  rw [Int.cast_sub, Int.cast_natCast, Int.cast_natCast]
  constructor <;> linarith

/-- Phases stay below a quarter of the number of fringes. -/
theorem phase_bound (a b : ℝ) (n m s t W : ℝ) (hs : 0 < s) (ht : 0 < t) (ha : |a| ≤ n / 2) (hb : |b| ≤ m / 2) (h : n * m ≤ W * (s * t)) :
    |a * (1 / s) * (b * (1 / t))| ≤ W / 4 := by
  rw [show a * (1 / s) * (b * (1 / t)) = a * b / (s * t) by field_simp, abs_div, abs_mul, abs_of_pos (mul_pos hs ht), div_le_iff₀ (mul_pos hs ht)]
  have := mul_le_mul ha hb (abs_nonneg _) (le_trans (abs_nonneg _) ha)
  linarith

theorem interval_nat (n : ℕ) (s : ℝ) (hn : 0 < n) (hs : OrdinarySampling s) : ∃ x dx, mftIntervalD (double ((n : ℝ) / s)) n = .ok (x, dx) ∧
    (∃ r, Rel 2 r ∧ dx = 1 / s * r) ∧ ∀ k, CoordOk (x k) ((offc n k : ℝ) * (1 / s)) := by
  obtain ⟨x, dx, h, h1, h2⟩ := interval_close n s (by exact_mod_cast hn) hs
  refine ⟨x, dx, by simpa using h, h1, fun k => ?_⟩
  have e : offc n k = -((n : ℤ) / 2) + k := by
    unfold offc
    push_cast
    ring
  rw [e]
  exact h2 k

theorem interval_int (n : ℤ) (s : ℝ) (hn : 0 < n) (hs : OrdinarySampling s) : ∃ x dx, mftIntervalD (double ((n : ℝ) / s)) n = .ok (x, dx) ∧
    (∃ r, Rel 2 r ∧ dx = 1 / s * r) ∧ ∀ k, CoordOk (x k) ((offc n.toNat k : ℝ) * (1 / s)) := by
  obtain ⟨m, rfl⟩ : ∃ m : ℕ, n = m := ⟨n.toNat, by omega⟩
  simpa using interval_nat m s (by omega) hs

theorem arr_val {n m : ℕ} {F G : Fin n → Fin m → ℂ} (h : (⟨n, m, F⟩ : Arr2 ℂ) = ⟨n, m, G⟩) : F = G := by
  rw [Arr2.mk.injEq] at h
  exact eq_of_heq h.2.2

theorem key_eq {x y z : ℂ} {b : ℝ} (h : ‖x - y‖ ≤ b) (e : y = z) : ‖x - z‖ ≤ b := e ▸ h

/-- Inputs of ordinary size for a transform of `e`, whose pupil has `n0 × n1` samples: `D` bounds how many additions one product goes through and `W` how many times the
exponentials turn across the arrays. -/
structure OrdinaryMft (depth : ℕ → ℕ) (e : Arr2 ℂ) (n0 n1 : ℕ) (o0 o1 : ℤ) (ppl ppp : ℝ) (D : ℕ) (W : ℝ) : Prop where
  rows : 0 < o0
  cols : 0 < o1
  lod : OrdinarySampling ppl
  pup : OrdinarySampling ppp
  nr : 0 < e.nr
  nc : 0 < e.nc
  size : e.nr * e.nc ≤ 2 ^ 50
  depthR : depth (2 * e.nr) ≤ D
  depthC : depth (2 * e.nc) ≤ D
  depthMax : D ≤ 2 ^ 40
  turnsR : (o0 : ℝ) * n0 ≤ W * (ppl * ppp)
  turnsC : (o1 : ℝ) * n1 ≤ W * (ppl * ppp)
  turnsMax : W ≤ 2 ^ 40

/-- **C110.** In double precision, with any dot product routine and any exponential good to four units in the last place, `do_mft` returns the Fourier sum of C18 with an error
of at most `(8 D + 34 + 60 W)/2⁵²` times the total magnitude of the field over `pixperpupil²`. -/
theorem C110_mft (R : MftRoutines) (depth : ℕ → ℕ) (hR : RoundedDot depth R.dot) (hE : CloseExp R) (e : Arr2 ℂ) (o0 o1 : ℤ) (ppl ppp : ℝ) (D : ℕ) (W : ℝ)
    (h : OrdinaryMft depth e e.nr e.nc o0 o1 ppl ppp D W) : ∃ F : Fin o0.toNat → Fin o1.toNat → ℂ, doMftD R e o0 o1 ppl ppp = .ok ⟨o0.toNat, o1.toNat, F⟩ ∧
    ∀ p q, ‖F p q - mftSum e o0.toNat o1.toNat ppl ppp p q‖ ≤ (8 * D + 34 + 60 * W) / 2 ^ 52 * ((∑ i, ∑ j, ‖e.val i j‖) / ppp ^ 2) + (2 : ℝ) ^ (-800 : ℤ) := by
  have ha : MftArgs o0 o1 ppl ppp := ⟨h.rows, h.cols, h.lod.pos, h.pup.pos⟩
  obtain ⟨row, drow, e1, d1, k1⟩ := interval_nat e.nr ppp h.nr h.pup
  obtain ⟨col, dcol, e2, d2, k2⟩ := interval_nat e.nc ppp h.nc h.pup
  obtain ⟨rowpp, x3, e3, -, k3⟩ := interval_int o0 ppl h.rows h.lod
  obtain ⟨colpp, x4, e4, -, k4⟩ := interval_int o1 ppl h.cols h.lod
  have exact := C18_mft_sum e o0 o1 ppl ppp ha h.nr h.nc
  unfold doMft at exact
  rw [mftChecks_ok ha] at exact
  simp only [bind, Except.bind] at exact
  rw [mftInterval_nat _ _ h.nr ha.pup, mftInterval_nat _ _ h.nc ha.pup, mftInterval_int _ _ h.rows ha.lod, mftInterval_int _ _ h.cols ha.lod] at exact
  simp only [Except.ok.injEq] at exact
  refine ⟨(mftProductD R (-1) e o0.toNat o1.toNat row col rowpp colpp drow dcol).val, ?_, fun p q => ?_⟩
  · unfold doMftD
    rw [mftChecks_ok ha]
    simp only [bind, Except.bind]
    rw [e1, e2, e3, e4]
    rfl
  · have key := product_close R depth hR hE (-1) (Or.inr rfl) e h.nr h.nc h.size D h.depthMax h.depthR h.depthC W h.turnsMax o0.toNat o1.toNat row _ col _ rowpp _ colpp _
      k1 k2 k3 k4 p q (fun i => phase_bound _ _ _ _ _ _ _ ha.lod ha.pup (half_offset p) (half_offset i) (by
        rw [show ((o0.toNat : ℕ) : ℝ) = (o0 : ℝ) by exact_mod_cast Int.toNat_of_nonneg h.rows.le]; exact h.turnsR))
      (fun j => by
        rw [mul_comm]
        exact phase_bound _ _ _ _ _ _ _ ha.lod ha.pup (half_offset q) (half_offset j) (by
          rw [show ((o1.toNat : ℕ) : ℝ) = (o1 : ℝ) by exact_mod_cast Int.toNat_of_nonneg h.cols.le]; exact h.turnsC))
      drow dcol (1 / ppp) (by have := ha.pup; positivity) (inv_sampling h.pup).2 d1 d2
    have ev := congrFun (congrFun (arr_val exact) p) q
    refine (key_eq key ev).trans (le_of_eq ?_)
    unfold fieldSum
    rw [Finset.sum_comm]
    ring

/-- **C110.** In double precision, with any dot product routine and any exponential good to four units in the last place, `do_imft` returns the inverse sum of C18 with an error
of at most `(8 D + 34 + 60 W)/2⁵²` times the total magnitude of the field over `pixperlod²`. -/
theorem C110_imft (R : MftRoutines) (depth : ℕ → ℕ) (hR : RoundedDot depth R.dot) (hE : CloseExp R) (e : Arr2 ℂ) (o0 o1 : ℤ) (ppl ppp : ℝ) (D : ℕ) (W : ℝ)
    (h : OrdinaryMft depth e e.nr e.nc o0 o1 ppl ppp D W) : ∃ F : Fin o0.toNat → Fin o1.toNat → ℂ, doImftD R e o0 o1 ppl ppp = .ok ⟨o0.toNat, o1.toNat, F⟩ ∧
    ∀ p q, ‖F p q - imftSum e o0.toNat o1.toNat ppl ppp p q‖ ≤ (8 * D + 34 + 60 * W) / 2 ^ 52 * ((∑ i, ∑ j, ‖e.val i j‖) / ppl ^ 2) + (2 : ℝ) ^ (-800 : ℤ) := by
  have ha : MftArgs o0 o1 ppl ppp := ⟨h.rows, h.cols, h.lod.pos, h.pup.pos⟩
  obtain ⟨row, drow, e1, d1, k1⟩ := interval_nat e.nr ppl h.nr h.lod
  obtain ⟨col, dcol, e2, d2, k2⟩ := interval_nat e.nc ppl h.nc h.lod
  obtain ⟨rowpp, x3, e3, -, k3⟩ := interval_int o0 ppp h.rows h.pup
  obtain ⟨colpp, x4, e4, -, k4⟩ := interval_int o1 ppp h.cols h.pup
  have exact := C18_imft_sum e o0 o1 ppl ppp ha h.nr h.nc
  unfold doImft at exact
  rw [mftChecks_ok ha] at exact
  simp only [bind, Except.bind] at exact
  rw [mftInterval_nat _ _ h.nr ha.lod, mftInterval_nat _ _ h.nc ha.lod, mftInterval_int _ _ h.rows ha.pup, mftInterval_int _ _ h.cols ha.pup] at exact
  simp only [Except.ok.injEq] at exact
  refine ⟨(mftProductD R 1 e o0.toNat o1.toNat row col rowpp colpp drow dcol).val, ?_, fun p q => ?_⟩
  · unfold doImftD
    rw [mftChecks_ok ha]
    simp only [bind, Except.bind]
    rw [e1, e2, e3, e4]
    rfl
  · have key := product_close R depth hR hE 1 (Or.inl rfl) e h.nr h.nc h.size D h.depthMax h.depthR h.depthC W h.turnsMax o0.toNat o1.toNat row _ col _ rowpp _ colpp _
      k1 k2 k3 k4 p q (fun i => phase_bound _ _ _ _ _ _ _ ha.pup ha.lod (half_offset p) (half_offset i) (by
        rw [show ((o0.toNat : ℕ) : ℝ) = (o0 : ℝ) by exact_mod_cast Int.toNat_of_nonneg h.rows.le]; rw [mul_comm ppp]; exact h.turnsR))
      (fun j => by
        rw [mul_comm]
        exact phase_bound _ _ _ _ _ _ _ ha.pup ha.lod (half_offset q) (half_offset j) (by
          rw [show ((o1.toNat : ℕ) : ℝ) = (o1 : ℝ) by exact_mod_cast Int.toNat_of_nonneg h.cols.le]; rw [mul_comm ppp]; exact h.turnsC))
      drow dcol (1 / ppl) (by have := ha.lod; positivity) (inv_sampling h.lod).2 d1 d2
    have ev := congrFun (congrFun (arr_val exact) p) q
    refine (key_eq key ev).trans (le_of_eq ?_)
    unfold fieldSum
    rw [Finset.sum_comm]
    ring

/-- **C110.** The off-centre transform of a cropped field is equally close to the Fourier sum of the full pupil array in which the crop is surrounded by zeros; only the crop counts
for the number of additions. -/
theorem C110_offcenter (R : MftRoutines) (depth : ℕ → ℕ) (hR : RoundedDot depth R.dot) (hE : CloseExp R) (e full : Arr2 ℂ) (y0 x0 : ℕ) (hp : PlacedAt e full y0 x0) (o0 o1 : ℤ)
    (ppl ppp : ℝ) (D : ℕ) (W : ℝ) (h : OrdinaryMft depth e full.nr full.nc o0 o1 ppl ppp D W) :
    ∃ F : Fin o0.toNat → Fin o1.toNat → ℂ, doOffcenterMftD R e o0 o1 ppl ppp full.nr full.nc y0 x0 = .ok ⟨o0.toNat, o1.toNat, F⟩ ∧
    ∀ p q, ‖F p q - mftSum full o0.toNat o1.toNat ppl ppp p q‖ ≤ (8 * D + 34 + 60 * W) / 2 ^ 52 * ((∑ i, ∑ j, ‖e.val i j‖) / ppp ^ 2) + (2 : ℝ) ^ (-800 : ℤ) := by
  have ha : MftArgs o0 o1 ppl ppp := ⟨h.rows, h.cols, h.lod.pos, h.pup.pos⟩
  have fr : y0 + e.nr ≤ full.nr := hp.1
  have fc : x0 + e.nc ≤ full.nc := hp.2.1
  have hr := h.nr
  have hc := h.nc
  have fr0 : 0 < full.nr := by omega
  have fc0 : 0 < full.nc := by omega
  obtain ⟨row, drow, e1, d1, k1⟩ := interval_nat full.nr ppp fr0 h.pup
  obtain ⟨col, dcol, e2, d2, k2⟩ := interval_nat full.nc ppp fc0 h.pup
  obtain ⟨rowpp, x3, e3, -, k3⟩ := interval_int o0 ppl h.rows h.lod
  obtain ⟨colpp, x4, e4, -, k4⟩ := interval_int o1 ppl h.cols h.lod
  have crop : ¬ (cropLen (full.nr : ℤ).toNat (y0 : ℤ).toNat e.nr ≠ e.nr ∨ cropLen (full.nc : ℤ).toNat (x0 : ℤ).toNat e.nc ≠ e.nc) := by
    unfold cropLen
    simp only [Int.toNat_natCast]
    omega
  have exact := (C16_offcenter_equals_embedded e full o0 o1 ppl ppp y0 x0 fr0 fc0 hp).trans (C18_mft_sum full o0 o1 ppl ppp ha fr0 fc0)
  unfold doOffcenterMft at exact
  rw [mftChecks_ok ha] at exact
  simp only [bind, Except.bind] at exact
  rw [if_neg (by omega), if_neg (by omega)] at exact
  simp only [Int.cast_natCast] at exact
  rw [mftInterval_nat _ _ fr0 ha.pup, mftInterval_nat _ _ fc0 ha.pup, mftInterval_int _ _ h.rows ha.lod, mftInterval_int _ _ h.cols ha.lod] at exact
  simp only at exact
  rw [if_neg crop] at exact
  simp only [Except.ok.injEq] at exact
  refine ⟨(mftProductD R (-1) e o0.toNat o1.toNat (fun i => row (y0 + i)) (fun j => col (x0 + j)) rowpp colpp drow dcol).val, ?_, fun p q => ?_⟩
  · unfold doOffcenterMftD
    rw [mftChecks_ok ha]
    simp only [bind, Except.bind]
    rw [if_neg (by omega), if_neg (by omega)]
    simp only [Int.cast_natCast]
    rw [e1, e2, e3, e4]
    simp only
    rw [if_neg crop]
    rfl
  · have key := product_close R depth hR hE (-1) (Or.inr rfl) e h.nr h.nc h.size D h.depthMax h.depthR h.depthC W h.turnsMax o0.toNat o1.toNat (fun i => row (y0 + i)) _
      (fun j => col (x0 + j)) _ rowpp _ colpp _ (fun i => k1 (y0 + i)) (fun j => k2 (x0 + j)) k3 k4 p q
      (fun i => phase_bound _ _ _ _ _ _ _ ha.lod ha.pup (half_offset p) (half_offset (⟨y0 + i, by omega⟩ : Fin full.nr)) (by
        rw [show ((o0.toNat : ℕ) : ℝ) = (o0 : ℝ) by exact_mod_cast Int.toNat_of_nonneg h.rows.le]; exact h.turnsR))
      (fun j => by
        rw [mul_comm]
        exact phase_bound _ _ _ _ _ _ _ ha.lod ha.pup (half_offset q) (half_offset (⟨x0 + j, by omega⟩ : Fin full.nc)) (by
          rw [show ((o1.toNat : ℕ) : ℝ) = (o1 : ℝ) by exact_mod_cast Int.toNat_of_nonneg h.cols.le]; exact h.turnsC))
      drow dcol (1 / ppp) (by have := ha.pup; positivity) (inv_sampling h.pup).2 d1 d2
    have ev := congrFun (congrFun (arr_val exact) p) q
    refine (key_eq key ev).trans (le_of_eq ?_)
    unfold fieldSum
    rw [Finset.sum_comm]
    ring

/-- A dot product that rounds every product and adds from the left. -/
noncomputable def leftDot (l : List (ℝ × ℝ)) : ℝ := leftSum (l.map fun q => double (q.1 * q.2))

theorem leftDot_rounded : RoundedDot (fun n => n - 1) leftDot := by
  refine ⟨rfl, fun l hl => ?_⟩
  obtain ⟨t, h1, h2, h3⟩ := leftSum_rounded.2 (l.map fun q => double (q.1 * q.2)) (by simpa using hl)
  refine ⟨_, t, ?_, h1, by simpa using h2, h3⟩
  rw [List.forall₂_map_right_iff, List.forall₂_same]
  exact fun q _ => Or.inr rfl

/-- Routines with correctly rounded sine and cosine. -/
noncomputable def plainRoutines : MftRoutines := ⟨leftDot, fun θ => ⟨double (Real.cos θ), double (Real.sin θ)⟩⟩

theorem plain_exp : CloseExp plainRoutines := by
  intro θ
  refine (Complex.norm_le_abs_re_add_abs_im _).trans ?_
  rw [Complex.sub_re, Complex.sub_im, Complex.exp_ofReal_mul_I_re, Complex.exp_ofReal_mul_I_im]
  have a := step_error (Real.cos θ) 1 le_rfl (Real.abs_cos_le_one θ)
  have b := step_error (Real.sin θ) 1 le_rfl (Real.abs_sin_le_one θ)
  show |double (Real.cos θ) - Real.cos θ| + |double (Real.sin θ) - Real.sin θ| ≤ _
  refine (add_le_add a b).trans ?_
  norm_num

theorem ordinary_small {k : ℕ} (h1 : 1 ≤ k) (h2 : k ≤ 1024) : OrdinarySampling (k : ℝ) := by
  have h1' : (1 : ℝ) ≤ k := by exact_mod_cast h1
  have h2' : (k : ℝ) ≤ 1024 := by exact_mod_cast h2
  constructor
  · refine le_trans ?_ h1'
    rw [← zpow_zero (2 : ℝ)]
    exact two_zpow_mono (by norm_num)
  · refine h2'.trans ?_
    rw [show (1024 : ℝ) = (2 : ℝ) ^ (10 : ℤ) by norm_num]
    exact two_zpow_mono (by norm_num)

/-- A 3 × 4 field seen on 5 × 6 samples, 2 per resolution element and 3 per pupil. -/
theorem ordinary_example (e : Arr2 ℂ) (h3 : e.nr = 3) (h4 : e.nc = 4) : OrdinaryMft (fun n => n - 1) e e.nr e.nc 5 6 (2 : ℕ) (3 : ℕ) 7 4 where
  rows := by norm_num
  cols := by norm_num
  lod := ordinary_small (by norm_num) (by norm_num)
  pup := ordinary_small (by norm_num) (by norm_num)
  nr := by omega
  nc := by omega
  size := by rw [h3, h4]; norm_num
  depthR := by rw [h3]; norm_num
  depthC := by rw [h4]
  depthMax := by norm_num
  turnsR := by rw [h3]; norm_num
  turnsC := by rw [h4]; norm_num
  turnsMax := by norm_num

example : ∃ F : Fin 5 → Fin 6 → ℂ, doMftD plainRoutines ⟨3, 4, fun i j => (i : ℕ) + (j : ℕ) * Complex.I⟩ 5 6 (2 : ℕ) (3 : ℕ) = .ok ⟨5, 6, F⟩ ∧
    ∀ p q, ‖F p q - mftSum ⟨3, 4, fun i j => (i : ℕ) + (j : ℕ) * Complex.I⟩ 5 6 (2 : ℕ) (3 : ℕ) p q‖ ≤ (8 * (7 : ℕ) + 34 + 60 * 4) / 2 ^ 52 *
      ((∑ i : Fin 3, ∑ j : Fin 4, ‖((i : ℕ) + (j : ℕ) * Complex.I : ℂ)‖) / ((3 : ℕ) : ℝ) ^ 2) + (2 : ℝ) ^ (-800 : ℤ) :=
  C110_mft plainRoutines _ leftDot_rounded plain_exp _ 5 6 _ _ 7 4 (ordinary_example _ rfl rfl)

example : ∃ F : Fin 5 → Fin 6 → ℂ, doImftD plainRoutines ⟨3, 4, fun i j => (i : ℕ) + (j : ℕ) * Complex.I⟩ 5 6 (2 : ℕ) (3 : ℕ) = .ok ⟨5, 6, F⟩ := by
  obtain ⟨F, h, -⟩ := C110_imft plainRoutines _ leftDot_rounded plain_exp ⟨3, 4, fun i j => (i : ℕ) + (j : ℕ) * Complex.I⟩ 5 6 _ _ 7 4 (ordinary_example _ rfl rfl)
  exact ⟨F, h⟩

example : ∃ F : Fin 5 → Fin 6 → ℂ, doOffcenterMftD plainRoutines ⟨1, 1, fun _ _ => 1⟩ 5 6 (2 : ℕ) (3 : ℕ) 3 4 2 1 = .ok ⟨5, 6, F⟩ := by
  have hp : PlacedAt ⟨1, 1, fun _ _ => 1⟩ (Arr2.ofFn 3 4 fun i j => if i = 2 ∧ j = 1 then (1 : ℂ) else 0) 2 1 := by
    refine ⟨by decide, by decide, ?_⟩
    rintro i j ⟨⟨h1, h2⟩, h3, h4⟩
    simp only [Arr2.ofFn] at h2 h4
    obtain ⟨a, rfl⟩ : ∃ a : ℕ, i = a := ⟨i.toNat, by omega⟩
    obtain ⟨b, rfl⟩ : ∃ b : ℕ, j = b := ⟨j.toNat, by omega⟩
    have ha : a < 3 := by omega
    have hb : b < 4 := by omega
    interval_cases a <;> interval_cases b <;> simp [Arr2.px, Arr2.ofFn]
  obtain ⟨F, h, -⟩ := C110_offcenter plainRoutines _ leftDot_rounded plain_exp ⟨1, 1, fun _ _ => 1⟩ _ 2 1 hp 5 6 (2 : ℕ) (3 : ℕ) 7 4
    { ordinary_example (Arr2.ofFn 3 4 fun i j => if i = 2 ∧ j = 1 then (1 : ℂ) else 0) rfl rfl with
      nr := Nat.one_pos, nc := Nat.one_pos, size := by norm_num, depthR := by norm_num, depthC := by norm_num }
  exact ⟨F, h⟩

end Coralign.Props
