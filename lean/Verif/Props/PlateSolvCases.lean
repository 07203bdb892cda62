import Verif.Props.PlateSolv
import Mathlib.LinearAlgebra.Lagrange

/-!
# C84 on a concrete image
-/

namespace Coralign.Props

open Coralign Coralign.Spec

/-- Polynomial interpolation meets what is assumed about the interpolation routine; for four points it is the cubic spline. -/
noncomputable def lagrange1d : Interp1d where
  eval xs ys v := (Lagrange.interpolate Finset.univ (fun k : Fin xs.length => xs[k]) fun k => ys.getD k 0).eval v
  node xs ys hnd hl _ k h h' := by
    have := Lagrange.eval_interpolate_at_node (s := Finset.univ) (v := fun k : Fin xs.length => xs[k]) (fun k => ys.getD k 0) (i := ⟨k, h⟩)
      (fun a _ b _ hab => Fin.ext ((List.Nodup.getElem_inj_iff hnd).mp hab)) (Finset.mem_univ _)
    simp only [Fin.getElem_fin] at this
    rw [List.getD_eq_getElem _ _ h'] at this
    exact this
  scale c xs ys v := by
    have e : (fun k : Fin xs.length => (ys.map fun y : ℝ => c * y).getD k 0) = c • fun k : Fin xs.length => ys.getD k 0 := by
      funext k
      rw [Pi.smul_apply, smul_eq_mul]
      rw [show (0 : ℝ) = c * 0 by ring, List.getD_map (f := fun y : ℝ => c * y)]
      simp
    rw [e, map_smul, Polynomial.eval_smul, smul_eq_mul]

/-- A star on the centre pixel of a 2 x 2 image. -/
noncomputable def starImage : Arr2 ℝ := ⟨2, 2, fun i j => if i = 1 ∧ j = 1 then 1 else 0⟩

theorem star_pixels : starImage.pixels = [0, 0, 0, 1] := by
  unfold starImage Arr2.pixels
  simp [List.finRange_succ]

theorem percentile_four (a b c d : ℝ) (h1 : a ≤ b) (h2 : b ≤ c) (h3 : c ≤ d) : percentile [a, b, c, d] 100 = d := by
  unfold percentile
  rw [List.mergeSort_of_pairwise]
  · have h : ⌊(((([a, b, c, d] : List ℝ).length : ℝ) - 1) * 100 / 100)⌋ = 3 := by norm_num
    simp only [h]
    norm_num
    rfl
  · simp only [List.pairwise_cons, decide_eq_true_eq]
    simp
    exact ⟨⟨h1, h1.trans h2, h1.trans (h2.trans h3)⟩, ⟨h2, h2.trans h3⟩, h3⟩

theorem star_brightest (top : ℝ) : IsBrightest starImage top ↔ top = 1 := by
  constructor
  · rintro ⟨⟨i, j, hij⟩, h⟩
    have h1 := h (1 : Fin 2) (1 : Fin 2)
    simp only [starImage, and_self, if_true] at h1 hij
    split_ifs at hij <;> linarith
  · rintro rfl
    refine ⟨⟨(1 : Fin 2), (1 : Fin 2), by simp [starImage]⟩, fun i j => ?_⟩
    simp only [starImage]
    split_ifs <;> norm_num

theorem star_args (c pg : ℝ) (h : 0 < pg) : PlateArgs (starImage.map fun v : ℝ => c * v) starImage pg (1 / 5) ((2 * 2 : ℕ) : ℝ) 100 (1 / 100) :=
  ⟨h, rfl, rfl, ⟨Nat.two_pos, Nat.two_pos⟩, by norm_num, by norm_num, by norm_num, by norm_num, le_refl _, by norm_num⟩

/-- The hypotheses of `C84_self`, and with them those of `C84_answer`, `C84_range` and `C84_exposure`, are met by a star recorded at three
times the exposure. -/
example : ∃ best pix resid, platesolv lagrange1d (starImage.map fun v : ℝ => 3 * v) starImage 1 ⟨some (1 / 5), some ((2 * 2 : ℕ) : ℝ), some 100, some (1 / 100)⟩ = .ok (best, pix, resid) ∧
    pix[2]? = some 1 ∧ resid[2]? = some (some 0) := by
  refine C84_self lagrange1d 2 _ 3 (1 / 5) 100 (1 / 100) 2 (by norm_num) (star_args 3 1 one_pos) ?_ ?_
  · have := star_pixels
    unfold starImage at this
    rw [this, percentile_four _ _ _ _ le_rfl le_rfl zero_le_one]
    exact one_ne_zero
  · intro h
    have := (star_brightest 0).mp h
    norm_num at this

/-- The star resampled at its own plate scale, two pixels per resolution element, is blurred. -/
theorem star_blur (a b : ℕ) : rescaledAt starImage 2 2 a b = (1 + Real.cos (Real.pi / 2 * fromCentre 2 a) + Real.cos (Real.pi / 2 * fromCentre 2 b) +
    Real.cos (Real.pi / 2 * (fromCentre 2 a + fromCentre 2 b))) / 16 := by
  unfold rescaledAt starImage
  simp only [Fin.sum_univ_two, max_self]
  generalize ha : fromCentre 2 a = x
  generalize hb : fromCentre 2 b = y
  have e0 : fromCentre 2 0 = -1 := by unfold fromCentre; norm_num
  have e1 : fromCentre 2 1 = 0 := by unfold fromCentre; norm_num
  simp [e0, e1]
  have c1 : Real.cos (2 * Real.pi * ((-x + -y) / (2 * 2))) = Real.cos (Real.pi / 2 * (x + y)) := by rw [← Real.cos_neg]; congr 1; ring
  have c2 : Real.cos (2 * Real.pi * (-x / (2 * 2))) = Real.cos (Real.pi / 2 * x) := by rw [← Real.cos_neg]; congr 1; ring
  have c3 : Real.cos (2 * Real.pi * (-y / (2 * 2))) = Real.cos (Real.pi / 2 * y) := by rw [← Real.cos_neg]; congr 1; ring
  rw [c1, c2, c3]
  ring

theorem star_blurred : rescaledAt starImage 2 2 0 0 = 0 ∧ rescaledAt starImage 2 2 0 1 = 1 / 8 ∧ rescaledAt starImage 2 2 1 0 = 1 / 8 ∧
    rescaledAt starImage 2 2 1 1 = 1 / 4 := by
  have e0 : fromCentre 2 0 = -1 := by unfold fromCentre; norm_num
  have e1 : fromCentre 2 1 = 0 := by unfold fromCentre; norm_num
  have c1 : Real.cos (Real.pi / 2 * -1) = 0 := by rw [mul_neg, mul_one, Real.cos_neg, Real.cos_pi_div_two]
  have c2 : Real.cos (Real.pi / 2 * (-1 + -1)) = -1 := by
    rw [show Real.pi / 2 * (-1 + -1) = -Real.pi by ring, Real.cos_neg, Real.cos_pi]
  have c0 : Real.cos (Real.pi / 2 * 0) = 1 := by rw [mul_zero, Real.cos_zero]
  refine ⟨?_, ?_, ?_, ?_⟩ <;> rw [star_blur] <;> simp only [e0, e1, add_zero, zero_add, c0, c1, c2] <;> norm_num

theorem star_trial_pixels : (trialImage starImage 2 2).pixels = [0, 1 / 8, 1 / 8, 1 / 4] := by
  obtain ⟨h1, h2, h3, h4⟩ := star_blurred
  unfold Arr2.pixels trialImage
  show (List.finRange 2).flatMap (fun i => (List.finRange 2).map fun j => rescaledAt starImage 2 2 i j) = _
  simp [List.finRange_succ, h1, h2, h3, h4]

/-- **C84.** The misfit at the guess itself need not vanish for a recorded image which *is* the simulated one: away from one pixel per resolution
element the simulated image does not survive the two transforms.  Here it is a quarter of the brightest pixel. -/
theorem C84_guess_not_exact : Misfit starImage starImage 2 100 2 (some (1 / 4)) := by
  obtain ⟨h1, h2, h3, h4⟩ := star_blurred
  refine ⟨1, (star_brightest 1).mpr rfl, ?_⟩
  rw [star_trial_pixels, star_pixels, percentile_four _ _ _ _ (by norm_num) (by norm_num) (by norm_num),
    percentile_four _ _ _ _ le_rfl le_rfl zero_le_one]
  refine ⟨by norm_num, one_ne_zero, by norm_num, 1 / 4, ?_⟩
  have z : ∀ i j : Fin 2, starImage.zext ((i : ℕ) : ℤ) ((j : ℕ) : ℤ) = if i = 1 ∧ j = 1 then 1 else 0 := by
    intro i j
    have := Arr2.px_val starImage i j
    unfold Arr2.zext
    rw [this]
    rfl
  have z00 : starImage.zext ((0 : ℕ) : ℤ) ((0 : ℕ) : ℤ) = 0 := by simpa using z 0 0
  have z01 : starImage.zext ((0 : ℕ) : ℤ) ((1 : ℕ) : ℤ) = 0 := by simpa using z 0 1
  have z10 : starImage.zext ((1 : ℕ) : ℤ) ((0 : ℕ) : ℤ) = 0 := by simpa using z 1 0
  have z11 : starImage.zext ((1 : ℕ) : ℤ) ((1 : ℕ) : ℤ) = 1 := by simpa using z 1 1
  show ((2 : ℕ) : ℝ) * ((2 : ℕ) : ℝ) * (1 / 4) = ∑ i ∈ Finset.range 2, ∑ j ∈ Finset.range 2, _ ∧ ((2 : ℕ) : ℝ) * ((2 : ℕ) : ℝ) * (1 / 4) ^ 2 = ∑ i ∈ Finset.range 2, ∑ j ∈ Finset.range 2, _
  simp only [Finset.sum_range_succ, Finset.sum_range_zero, zero_add, h1, h2, h3, h4, z00, z01, z10, z11]
  constructor <;> norm_num

/-- The whole run on that image: it answers, and its misfit at the guess, the middle of the plate scales tried, is not zero. -/
example : ∃ best pix resid, platesolv lagrange1d (starImage.map fun v : ℝ => 1 * v) starImage 2 ⟨some (1 / 5), some ((2 * 2 : ℕ) : ℝ), some 100, some (1 / 100)⟩ = .ok (best, pix, resid) ∧
    pix[2]? = some 2 ∧ resid[2]? = some (some (1 / 4)) := by
  obtain ⟨best, pix, resid, h0, hs, h4, hl, hm, -, -⟩ := C84_answer lagrange1d _ _ _ _ _ _ _ (star_args 1 2 two_pos)
  refine ⟨best, pix, resid, h0, ?_⟩
  have hp : pix[2] = 2 := by
    rw [hs.1 2 (by omega)]
    norm_num
  refine ⟨by rw [List.getElem?_eq_getElem (by omega), hp], ?_⟩
  rw [List.getElem?_eq_getElem (by omega)]
  congr 1
  symm
  refine (hm 2 (by omega) (by omega) _).mp ?_
  rw [hp]
  have e : (starImage.map fun v : ℝ => 1 * v) = starImage := by
    unfold Arr2.map starImage
    simp
  rw [e]
  exact C84_guess_not_exact

end Coralign.Props
