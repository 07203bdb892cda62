import Verif.Props.Cases1
import Verif.Props.FindOptFit
import Verif.Props.Unwrap

/-!
# More of the theorems of C01 to C20 on concrete data

Every example applies a theorem to concrete arguments, so its hypotheses can be met.
-/

namespace Coralign.Props

open Coralign Coralign.Spec

/-- Padding the 2 x 3 array to 5 x 4: the pixel one row above the centre row keeps its value, a corner shows the filling. -/
example : ∃ o, padCrop smallArray [5, 4] 0 = .ok o ∧ o.centered (-1) 1 = some 3 ∧ o.centered 2 (-2) = some 0 := by
  obtain ⟨o, h, -, -, hp⟩ := C01_pad_crop_registered smallArray 5 4 0 (by norm_num) (by norm_num)
  exact ⟨o, h, (hp (-1) 1 (by unfold Reaches; omega)).trans rfl, (hp 2 (-2) (by unfold Reaches; omega)).trans rfl⟩

example : padCropChain 0 smallArray ([[5, 4], [2, 7], [9, 3]] ++ [[4, 4]]) = padCrop smallArray [4, 4] 0 := by
  refine C02_chain_collapses _ _ _ _ _ (by norm_num) (by norm_num) fun s hs => ?_
  rcases (by simpa using hs : s = [5, 4] ∨ s = [2, 7] ∨ s = [9, 3]) with rfl | rfl | rfl <;>
    exact ⟨_, _, rfl, by norm_num, by norm_num, by decide, by decide⟩

example : (padCrop smallArray [7, 8] 5).bind (fun b => padCrop b [2, 3] 6) = .ok smallArray :=
  C03_pad_then_crop smallArray 7 8 5 6 (by decide) (by decide) (by decide) (by decide)

example : padCrop smallArray [2, 3] 9 = .ok smallArray := C03_same_shape_is_copy smallArray 9 (by decide) (by decide)

example : offcenterCrop smallArray 0 3 (-7 / 2 : ℚ) 1 = .ok (Arr2.full 3 3 0) :=
  C04_offcenter_crop_outside smallArray 0 3 (-7 / 2 : ℚ) 1 (by norm_num) (Or.inl (by norm_num))

/-- A centre half-way between rows 0 and 1 is taken to row 0. -/
example : ∃ (o : Arr2 ℤ) (yc xc : ℤ), offcenterCrop smallArray 0 3 (1 / 2 : ℚ) 1 = .ok o ∧ |(1 / 2 : ℚ) - yc| ≤ 1 / 2 ∧
    o.px 1 1 = some (match smallArray.px yc xc with | some v => v | none => 0) := by
  obtain ⟨o, yc, xc, h, h1, -, -, -, -, -, hp⟩ := C04_offcenter_crop_window smallArray 0 3 (1 / 2 : ℚ) 1 (by norm_num)
  refine ⟨o, yc, xc, h, h1, (hp 1 1 (by norm_num) (by norm_num) (by norm_num) (by norm_num)).trans ?_⟩
  simp only [show yc - 3 / 2 + 1 = yc by omega, show xc - 3 / 2 + 1 = xc by omega]
  cases smallArray.px yc xc <;> rfl

example : combine smallFrame (Arr2.full 4 4 true) = .error .typeError := C05_combine_rejects _ _ (by decide)

example : ∃ o, crop smallFrame 2 3 3 4 = .ok o ∧ o.px 1 1 = some (.num 34) ∧ o.px 2 0 = some .nan := by
  obtain ⟨o, h, -, -, hp⟩ := C05_crop smallFrame 2 3 3 4 (by norm_num) (by norm_num) (by norm_num) (by norm_num) (by decide) (by decide)
  exact ⟨o, h, (hp 1 1 (by norm_num) (by norm_num) (by norm_num) (by norm_num)).trans rfl,
    (hp 2 0 (by norm_num) (by norm_num) (by norm_num) (by norm_num)).trans rfl⟩

example : (crop smallFrame 1 1 3 4).bind (fun b => crop b 1 2 2 2) = crop smallFrame 2 3 2 2 :=
  C05_crop_crop smallFrame 1 1 3 4 1 2 2 2 (by norm_num) (by norm_num) (by norm_num) (by norm_num) (by norm_num) (by norm_num)
    (by decide) (by decide) (by norm_num) (by norm_num)

example : ∃ lr lc, getCropLower 1 7 5 4 true = .ok (lr, lc) ∧ lr = 0 ∧ lc + 4 / 2 = 7 := by
  obtain ⟨lr, lc, h, -, -, -, h2, h3, -⟩ := C06_get_crop_lower_bound 1 7 5 4 (by norm_num) (by norm_num) (by norm_num) (by norm_num)
  exact ⟨lr, lc, h, h2 (by norm_num), h3 (by norm_num)⟩

example : getCropLower 1 7 0 4 true = .error .typeError := C06_get_crop_lower_rejects _ _ _ _ _ (by norm_num)

example : ∀ f ∈ allValidators .v2, f (.int 3) (.int 1) (.exc .keyError) = .error .checkException := C07_bad_name _ _ _ _ (by simp)

example : realScalar (.str "a") (.bytes "n") (.exc .keyError) = .error .typeError :=
  C07_bytes_name_raises_typeError _ _ _ (by rintro ⟨x, hx⟩; cases hx)

/-- The sample image one row down and two columns to the right, in a larger array. -/
example (x y : ℚ) (h : centerOfEnergy (Arr2.full 2 2 (1 : ℚ)) = some (x, y)) :
    centerOfEnergy (Arr2.ofFn 4 5 fun i j => if 1 ≤ i ∧ i < 3 ∧ 2 ≤ j ∧ j < 4 then (1 : ℚ) else 0) = some (x + 2, y + 1) := by
  refine C10_translate (Arr2.full 2 2 1) _ 1 2 (fun i j => ?_) x y (by decide +kernel) h
  unfold Arr2.zext
  rw [Arr2.px_ofFn, Arr2.px_full]
  by_cases hi : (0 ≤ i ∧ i < (2 : ℕ)) ∧ (0 ≤ j ∧ j < (2 : ℕ))
  · rw [if_pos hi, if_pos (by push_cast at hi ⊢; omega), if_pos (by push_cast at hi ⊢; omega)]
  · rw [if_neg hi]
    split_ifs with h1 h2
    · exfalso; push_cast at hi h1 h2; omega
    · rfl
    · rfl

example : ∃ x y, centerOfEnergy (Arr2.full 2 2 (1 : ℚ)) = some (x, y) ∧ 0 ≤ x ∧ x ≤ (2 : ℕ) - 1 ∧ 0 ≤ y ∧ y ≤ (2 : ℕ) - 1 :=
  C10_inside (Arr2.full 2 2 (1 : ℚ)) (fun _ _ => zero_le_one) ⟨⟨0, by decide⟩, ⟨0, by decide⟩, one_ne_zero⟩

example : centerOfEnergy (Arr2.full 3 3 (0 : ℚ)) = some (0, 0) := C10_blank _ (fun _ _ => rfl)

example : centerOfEnergy (Arr2.ofFn 1 2 fun _ j => if j = 0 then (1 : ℚ) else -1) = none :=
  C10_zero_total _ (by decide +kernel) ⟨⟨0, by decide⟩, ⟨0, by decide⟩, by decide +kernel⟩

example : ampthresh (bimodal.map fun v => 3 * v + 7) 5 = ampthresh bimodal 5 := C12_affine_invariant _ _ _ _ (by norm_num)

example : ampthreshC (Arr2.full 2 3 (-Complex.I)) 5 = ampthresh ((Arr2.full 2 3 (-Complex.I)).map fun v : ℂ => ‖v‖) 5 :=
  C12_modulus _ _ (Or.inl ⟨0, 0, -Complex.I, rfl, by simp⟩)

example (S : Solver) : findOptimum1d S [0, 1, 2] [1, 2] = .error .valueError := C13_length_mismatch _ _ _ (by decide)

example : ∃ a b c, BestParabola ([0, 1, 2, 3].zip [1, 5, 2, 8]) a b c := C13_best_exists [0, 1, 2, 3] [1, 5, 2, 8] rfl

example (S : Solver) (mask : Arr2 Bool) : findOptimum2d S [0, 1, 2] [1, 2] (Arr2.full 3 2 1) mask = .error .valueError :=
  C14_shape_mismatch _ _ _ _ _ fun h => absurd h.2.2.1 (by decide)

example : ∃ a b c d e f, BestSurface [0, 1, 2] [1, 2] (Arr2.full 2 3 7) (Arr2.full 2 3 true) a b c d e f :=
  C14_best_exists _ _ _ _ rfl rfl rfl rfl

example : doFft (doIfft sampleField) = sampleField := C17_fft_ifft _ (by decide) (by decide)

example : (3 * 4 : ℝ) * ∑ p, ∑ q, ‖(doIfft (Arr2.full 3 4 Complex.I)).val p q‖ ^ 2 = 12 := by
  have := C19_parseval_inverse (Arr2.full 3 4 Complex.I) (by decide) (by decide)
  refine Eq.trans ?_ (this.trans ?_)
  · norm_num [Arr2.full]
  · show ∑ i : Fin 3, ∑ j : Fin 4, ‖Complex.I‖ ^ 2 = 12
    norm_num

example : doOffcenterMft sampleField 6 7 2 32 5 5 3 4 = .error .valueError :=
  C16_offcenter_rejects _ _ _ _ _ 5 5 3 4 ⟨by norm_num, by norm_num, by norm_num, by norm_num⟩ (by norm_num) (by norm_num) (by decide) (by decide)
    (by decide)

example : ∃ o, doMft sampleField 6 7 2 32 = .ok o ∧ o.nr = 6 ∧ o.nc = 7 :=
  ⟨_, C18_mft_sum sampleField 6 7 2 32 ⟨by norm_num, by norm_num, by norm_num, by norm_num⟩ (by decide) (by decide), rfl, rfl⟩

example : ∃ o, doImft sampleField 6 7 2 32 = .ok o ∧ o.nr = 6 ∧ o.nc = 7 :=
  ⟨_, C18_imft_sum sampleField 6 7 2 32 ⟨by norm_num, by norm_num, by norm_num, by norm_num⟩ (by decide) (by decide), rfl, rfl⟩

example : doMft sampleField 6 7 (-2) 32 = .error .typeError := C18_mft_rejects _ _ _ _ _ fun h => absurd h.1.3 (by norm_num)

example (v : Fin 64 → Fin 64 → ℂ) : doMft ⟨64, 64, v⟩ (64 : ℕ) (64 : ℕ) 2 32 = .ok ((doFft ⟨64, 64, v⟩).map fun z => z / ((32 : ℝ) : ℂ) ^ 2) :=
  C18_matched_fft 64 (by norm_num) v 2 32 (by norm_num) (by norm_num) (by norm_num)

example (v : Fin 64 → Fin 64 → ℂ) : (doImft ⟨64, 64, v⟩ (64 : ℕ) (64 : ℕ) 2 32).bind (fun f => doMft f (64 : ℕ) (64 : ℕ) 2 32) = .ok ⟨64, 64, v⟩ :=
  C18_mft_inverts_imft 64 (by norm_num) v 2 32 (by norm_num) (by norm_num) (by norm_num)

/-- Half a metre in two steps of different lengths. -/
example (v : Fin 512 → Fin 512 → ℂ) : (fresnelprop ⟨512, 512, v⟩ 5e-7 0.2 (512 : ℕ) 10000).bind (fun f => fresnelprop f 5e-7 0.3 (512 : ℕ) 10000) =
    fresnelprop ⟨512, 512, v⟩ 5e-7 0.5 (512 : ℕ) 10000 := by
  have e : (0.2 : ℝ) + 0.3 = 0.5 := by norm_num
  have := (C20_composition 512 v 5e-7 0.2 0.3 10000 fresnel_case.1 (by unfold Sampled; rw [abs_of_pos (by norm_num)]; norm_num)
    (by unfold Sampled; rw [abs_of_pos (by norm_num)]; norm_num) (by rw [e]; exact fresnel_case.2)).1
  rw [e] at this
  exact this

example : fresnelprop sampleField 5e-7 0 (512 : ℕ) 10000 = .ok sampleField := C20_zero_distance _ _ _ _ fresnel_case.1

example : (∃ r, quadrantEnergyBalance onAxisImage 2 0 1 = .ok r) ∧ quadrantEnergyBalance onAxisImage 5 0 1 = .error .valueError :=
  ⟨(C11_origin_checks_partial onAxisImage 2 0 1 (by norm_num) (by norm_num) (by norm_num)).1 (by decide),
    (C11_origin_checks_partial onAxisImage 5 0 1 (by norm_num) (by norm_num) (by norm_num)).2 (by decide)⟩

/-- Mirror images of the image with one bright pixel, at row 1, column 2. -/
example : ∃ dx dy, quadrantEnergyBalance (Arr2.ofFn 3 3 fun i j => if i = 1 ∧ j = 0 then 1 else 0) 1 1 1 = .ok (some (-dx, dy)) ∧
    quadrantEnergyBalance onAxisImage 1 1 1 = .ok (some (dx, dy)) := by
  obtain ⟨⟨dx, dy⟩, h⟩ : ∃ p, quadrantEnergyBalance onAxisImage 1 1 1 = .ok (some p) := by
    refine ⟨_, C11_half_planes_partial onAxisImage 1 1 1 (by norm_num) (by norm_num) (by norm_num) (by decide) (by decide) ?_⟩
    show ∑ i : Fin 3, ∑ j : Fin 3, (if (i : ℕ) = 1 ∧ (j : ℕ) = 2 then (1 : ℝ) else 0) ≠ 0
    simp only [Fin.sum_univ_three]
    norm_num
  refine ⟨dx, dy, C11_mirror_x onAxisImage _ 1 1 1 dx dy (fun i j => ?_) (by decide) h, h⟩
  unfold Arr2.zext onAxisImage
  rw [Arr2.px_ofFn, Arr2.px_ofFn]
  by_cases hi : (0 ≤ i ∧ i < (3 : ℕ)) ∧ (0 ≤ j ∧ j < (3 : ℕ))
  · rw [if_pos hi, if_pos (by push_cast at hi ⊢; omega)]
    by_cases hj : i = 1 ∧ j = 2
    · rw [if_pos (by omega), if_pos (by omega)]
    · rw [if_neg (by omega), if_neg (by omega)]
  · rw [if_neg hi, if_neg (by push_cast at hi ⊢; omega)]

/-- Up and down: the image is its own mirror image, so the balance is zero. -/
example (dx dy : ℝ) (h : quadrantEnergyBalance onAxisImage 1 1 1 = .ok (some (dx, dy))) :
    quadrantEnergyBalance onAxisImage 1 1 1 = .ok (some (dx, -dy)) := by
  refine C11_mirror_y onAxisImage _ 1 1 1 dx dy (fun i j => ?_) (by decide) h
  unfold Arr2.zext onAxisImage
  rw [Arr2.px_ofFn, Arr2.px_ofFn]
  by_cases hi : (0 ≤ i ∧ i < (3 : ℕ)) ∧ (0 ≤ j ∧ j < (3 : ℕ))
  · rw [if_pos hi, if_pos (by push_cast at hi ⊢; omega)]
    by_cases hj : i = 1 ∧ j = 2
    · rw [if_pos (by omega), if_pos (by omega)]
    · rw [if_neg (by omega), if_neg (by omega)]
  · rw [if_neg hi, if_neg (by push_cast at hi ⊢; omega)]

example (U : Unwrapper) (R : SmallRemover) : ∃ e, unwrap U R (Arr2.full 4 4 1) (Arr2.full 4 5 1) 5 0 3 false none = .error e :=
  C15_unwrap_rejects _ _ _ _ _ _ _ _ _ fun h => absurd h.1.2 (by decide)

end Coralign.Props
