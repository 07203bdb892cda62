import Verif.Props.PadCrop
import Verif.Props.CombineCrop
import Verif.Props.Check
import Verif.Props.Math
import Verif.Props.Center
import Verif.Props.Quad
import Verif.Props.AmpThresh
import Verif.Props.AmpThreshC
import Verif.Props.FindOpt
import Verif.Props.Mft
import Verif.Props.Fft
import Verif.Props.Fresnel

/-!
# The theorems of C01 to C20 on concrete data

Every example applies a theorem to concrete arguments, so its hypotheses can be met.
-/

namespace Coralign.Props

open Coralign Coralign.Spec

/-- A 2 x 3 array. -/
def smallArray : Arr2 ℤ := Arr2.ofFn 2 3 fun i j => 10 * i + j + 1

example : padCropChain 0 smallArray ([[5, 4], [0, 7], [9, 3]] ++ [[4, 4]]) = padCropChain 0 smallArray ([[9, 3], [5, 4], [0, 7]] ++ [[4, 4]]) :=
  C02_chain_order_irrelevant _ _ _ _ _ (by decide)

example : offcenterCrop smallArray 0 (-2) (1 / 2 : ℚ) 1 = .error .typeError := C04_offcenter_crop_rejects _ _ _ _ _ (by norm_num)

/-- A frame of numbers and a bad-pixel map. -/
def smallFrame : Arr2 (Fl ℤ) := Arr2.ofFn 4 5 fun i j => Fl.num (10 * i + j)

def badDiagonal : Arr2 Bool := Arr2.ofFn 4 5 fun i j => i == j

example : ∃ o, combine smallFrame badDiagonal = .ok o ∧ o.px 2 2 = some .nan ∧ o.px 2 3 = some (.num 23) := by
  obtain ⟨o, h, -, -, hp⟩ := C05_combine smallFrame badDiagonal rfl rfl
  exact ⟨o, h, (hp 2 2).1 rfl, (hp 2 3).2 rfl⟩

example : crop smallFrame 4 0 2 2 = .error .valueError := (C05_crop_rejects smallFrame 4 0 2 2 (by norm_num) (by norm_num) (by norm_num)
  (by norm_num)).mpr (Or.inl (by decide))

example : crop smallFrame 1 (-1) 2 2 = .error .typeError := C05_crop_type_errors _ _ _ _ _ (by norm_num)

example : ∃ lr lc, getCropLower 7 2 4 5 false = .ok (lr, lc) ∧ lr + 4 / 2 = 7 ∧ lc + 5 / 2 = 2 :=
  C06_get_crop_lower 7 2 4 5 (by norm_num) (by norm_num) (by norm_num) (by norm_num)

example : ∃ o, (getCropLower 1 3 5 3 true).bind (fun p => crop smallFrame p.1 p.2 5 3) = .ok o ∧ o.px 1 1 = some (.num 13) := by
  obtain ⟨o, h, e⟩ := C06_crop_contains_center smallFrame 1 3 5 3 (by norm_num) (by norm_num) (by norm_num) (by norm_num) (by decide) (by decide)
  exact ⟨o, h, e⟩

/-- A validator accepts and rejects. -/
example : scalarInteger (.int (-3)) (.str "n") (.exc .keyError) = .ok (.int (-3)) ∧
    positiveScalarInteger (.int 0) (.str "n") (.exc .keyError) = .error .keyError ∧
    stringCheck (.int 0) (.str "n") (.exc .typeError) = .error .typeError := by decide +kernel

example : oneDArray .v1 (.ndarray [3] false 0) (.str "x") (.exc .valueError) = .ok (.ndarray [3] false 0) ∧
    twoDArray .v1 (.ndarray [3] false 0) (.str "x") (.exc .keyError) = .error .keyError := by
  refine ⟨?_, ?_⟩
  · have := ((C07_rank_array "x" (.ndarray [3] false 0) .valueError) (oneDArray, 1) (by simp)).1 [3] false 0 (Or.inl rfl)
    simpa using this
  · have := ((C07_rank_array "x" (.ndarray [3] false 0) .keyError) (twoDArray, 2) (by simp)).1 [3] false 0 (Or.inl rfl)
    simpa using this

example : twoDSquareArray .v1 (.seq [4, 4] true 0) (.str "x") (.exc .valueError) = .ok (.ndarray [4, 4] true 0) :=
  (C07_twoD_square_array "x" (.seq [4, 4] true 0) .valueError [4, 4] true 0 (Or.inr rfl)).1 ⟨4, rfl⟩

example : realArray .v1 (.int 7) (.str "x") (.exc .valueError) = .error .valueError :=
  (C07_not_an_array "x" (.int 7) .valueError (by simp) realArray (by simp)).2 (by simp)

example : ∀ f ∈ allValidators .v1, f (.int 3) (.str "x") .notAClass = .error .checkException :=
  C07_bad_exception _ _ _ _ (by simp)

example : 0 ≤ (cart2pol 3 (-4)).1 ∧ (cart2pol 3 (-4)).1 * Real.cos (cart2pol 3 (-4)).2 = 3 := ⟨(C09_cart2pol 3 (-4)).1, (C09_cart2pol 3 (-4)).2.2.2.1⟩

example : ∃ x y, centerOfEnergy sampleImage = some (x, y) ∧ x * energy sampleImage = colMoment sampleImage ∧
    y * energy sampleImage = rowMoment sampleImage := C10_weighted_mean _ (by decide +kernel)

example : centerOfEnergy (sampleImage.map fun v => (-3) * v) = centerOfEnergy sampleImage := C10_scale _ _ (by norm_num)

/-- The image with one bright pixel on the axis is its own mirror image about row 1. -/
example (radius dx dy : ℝ) (h : quadrantEnergyBalance onAxisImage 1 1 radius = .ok (some (dx, dy))) : dy = 0 := by
  refine (C11_symmetric onAxisImage 1 1 radius dx dy h (by decide)).2 fun i j => ?_
  simp only [Arr2.zext, onAxisImage, Arr2.px_ofFn]
  by_cases h : (0 ≤ i ∧ i < (3 : ℕ)) ∧ (0 ≤ j ∧ j < (3 : ℕ))
  · rw [if_pos h, if_pos (by omega)]
    simp only [Option.getD_some]
    by_cases h2 : i.toNat = 1 ∧ j.toNat = 2
    · rw [if_pos h2, if_pos (by omega)]
    · rw [if_neg h2, if_neg (by omega)]
  · rw [if_neg h, if_neg (by omega)]

example : (∃ r, quadrantEnergyBalance onAxisImage 2 0 1 = .ok r) ∧ ¬ ∃ r, quadrantEnergyBalance onAxisImage 3 0 1 = .ok r :=
  ⟨(C11_origin_checks_square onAxisImage rfl 2 0 1 (by norm_num) (by norm_num) (by norm_num)).mpr (by decide),
    fun h => absurd ((C11_origin_checks_square onAxisImage rfl 3 0 1 (by norm_num) (by norm_num) (by norm_num)).mp h) (by decide)⟩

example : ∃ p, quadrantEnergyBalance onAxisImage 1 1 1 = .ok (some p) := by
  refine ⟨_, C11_half_planes_partial onAxisImage 1 1 1 (by norm_num) (by norm_num) (by norm_num) (by decide) (by decide) ?_⟩
  show ∑ i : Fin 3, ∑ j : Fin 3, (if (i : ℕ) = 1 ∧ (j : ℕ) = 2 then (1 : ℝ) else 0) ≠ 0
  simp only [Fin.sum_univ_three]
  norm_num

/-- The bimodal map and its transpose. -/
example : (∀ m, ampthresh bimodal 5 = .ok m → ∃ m', ampthresh (Arr2.ofFn 3 2 fun i j => if j = 0 then (0 : ℚ) else if i = 0 then 1 else 2) 5 = .ok m' ∧
    ∀ i j i' j' : ℤ, bimodal.px i j = (Arr2.ofFn 3 2 fun i j => if j = 0 then (0 : ℚ) else if i = 0 then 1 else 2).px i' j' → m.px i j = m'.px i' j') :=
  (C12_rearrangement bimodal _ 5 (by decide +kernel)).1

example : ∑ k ∈ Finset.range 4, histCount [0, 1, 5 / 2, 3, (4 : ℚ)] 0 4 4 k = 5 :=
  C12_histogram_partition _ _ _ _ (by norm_num) (by norm_num) (by decide +kernel)

example : ampthreshC (signedMap.map fun v : ℂ => Complex.I * v) 3 = ampthreshC (signedMap.map fun v : ℂ => -Complex.I * v) 3 := by
  refine C12_phase_free _ _ 3 (Or.inl ⟨0, 0, _, by rw [Arr2.px_map]; rfl, by simp [signedMap]⟩)
    (Or.inl ⟨0, 0, _, by rw [Arr2.px_map]; rfl, by simp [signedMap]⟩) rfl rfl fun i j v w hv hw => ?_
  rw [Arr2.px_map] at hv hw
  cases h : signedMap.px i j with
  | none => rw [h] at hv; cases hv
  | some x =>
    rw [h] at hv hw
    rw [← Option.some.inj hv, ← Option.some.inj hw]
    simp

example : (2 : ℝ) * (-(-3) / (2 * 2)) ^ 2 + (-3) * (-(-3) / (2 * 2)) + 1 ≤ 2 * 5 ^ 2 + (-3) * 5 + 1 :=
  (C13_vertex_is_optimum 2 (-3) 1 (by norm_num) 5).1 (by norm_num)

/-- The sample field put at row 2, column 1 of a 5 x 5 array. -/
noncomputable def placedField : Arr2 ℂ := Arr2.ofFn 5 5 fun i j => (sampleField.px ((i : ℤ) - 2) ((j : ℤ) - 1)).getD 0

example (ppl ppp : ℝ) : doOffcenterMft sampleField 6 7 ppl ppp 5 5 2 1 = doMft placedField 6 7 ppl ppp := by
  refine C16_offcenter_equals_embedded sampleField placedField 6 7 ppl ppp 2 1 (by decide) (by decide) ⟨by decide, by decide, ?_⟩
  intro i j h
  unfold placedField
  rw [Arr2.px_ofFn_in (nr := 5) (nc := 5) _ h, Int.toNat_of_nonneg h.1.1, Int.toNat_of_nonneg h.2.1]
  rfl

example : ((doFft sampleField).px 1 2).isSome := by
  have := C17_centred_transform sampleField 1 2 (by decide) (by decide)
  rw [Nat.cast_one, Nat.cast_ofNat] at this
  rw [this]; rfl

example (v : Fin 64 → Fin 64 → ℂ) : (doMft ⟨64, 64, v⟩ (64 : ℕ) (64 : ℕ) 2 32).bind (fun f => doImft f (64 : ℕ) (64 : ℕ) 2 32) = .ok ⟨64, 64, v⟩ :=
  C18_imft_inverts_mft 64 (by norm_num) v 2 32 (by norm_num) (by norm_num) (by norm_num)

theorem fresnel_case : FresnelArgs 5e-7 (512 : ℕ) 10000 ∧ Sampled 512 5e-7 0.5 10000 := by
  refine ⟨⟨by norm_num, by norm_num, by norm_num⟩, ?_⟩
  unfold Sampled
  rw [abs_of_pos (by norm_num)]
  norm_num

/-- Half a metre there and back at 500 nm, 512 pixels, 10 pixels per millimetre; energy, linearity and the two-step path of the same step. -/
example (u v : Fin 512 → Fin 512 → ℂ) : (fresnelprop ⟨512, 512, v⟩ 5e-7 0.5 (512 : ℕ) 10000).bind
      (fun f => fresnelprop f 5e-7 (-0.5) (512 : ℕ) 10000) = .ok ⟨512, 512, v⟩ ∧
    (∃ f, fresnelprop ⟨512, 512, v⟩ 5e-7 0.5 (512 : ℕ) 10000 = .ok f ∧ ∑ i, ∑ j, ‖f.val i j‖ ^ 2 = ∑ i, ∑ j, ‖v i j‖ ^ 2) ∧
    (∃ f fp, fresnelprop ⟨512, 512, v⟩ 5e-7 0.5 (512 : ℕ) 10000 = .ok f ∧ getFp 5e-7 0.5 (512 : ℕ) 10000 = .ok fp ∧
      fresnelpropFp ⟨512, 512, v⟩ 0.5 (512 : ℕ) fp = .ok f) ∧
    (∃ (f : Arr2 ℂ) (U V : Fin 512 → Fin 512 → ℂ), fresnelprop ⟨512, 512, u⟩ 5e-7 0.5 (512 : ℕ) 10000 = .ok f ∧ f = ⟨512, 512, U⟩ ∧
      fresnelprop ⟨512, 512, fun i j => 3 * u i j + v i j⟩ 5e-7 0.5 (512 : ℕ) 10000 = .ok ⟨512, 512, fun i j => 3 * U i j + V i j⟩) := by
  obtain ⟨h, hs⟩ := fresnel_case
  obtain ⟨f, hf⟩ := (C20_error_contract ⟨512, 512, v⟩ 5e-7 0.5 (512 : ℕ) 10000).2.2 h hs hs
  obtain ⟨g, hg⟩ := (C20_error_contract ⟨512, 512, u⟩ 5e-7 0.5 (512 : ℕ) 10000).2.2 h hs hs
  obtain ⟨fp, hfp⟩ := C20_get_fp_accepts ⟨512, 512, v⟩ 5e-7 0.5 (512 : ℕ) 10000 h (by simpa using hs) (by simp)
  obtain ⟨U, V, e1, -, e2⟩ := C20_linear 512 512 u v 3 5e-7 0.5 (512 : ℕ) 10000 g hg
  exact ⟨C20_reversible 512 v _ _ _ h hs, ⟨f, hf, C20_energy_conserved 512 v _ _ _ f hf⟩,
    ⟨f, fp, hf, hfp, C20_two_step_path _ _ _ _ _ f fp hf hfp⟩, ⟨g, U, V, hg, e1, e2⟩⟩

/-- Energy when the array of the propagation is smaller than the field. -/
example (e : Arr2 ℂ) (h1 : e.nr = 512) (h2 : e.nc = 512) : ∃ f, fresnelprop e 5e-7 0.5 100 10000 = .ok f ∧
    ∑ i, ∑ j, ‖f.val i j‖ ^ 2 ≤ ∑ i, ∑ j, ‖e.val i j‖ ^ 2 := by
  obtain ⟨f, hf⟩ := (C20_error_contract e 5e-7 0.5 100 10000).2.2 ⟨by norm_num, by norm_num, by norm_num⟩ (by rw [h1]; exact fresnel_case.2)
    (by rw [h2]; exact fresnel_case.2)
  exact ⟨f, hf, (C20_energy_never_grows e _ _ _ _ f hf).2.2⟩

end Coralign.Props
