import Verif.Props.CoarseFinds
import Verif.Props.LateralSelf

/-!
# Property C134, continued: the lateral offsets of an ideal pupil
-/

namespace Coralign.Props

open Coralign Coralign.Spec Finset

/-- An ideal pupil seen from the centre pixel. -/
theorem ideal_at0 {img : Arr2 ℝ} {d c : ℝ} {a b : ℤ} (h : IdealPupil img d c a b) (p q : ℤ) :
    (((q - a : ℤ) : ℝ) ^ 2 + ((p - b : ℤ) : ℝ) ^ 2 ≤ (d / 2) ^ 2 → at0 img p q = c) ∧
    (¬ ((q - a : ℤ) : ℝ) ^ 2 + ((p - b : ℤ) : ℝ) ^ 2 ≤ (d / 2) ^ 2 → at0 img p q = 0) := by
  unfold at0 Arr2.centered
  constructor
  · intro hin
    rw [h.bright _ _ (by
      rw [show (img.nc : ℤ) / 2 + q - (img.nc / 2 : ℕ) - a = q - a by push_cast; ring,
        show (img.nr : ℤ) / 2 + p - (img.nr / 2 : ℕ) - b = p - b by push_cast; ring]
      exact hin)]
    rfl
  · intro hout
    cases hpx : img.px ((img.nr : ℤ) / 2 + p) ((img.nc : ℤ) / 2 + q) with
    | none => rfl
    | some v =>
      obtain ⟨⟨b1, b2⟩, b3, b4⟩ := (Arr2.px_isSome img _ _).mp (by rw [hpx]; rfl)
      have hv := Arr2.px_of_inB img ⟨⟨b1, b2⟩, b3, b4⟩
      rw [hpx] at hv
      rw [hv, Option.getD_some]
      apply h.dark
      unfold InBeam
      rw [Int.toNat_of_nonneg b1, Int.toNat_of_nonneg b3,
        show (img.nc : ℤ) / 2 + q - (img.nc / 2 : ℕ) - a = q - a by push_cast; ring,
        show (img.nr : ℤ) / 2 + p - (img.nr / 2 : ℕ) - b = p - b by push_cast; ring]
      exact hout

/-- **C134.** With `useCoarse=True`, `compute_lateral_offsets` starts its fine search from the true centre of an ideal pupil. -/
theorem C134_lateral (S : Solver) (meas ref : Arr2 ℝ) (diam : ℝ) (nSteps : ℤ) (d : ℝ) (nPad nFocus nIter : ℤ)
    (ha : LateralArgs diam nSteps d nPad nFocus nIter) (hn : 2 ≤ meas.nr ∨ 2 ≤ meas.nc) (c : ℝ) (hc : 0 < c) (a b : ℤ)
    (h : IdealPupil meas diam c a b) (fuel : ℕ) (hf : (max 1 ⌊diam / 3⌋).toNat < fuel) :
    computeLateralOffsetsCoarse fuel S meas ref diam nSteps d nPad nFocus nIter =
      some (computeLateralOffsets S meas ref diam nSteps d nPad nFocus nIter a b) := by
  obtain ⟨steps, hst⟩ := C134_finds_centre meas diam 3 c ha.diam (by norm_num) hc a b hn h
  unfold computeLateralOffsetsCoarse
  rw [if_neg (by push Not; exact ⟨ha.diam, ha.steps, ha.pixel, ha.pad, ha.focus, ha.iter⟩), hst fuel hf]

/-- **C134.** If the reference is the same ideal pupil at the centre, however bright, the offsets found are those of the pupil, exactly, or no
paraboloid fits and that is reported.  A search of several iterations needs an odd number of steps and displacements that the central
frequencies can tell from none. -/
theorem C134_offsets (S : Solver) (meas ref : Arr2 ℝ) (diam : ℝ) (nSteps : ℤ) (d : ℝ) (nPad nFocus nIter : ℤ)
    (ha : LateralArgs diam nSteps d nPad nFocus nIter) (hn : 2 ≤ meas.nr ∨ 2 ≤ meas.nc) (h3 : 3 ≤ nSteps) (c c' : ℝ) (hc : 0 < c) (hc' : 0 < c')
    (a b : ℤ) (h : IdealPupil meas diam c a b) (hr : IdealPupil ref diam c' 0 0)
    (h1 : 1 < nIter → nSteps % 2 = 1 ∧ ∀ x ∈ trials nSteps.toNat d 0, ∀ y ∈ trials nSteps.toNat d 0, (x, y) ≠ (0, 0) →
      Resolves nPad.toNat nFocus.toNat (halfSample nPad.toNat) (at0 ref) x y)
    (fuel : ℕ) (hf : (max 1 ⌊diam / 3⌋).toNat < fuel) :
    computeLateralOffsetsCoarse fuel S meas ref diam nSteps d nPad nFocus nIter = some (.ok ((b : ℝ), (a : ℝ))) ∨
      computeLateralOffsetsCoarse fuel S meas ref diam nSteps d nPad nFocus nIter = some (.error .quadraticException) := by
  rw [C134_lateral S meas ref diam nSteps d nPad nFocus nIter ha hn c hc a b h fuel hf]
  have hm : ∀ p ∈ window nPad.toNat, ∀ q ∈ window nPad.toNat, at0 meas (p + b) (q + a) = c / c' * at0 ref p q := by
    intro p _ q _
    have e1 := ideal_at0 h (p + b) (q + a)
    have e2 := ideal_at0 hr p q
    rw [add_sub_cancel_right, add_sub_cancel_right] at e1
    rw [sub_zero, sub_zero] at e2
    by_cases hin : ((q : ℤ) : ℝ) ^ 2 + ((p : ℤ) : ℝ) ^ 2 ≤ (diam / 2) ^ 2
    · rw [e1.1 hin, e2.1 hin, div_mul_cancel₀ _ hc'.ne']
    · rw [e1.2 hin, e2.2 hin, mul_zero]
  rcases C64_fixed_point S meas ref diam nSteps d nPad nFocus nIter a b ha h3 (c / c') (div_pos hc hc') hm h1 with hh | hh
  · exact Or.inl (by rw [hh])
  · exact Or.inr (by rw [hh])

/-- `C134_lateral`, `C134_offsets`: a pupil of diameter 40 in a corner of a 100 x 200 picture, one iteration. -/
example (S : Solver) :
    computeLateralOffsetsCoarse 20 S (discPicture 100 200 40 7 (-75) 25) (discPicture 64 64 40 1 0 0) 40 5 (1 / 2) 64 16 1 = some (.ok (((25 : ℤ) : ℝ), ((-75 : ℤ) : ℝ))) ∨
    computeLateralOffsetsCoarse 20 S (discPicture 100 200 40 7 (-75) 25) (discPicture 64 64 40 1 0 0) 40 5 (1 / 2) 64 16 1 = some (.error .quadraticException) :=
  C134_offsets S _ _ 40 5 (1 / 2) 64 16 1 ⟨by norm_num, by norm_num, by norm_num, by norm_num, by norm_num, by norm_num⟩
    (Or.inl (by simp [discPicture])) (by norm_num) 7 1 (by norm_num) (by norm_num) (-75) 25
    (discPicture_ideal _ _ _ _ _ _ (by norm_num) (by norm_num) (by norm_num) (by norm_num) (by norm_num))
    (discPicture_ideal _ _ _ _ _ _ (by norm_num) (by norm_num) (by norm_num) (by norm_num) (by norm_num))
    (fun hh => absurd hh (by norm_num)) 20
    (by rw [show ⌊(40 : ℝ) / 3⌋ = 13 by rw [Int.floor_eq_iff]; norm_num]; norm_num)

end Coralign.Props
