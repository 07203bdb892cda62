import Verif.Props.NoisyPupil
import Verif.Model.PupilFit
import Verif.Model.SoftwareMask

/-!
# Property C133, continued: routines that look at the pupil through `ampthresh` are deaf to small noise
-/

namespace Coralign.Props

open Coralign

/-- Specification: `a` is a picture of `pupil` with some contrast and errors of at most 1/46 of it, and the pupil has
pixels inside and outside. -/
def CleanEnough (a : Arr2 ℝ) (pupil : Arr2 Bool) : Prop :=
  ∃ dim bright ε, NoisyPicture a pupil dim bright ε ∧ dim < bright ∧ 46 * ε ≤ bright - dim ∧
    (∃ i j, pupil.px i j = some true) ∧ ∃ i j, pupil.px i j = some false

theorem cleanEnough_mask {a : Arr2 ℝ} {pupil : Arr2 Bool} (h : CleanEnough a pupil) : ampthresh a 21 = .ok pupil := by
  obtain ⟨dim, bright, ε, h1, h2, h3, h4, h5⟩ := h
  refine C133_noise a pupil 21 dim bright ε h1 (by norm_num) h2 ?_ h4 h5
  push_cast
  linarith

/-- **C133.** Two pictures of the same pupil, with different exposures and different noise, give the same offsets, clocking and diameter. -/
theorem C133_pupil_fit (S : Solver) (Sp : ClampSpline) (R : Rotate) (E : EllipseFinder) (te : EllipseTuning) (t : PupilTuning)
    (a b : Arr2 ℝ) (pupil : Arr2 Bool) (ha : CleanEnough a pupil) (hb : CleanEnough b pupil) :
    fitUnmaskedPupil S Sp R E te t a = fitUnmaskedPupil S Sp R E te t b := by
  unfold fitUnmaskedPupil
  rw [cleanEnough_mask ha, cleanEnough_mask hb]

/-- **C133.** The same for the Zernike fit over the fitted pupil: coefficients, mask, residuals and pupil parameters. -/
theorem C133_zernike_fit (S : Solver) (Sp : ClampSpline) (R : Rotate) (E : EllipseFinder) (te : EllipseTuning) (t : PupilTuning)
    (wfe a b : Arr2 ℝ) (pupil : Arr2 Bool) (bMask : Option (Arr2 Bool)) (zMax : ℤ) (selem : Option (Arr2 Bool))
    (ha : CleanEnough a pupil) (hb : CleanEnough b pupil) :
    fitPupilZernikes S Sp R E te t wfe a bMask zMax selem = fitPupilZernikes S Sp R E te t wfe b bMask zMax selem := by
  unfold fitPupilZernikes zernikeMask
  rw [C133_pupil_fit S Sp R E te t a b pupil ha hb, cleanEnough_mask ha, cleanEnough_mask hb]

/-- **C133.** The same for the circle fit. -/
theorem C133_circle_fit (H : CircleFinder) (a b : Arr2 ℝ) (pupil : Arr2 Bool) (minR maxR : ℤ) (sigma : ℝ)
    (ha : CleanEnough a pupil) (hb : CleanEnough b pupil) : fitCircle H a minR maxR sigma = fitCircle H b minR maxR sigma := by
  unfold fitCircle
  rw [cleanEnough_mask ha, cleanEnough_mask hb]

/-- **C133.** The same for the software mask of the DM registration, whatever the second amplitude. -/
theorem C133_software_mask (S : Solver) (a b ph0 amp1 amp1' ph1 : Arr2 ℝ) (pupil : Arr2 Bool) (whichDM nErode : ℤ) (thresh : ℝ)
    (hr : amp1.nr = amp1'.nr) (hc : amp1.nc = amp1'.nc) (ha : CleanEnough a pupil) (hb : CleanEnough b pupil) :
    calcSoftwareMask S a ph0 amp1 ph1 whichDM nErode thresh = calcSoftwareMask S b ph0 amp1' ph1 whichDM nErode thresh := by
  have e1 : a.nr = b.nr ∧ a.nc = b.nc := by
    obtain ⟨_, _, _, h, _⟩ := ha
    obtain ⟨_, _, _, h', _⟩ := hb
    exact ⟨h.rows.trans h'.rows.symm, h.cols.trans h'.cols.symm⟩
  unfold calcSoftwareMask
  rw [cleanEnough_mask ha, cleanEnough_mask hb, e1.1, e1.2, hr, hc]

/-- Two different pictures of a pupil of two pixels in a row of four, both clean enough. -/
example : ∃ a b : Arr2 ℝ, a ≠ b ∧ CleanEnough a (Arr2.ofFn 1 4 fun _ j => decide (2 ≤ j)) ∧
    CleanEnough b (Arr2.ofFn 1 4 fun _ j => decide (2 ≤ j)) := by
  have key : ∀ e : ℝ, |e| ≤ 1 → CleanEnough (Arr2.ofFn 1 4 fun _ j => if j = 0 then e else if j = 1 then 0 else if j = 2 then 46 - e else 46)
      (Arr2.ofFn 1 4 fun _ j => decide (2 ≤ j)) := by
    intro e he
    rw [abs_le] at he
    refine ⟨0, 46, 1, ⟨rfl, rfl, ?_, ?_⟩, by norm_num, by norm_num, ⟨0, 2, by simp [Arr2.px_ofFn]⟩, 0, 0, by simp [Arr2.px_ofFn]⟩
    · intro i j v hb hv
      rw [Arr2.px_ofFn] at hb hv
      split_ifs at hb hv with hin <;> simp only [Option.some.injEq, decide_eq_true_eq] at hb hv <;> rw [← hv] <;>
        first | omega | (rw [abs_le]; constructor <;> linarith)
    · intro i j v hb hv
      rw [Arr2.px_ofFn] at hb hv
      split_ifs at hb hv with hin <;> simp only [Option.some.injEq, decide_eq_false_iff_not] at hb hv <;> rw [← hv] <;>
        first | omega | (rw [abs_le]; constructor <;> linarith)
  refine ⟨_, _, ?_, key 1 (by norm_num), key 0 (by norm_num)⟩
  intro h
  have := congrArg (fun a : Arr2 ℝ => a.px 0 0) h
  simp [Arr2.px_ofFn] at this

end Coralign.Props
