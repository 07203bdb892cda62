import Verif.Props.ConjugateSplit
import Verif.Props.ConjugateOutside
import Verif.Props.UpDft
import Verif.Props.SoftwareMask
import Verif.Props.Matlab
import Verif.Props.MatlabYaml
import Verif.Props.NoiseFree
import Verif.Props.SpotExposure
import Verif.Props.HlcOcculterCases
import Verif.Props.PupilFitCases
import Verif.Props.NormFactor
import Verif.Props.Dmhtoph
import Verif.Props.Materials
import Verif.Props.MaskFit
import Verif.Props.LyotFit
import Verif.Props.PlateSolv
import Verif.Props.PupilZernike
import Verif.Props.RectProper

/-!
# The theorems of C47 to C93 on concrete data

Every example applies a theorem to concrete arguments, so its hypotheses can be met.
-/

namespace Coralign.Props

open Coralign Coralign.Spec

/-! ### C47 to C50 -/

/-- A mirror whose first actuator is dead. -/
def oneDead : Arr2 ℤ := Arr2.ofFn 2 2 fun i j => if i = 0 ∧ j = 0 then -1 else 0

/-- The dead actuator keeps its command, and the work is left to the other mirror. -/
example (E : FlattenEnv) (ph : Arr2 ℝ) (b1 b2 b3 : Bool) (k : ℤ) :
    ∃ out, flatten E (Arr2.full 2 2 7) (Arr2.full 2 2 5) k b1 b2 b3 1 sampleAmp ph 4 0 0 (sampleDm oneDead) (sampleDm (Arr2.full 2 2 0)) ⟨1, 1⟩
      ⟨22, 3, 10, 1⟩ = .ok out ∧ out.cmd1.px 0 0 = some 7 ∧
      (b2 = false → out.fcm = k) := by
  obtain ⟨out, ho⟩ := sample_flattened E oneDead (Arr2.full 2 2 0) ⟨rfl, rfl⟩ ⟨rfl, rfl⟩ (Arr2.full 2 2 7) (Arr2.full 2 2 5) ⟨rfl, rfl⟩ ⟨rfl, rfl⟩ ph b1 b2 b3 k
  refine ⟨out, ho, ?_, (C48_fcm E _ _ k b1 b2 b3 1 sampleAmp ph 4 0 0 _ _ _ _ out ho).1⟩
  rw [(C47_dead_unchanged_partial E _ _ k b1 b2 b3 1 sampleAmp ph 4 0 0 _ _ _ _ out ho 0 0).1]
  · rfl
  · rfl
  · show (Arr2.full 2 2 (1 : ℝ)).zext 0 0 ≠ 0
    rw [zext_in (by decide)]
    exact one_ne_zero

/-- Two pixels, low-order part 3, high-order part 1: the split of one quarter balances them. -/
example : ∃ a0, (0 ≤ a0 ∧ a0 ≤ 1) ∧ phaseCost a0 (⟨1, 2, fun _ _ => 3⟩ : Arr2 ℝ) ⟨1, 2, fun _ _ => 1⟩ ⟨1, 2, fun _ _ => true⟩ = .ok 0 := by
  obtain ⟨a0, ⟨h1, h2⟩, -⟩ := C49_balance (n := 1) (m := 2) (fun _ _ => true) (fun _ _ => 3) (fun _ _ => 1) (by
    unfold pupilRms
    apply Real.sqrt_lt_sqrt <;> norm_num [Fin.sum_univ_two])
  exact ⟨a0, h1, h2⟩

/-- The three parts add up to the whole. -/
example (k l : ℤ) (hkl : Reaches 600 602 k l) : ∃ a b c, genSplitWfe true 5 [1, 2, 3, 4, 5] 300 600 602 0 0 = .ok (a, b, c) ∧
    ∃ x y z, a.centered k l = some x ∧ b.centered k l = some y ∧ c.centered k l = some z ∧
      x + y + z = zernPart [1, 2, 3, 4, 5] 1 5 (300 / 2) (l - 0) (k - 0) := by
  obtain ⟨a, b, c, h, -⟩ := C50_parts true 5 [1, 2, 3, 4, 5] 300 600 602 0 0 (by norm_num) (by norm_num) (by norm_num) (by norm_num) (by norm_num)
  exact ⟨a, b, c, h, C50_sum true 5 _ 300 600 602 0 0 a b c h (by norm_num) (by norm_num) (by norm_num) (by norm_num) (by norm_num) k l hkl⟩

/-! ### C53 to C62 -/

example (f : Fin 2 → Fin 2 → ℚ) : ∃ r s, computeNormFactor ⟨2, 2, f⟩ ⟨2, 2, fun i j => if i = 0 ∧ j = 0 then (0 : ℚ) else 1⟩ 50 = .ok r ∧
    computeNormFactor ⟨2, 2, f⟩ ⟨2, 2, fun i j => if i = 0 ∧ j = 0 then (0 : ℚ) else 1⟩ 75 = .ok s ∧ r ≤ s := by
  refine C53_monotone f _ 50 75 ?_ ?_ (by norm_num) <;>
  · refine ⟨fun i j => ?_, ⟨1, 1, by simp⟩, by norm_num, by norm_num⟩
    by_cases h : i = 0 ∧ j = 0 <;> simp [h]

example : ∃ out, computeUpsampledDft (⟨2, 3, fun i j => (i : ℕ) + (j : ℕ) * Complex.I⟩ : Arr2 ℂ) [(2 : ℕ), (3 : ℕ)] 1 [0, 0] = .ok out ∧ out.nr = 2 ∧ out.nc = 3 := by
  obtain ⟨out, h1, h2, h3, -⟩ := C55_plain 2 3 (by norm_num) (by norm_num) fun i j => ((i : ℕ) : ℂ) + (j : ℕ) * Complex.I
  exact ⟨out, h1, h2, h3⟩

/-- Equal spots and a target ratio of two: the MATLAB port says zero, the Python code does not. -/
example : Matlab.calcOffsetFromSpots (twoSpots 1 1) 0 0 0 pixelSpots = some 0 ∧ okValue (calcOffsetFromSpots (twoSpots 1 1) 0 0 0 pixelSpots 2) ≠ some 0 := by
  refine C61_target_ignored (twoSpots 1 1) (by decide) (by decide) 0 0 0 pixelSpots 2 ?_ rfl ?_ (by norm_num)
  · refine ⟨?_, ?_, ?_, ?_, ?_, ?_, ?_, Or.inr rfl, Or.inr rfl⟩ <;> norm_num [pixelSpots]
  · unfold measuredRatio
    rw [twoSpots_right, twoSpots_left]
    norm_num [bright]

/-! ### C85 -/

/-- The occulter of the sample: outside the mask area there is bare substrate. -/
example (S : ClampSpline) (R : Rotate) : ∃ (o : Arr2 ℂ) (E : ℕ), genHlcOcculter S R sampleMat (1 / 2) true 16 16 sampleCal sampleDesign 0 0 = .ok o ∧
    2 * sampleDesign.rOcc * outputPpl (1 / 2) true sampleCal sampleDesign * sampleDesign.oversize ≤ E ∧
    ∀ k l, Reaches (16 : ℤ) (16 : ℤ) k l → ¬ Reaches E E k l → o.centered k l = some 1 := by
  obtain ⟨o, ho⟩ := (C85_accepts (S := S) (R := R) (xo := 0) (yo := 0) sampleMat_ok).mpr sample_hlc
  obtain ⟨t0, ht, hne⟩ := C85_bare_nonzero (c := sampleCal) (d := sampleDesign) sampleMat_ok (by norm_num) sample_hlc.aoi (mul_pos sample_hlc.hRef sample_hlc.lam0) sample_hlc.pol
  have hcorner : IsDesign sampleMat (1 / 2) sampleCal sampleDesign (-(((5 : ℕ) : ℤ) / 2)) (-(((5 : ℕ) : ℤ) / 2)) t0 := by
    have hv : pmgiAt sampleDesign (-(((5 : ℕ) : ℤ) / 2)) (-(((5 : ℕ) : ℤ) / 2)) = 0 := by
      unfold pmgiAt at0 Arr2.centered
      rw [Arr2.px_of_inB _ (by decide)]
      show (if 1 ≤ 0 ∧ 0 ≤ 3 ∧ 1 ≤ 0 ∧ 0 ≤ 3 then (1 / 2 : ℝ) else 0) = 0
      norm_num
    exact ⟨fun h => by rw [hv] at h; exact absurd h (lt_irrefl _), fun _ => ht⟩
  obtain ⟨-, -, E, h1, h2⟩ := C85_substrate ho sample_side hcorner hne
  exact ⟨o, E, ho, h1, h2⟩

/-- The output samples per design sample: four design pixels to two output pixels, eight output pixels. -/
example := C85_scale (pe := 2) (ps := 4) two_pos (by norm_num) (M := 16) (E := 8) (by norm_num) (by norm_num) (by norm_num)

/-! ### C77, C78, C79, C81, C82, C84, C86 -/

example (S : Solver) (Sp : ClampSpline) (R : Rotate) (T : Shift) (t : MaskTuning) :
    fitPupilMaskOffsets S Sp R t (Arr2.full 4 4 1) (Arr2.full 4 6 1) 1 0 0 10 1 0 = .error .valueError :=
  ((C77_rejects S Sp R T t (Arr2.full 4 4 1) (Arr2.full 4 6 1) 1 0 0 10 1 0 0 0).1 (Or.inr (by decide))).1

example (fuel : ℕ) (S : Solver) (Sp : ClampSpline) (R : Rotate) (t : LyotTuning) :
    fitLyotStopMagClocking fuel S Sp R t (Arr2.full 4 4 1) (Arr2.full 4 6 1) 0 0 = some (.error .valueError) :=
  (C78_rejects fuel S Sp R t (Arr2.full 4 4 1) (Arr2.full 4 6 1) 0 0).1 (Or.inr (by decide))

/-- The corner of a lit mask is lost when the struts are closed. -/
example : ((-2, -2) : ℤ × ℤ) ∉ places (closeStruts 1 (Arr2.full 5 5 true)) :=
  closeStruts_border 1 _ (-2, -2) (-3, -3) (by unfold Near; norm_num) (by unfold Reaches; show ¬ _; simp [Arr2.full])

example (I : Interp1d) : platesolv I (Arr2.full 4 4 1) (Arr2.full 4 5 1) 1 ⟨some 1, some 3, some 99, some 1⟩ = .error plateSolvException :=
  C84_rejects I _ _ 1 _ (Or.inr (Or.inr (Or.inl (by decide))))

example (S : Solver) (Sp : ClampSpline) (R : Rotate) (E : EllipseFinder) (te : EllipseTuning) (t : PupilTuning) (amp : Arr2 ℝ) :
    ∃ e, fitPupilZernikes S Sp R E te t (Arr2.full 4 6 1) amp none 11 none = .error e :=
  C82_square_only S Sp R E te t (Arr2.full 4 6 1) amp none none 11 (by decide) (by decide) (by decide)

/-- The middle pixel of a 3 x 3 image lies inside a 2 x 2 rectangle, whatever the number of strips. -/
example (N : ℕ) (hN : 1 ≤ N) : ∃ o, rectProper 3 3 2 2 0 0 0 N true = .ok o ∧ o.centered 0 0 = some 0 := by
  obtain ⟨o, ho, -⟩ := C86_exact 3 3 N (by norm_num) (by norm_num) hN 2 2 0 0 0 two_pos two_pos true
  refine ⟨o, ho, (C86_inside_outside 3 3 N (by norm_num) (by norm_num) hN 2 2 0 0 0 two_pos two_pos true o ho 0 0 ⟨by norm_num, by norm_num⟩).1 ?_⟩
  intro x y hx hy
  rw [abs_le] at hx hy
  push_cast at hx hy
  unfold inRect turnedX turnedY
  simp only [zero_mul, zero_div, mul_zero, neg_zero, Real.cos_zero, Real.sin_zero, mul_one, one_mul, abs_le, sub_zero, add_zero, zero_add]
  constructor <;> constructor <;> linarith

/-! ### C91 -/

/-- Noise-free measurements of a mirror in the place where the calibration says: the misfit of the offset search is zero there. -/
example (Sp : Spline) (R : Rotate) (hR : R.Exact) (T : Shift) (S : Solver) : ∃ (v : Fin 3 → Fin 3 → ℝ) (meas : Arr2 ℝ) (F : ℝ → ℝ → ℝ → ℝ),
    v 0 0 = -1 / 5 ∧ v 2 2 = 1 ∧ IsMeasured S (cornerData v) meas ∧ IsOffsetMisfit Sp R T S corners meas rampPoke rampDm F ∧
    F 0 0 0 = 0 ∧ ∀ th x y, F 0 0 0 ≤ F th x y := by
  obtain ⟨v, hv, hv0, -⟩ := corner_surface Sp R hR T (-1 / 5) (1 / 5) (1 / 5) 1 0 (Or.inl rfl)
  obtain ⟨v1, v2, v3, v4⟩ := hv0 rfl
  have hnf : NoiseFree (cornerData v) ⟨3, 3, v⟩ := corner_noiseFree v (by rw [v1]; norm_num) (by rw [v2]; norm_num) (by rw [v3]; norm_num) (by rw [v4]; norm_num)
  obtain ⟨meas, hm⟩ := measured_ok S (cornerData v) ⟨⟨rfl, rfl⟩, rfl, rfl⟩
  have hm := (isMeasured_iff S (cornerData v) _ rfl rfl).mpr hm
  obtain ⟨⟨F, hF⟩, -⟩ := misfits_exist Sp R T S corners meas rampPoke rampDm (corner_args _ _ _ _)
  refine ⟨v, meas, F, v1, v4, hm, hF, ?_⟩
  exact C91_translation Sp R T S (cornerData v) 1 (Arr2.full 5 5 0) ⟨1, 1, 1, 3, 1, 1, 1, 3⟩ 1
    ⟨⟨⟨rfl, rfl⟩, ⟨rfl, rfl⟩, ⟨rfl, rfl⟩, rfl, rfl⟩, Or.inl rfl, rfl, one_pos, by norm_num, by norm_num, by norm_num, by norm_num, by norm_num, by norm_num⟩
    rampDm rampPoke meas hm F hF 0 0 0 ⟨3, 3, v⟩ hv hnf

end Coralign.Props
