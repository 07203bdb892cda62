import Verif.Props.Zernike
import Verif.Props.ZernikeFit
import Verif.Props.DrUtil
import Verif.Props.FfUtil
import Verif.Props.FocalFit
import Verif.Props.GainMap
import Verif.Props.ThinFilm
import Verif.Props.ShapeArea
import Verif.Props.ShapeEdges
import Verif.Props.Pupil
import Verif.Props.DmShapes
import Verif.Props.DmWaves
import Verif.Props.FitSurf
import Verif.Props.DarkHole

/-!
# The theorems of C21 to C46 on concrete data

Every example applies a theorem to concrete arguments, so its hypotheses can be met.
-/

namespace Coralign.Props

open Coralign Coralign.Spec

example : ∃ j : ℕ, 1 ≤ j ∧ nollN j = (7 : ℕ) ∧ nollM j = (3 : ℕ) ∧ ((0 : ℕ) < 3 → j % 2 = 1) :=
  C21_surjective 7 3 1 ⟨by norm_num, by decide⟩ (by norm_num)

/-- The coefficients of `8 r^7` and its neighbours: `21 r^7 - 30 r^5 + 10 r^3` for `(n, m) = (7, 3)`. -/
example : (zernWork 7 3).rnum 1 / ((zernWork 7 3).d0 1 * (zernWork 7 3).d1 1 * (zernWork 7 3).d2 1) = -30 := by
  rw [C22_coefficients 7 3 1 ⟨by norm_num, by decide⟩ (by norm_num)]
  norm_num [Nat.factorial]

example : zernRp 7 3 1 = 1 := (C22_radial 7 3 ⟨by norm_num, by decide⟩).2

/-- Astigmatism and coma on a 32-pixel beam. -/
theorem astigComa (n : ℤ) (hn : 0 < n) : GenArgs [(5, 1e-9), (8, -2e-9)] 32 n := ⟨by simp, by simp, by norm_num, hn⟩

example : (genZernikes [5, 8] [1e-9, -2e-9] 0.5 0 32 64).bind (fun a => padCrop a [40, 40] 0) = genZernikes [5, 8] [1e-9, -2e-9] 0.5 0 32 40 :=
  C23_crop_consistent [(5, 1e-9), (8, -2e-9)] 0.5 0 32 64 40 (astigComa _ (by norm_num)) (astigComa _ (by norm_num)) (by norm_num) (by norm_num) (by norm_num)

example : genZernikes [5, 8] [1e-9, -2e-9] 0.5 0 32 64 = genZernikes [8, 5] [-2e-9, 1e-9] 0.5 0 32 64 :=
  C23_order_independent [(5, 1e-9), (8, -2e-9)] [(8, -2e-9), (5, 1e-9)] (List.Perm.swap _ _ _) 0.5 0 32 64 (astigComa _ (by norm_num))

example : genZernikes [5, 5, 8] [1, 2, 3] 0.5 0 32 64 = genZernikes [5, 8] [1 + 2, 3] 0.5 0 32 64 :=
  C23_like_terms_add 5 1 2 [(8, 3)] 0.5 0 32 64 ⟨by simp, by simp, by norm_num, by norm_num⟩

/-- Six modes (order two) on the lower left three by three pixels of a 4 x 5 array. -/
example (S : Solver) (c₀ : Fin 6 → ℝ) : fitZernikes S ⟨4, 5, fun i k => ∑ s : Fin 6, fitBasis 4 5 3 0.5 0 s i k * c₀ s⟩
    ⟨4, 5, fun i k => decide ((i : ℕ) < 3 ∧ (k : ℕ) < 3)⟩ 6 3 0.5 0 = .ok c₀ :=
  C24_determined S 4 5 _ _ 6 2 (by norm_num) (by norm_num) 3 0.5 0 (by norm_num) {0, 1, 2} {0, 1, 2} (by decide) (by decide) (by decide) c₀
    fun _ _ _ => rfl

/-- Any map and any mask of its shape: the second call changes nothing. -/
example (S : Solver) (v : Fin 3 → Fin 4 → ℝ) : ∃ o, removePistonTipTilt S ⟨3, 4, v⟩ (Arr2.full 3 4 true) = .ok o ∧
    removePistonTipTilt S o (Arr2.full 3 4 true) = .ok o := by
  obtain ⟨o, h⟩ : ∃ o, removePistonTipTilt S ⟨3, 4, v⟩ (Arr2.full 3 4 true) = .ok o := by
    unfold removePistonTipTilt
    simp [Arr2.full]
  exact ⟨o, h, C25_idempotent S _ o _ h⟩

example : ∃ y, boundValue (-5) 2 = .ok y ∧ -2 ≤ y ∧ y ≤ 2 := by
  obtain ⟨y, h, h1, h2, -⟩ := C26_bound_value (-5) 2 (by norm_num)
  exact ⟨y, h, h1, h2⟩

example : boundValue 3 (-2) = .error .valueError := C26_negative_bound _ _ (by norm_num)

example : ∃ x x', calcOffsetQuadratic 1 2 (1 / 4) = .ok x ∧ calcOffsetQuadratic 1 2 4 = .ok x' ∧ x < x' := by
  obtain ⟨x', h', -⟩ := C27_quadratic_root 1 2 4 (by norm_num) (by norm_num) (by norm_num)
  obtain ⟨y, hy, -⟩ := C27_linear_root 1 4 (by norm_num) (by norm_num)
  obtain ⟨h, -⟩ := C27_inverse_negates 1 2 4 (by norm_num) (by norm_num) x' y h' hy
  exact ⟨-x', x', h, h', C27_quadratic_strictMono 1 2 _ _ _ x' (by norm_num) (by norm_num) (by norm_num) (by norm_num) h h'⟩

/-- Any image of 9 x 9 pixels. -/
example (v : Fin 9 → Fin 9 → ℝ) (rotDeg : ℝ) : ∃ y, calcOffsetFromSpots ⟨9, 9, v⟩ rotDeg 0 0 exampleTuning (3 / 2) = .ok y ∧ |y| ≤ exampleTuning.maxStep := by
  obtain ⟨x, xt, -, -, e⟩ := C28_estimate ⟨9, 9, v⟩ (show 2 ≤ 9 by norm_num) (show 1 ≤ 9 by norm_num) rotDeg 0 0 exampleTuning _ exampleTuning_valid
  exact ⟨_, e, C28_bounded _ _ _ _ _ _ _ e⟩

example (v : Fin 9 → Fin 9 → ℝ) (rotDeg : ℝ) : ∃ y, calcOffsetFromSpots ⟨9, 9, v⟩ rotDeg 0 0 { exampleTuning with maskIsInsideSpots := 1 } (3 / 2) = .ok y ∧
    calcOffsetFromSpots ⟨9, 9, v⟩ rotDeg 0 0 { exampleTuning with maskIsInsideSpots := 0 } (3 / 2) = .ok (-y) :=
  C28_flag ⟨9, 9, v⟩ (show 2 ≤ 9 by norm_num) (show 1 ≤ 9 by norm_num) rotDeg 0 0 exampleTuning _ exampleTuning_valid

example (v : Fin 9 → Fin 9 → ℝ) (rotDeg : ℝ) : ∃ y, calcOffsetFromSpots ⟨9, 9, v⟩ rotDeg 0 0 exampleTuning 1 = .ok y ∧
    calcOffsetFromSpots ⟨9, 9, v⟩ (rotDeg + 180) 0 0 exampleTuning 1 = .ok (-y) :=
  C28_half_turn ⟨9, 9, v⟩ (show 2 ≤ 9 by norm_num) (show 1 ≤ 9 by norm_num) rotDeg 0 0 exampleTuning
    (by refine ⟨?_, ?_, ?_, ?_, ?_, ?_, ?_, Or.inr rfl, Or.inr rfl⟩ <;> norm_num [exampleTuning])

example (v : Fin 9 → Fin 9 → ℝ) : ∃ ox oy, calcBowtieOffsets ⟨9, 9, v⟩ 0 0 ⟨5, 30, 0, 2, 10, 3, 1, 2, 1, 2, 1, 1⟩ = .ok (ox, oy) := by
  obtain ⟨ox, oy, h, -⟩ := C28_bowtie_sign ⟨9, 9, v⟩ (show 2 ≤ 9 by norm_num) (show 1 ≤ 9 by norm_num) 0 0 ⟨5, 30, 0, 2, 10, 3, 1, 2, 1, 2, 1, 1⟩
    (by constructor <;> norm_num) (by norm_num) (by norm_num)
  exact ⟨ox, oy, h⟩

example : verifyPresorted ([0, 3, 1] : List ℚ) = .error .valueError := by
  refine (C29_sorted_iff_partial ([0, 3, 1] : List ℚ) ?_).2 (by decide +kernel)
  intro a ha b hb hab
  simp only [List.mem_cons, List.not_mem_nil, or_false] at ha hb
  rcases ha with rfl | rfl | rfl <;> rcases hb with rfl | rfl | rfl <;> first | exact absurd rfl hab | (norm_num [orderTol, abs_of_pos, abs_of_neg])

/-- Heights `2 + 3 c` at the commands 0, 10, 20, 50, 100. -/
def linearCube : Arr3 ℚ := ⟨5, 2, 2, fun k _ _ => 2 + 3 * ([0, 10, 20, 50, 100] : List ℚ).getD k 0⟩

example : ∃ g, gainCube linearCube [0, 10, 20, 50, 100] = .ok g ∧ g.column 1 0 = .ok [3, 3, 3, 3] :=
  C30_linear linearCube [0, 10, 20, 50, 100] (by decide +kernel) (by simp) rfl 1 0 (by decide) (by decide) 2 3 (by decide +kernel)

example : gainCube linearCube [0, 10, 20] = .error .valueError := C30_mismatch _ _ (by decide)

theorem sampleRef : RefData sampleCube [0, 10, 20, 50, 100] 2 := ⟨by decide +kernel, by decide, rfl, rfl, rfl⟩

theorem sampleInRange (q : ℚ) (h : 0 ≤ q) (h' : q ≤ 100) : InRange ([0, 10, 20, 50, 100] : List ℚ) q := ⟨⟨0, by simp, h⟩, ⟨100, by simp, h'⟩⟩

example (I : CubicInterp ℚ) : heightsForCommands I ⟨2, 2, fun i j => if i = 0 ∧ j = 1 then 101 else 5⟩ sampleCube [0, 10, 20, 50, 100] = .error .valueError := by
  refine (C31_no_extrapolation I 2 sampleCube _ sampleRef _ 0 1).1 ?_
  rintro ⟨-, b, hb, h⟩
  simp only [List.mem_cons, List.not_mem_nil, or_false] at hb
  rcases hb with rfl | rfl | rfl | rfl | rfl <;> norm_num at h

example (I : CubicInterp ℚ) : ∃ ha hb ab : Fin 2 → Fin 2 → ℚ, heightsForCommands I ⟨2, 2, fun _ _ => 7⟩ sampleCube [0, 10, 20, 50, 100] = .ok ⟨2, 2, ha⟩ ∧
    heightsForCommands I ⟨2, 2, fun i _ => 30 * (i : ℕ)⟩ sampleCube [0, 10, 20, 50, 100] = .ok ⟨2, 2, hb⟩ ∧
    deltaHeights I ⟨2, 2, fun _ _ => 7⟩ ⟨2, 2, fun i _ => 30 * (i : ℕ)⟩ sampleCube [0, 10, 20, 50, 100] = .ok ⟨2, 2, ab⟩ ∧
    ∀ i j, ab i j = hb i j - ha i j := by
  obtain ⟨ha, hb, ab, ba, bc, ac, e1, e2, e3, -, -, -, e⟩ := C31_delta_partial I 2 sampleCube _ sampleRef (fun _ _ => 7) (fun i _ => 30 * (i : ℕ)) (fun _ _ => 100)
    (fun _ _ => sampleInRange _ (by norm_num) (by norm_num)) (fun i _ => by fin_cases i <;> exact sampleInRange _ (by norm_num) (by norm_num))
    (fun _ _ => sampleInRange _ (by norm_num) (by norm_num))
  exact ⟨ha, hb, ab, e1, e2, e3, fun i j => (e i j).1⟩

example (I : CubicInterp ℚ) : ∃ o : Fin 2 → Fin 2 → ℚ, startingCommands I ⟨2, 2, fun _ _ => 7⟩ ⟨2, 2, fun i j => 1000 * (i : ℕ) - (j : ℕ)⟩ sampleCube
    [0, 10, 20, 50, 100] = .ok ⟨2, 2, o⟩ := by
  obtain ⟨fh, req, o, -, e, -⟩ := C32_starting_commands_partial I 2 sampleCube _ sampleRef (fun _ _ => 7) (fun i j => 1000 * (i : ℕ) - (j : ℕ))
    (fun _ _ => sampleInRange _ (by norm_num) (by norm_num))
    (by intro i j; fin_cases i <;> fin_cases j <;> exact ⟨_, rfl, by decide +kernel⟩)
  exact ⟨o, e⟩

/-- Actuator `(1, 1)` of the sample has heights `3 c + 3 c^2 / 100`. -/
example : ∃ o : Fin 2 → Fin 2 → ℚ, gainMap ⟨2, 2, fun _ _ => 40⟩ sampleCube [0, 10, 20, 50, 100] = .ok ⟨2, 2, o⟩ ∧ o 1 1 = 3 + 2 * (3 / 100) * 40 :=
  C33_quadratic_actuator_partial 2 sampleCube _ ⟨by decide +kernel, by decide, rfl, rfl, rfl⟩ (fun _ _ => 40) 1 1 0 3 (3 / 100) (by decide +kernel)

example : ∃ o : Fin 2 → Fin 2 → ℚ, gainMap ⟨2, 2, fun _ _ => (20 + 50) / 2⟩ sampleCube [0, 10, 20, 50, 100] = .ok ⟨2, 2, o⟩ ∧
    o 0 0 = (75 - 24) / (50 - 20) :=
  C33_midpoint_partial 2 sampleCube _ ⟨by decide +kernel, by decide, rfl, rfl, rfl⟩ (fun _ _ => (20 + 50) / 2) 0 0 2 (by decide) 20 50 24 75
    [0, 11, 24, 75, 200] (by decide +kernel) rfl rfl rfl rfl rfl

/-- The first layer of the example stack in two parts, a layer of no thickness, and the reversed stack. -/
example (tm : Bool) : film (1 : ℝ) [((3 / 2 : ℝ), 1 / 14), ((3 / 2 : ℝ), 1 / 14), ((2 : ℝ), 1 / 9)] ((3 / 2 : ℝ) : ℂ) (Real.pi / 6) (1 / 2) tm =
    film (1 : ℝ) [((3 / 2 : ℝ), 1 / 7), ((2 : ℝ), 1 / 9)] ((3 / 2 : ℝ) : ℂ) (Real.pi / 6) (1 / 2) tm := by
  have e : (1 / 7 : ℝ) = 1 / 14 + 1 / 14 := by norm_num
  have h := exampleFilm
  rw [e] at h ⊢
  exact C35_split_layer [] [(((2 : ℝ) : ℂ), 1 / 9)] ((3 / 2 : ℝ) : ℂ) (1 / 14) (1 / 14) h tm

example (tm : Bool) : film (1 : ℝ) [((3 / 2 : ℝ), 1 / 7), ((3 : ℝ), 0), ((2 : ℝ), 1 / 9)] ((3 / 2 : ℝ) : ℂ) (Real.pi / 6) (1 / 2) tm =
    film (1 : ℝ) [((3 / 2 : ℝ), 1 / 7), ((2 : ℝ), 1 / 9)] ((3 / 2 : ℝ) : ℂ) (Real.pi / 6) (1 / 2) tm :=
  C35_zero_layer [(((3 / 2 : ℝ) : ℂ), 1 / 7)] [(((2 : ℝ) : ℂ), 1 / 9)] ((3 : ℝ) : ℂ)
    ⟨passive_real _ (by norm_num), notGrazing_real _ exampleFilm.2 exampleFilm.3 _ (by norm_num)⟩ exampleFilm tm

example (tm : Bool) : ∃ o, film (1 : ℝ) [((1 : ℝ), 1 / 7), ((1 : ℝ), 1 / 9)] ((1 : ℝ) : ℂ) (Real.pi / 6) (1 / 2) tm = .ok o ∧ o.T = 1 :=
  ⟨_, C35_uniform (n0 := 1) [1 / 7, 1 / 9] one_pos (by positivity) (by linarith [Real.pi_pos]) (by norm_num) tm, rfl⟩

/-- Snell's law: from vacuum at normal incidence into glass. -/
example (tm : Bool) : ∃ o o', film (1 : ℝ) [((2 : ℝ), 1 / 9)] ((3 / 2 : ℝ) : ℂ) 0 (1 / 2) tm = .ok o ∧
    film (3 / 2 : ℝ) [((2 : ℝ), 1 / 9)] ((1 : ℝ) : ℂ) 0 (1 / 2) tm = .ok o' ∧ o'.tt = o.tt ∧ o'.T = o.T := by
  have h2 : (0 : ℝ) < Real.pi / 2 := by positivity
  have h : FilmArgs 1 [((2 : ℝ), 1 / 9)] ((3 / 2 : ℝ) : ℂ) 0 (1 / 2) := by
    refine ⟨one_pos, le_rfl, h2, by norm_num, ?_, passive_real _ (by norm_num), notGrazing_real _ le_rfl h2 _ (by norm_num)⟩
    intro a ha
    rw [List.mem_singleton.mp ha]
    exact ⟨passive_real _ (by norm_num), notGrazing_real _ le_rfl h2 _ (by norm_num)⟩
  exact C70_reciprocity h le_rfl h2 (by simp) tm

example (mat : ℝ → Materials) : calcComplexOcculter mat (1 / 2) 5 [1] [1] [1] 4 2 true .BK7 = .error .valueError :=
  C71_bk7_never_available _ _ _ _ _ _ _ _ _ _ (by simp)

example : WithinArea (circle 64 48 20.5 0.3 (-1) 10 true) 64 48 0.3 (-1) (inDisc 20.5) true (2 / 10) := by
  exact_mod_cast C36_area 64 48 10 (by norm_num) (by norm_num) (by norm_num) 20.5 0.3 (-1) (by norm_num) true

example : WithinArea (rectangle 64 48 20.5 3.25 0.3 (-1) 30 10 false) 64 48 0.3 (-1) (inRect 20.5 3.25 30) false (2 / 10) := by
  exact_mod_cast C37_area 64 48 10 (by norm_num) (by norm_num) (by norm_num) 20.5 3.25 0.3 (-1) 30 (by norm_num) (by norm_num) false

example : circle 1 5 2 0 0 10 false = .error .indexError ∧ circle 5 5 0 0 0 10 false = .error .typeError :=
  ⟨(C36_circle_rejects 1 5 10 2 0 0 false).2 (by norm_num), (C36_circle_rejects 5 5 10 0 0 0 false).1 (by norm_num)⟩

example : rectangle 1 5 2 3 0 0 20 10 false = .error .indexError ∧ rectangle 5 5 2 (-1) 0 0 0 10 false = .error .typeError :=
  ⟨(C37_rectangle_rejects 1 5 10 2 3 0 0 20 false).2 (by norm_num), (C37_rectangle_rejects 5 5 10 2 (-1) 0 0 0 false).1 (by norm_num)⟩

example : ∃ f : Fin 48 → Fin 64 → ℝ, ellipse (64 : ℕ) (48 : ℕ) 20 12.5 30 0.3 (-1) (10 : ℕ) false = .ok ⟨48, 64, f⟩ ∧ ∀ i j, 0 ≤ f i j ∧ f i j ≤ 1 := by
  obtain ⟨f, h, -, e⟩ := C38_ellipse_range 64 48 10 (by norm_num) (by norm_num) (by norm_num) 20 12.5 30 0.3 (-1) (by norm_num) (by norm_num)
  exact ⟨f, h, e⟩

example : ∃ v : ℝ → ℝ → ℝ, IsImage (ellipse (64 : ℕ) (48 : ℕ) 20 12.5 30 0.3 (-1) (10 : ℕ) true) 64 48 0.3 (-1) (fun x y => tone true (v x y)) := by
  obtain ⟨v, h, -⟩ := C38_ellipse_pixels 64 48 10 (by norm_num) (by norm_num) (by norm_num) 20 12.5 30 0.3 (-1) (by norm_num) (by norm_num) true
  exact ⟨v, h⟩

example (angles : List ℝ) : IsImage (simplePupil (64 : ℕ) (48 : ℕ) 0.3 (-1) 15.2 46.3 angles 1.6 (10 : ℕ)) 64 48 0.3 (-1)
    (pupilValue 10 15.2 46.3 angles 1.6) :=
  C40_pupil_exact 64 48 10 (by norm_num) (by norm_num) (by norm_num) 0.3 (-1) 15.2 46.3 1.6 angles (by norm_num) (by norm_num) (by norm_num)

example : ∃ g : ℕ → ℕ → Arr2 ℚ, (∀ xo < 4, ∀ yo < 6, grid (48 : ℕ) (4 : ℕ) (6 : ℕ) (xo : ℕ) (yo : ℕ) (5 : ℚ) = .ok (g xo yo)) := by
  obtain ⟨g, h, -⟩ := C41_grid_partition (K := ℚ) 48 4 6 5 (by norm_num) (by norm_num) (by norm_num) (by norm_num)
  exact ⟨g, h⟩

/-- A sine wave of five cycles: its bound, its phase, its linearity, its period and its values. -/
example : ∃ o, sine 48 48 1e-9 90 6 3 = .ok o ∧ (∀ i j v, o.px i j = some v → |v| ≤ 1e-9) ∧
    sine 48 48 1e-9 (90 + 180) 6 3 = .ok (o.map fun v => -v) ∧ sine 48 48 (3 * 1e-9) 90 6 3 = .ok (o.map fun v => 3 * v) ∧
    o.px (5 + 2) (1 + 7) = o.px 5 1 ∧ (o.px 5 1).isSome := by
  obtain ⟨o, h, -⟩ := (C42_sine_total 48 48 1e-9 90 6 3).1 (by norm_num)
  refine ⟨o, h, fun i j v hv => C42_sine_bounded 48 48 1e-9 90 6 3 o h i j v hv, (C42_sine_phase 48 48 1e-9 90 6 3 o h).1,
    C42_sine_linear 48 48 1e-9 3 90 6 3 (by norm_num) o h,
    C42_sine_period 48 48 1e-9 90 6 3 o h 5 1 7 2 1 (by norm_num) (by norm_num) (by norm_num) (by norm_num) (by norm_num), ?_⟩
  rw [C42_sine_value 48 48 1e-9 90 6 3 o h 5 1 (by norm_num) (by norm_num)]
  rfl

theorem probeArgs_case : ProbeArgs 48 46.3 1e-8 3 10 (-10) 10 := by constructor <;> norm_num

example : ∃ o, probe 48 46.3 1.5 (-2) 30 1e-8 3 10 (-10) 10 90 = .ok o ∧ (∀ i j v, o.px i j = some v → |v| ≤ 1e-8) ∧
    probe 48 46.3 1.5 (-2) 30 1e-8 3 10 (-10) 10 (90 + 180) = .ok (o.map fun v => -v) ∧
    probe 48 46.3 1.5 (-2) 30 (2 * 1e-8) 3 10 (-10) 10 90 = .ok (o.map fun v => 2 * v) := by
  obtain ⟨o, h, -⟩ := (C43_probe_total 48 46.3 1.5 (-2) 30 1e-8 3 10 (-10) 10 90).1 probeArgs_case
  exact ⟨o, h, fun i j v hv => C43_probe_below_height_partial 48 46.3 1.5 (-2) 30 1e-8 3 10 (-10) 10 90 o h (by norm_num) i j v hv,
    (C43_probe_phase 48 46.3 1.5 (-2) 30 1e-8 3 10 (-10) 10 90 o h).1, C43_probe_linear 48 46.3 1.5 (-2) 30 1e-8 2 3 10 (-10) 10 90 (by norm_num) o h⟩

example : ∃ o o', probe 48 46.3 1.5 (-2) 30 1e-8 3 10 (-10) 10 90 = .ok o ∧ probe 48 46.3 (1.5 + (4 : ℤ)) (-2 + (-1 : ℤ)) 30 1e-8 3 10 (-10) 10 90 = .ok o' ∧
    o'.px (20 + -1) (3 + 4) = o.px 20 3 := by
  obtain ⟨o, o', h, h', e⟩ := C43_probe_translates 48 46.3 1.5 (-2) 30 1e-8 3 10 (-10) 10 90 4 (-1) probeArgs_case
  exact ⟨o, o', h, h', e 20 3 (by norm_num) (by norm_num) (by norm_num) (by norm_num) (by norm_num) (by norm_num) (by norm_num) (by norm_num)⟩

noncomputable def sampleGain (i j : Fin 2) : ℝ := 4e-9 + (i : ℕ) * 1e-9 + (j : ℕ) * 2e-9

theorem sampleGain_ne (i j : Fin 2) : sampleGain i j ≠ 0 := by
  unfold sampleGain
  fin_cases i <;> fin_cases j <;> norm_num

example (h : Fin 2 → Fin 2 → ℝ) : ∃ v, dmhToVolts ⟨2, 2, sampleGain⟩ ⟨2, 2, h⟩ 5e-7 = .ok v ∧ voltsToDmh ⟨2, 2, sampleGain⟩ v 5e-7 = .ok ⟨2, 2, h⟩ := by
  obtain ⟨⟨v, e, -, -, e'⟩, -⟩ := C44_round_trip 2 2 sampleGain h 5e-7 (by norm_num) sampleGain_ne
  exact ⟨v, e, e'⟩

example (h : Fin 2 → Fin 2 → ℝ) : ∃ v, dmhToVolts ⟨2, 2, sampleGain⟩ ⟨2, 2, h⟩ 5e-7 = .ok v ∧ ∀ (i j : Fin 2) (x : ℝ), v.px (i : ℕ) (j : ℕ) = some x →
    x * sampleGain i j / 5e-7 = h i j / (2 * Real.pi) := C44_units 2 2 sampleGain h 5e-7 (by norm_num) sampleGain_ne

example (S : Spline) (L : SpSolve) (s : Fin 2 → Fin 2 → ℝ) (hreg : FitRegular S 2 2 crossInfluence 1) :
    ∃ cmd, fitDm S L ⟨2, 2, s⟩ crossInfluence (1 : ℕ) = .ok cmd ∧ cmd.nr = 2 ∧ cmd.nc = 2 := by
  obtain ⟨cmd, h, h1, h2, -⟩ := C45_turned_influence S L 2 2 (by norm_num) (by norm_num) s crossInfluence 1 le_rfl rfl rfl (Or.inl rfl) hreg
  exact ⟨cmd, by exact_mod_cast h, h1, h2⟩

/-- A bowtie and a rectangle. -/
noncomputable def twoShapes : List (ShapeSpec × Region) :=
  [(⟨some 0, some 0, some "bowtie", none, none, some 3, some 9, some 65, some 30⟩, .bowtie 0 0 3 9 65 30),
   (⟨some 1, some 2, some "rectangle", some 4, some 6, none, none, none, none⟩, .rectangle 1 2 4 6)]

theorem twoShapes_ok : ∀ p ∈ twoShapes, p.1.Describes p.2 ∧ p.2.Valid := by
  intro p hp
  simp only [twoShapes, List.mem_cons, List.not_mem_nil, or_false] at hp
  rcases hp with rfl | rfl
  · refine ⟨⟨rfl, rfl, rfl, rfl, rfl, rfl, rfl⟩, ?_⟩
    unfold Region.Valid
    norm_num
  · refine ⟨⟨rfl, rfl, rfl, rfl, rfl⟩, ?_⟩
    unfold Region.Valid
    norm_num

/-- Pixel `(2, 1)` is in the rectangle, so it is in the dark hole, whatever the order of the shapes. -/
example : ∃ b, genDarkHole (21 : ℕ) (31 : ℕ) (twoShapes.map Prod.fst) = .ok (.bool b) ∧ b.centered 2 1 = some true ∧
    genDarkHole (21 : ℕ) (31 : ℕ) (twoShapes.map Prod.fst).reverse = .ok (.bool b) := by
  obtain ⟨b, h, -, -, e⟩ := C46_union_partial 21 31 (by norm_num) (by norm_num) twoShapes (by simp [twoShapes]) twoShapes_ok
  obtain ⟨v, hv, hi⟩ := e 2 1 (by unfold Reaches; norm_num) (by
    intro p hp
    simp only [twoShapes, List.mem_cons, List.not_mem_nil, or_false] at hp
    rcases hp with rfl | rfl <;> simp [Region.Apex])
  refine ⟨b, h, ?_, C46_order_irrelevant _ _ _ _ (List.reverse_perm _).symm _ h⟩
  rw [hv, hi.mpr ⟨_, List.mem_cons_of_mem _ (List.mem_singleton.mpr rfl), by norm_num [Region.covers]⟩]

example : genDarkHole (21 : ℕ) (31 : ℕ) [] = .ok (.float (Arr2.full 21 31 0)) := C46_empty_is_float 21 31 (by norm_num) (by norm_num)

example : genBowtie (21 : ℕ) (31 : ℕ) 0.5 0 3 9 200 10 = genAnnulus (21 : ℕ) (31 : ℕ) 0.5 0 3 9 :=
  C46_bowtie_is_annulus 21 31 (by norm_num) (by norm_num) 0.5 0 3 9 200 10 (by norm_num) (by norm_num) (by norm_num)

example : genBowtie (21 : ℕ) (31 : ℕ) 0.5 0 3 9 65 (30 + 180) = genBowtie (21 : ℕ) (31 : ℕ) 0.5 0 3 9 65 30 :=
  C46_bowtie_half_turn_clocking 21 31 (by norm_num) (by norm_num) 0.5 0 3 9 65 30 (by norm_num) (by norm_num) (by norm_num)

example : ∃ b, genBowtie (21 : ℕ) (31 : ℕ) 0.5 0 3 9 65 30 = .ok b ∧ b.centered 2 6 = b.centered (-2) (-5) :=
  C46_bowtie_point_symmetric 21 31 (by norm_num) (by norm_num) 0.5 0 3 9 65 30 (by norm_num) (by norm_num) (by norm_num) 2 6 (-2) (-5)
    (by unfold Reaches; norm_num) (by unfold Reaches; norm_num) (by norm_num) (by norm_num)

example : ∃ o, circle (65 : ℕ) (65 : ℕ) 20.5 0 0 (10 : ℕ) false = .ok o ∧ o.centered 7 (-3) = o.centered 7 3 ∧ o.centered 3 7 = o.centered 7 3 := by
  obtain ⟨o, h, e1, -, e3⟩ := C66_circle_symmetric 65 65 10 (by norm_num) (by norm_num) (by norm_num) 20.5 (by norm_num) false
  exact ⟨o, h, e1 rfl 7 3, e3 rfl 7 3⟩

example : ∃ o, rectangle (65 : ℕ) (33 : ℕ) 20.5 3 0 0 15 (10 : ℕ) false = .ok o ∧ o.centered (-7) (-3) = o.centered 7 3 := by
  obtain ⟨o, h, e1, -⟩ := C66_rectangle_symmetric 65 33 10 (by norm_num) (by norm_num) (by norm_num) 20.5 3 15 (by norm_num) (by norm_num) false
  exact ⟨o, h, e1 rfl rfl 7 3⟩

example : ∃ o v, annularSegments 2 12.5 40 (100 : ℕ) (90 : ℕ) 0.5 0 65 15 (11 : ℕ) 5 = .ok o ∧ o.centered 3 20 = some v ∧
    FractionOrCentre 11 (inSegments 2 12.5 40 65 15) ((20 : ℤ) - 0.5) ((3 : ℤ) - 0) v := by
  obtain ⟨o, h, e⟩ := C67_pixels 2 12.5 40 100 90 11 0.5 0 65 15 5 (by constructor <;> norm_num) (by norm_num)
  obtain ⟨v, hv, hf, -⟩ := e 3 20 (by unfold Reaches; norm_num)
  exact ⟨o, v, h, hv, hf⟩

example : ∃ o, dmZernike (48 : ℕ) 46.3 1e-9 (11 : ℕ) = .ok o ∧ o.nr = 48 ∧ o.nc = 48 := by
  obtain ⟨o, h, h1, h2, -⟩ := C68_dm_zernike 48 11 46.3 1e-9 (by norm_num) (by norm_num) (by norm_num)
  exact ⟨o, h, h1, h2⟩

example : WithinArea (rectProper (64 : ℕ) (48 : ℕ) 20.5 3.25 0.3 (-1) 30 (10 : ℕ) false) 64 48 0.3 (-1) (inRect 20.5 3.25 30) false (1 / (10 : ℕ)) :=
  C86_area 64 48 10 (by norm_num) (by norm_num) (by norm_num) 20.5 3.25 0.3 (-1) 30 (by norm_num) (by norm_num) false

/-- The window condition for a circle of radius 2 on a 4 x 4 array with 2 sub-pixels a side. -/
example (hwin : ∀ u v, SubOffset 2 u → SubOffset 2 v → ellipticRadius 2 2 0 u v ≤ cornerStep 4 4 2 2 0 0 0) :
    WithinArea (ellipse (4 : ℕ) (4 : ℕ) 2 2 0 0 0 (2 : ℕ) false) 4 4 0 0 (inEllipse 2 2 0) false (2 / (2 : ℕ)) :=
  C38_area_partial 4 4 2 (by norm_num) (by norm_num) (by norm_num) 2 2 0 0 0 (by norm_num) (by norm_num) false hwin

end Coralign.Props
