import Verif.Props.Cases2
import Verif.Props.ConjugateSplit
import Verif.Props.PupilSearch
import Verif.Props.NormFactor
import Verif.Props.DmWaves
import Verif.Props.DmShapes
import Verif.Props.GainMap
import Verif.Props.FocalFit
import Verif.Props.FfUtil
import Verif.Props.DrUtil
import Verif.Props.PupilZernike
import Verif.Props.ShapeIndep
import Verif.Props.Pupil
import Verif.Props.DoubleVolts

/-!
# More of the theorems of C21 to C56 on concrete data

Every example applies a theorem to concrete arguments, so its hypotheses can be met.
-/

namespace Coralign.Props

open Coralign Coralign.Spec

example : nollN 11 = nollRow 11 ∧ nollM 11 = nollFreq 11 := C21_table 11 (by norm_num)

example : xyzern ⟨1, 2, fun _ j => j⟩ ⟨1, 2, fun _ _ => 3⟩ 4 [1] = .ok [Arr2.full 1 2 1] := C22_piston _ _ _ _ _ (by norm_num)

example (x y : Fin 3 → Fin 2 → ℝ) : ∃ o, xyzern ⟨3, 2, x⟩ ⟨3, 2, y⟩ 4 [2, 3] = .ok o ∧ o.length = 2 :=
  ⟨_, C22_tilts _ _ _ _ _ (by norm_num), rfl⟩

example (x y : Fin 3 → Fin 2 → ℝ) : xyzern ⟨3, 2, x⟩ ⟨3, 2, y⟩ 4 [4, 11] =
    .ok [⟨3, 2, fun i k => mode 4 4 (x i k) (y i k)⟩, ⟨3, 2, fun i k => mode 11 4 (x i k) (y i k)⟩] :=
  C22_xyzern 3 2 x y 4 [4, 11] (by norm_num) (by simp) (by simp)

example : ∃ (N : ℕ) (U V : Fin N → Fin N → ℝ), genZernikes [4, 6] [1, 2] 0.5 0 32 40 = .ok ⟨N, N, U⟩ ∧
    genZernikes [4, 6] [3, -1] 0.5 0 32 40 = .ok ⟨N, N, V⟩ ∧
    genZernikes [4, 6] [2 * 1 + 3, 2 * 2 + -1] 0.5 0 32 40 = .ok ⟨N, N, fun i k => 2 * U i k + V i k⟩ :=
  C23_linear [4, 6] [1, 2] [3, -1] 2 rfl rfl (by simp) (by simp) 0.5 0 32 (by norm_num) 40 (by norm_num)

example (S : Solver) (w : Fin 5 → Fin 5 → ℝ) : ∃ c : Fin 3 → ℝ, fitZernikes S ⟨5, 5, w⟩ ⟨5, 5, fun i _ => decide (i ≠ 0)⟩ (3 : ℕ) 4 0 0 = .ok c :=
  let ⟨c, h, _⟩ := C24_least_squares S 5 5 w (fun i _ => decide (i ≠ 0)) 3 (by norm_num) 4 0 0 (by norm_num)
  ⟨c, h⟩

/-- A map that is zero outside the mask and has no piston, tip or tilt: `+1, -2, +1` along a row. -/
example (S : Solver) : removePistonTipTilt S ⟨1, 4, fun _ j => if j = 0 then 1 else if j = 1 then -2 else if j = 2 then 1 else 0⟩
    ⟨1, 4, fun _ j => decide (j ≠ 3)⟩ = .ok ⟨1, 4, fun _ j => if j = 0 then 1 else if j = 1 then -2 else if j = 2 then 1 else 0⟩ := by
  refine C25_identity S _ _ rfl rfl (fun i j h => ?_) ⟨?_, ?_, ?_⟩
  · by_cases hb : (0 ≤ i ∧ i < (1 : ℕ)) ∧ (0 ≤ j ∧ j < (4 : ℕ))
    · obtain rfl : i = 0 := by omega
      have h4 : j < 4 := by omega
      have h0 : 0 ≤ j := by omega
      interval_cases j
      · cases h
      · cases h
      · cases h
      · rfl
    · rw [Arr2.px_of_not_inB _ hb] at h
      cases h
  · simp [energy, Fin.sum_univ_four]; norm_num
  · simp [rowMoment]
  · simp [colMoment, Fin.sum_univ_four]

example (S : Solver) : removePistonTipTilt S (Arr2.full 2 3 1) (Arr2.full 3 3 true) = .error .valueError := C25_shape_mismatch _ _ _ (by decide)

example (y y' : ℝ) (h : boundValue 5 2 = .ok y) (h' : boundValue (-1) 2 = .ok y') : boundValue (-5) 2 = .ok (-y) ∧ y' ≤ y ∧ |y - y'| ≤ |5 - -1| := by
  have h1 := C26_laws 2 (by norm_num) 5 (-1) y y' h h'
  have h2 := C26_laws 2 (by norm_num) (-1) 5 y' y h' h
  refine ⟨h1.1, h2.2.1 (by norm_num), h1.2.2.2⟩

example : ∃ x x', calcOffsetLinear 3 2 = .ok x ∧ calcOffsetLinear 3 4 = .ok x' ∧ x < x' := by
  obtain ⟨x, hx, -⟩ := C27_linear_root 3 2 (by norm_num) (by norm_num)
  obtain ⟨x', hx', -⟩ := C27_linear_root 3 4 (by norm_num) (by norm_num)
  exact ⟨x, x', hx, hx', C27_linear_strictMono 3 2 4 x x' (by norm_num) (by norm_num) (by norm_num) hx hx'⟩

example : calcOffsetQuadratic 3 (1 / 10) 1 = .ok 0 ∧ calcOffsetLinear 3 1 = .ok 0 := C27_ratio_one 3 (1 / 10) (by norm_num)

example : calcOffsetQuadratic 3 (1 / 10) (-1) = .error .valueError ∧ calcOffsetLinear 3 (-1) = .error .valueError := C27_rejects _ _ _ (by norm_num)

example : ∃ d m, diffAndMean [1, 3, (7 : ℚ)] = .ok (d, m) ∧ d.length + 1 = 3 :=
  let ⟨d, m, h, e, _⟩ := C29_diff_mean [1, 3, (7 : ℚ)] (by decide +kernel) (by simp)
  ⟨d, m, h, e⟩

example : verifyPresorted [1, 3, 3, (7 : ℚ)] = .ok () := C29_sorted_accepted _ (by decide +kernel)

example : ∃ o, grid 8 3 2 1 0 (5 : ℤ) = .ok o ∧ o.px 4 7 = some 5 ∧ o.px 3 7 = some 0 ∧ o.px 4 6 = some 0 := by
  obtain ⟨o, h, -, -, hp⟩ := C41_grid_lattice 8 3 2 1 0 (5 : ℤ) ⟨by norm_num, by norm_num, by norm_num, by norm_num⟩
  exact ⟨o, h, hp 4 7 (by norm_num) (by norm_num), hp 3 7 (by norm_num) (by norm_num), hp 4 6 (by norm_num) (by norm_num)⟩

example : ∃ s c, probe 48 46 0 0 30 1e-9 2 8 (-3) 3 0 = .ok s ∧ probe 48 46 0 0 30 1e-9 2 8 (-3) 3 90 = .ok c ∧
    s.px 40 10 = (s.px 7 37).map (fun v => -v) ∧ c.px 40 10 = c.px 7 37 := by
  obtain ⟨s, c, h1, h2, hp⟩ := C43_probe_parity 48 46 30 1e-9 2 8 (-3) 3 ⟨by norm_num, by norm_num, by norm_num, by norm_num, by norm_num⟩
  exact ⟨s, c, h1, h2, (hp 7 37).1, (hp 7 37).2⟩

/-- A probe off the centre of the mirror: its value at one actuator, and a bound there. -/
example : ∃ o v, probe 48 46 1.5 (-2) 30 1e-9 2 8 (-3) 3 45 = .ok o ∧ o.px 7 37 = some v ∧ |v| ≤ 2 * 1e-9 * (8 - 2) * (3 - -3) / 46 ^ 2 := by
  have h := probe_eq 48 46 1.5 (-2) 30 1e-9 2 8 (-3) 3 45 ⟨by norm_num, by norm_num, by norm_num, by norm_num, by norm_num⟩
  obtain ⟨o, ho⟩ : ∃ o, probe 48 46 1.5 (-2) 30 1e-9 2 8 (-3) 3 45 = .ok o := ⟨_, h⟩
  have hv := C43_superposition 48 46 1.5 (-2) 30 1e-9 2 8 (-3) 3 45 o ho 7 37 (by norm_num) (by norm_num) _ _ _ _ rfl rfl rfl rfl
  exact ⟨o, _, ho, hv, C43_probe_bounded 48 46 1.5 (-2) 30 1e-9 2 8 (-3) 3 45 o ho 7 37 _ hv⟩

example (g : Arr2 ℝ) : dmhToVolts g g 0 = .error .typeError ∧ voltsToDmh g g 0 = .error .typeError := C44_rejects _ _ _ (Or.inl le_rfl)

example (g : Fin 2 → Fin 2 → ℝ) (hg : ∀ i j, 0 < g i j) : ∃ v₁ v₂ : Fin 2 → Fin 2 → ℝ, dmhToVolts ⟨2, 2, g⟩ ⟨2, 2, fun i _ => i⟩ 5e-7 = .ok ⟨2, 2, v₁⟩ ∧
    dmhToVolts ⟨2, 2, g⟩ ⟨2, 2, fun _ j => j⟩ 5e-7 = .ok ⟨2, 2, v₂⟩ ∧
    dmhToVolts ⟨2, 2, g⟩ ⟨2, 2, fun i j => 2 * (i : ℕ) + 3 * (j : ℕ)⟩ 5e-7 = .ok ⟨2, 2, fun i j => 2 * v₁ i j + 3 * v₂ i j⟩ :=
  (C44_superposition 2 2 g (fun i _ => (i : ℕ)) (fun _ j => (j : ℕ)) 2 3 5e-7 (by norm_num) fun i j => (hg i j).ne').1

example (low high : Arr2 ℝ) (u : Arr2 Bool) : phaseCost (-1 / 10) low high u = .error .valueError := C49_rejects _ _ _ _ (Or.inl (by norm_num))

/-- Low-order part 3, high-order part 1 on two pixels: the cost at the balancing factor, and on both sides of it. -/
example {n m : ℕ} (u : Fin n → Fin m → Bool) (l h : Fin n → Fin m → ℝ) (hlt : pupilRms u h < pupilRms u l) :
    ∃ a0, 0 ≤ a0 ∧ a0 ≤ 1 ∧ ∀ a b ca cb, a ≤ b → 0 ≤ a → b ≤ a0 → phaseCost a ⟨n, m, l⟩ ⟨n, m, h⟩ ⟨n, m, u⟩ = .ok ca →
      phaseCost b ⟨n, m, l⟩ ⟨n, m, h⟩ ⟨n, m, u⟩ = .ok cb → cb ≤ ca := by
  obtain ⟨a0, ⟨⟨b0, b1⟩, hbal⟩, -⟩ := C49_balance u l h hlt
  exact ⟨a0, b0, b1, fun a b ca cb hab ha hb hca hcb =>
    (C49_unimodal u l h a0 ⟨b0, b1⟩ hbal a b ca cb hab ha (hb.trans b1) hca hcb).1 hb⟩

example {n m : ℕ} (u : Fin n → Fin m → Bool) (l h : Fin n → Fin m → ℝ)
    (hF : FindsMinimum FminBound.best fun a => phaseCost a ⟨n, m, l⟩ ⟨n, m, h⟩ ⟨n, m, u⟩) (sh1 sh2 : ℤ × ℤ) :
    ∃ p, splitPhase FminBound.best true true ⟨n, m, l⟩ ⟨n, m, h⟩ ⟨n, m, u⟩ sh1 sh2 = .ok p :=
  let ⟨_, _, e, _⟩ := C49_split_balanced FminBound.best u l h sh1 sh2 hF
  ⟨_, e⟩

example (img : Arr2 ℝ) : coarselyLocate 1 img 10 1 = some (.error .typeError) := C51_rejects img 10 1 (Or.inr (Or.inl le_rfl)) 0

example (f : Fin 30 → Fin 40 → ℝ) : ∃ x y steps, ∀ fuel, 5 < fuel → coarselyLocate fuel ⟨30, 40, f⟩ 10 2 = some (.ok ((x, y), steps)) := by
  obtain ⟨x, y, steps, -, -, h⟩ := C51_terminates ⟨30, 40, f⟩ 10 2 (by norm_num) (by norm_num) (Or.inl (by norm_num))
  have e : (max 1 ⌊(10 : ℝ) / 2⌋).toNat = 5 := by norm_num; rfl
  rw [e] at h
  exact ⟨x, y, steps, h⟩

example (f : Fin 30 → Fin 40 → ℝ) : ∃ x y M, coarseOnce ⟨30, 40, f⟩ 10 2 3 6 2 = .ok ((x, y), M) ∧
    M.px 0 1 = some (beamSum ⟨30, 40, f⟩ 10 (-6 + 1 * 2 + 2) (-6 + 0 * 2 + 3)) := by
  obtain ⟨x, y, M, h, -⟩ := C52_best ⟨30, 40, f⟩ 10 2 3 6 2 (by norm_num) (by norm_num) (by norm_num)
  exact ⟨x, y, M, h, C52_matrix ⟨30, 40, f⟩ 10 2 3 6 2 x y M h 1 0 (by norm_num) (by norm_num)⟩

example : ∃ r, computeNormFactor ⟨1, 3, fun _ j => (j : ℚ)⟩ ⟨1, 3, fun _ _ => 1⟩ 0 = .ok r :=
  let ⟨⟨r, h, _⟩, _⟩ := C53_extremes (n := 1) (m := 3) (fun _ j => (j : ℚ)) (fun _ _ => 1) ⟨fun _ _ => Or.inr rfl, ⟨0, 0, rfl⟩, le_rfl, by norm_num⟩
  ⟨r, h⟩

example : ∃ f : Fin 21 → Fin 22 → ℝ, circle 22 21 5.5 2.5 (-1) 10 false = .ok ⟨21, 22, f⟩ ∧ ∀ i j, 0 ≤ f i j ∧ f i j ≤ 1 :=
  C36_circle_range 22 21 10 (by norm_num) (by norm_num) (by norm_num) 5.5 2.5 (-1) (by norm_num) false

example : IsImage (ellipse 101 101 30 20 0 0 0 100 false) 101 101 0 0 (fun x y => tone false (areaFraction 100 (inEllipse 30 20 0) x y)) :=
  C38_centred_partial 101 100 (by norm_num) (by norm_num) (by norm_num) 30 20 (by norm_num) (by norm_num) false

example : pupilValue 10 20 60 [0, 90] 2 40 0 = 0 := by
  refine C40_pupil_dark 10 (by norm_num) 20 60 2 [0, 90] 40 0 (by norm_num) (Or.inr ?_)
  have h2 : Real.sqrt 2 ≤ 2 := by rw [Real.sqrt_le_iff]; norm_num
  have : Real.sqrt ((40 : ℝ) ^ 2 + 0 ^ 2) = 40 := by
    rw [show (40 : ℝ) ^ 2 + 0 ^ 2 = 40 ^ 2 by norm_num]; exact Real.sqrt_sq (by norm_num)
  rw [this]
  linarith

end Coralign.Props
