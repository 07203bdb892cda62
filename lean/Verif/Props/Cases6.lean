import Verif.Props.FindOptFit
import Verif.Props.SpmShear
import Verif.Props.MaskFitCases
import Verif.Props.DmRoundTripCases
import Verif.Props.ShapeIndep
import Verif.Props.ClockingCases

/-!
# Cases for theorems with many hypotheses (C14, C63, C76, C77, C87, C96)
-/

namespace Coralign.Props

open Coralign Coralign.Spec

/-- `C14_best_fit`: nine samples that lie on no quadratic surface, `x² + y²` plus `3 x y² - 2 x`; the best surface is `x² + y²`, which has its
minimum in the middle. -/
example (S : Solver) : findOptimum2d S [-1, 0, 1] [-1, 0, 1]
    ⟨3, 3, fun i j => ((j : ℕ) - 1 : ℝ) ^ 2 + ((i : ℕ) - 1 : ℝ) ^ 2 + 3 * ((j : ℕ) - 1 : ℝ) * ((i : ℕ) - 1 : ℝ) ^ 2 - 2 * ((j : ℕ) - 1 : ℝ)⟩
    (Arr2.full 3 3 true) = .ok (0, 0) := by
  have m : ∀ i j : ℕ, i < 3 → j < 3 → (Arr2.full 3 3 true).px i j = some true := by
    intro i j hi hj; rw [Arr2.px_full_in]; omega
  have hd : DeterminesQuadratic [-1, 0, 1] [-1, 0, 1] (Arr2.full 3 3 true) := by
    intro a b c d e f h
    have h00 := h 0 0 (-1) (-1) (m _ _ (by omega) (by omega)) rfl rfl
    have h01 := h 0 1 0 (-1) (m _ _ (by omega) (by omega)) rfl rfl
    have h02 := h 0 2 1 (-1) (m _ _ (by omega) (by omega)) rfl rfl
    have h10 := h 1 0 (-1) 0 (m _ _ (by omega) (by omega)) rfl rfl
    have h20 := h 2 0 (-1) 1 (m _ _ (by omega) (by omega)) rfl rfl
    have h11 := h 1 1 0 0 (m _ _ (by omega) (by omega)) rfl rfl
    have h12 := h 1 2 1 0 (m _ _ (by omega) (by omega)) rfl rfl
    norm_num at *
    refine ⟨by linarith, by linarith, by linarith, by linarith, by linarith, by linarith⟩
  have hb : BestSurface [-1, 0, 1] [-1, 0, 1]
      ⟨3, 3, fun i j => ((j : ℕ) - 1 : ℝ) ^ 2 + ((i : ℕ) - 1 : ℝ) ^ 2 + 3 * ((j : ℕ) - 1 : ℝ) * ((i : ℕ) - 1 : ℝ) ^ 2 - 2 * ((j : ℕ) - 1 : ℝ)⟩
      (Arr2.full 3 3 true) 1 0 1 0 0 0 := by
    have hm : ∀ a b c d e f : ℝ, surfaceMisfit [-1, 0, 1] [-1, 0, 1]
        ⟨3, 3, fun i j => ((j : ℕ) - 1 : ℝ) ^ 2 + ((i : ℕ) - 1 : ℝ) ^ 2 + 3 * ((j : ℕ) - 1 : ℝ) * ((i : ℕ) - 1 : ℝ) ^ 2 - 2 * ((j : ℕ) - 1 : ℝ)⟩
        (Arr2.full 3 3 true) a b c d e f =
        12 + f ^ 2 + 2 * (a - 1 + f) ^ 2 + 2 * (c - 1 + f) ^ 2 + 4 * (a - 1 + (c - 1) + f) ^ 2 + 4 * b ^ 2 + 6 * d ^ 2 + 6 * e ^ 2 := by
      intro a b c d e f
      unfold surfaceMisfit
      simp only [Fin.sum_univ_three]
      rw [if_pos (m _ _ (by decide) (by decide)), if_pos (m _ _ (by decide) (by decide)), if_pos (m _ _ (by decide) (by decide)),
        if_pos (m _ _ (by decide) (by decide)), if_pos (m _ _ (by decide) (by decide)), if_pos (m _ _ (by decide) (by decide)),
        if_pos (m _ _ (by decide) (by decide)), if_pos (m _ _ (by decide) (by decide)), if_pos (m _ _ (by decide) (by decide))]
      norm_num
      ring
    intro a b c d e f
    rw [hm, hm]
    nlinarith [sq_nonneg f, sq_nonneg (a - 1 + f), sq_nonneg (c - 1 + f), sq_nonneg (a - 1 + (c - 1) + f), sq_nonneg b, sq_nonneg d, sq_nonneg e]
  obtain ⟨x, y, h, h1, h2⟩ := (C14_best_fit S _ _ _ _ rfl rfl rfl rfl 1 0 1 0 0 0 hb hd).1 (by norm_num) (by norm_num)
  obtain rfl : x = 0 := by linarith
  obtain rfl : y = 0 := by linarith
  exact h

theorem slitPoke_dft (p q : ℝ) : dftAt (Arr2.toC ⟨3, 7, slitPoke 0 0⟩) p q = -(1 - cis (-(q / 7))) ^ 2 := by
  unfold dftAt Arr2.toC Arr2.map slitPoke cis
  simp only [Fin.sum_univ_succ, Fin.sum_univ_zero]
  norm_num [Fin.ext_iff]
  rw [show -(2 * (Real.pi : ℂ) * Complex.I * (q * 2 / 7)) = -(2 * Real.pi * Complex.I * (q / 7)) + -(2 * Real.pi * Complex.I * (q / 7)) by ring,
    Complex.exp_add]
  ring

/-- `C63_recovers_shear_upsampled`: the same slit, upsampled three times. -/
example (S : Solver) (T : Shift) : fitSpmShear plainUnwrapper plainRemover S T ⟨3, 2, 0⟩
    ⟨3, 7, slit 0 0⟩ ⟨3, 7, fun _ _ => 0⟩ ⟨3, 7, slitPoke 0 0⟩ ⟨3, 7, slit 1 2⟩ ⟨3, 7, fun _ _ => 0⟩ ⟨3, 7, slitPoke 1 2⟩ = .ok (2, 1) := by
  obtain ⟨m0, hu0, hf⟩ := slitPoke_ptt S 0 0 (by norm_num) (by norm_num)
  obtain ⟨m1, hu1, ht⟩ := slitPoke_ptt S 1 2 (by norm_num) (by norm_num)
  have hne : ∀ k : ℕ, 0 < k → k < 7 → cis (-((k : ℝ) / 7)) ≠ 1 := by
    intro k h0 h7 h
    obtain ⟨z, hz⟩ := (cis_eq_one_iff _).mp h
    have : (-(k : ℤ) : ℝ) = 7 * z := by push_cast; linarith
    have : -(k : ℤ) = 7 * z := by exact_mod_cast this
    omega
  have hd : ∀ (p : ℝ) (k : ℕ), 0 < k → k < 7 → dftAt (Arr2.toC ⟨3, 7, slitPoke 0 0⟩) p k ≠ 0 := by
    intro p k h0 h7
    rw [slitPoke_dft]
    exact neg_ne_zero.mpr (pow_ne_zero _ (sub_ne_zero.mpr (hne k h0 h7).symm))
  obtain ⟨s0, s1, h0, h1, h⟩ := C63_recovers_shear_upsampled plainUnwrapper plainRemover S T ⟨3, 2, 0⟩ 3 (by norm_num) (by norm_num) (by norm_num)
    (by norm_num) (by norm_num) _ _ _ _ _ _ _ _ _ _ _ _ hu0 hu1 hf ht 1 one_pos 1 2
    (by intro i j; unfold slitPoke rollIdx; fin_cases i <;> fin_cases j <;> norm_num) 0 1 (by norm_num) (by norm_num)
    (by simpa using hd 0 1 (by norm_num) (by norm_num)) (by simpa using hd 1 1 (by norm_num) (by norm_num))
    (by have := hd 0 2 (by norm_num) (by norm_num); norm_num at this ⊢; exact this)
  have e0 : s0 = 1 := by obtain ⟨h1, h2, h3⟩ := h0; norm_num at h2 h3; omega
  have e1 : s1 = 2 := by obtain ⟨h1, h2, h3⟩ := h1; norm_num at h2 h3; omega
  rw [h, e0, e1]
  norm_num

/-- `C96_ellipse_partial`: an ellipse in a `401 × 401` array and in a `101 × 101` array. -/
example : (ellipse 401 401 40 30 0 0 0 100 false >>= fun o => padCrop o [(101 : ℕ), (101 : ℕ)] 0) = ellipse 101 101 40 30 0 0 0 100 false :=
  C96_ellipse_partial 401 101 100 (by norm_num) (by norm_num) (by norm_num) (by norm_num) 40 30 0 (by norm_num) (by norm_num) false

/-- A vertical strip seven pixels wide in a 13 x 13 array, moved `s` columns to the right. -/
noncomputable def wideStrip (s : ℤ) : Arr2 ℝ := ⟨13, 13, fun _ j => if 3 + s ≤ ((j : ℕ) : ℤ) ∧ ((j : ℕ) : ℤ) ≤ 9 + s then 1 else 0⟩

theorem slide_wide (s : ℤ) (_hs : -3 ≤ s ∧ s ≤ 3) : Rotate.slide.run s (wideStrip 0) = wideStrip s := by
  refine Arr2.ext_px (Shift.nearest.nr _ _ _) (Shift.nearest.nc _ _ _) fun i j h1 h2 h3 h4 => ?_
  have hin : (0 ≤ i ∧ i < (wideStrip 0).nr) ∧ (0 ≤ j ∧ j < (wideStrip 0).nc) := ⟨⟨h1, h2⟩, ⟨h3, h4⟩⟩
  have hin' : (0 ≤ i ∧ i < (13 : ℤ)) ∧ (0 ≤ j ∧ j < (13 : ℤ)) := hin
  have := Shift.nearest.whole 0 s (wideStrip 0) i j hin
  rw [Int.cast_zero] at this
  refine this.trans ?_
  rw [Arr2.px_of_inB (wideStrip s) hin]
  congr 1
  rw [sub_zero]
  show _ = if 3 + s ≤ ((j.toNat : ℕ) : ℤ) ∧ ((j.toNat : ℕ) : ℤ) ≤ 9 + s then (1 : ℝ) else 0
  rw [Int.toNat_of_nonneg h3]
  by_cases hj : 0 ≤ j - s ∧ j - s < 13
  · have hin2 : (0 ≤ i ∧ i < (wideStrip 0).nr) ∧ (0 ≤ j - s ∧ j - s < (wideStrip 0).nc) := ⟨hin.1, hj⟩
    rw [Arr2.px_of_inB (wideStrip 0) hin2, Option.getD_some]
    show (if 3 + 0 ≤ (((j - s).toNat : ℕ) : ℤ) ∧ (((j - s).toNat : ℕ) : ℤ) ≤ 9 + 0 then (1 : ℝ) else 0) = _
    rw [Int.toNat_of_nonneg hj.1]
    split_ifs <;> first | rfl | omega
  · have hout : ¬ ((0 ≤ i ∧ i < (wideStrip 0).nr) ∧ (0 ≤ j - s ∧ j - s < (wideStrip 0).nc)) := fun h => hj h.2
    rw [Arr2.px_of_not_inB (wideStrip 0) hout, Option.getD_none, if_neg (by omega)]

theorem wide_thresh (s : ℤ) (hs : -3 ≤ s ∧ s ≤ 3) : ∃ m, ampthresh (wideStrip s) 21 = .ok m ∧ m.nr = 13 ∧ m.nc = 13 ∧
    ∀ i j : ℤ, m.px i j = ((wideStrip s).px i j).map fun v => decide (v = 1) := by
  have hmem : ∀ (j : Fin 13), (wideStrip s).val (0 : Fin 13) j ∈ (wideStrip s).pixels := fun j =>
    (mem_pixels_val (wideStrip s) _).mpr ⟨(0 : Fin 13), j, rfl⟩
  have h0 : (0 : ℝ) ∈ (wideStrip s).pixels := by
    by_cases h : s ≤ 0
    · have := hmem 12
      have e : (wideStrip s).val (0 : Fin 13) (12 : Fin 13) = 0 := if_neg (by
        rw [show (((12 : Fin 13) : ℕ) : ℤ) = 12 from rfl]; omega)
      rwa [e] at this
    · have := hmem 0
      have e : (wideStrip s).val (0 : Fin 13) (0 : Fin 13) = 0 := if_neg (by
        rw [show (((0 : Fin 13) : ℕ) : ℤ) = 0 from rfl]; omega)
      rwa [e] at this
  have h1 : (1 : ℝ) ∈ (wideStrip s).pixels := by
    have := hmem 6
    have e : (wideStrip s).val (0 : Fin 13) (6 : Fin 13) = 1 := if_pos (by
      rw [show (((6 : Fin 13) : ℕ) : ℤ) = 6 from rfl]; omega)
    rwa [e] at this
  have h2 : ∀ v ∈ (wideStrip s).pixels, v = 0 ∨ v = 1 := by
    intro v hv
    obtain ⟨i, j, rfl⟩ := (mem_pixels_val (wideStrip s) v).mp hv
    show (if _ then (1 : ℝ) else 0) = 0 ∨ (if _ then (1 : ℝ) else 0) = 1
    split_ifs <;> simp
  exact C12_two_level (wideStrip s) 21 0 1 one_pos (by norm_num) h2 h0 h1

theorem wide_norm (s : ℤ) (hs : -3 ≤ s ∧ s ≤ 3) : NormBy (wideStrip s) (wideStrip s) 50 1 := by
  obtain ⟨m, hm, hr, hc, hpx⟩ := wide_thresh s hs
  refine ⟨m, hm, ?_⟩
  have hbits : (m.map fun b : Bool => if b = true then (1 : ℝ) else 0) = wideStrip s := by
    refine Arr2.ext_px hr hc fun i j h1 h2 h3 h4 => ?_
    have hin : (0 ≤ i ∧ i < (wideStrip s).nr) ∧ (0 ≤ j ∧ j < (wideStrip s).nc) := by
      have e1 : ((m.map fun b : Bool => if b = true then (1 : ℝ) else 0).nr : ℤ) = 13 := by exact_mod_cast hr
      have e2 : ((m.map fun b : Bool => if b = true then (1 : ℝ) else 0).nc : ℤ) = 13 := by exact_mod_cast hc
      have e3 : ((wideStrip s).nr : ℤ) = 13 := rfl
      have e4 : ((wideStrip s).nc : ℤ) = 13 := rfl
      omega
    rw [Arr2.px_map, hpx, Arr2.px_of_inB (wideStrip s) hin]
    simp only [Option.map_some, Option.some.injEq]
    show (if decide ((if _ then (1 : ℝ) else 0) = 1) = true then (1 : ℝ) else 0) = if _ then (1 : ℝ) else 0
    split_ifs <;> simp_all
  rw [hbits]
  obtain ⟨r, h1, ⟨i, j, h2, h3⟩, ⟨i', j', h4, h5⟩⟩ := C53_range (wideStrip s).val (wideStrip s).val 50 ⟨fun i j => by
      show (if _ then (1 : ℝ) else 0) = 0 ∨ (if _ then (1 : ℝ) else 0) = 1
      split_ifs <;> simp, ⟨(0 : Fin 13), (6 : Fin 13), if_pos (by
        rw [show (((6 : Fin 13) : ℕ) : ℤ) = 6 from rfl]; omega)⟩, by norm_num, by norm_num⟩
  rw [h2] at h3
  rw [h4] at h5
  obtain rfl : r = 1 := le_antisymm h5 h3
  exact h1

theorem wide_close (s s' : ℤ) (tol : ℝ) (h0 : 0 < tol) (h1 : tol ≤ 1) :
    closePixels ((wideStrip s).map fun v : ℝ => v / 1) ((wideStrip s').map fun v : ℝ => v / 1) tol =
      (Finset.univ.filter fun q : Fin 13 × Fin 13 => (3 + s ≤ ((q.2 : ℕ) : ℤ) ∧ ((q.2 : ℕ) : ℤ) ≤ 9 + s) ↔
        (3 + s' ≤ ((q.2 : ℕ) : ℤ) ∧ ((q.2 : ℕ) : ℤ) ≤ 9 + s')).card := by
  classical
  unfold closePixels
  refine congrArg Finset.card (Finset.filter_congr fun q _ => ?_)
  change Fin 13 × Fin 13 at q
  have hin : (0 ≤ ((q.1 : ℕ) : ℤ) ∧ ((q.1 : ℕ) : ℤ) < ((wideStrip s').map fun v : ℝ => v / 1).nr) ∧
      (0 ≤ ((q.2 : ℕ) : ℤ) ∧ ((q.2 : ℕ) : ℤ) < ((wideStrip s').map fun v : ℝ => v / 1).nc) := by
    have e1 : (((wideStrip s').map fun v : ℝ => v / 1).nr : ℤ) = 13 := rfl
    have e2 : (((wideStrip s').map fun v : ℝ => v / 1).nc : ℤ) = 13 := rfl
    have := q.1.isLt
    have := q.2.isLt
    omega
  have hp := Arr2.px_of_inB ((wideStrip s').map fun v : ℝ => v / 1) hin
  rw [hp]
  simp only [Option.some.injEq, exists_eq_left']
  show |(if 3 + s ≤ ((q.2 : ℕ) : ℤ) ∧ ((q.2 : ℕ) : ℤ) ≤ 9 + s then (1 : ℝ) else 0) / 1 -
    (if 3 + s' ≤ ((((q.2 : ℕ) : ℤ).toNat : ℕ) : ℤ) ∧ ((((q.2 : ℕ) : ℤ).toNat : ℕ) : ℤ) ≤ 9 + s' then (1 : ℝ) else 0) / 1| < tol ↔ _
  rw [Int.toNat_natCast]
  by_cases ha : 3 + s ≤ ((q.2 : ℕ) : ℤ) ∧ ((q.2 : ℕ) : ℤ) ≤ 9 + s <;>
    by_cases hb : 3 + s' ≤ ((q.2 : ℕ) : ℤ) ∧ ((q.2 : ℕ) : ℤ) ≤ 9 + s' <;> simp [ha, hb, h0, h1]

/-- `C76_off_grid_bias`: the trial angles are -3, 0 and 3 degrees, the mask is turned by one degree (the stand-in rotation slides it by one column), and
65, 143 and 117 of the 169 pixels match.  The answer is `6 / 5` of a degree. -/
example (S : Solver) (Sp : ClampSpline) :
    computeClocking S Sp Rotate.slide ⟨13, 13, fun i j => (((wideStrip (-1)).val i j : ℝ) : ℂ)⟩ 10 (wideStrip 0) 10 0 0 3 3 50 (1 / 2) false =
      .ok (6 / 5) := by
  have hl : spread 3 3 = [-3, 0, 3] := by
    simp only [spread, List.range, List.range.loop, List.map_cons, List.map_nil]
    norm_num
  have hamp : (⟨13, 13, fun i j => ‖(((wideStrip (-1)).val i j : ℝ) : ℂ)‖⟩ : Arr2 ℝ) = wideStrip (-1) := by
    unfold wideStrip
    congr 1
    funext i j
    rw [Complex.norm_real]
    show ‖(if _ then (1 : ℝ) else 0)‖ = if _ then (1 : ℝ) else 0
    split_ifs <;> simp
  have hsq : (wideStrip (-1)).map (fun v : ℝ => v ^ 2) = wideStrip (-1) := by
    unfold wideStrip Arr2.map
    congr 1
    funext i j
    show (if _ then (1 : ℝ) else 0) ^ 2 = if _ then (1 : ℝ) else 0
    split_ifs <;> simp
  have key : ∀ (th : ℤ) (N : ℕ), -3 ≤ th ∧ th ≤ 3 →
      (Finset.univ.filter fun q : Fin 13 × Fin 13 => (3 + (-1 : ℤ) ≤ ((q.2 : ℕ) : ℤ) ∧ ((q.2 : ℕ) : ℤ) ≤ 9 + (-1 : ℤ)) ↔
        (3 + -th ≤ ((q.2 : ℕ) : ℤ) ∧ ((q.2 : ℕ) : ℤ) ≤ 9 + -th)).card = N →
      ∃ ref, IsReference Sp Rotate.slide (wideStrip 0) (th : ℝ) (10 / 10) 0 0 1 13 13 ref ∧
      Matches ⟨13, 13, fun i j => ‖(((wideStrip (-1)).val i j : ℝ) : ℂ)‖⟩ ref 50 (1 / 2) false N := by
    intro th N hth hN
    refine ⟨wideStrip (-th), ?_, ?_⟩
    · have := reference_full_size Sp Rotate.slide (wideStrip 0) 13 rfl rfl (by norm_num) (by norm_num) (th : ℝ)
      rw [show -(th : ℝ) = ((-th : ℤ) : ℝ) by push_cast; ring, slide_wide (-th) (by omega)] at this
      rwa [show (10 : ℝ) / 10 = 1 by norm_num]
    · rw [hamp]
      unfold Matches
      rw [if_pos rfl, hsq]
      exact ⟨1, 1, wide_norm (-1) (by norm_num), wide_norm (-th) (by omega), by
        rw [wide_close _ _ _ (by norm_num) (by norm_num)]
        exact hN.symm⟩
  have k1 := key (-3) 65 (by norm_num) (by decide +kernel)
  have k2 := key 0 143 (by norm_num) (by decide +kernel)
  have k3 := key 3 117 (by norm_num) (by decide +kernel)
  have hF : ∀ th ∈ spread 3 3, ∃ ref, IsReference Sp Rotate.slide (wideStrip 0) th (10 / 10) 0 0 1 13 13 ref ∧
      Matches ⟨13, 13, fun i j => ‖(((wideStrip (-1)).val i j : ℝ) : ℂ)‖⟩ ref 50 (1 / 2) false (if th = -3 then 65 else if th = 0 then 143 else 117) := by
    intro th hth
    rw [hl] at hth
    simp only [List.mem_cons, List.not_mem_nil, or_false] at hth
    rcases hth with rfl | rfl | rfl
    · rw [if_pos rfl]
      simpa using k1
    · rw [if_neg (by norm_num), if_pos rfl]
      simpa using k2
    · rw [if_neg (by norm_num), if_neg (by norm_num)]
      simpa using k3
  obtain ⟨r, h, hr, -⟩ := C76_off_grid_bias S Sp Rotate.slide _ 10 (wideStrip 0) 10 0 0 3 50 (1 / 2) false
    ⟨by norm_num, by norm_num, by norm_num, by norm_num, by norm_num⟩ (by norm_num) _ hF 1 169 26 (by norm_num) (by norm_num) (by norm_num)
    (fun th hth => by
      rw [hl] at hth
      simp only [List.mem_cons, List.not_mem_nil, or_false] at hth
      rcases hth with rfl | rfl | rfl <;> norm_num)
  rw [h, hr]
  norm_num

/-- `C77_rounds`: with gain 1/3 the estimate after one round is half the true displacement. -/
example (S : Solver) (Sp : ClampSpline) (R : Rotate) : fitPupilMaskOffsets S Sp R (crossTuning 1) sceneU (sceneM 1) (1 / 3) 0 0 10 1 0 = .ok (1 / 2, 0) := by
  have hU := sceneU_norm 50 (by norm_num)
  have hM := sceneM_norm 1 (by norm_num) 50 (by norm_num)
  have := C77_rounds S Sp R (crossTuning 1) sceneU (sceneM 1) (1 / 3) 0 0 10 1 0 rfl rfl (by norm_num) (by norm_num) (by norm_num)
    (by show (0 : ℤ) < 6; norm_num) 1 rfl (hU.imp fun _ h => h.1) (hM.imp fun _ h => h.1) (fun k => (k : ℝ) / 2) (fun _ => 0) (fun _ => 3 / 2) (fun _ => 0)
    (by norm_num) rfl (fun k hk => by
      obtain rfl : k = 0 := by omega
      have h0 := cross_displaced S Sp R 1 0 (by norm_num)
      norm_num at h0 ⊢
      exact h0) (fun k hk => by push_cast; ring) (fun k hk => by norm_num)
  rw [this]
  norm_num

/-- `C87_reproduces_partial`: a mirror of one pixel per actuator, moved one pixel to the right and one up, makes any 9 x 9 surface it is asked for. -/
example (S : Spline) (R : Rotate) (hR : R.Exact) (L : SpSolve) (T : Shift) (f : Fin 9 → Fin 9 → ℝ) :
    ∃ cmd, convSurfToDmCmd S R L ⟨9, 9, f⟩ (pixelDm false 0 1 (-1)) = .ok cmd ∧
      ∀ out, dmhtoph S R T 9 9 cmd 5 pixelInf 1 1 1 (1 : ℤ) (-1 : ℤ) 0 false = .ok out → out.centered (-1) 2 = some (f 3 6) := by
  obtain ⟨cmd, h, -, -, h2⟩ := C87_reproduces_partial S R hR L ⟨9, 9, f⟩ (pixelDm false 0 1 (-1)) 5 1 (pixelDm_ok S _ _ _ _) 1 (-1) rfl rfl
    (Or.inl ⟨rfl, by simp [pixelDm]⟩) _ _ (pixelDm_on _ _ _ _) (show 9 % 2 = 1 by norm_num) (show 9 % 2 = 1 by norm_num) ⟨by norm_num, by norm_num⟩ (fun i j hi hj => by
      show Reaches (9 : ℕ) (9 : ℕ) _ _
      unfold Reaches
      omega)
  refine ⟨cmd, h, fun out hout => ?_⟩
  have hs : (4 / 3 : ℝ) ≤ Real.sqrt 2 := by
    rw [show (4 / 3 : ℝ) = Real.sqrt ((4 / 3) ^ 2) by rw [Real.sqrt_sq]; norm_num]
    exact Real.sqrt_le_sqrt (by norm_num)
  have := h2 T out hout 2 3 (-1) 2 (by norm_num) (by norm_num) (by have := appears_straight false 1 (-1) 0 1; norm_num at this ⊢; exact this)
    (by show Reaches (9 : ℕ) (9 : ℕ) _ _; unfold Reaches; omega)
    (by simp only [pixelDm, pixelInf, max_self]; norm_num; linarith) (by simp only [pixelDm, pixelInf, max_self]; norm_num; linarith)
  rw [this]
  unfold Arr2.centered
  rw [show (((⟨9, 9, f⟩ : Arr2 ℝ).nr : ℤ) / 2 + -1) = 3 by norm_num, show (((⟨9, 9, f⟩ : Arr2 ℝ).nc : ℤ) / 2 + 2) = 6 by norm_num]
  exact Arr2.px_of_inB (⟨9, 9, f⟩ : Arr2 ℝ) (i := 3) (j := 6) ⟨⟨by norm_num, show (3 : ℤ) < 9 by norm_num⟩, by norm_num, show (6 : ℤ) < 9 by norm_num⟩

end Coralign.Props
