import Verif.Props.FindOptFit
import Verif.Props.OccAstro
import Verif.Props.ConjugateSplit

/-!
# C92: satellite-spot measurements and the units of the image
-/

namespace Coralign.Props

open Coralign Coralign.Spec

/-- The same image in other units, or taken with another exposure: every pixel multiplied by `k`. -/
noncomputable def exposed (k : ℝ) (img : Arr2 ℝ) : Arr2 ℝ := img.map fun v : ℝ => k * v

theorem spotFlux_exposed (k : ℝ) (img : Arr2 ℝ) (N : ℕ) (r cx cy : ℝ) : spotFlux (exposed k img) N r cx cy = k * spotFlux img N r cx cy := by
  unfold spotFlux exposed
  rw [Finset.mul_sum]
  refine Finset.sum_congr rfl fun i _ => ?_
  rw [Finset.mul_sum]
  refine Finset.sum_congr rfl fun j _ => ?_
  simp only [Arr2.map]
  ring

theorem pairFlux_exposed (k : ℝ) (img : Arr2 ℝ) (N : ℕ) (r : ℝ) (rots : List ℝ) (sep X Y : ℝ) :
    pairFlux (exposed k img) N r rots sep X Y = k * pairFlux img N r rots sep X Y := by
  unfold pairFlux
  rw [← List.sum_map_mul_left]
  congr 1
  refine List.map_congr_left fun deg _ => ?_
  simp only [spotFlux_exposed]
  ring

theorem bright_mul (k s : ℝ) (hk : 0 < k) (hs : 0 < s) : bright (k * s) = k * bright s := by
  unfold bright
  rw [if_pos hs, if_pos (mul_pos hk hs)]

theorem bright_dark (k s : ℝ) (hk : 0 < k) (hs : ¬ 0 < s) : bright (k * s) = bright s := by
  unfold bright
  rw [if_neg hs, if_neg (by rwa [mul_pos_iff_of_pos_left hk])]

/-! ### Offset between star and mask -/

/-- **C92 (partial).** The star–mask offset does not depend on the units of the image, provided both spots are lit or neither is. -/
theorem C92_offset_partial (img : Arr2 ℝ) (hx : 2 ≤ img.nc) (hy : 1 ≤ img.nr) (rotDeg xo yo : ℝ) (t : SpotTuning) (target : ℝ)
    (h : SpotTuning.Valid t target) (k : ℝ) (hk : 0 < k)
    (hlit : 0 < spotFlux img t.nSubpixels.toNat t.roiRadiusPix (xo + t.spotSepPix * dirX rotDeg) (yo + t.spotSepPix * dirY rotDeg) ↔
      0 < spotFlux img t.nSubpixels.toNat t.roiRadiusPix (xo - t.spotSepPix * dirX rotDeg) (yo - t.spotSepPix * dirY rotDeg)) :
    calcOffsetFromSpots (exposed k img) rotDeg xo yo t target = calcOffsetFromSpots img rotDeg xo yo t target := by
  have hr : measuredRatio (exposed k img) rotDeg xo yo t = measuredRatio img rotDeg xo yo t := by
    unfold measuredRatio
    rw [spotFlux_exposed, spotFlux_exposed]
    by_cases hp : 0 < spotFlux img t.nSubpixels.toNat t.roiRadiusPix (xo + t.spotSepPix * dirX rotDeg) (yo + t.spotSepPix * dirY rotDeg)
    · rw [bright_mul _ _ hk hp, bright_mul _ _ hk (hlit.mp hp), mul_div_mul_left _ _ hk.ne']
    · rw [bright_dark _ _ hk hp, bright_dark _ _ hk (fun h => hp (hlit.mpr h))]
  obtain ⟨x, xt, e1, e2, e3⟩ := C28_estimate img hx hy rotDeg xo yo t target h
  obtain ⟨x', xt', e1', e2', e3'⟩ := C28_estimate (exposed k img) hx hy rotDeg xo yo t target h
  have hm := ratioAt_strictMono _ _ h.c1 h.quad_nonneg
  have hxx : x' = x := hm.injective (by rw [e1', e1, hr])
  have hxt : xt' = xt := hm.injective (by rw [e2', e2])
  rw [e3, e3', hxx, hxt]

/-- **C92 (partial), bowtie.** The same for the two-dimensional estimate, provided all four spots are lit or none is. -/
theorem C92_bowtie_partial (img : Arr2 ℝ) (hx : 2 ≤ img.nc) (hy : 1 ≤ img.nr) (xo yo : ℝ) (t : BowtieTuning) (h : BowtieTuning.Valid t)
    (hxt : 0 < t.xRatioTarget) (hyt : 0 < t.yRatioTarget) (k : ℝ) (hk : 0 < k)
    (hlit : (∀ deg ∈ [t.spotExtraRotDeg + t.spotRotDeg, t.spotExtraRotDeg - t.spotRotDeg, t.spotExtraRotDeg + 180 - t.spotRotDeg,
        t.spotExtraRotDeg + 180 + t.spotRotDeg],
        0 < spotFlux img t.nSubpixels.toNat t.roiRadiusPix (xo + t.spotSepPix * dirX deg) (yo + t.spotSepPix * dirY deg)) ∨
      (∀ deg ∈ [t.spotExtraRotDeg + t.spotRotDeg, t.spotExtraRotDeg - t.spotRotDeg, t.spotExtraRotDeg + 180 - t.spotRotDeg,
        t.spotExtraRotDeg + 180 + t.spotRotDeg],
        spotFlux img t.nSubpixels.toNat t.roiRadiusPix (xo + t.spotSepPix * dirX deg) (yo + t.spotSepPix * dirY deg) ≤ 0)) :
    calcBowtieOffsets (exposed k img) xo yo t = calcBowtieOffsets img xo yo t := by
  have key : ∃ m : ℝ, m ≠ 0 ∧ ∀ deg ∈ [t.spotExtraRotDeg + t.spotRotDeg, t.spotExtraRotDeg - t.spotRotDeg,
      t.spotExtraRotDeg + 180 - t.spotRotDeg, t.spotExtraRotDeg + 180 + t.spotRotDeg],
      spotAt (exposed k img) xo yo t deg = m * spotAt img xo yo t deg := by
    rcases hlit with hl | hl
    · refine ⟨k, hk.ne', fun deg hd => ?_⟩
      unfold spotAt
      rw [spotFlux_exposed, bright_mul _ _ hk (hl deg hd)]
    · refine ⟨1, one_ne_zero, fun deg hd => ?_⟩
      unfold spotAt
      rw [spotFlux_exposed, bright_dark _ _ hk (not_lt.mpr (hl deg hd)), one_mul]
  obtain ⟨m, hm0, hm⟩ := key
  have m1 := hm (t.spotExtraRotDeg + t.spotRotDeg) (by simp)
  have m2 := hm (t.spotExtraRotDeg - t.spotRotDeg) (by simp)
  have m3 := hm (t.spotExtraRotDeg + 180 - t.spotRotDeg) (by simp)
  have m4 := hm (t.spotExtraRotDeg + 180 + t.spotRotDeg) (by simp)
  have hX : bowtieRatioX (exposed k img) xo yo t = bowtieRatioX img xo yo t := by
    unfold bowtieRatioX
    rw [m1, m2, m3, m4, ← mul_add, ← mul_add, mul_div_mul_left _ _ hm0]
  have hY : bowtieRatioY (exposed k img) xo yo t = bowtieRatioY img xo yo t := by
    unfold bowtieRatioY
    rw [m1, m2, m3, m4, ← mul_add, ← mul_add, mul_div_mul_left _ _ hm0]
  obtain ⟨x, xt, y, yt, e1, e2, e3, e4, e5⟩ := C28_bowtie_estimate img hx hy xo yo t h hxt hyt
  obtain ⟨x', xt', y', yt', e1', e2', e3', e4', e5'⟩ := C28_bowtie_estimate (exposed k img) hx hy xo yo t h hxt hyt
  have hmx := ratioAt_strictMono _ _ h.c1x h.c2x.le
  have hmy := ratioAt_strictMono _ _ h.c1y h.c2y.le
  have q1 : x' = x := hmx.injective (by rw [e1', e1, hX])
  have q2 : xt' = xt := hmx.injective (by rw [e2', e2])
  have q3 : y' = y := hmy.injective (by rw [e3', e3, hY])
  have q4 : yt' = yt := hmy.injective (by rw [e4', e4])
  rw [e5, e5', q1, q2, q3, q4]

/-- **C92 is false of the code (offset).** When one spot is dark, it is counted as having `2⁻⁵²` units of light, whatever the units are: the
sign of the estimate depends on whether the lit spot has more or less than that. -/
theorem C92_dark_spot (img : Arr2 ℝ) (hx : 2 ≤ img.nc) (hy : 1 ≤ img.nr) (rotDeg xo yo : ℝ) (t : SpotTuning)
    (h : SpotTuning.Valid t 1) (hin : t.maskIsInsideSpots = 1) (F : ℝ)
    (hF : spotFlux img t.nSubpixels.toNat t.roiRadiusPix (xo + t.spotSepPix * dirX rotDeg) (yo + t.spotSepPix * dirY rotDeg) = F) (hpos : 0 < F)
    (hdark : spotFlux img t.nSubpixels.toNat t.roiRadiusPix (xo - t.spotSepPix * dirX rotDeg) (yo - t.spotSepPix * dirY rotDeg) ≤ 0)
    (k : ℝ) (hk : 0 < k) :
    ∃ y, calcOffsetFromSpots (exposed k img) rotDeg xo yo t 1 = .ok y ∧ (0 < y ↔ 1 / 2 ^ 52 < k * F) ∧ (y < 0 ↔ k * F < 1 / 2 ^ 52) := by
  obtain ⟨x, xt, -, -, e⟩ := C28_estimate (exposed k img) hx hy rotDeg xo yo t 1 h
  obtain ⟨-, s2, s3⟩ := C28_sign (exposed k img) hx hy rotDeg xo yo t 1 _ h hin e
  have hr : measuredRatio (exposed k img) rotDeg xo yo t = k * F / (1 / 2 ^ 52) := by
    unfold measuredRatio
    rw [spotFlux_exposed, spotFlux_exposed, hF, bright_dark _ _ hk (not_lt.mpr hdark)]
    unfold bright
    rw [if_pos (mul_pos hk hpos), if_neg (not_lt.mpr hdark)]
  rw [hr] at s2 s3
  refine ⟨_, e, s2.trans ?_, s3.trans ?_⟩
  · rw [lt_div_iff₀ (by positivity), one_mul]
  · rw [div_lt_iff₀ (by positivity), one_mul]

/-- Spots one pixel from the star along the x-axis, regions of one pixel. -/
noncomputable def pixelSpots : SpotTuning := ⟨1, 1 / 2, 1, 3, 1, 2, 2, 1⟩

/-- `r` units of light in the spot on the right, `l` units in the spot on the left. -/
noncomputable def twoSpots (r l : ℝ) : Arr2 ℝ := ⟨1, 3, fun _ j => if (j : ℕ) = 2 then r else if (j : ℕ) = 0 then l else 0⟩

theorem pixelSpots_valid : SpotTuning.Valid pixelSpots 1 := by
  refine ⟨?_, ?_, ?_, ?_, ?_, ?_, ?_, Or.inr rfl, Or.inr rfl⟩ <;> norm_num [pixelSpots]

theorem twoSpots_right (r l : ℝ) : spotFlux (twoSpots r l) pixelSpots.nSubpixels.toNat pixelSpots.roiRadiusPix (0 + pixelSpots.spotSepPix * dirX 0)
    (0 + pixelSpots.spotSepPix * dirY 0) = r := by
  have := spotFlux_pixel (twoSpots r l) 1 0
  unfold dirX dirY
  simp only [pixelSpots, zero_mul, zero_div, Real.cos_zero, Real.sin_zero, mul_one, mul_zero, add_zero, zero_add]
  rw [Int.cast_one, Int.cast_zero] at this
  refine this.trans ?_
  refine (zext_in (a := twoSpots r l) (i := ((1 / 2 : ℕ) : ℤ) + 0) (j := ((3 / 2 : ℕ) : ℤ) + 1) ⟨⟨by decide, show _ < ((1 : ℕ) : ℤ) by decide⟩, ⟨by decide, show _ < ((3 : ℕ) : ℤ) by decide⟩⟩).trans ?_
  rfl

theorem twoSpots_left (r l : ℝ) : spotFlux (twoSpots r l) pixelSpots.nSubpixels.toNat pixelSpots.roiRadiusPix (0 - pixelSpots.spotSepPix * dirX 0)
    (0 - pixelSpots.spotSepPix * dirY 0) = l := by
  have := spotFlux_pixel (twoSpots r l) (-1) 0
  unfold dirX dirY
  simp only [pixelSpots, zero_mul, zero_div, Real.cos_zero, Real.sin_zero, mul_one, mul_zero, sub_zero, zero_sub]
  rw [Int.cast_neg, Int.cast_one, Int.cast_zero] at this
  refine this.trans ?_
  refine (zext_in (a := twoSpots r l) (i := ((1 / 2 : ℕ) : ℤ) + 0) (j := ((3 / 2 : ℕ) : ℤ) + -1) ⟨⟨by decide, show _ < ((1 : ℕ) : ℤ) by decide⟩, ⟨by decide, show _ < ((3 : ℕ) : ℤ) by decide⟩⟩).trans ?_
  rfl

/-- Two lit spots: the hypotheses of `C92_offset_partial` are met, and the answer is that of the original image. -/
example (k : ℝ) (hk : 0 < k) : calcOffsetFromSpots (exposed k (twoSpots 1 5)) 0 0 0 pixelSpots 1 = calcOffsetFromSpots (twoSpots 1 5) 0 0 0 pixelSpots 1 := by
  refine C92_offset_partial _ (by decide) (by decide) 0 0 0 pixelSpots 1 pixelSpots_valid k hk ?_
  rw [twoSpots_right, twoSpots_left]
  norm_num

/-- The same two spots seen by the bowtie estimate: with an opening angle of zero, the spots on each side coincide. -/
example (k : ℝ) (hk : 0 < k) : calcBowtieOffsets (exposed k (twoSpots 1 5)) 0 0 ⟨1, 0, 0, 1 / 2, 1, 3, 1, 2, 1, 2, 1, 1⟩ =
    calcBowtieOffsets (twoSpots 1 5) 0 0 ⟨1, 0, 0, 1 / 2, 1, 3, 1, 2, 1, 2, 1, 1⟩ := by
  refine C92_bowtie_partial _ (by decide) (by decide) 0 0 _ (by constructor <;> norm_num) (by norm_num) (by norm_num) k hk (Or.inl ?_)
  have h0 := twoSpots_right 1 5
  have h1 := twoSpots_left 1 5
  have e0 : dirX 180 = -dirX 0 ∧ dirY 180 = -dirY 0 := by
    unfold dirX dirY
    rw [show (180 : ℝ) * Real.pi / 180 = Real.pi by ring, zero_mul, zero_div]
    simp
  have h1' : spotFlux (twoSpots 1 5) 1 (1 / 2) (0 + 1 * dirX 180) (0 + 1 * dirY 180) = 5 := by
    rw [e0.1, e0.2, mul_neg, mul_neg, ← sub_eq_add_neg, ← sub_eq_add_neg]
    exact h1
  have h0' : spotFlux (twoSpots 1 5) 1 (1 / 2) (0 + 1 * dirX 0) (0 + 1 * dirY 0) = 1 := h0
  intro deg hd
  simp only [add_zero, zero_add, sub_zero, List.mem_cons, List.not_mem_nil, or_false] at hd
  show 0 < spotFlux (twoSpots 1 5) 1 (1 / 2) (0 + 1 * dirX deg) (0 + 1 * dirY deg)
  rcases hd with rfl | rfl | rfl | rfl
  · rw [h0']; norm_num
  · rw [h0']; norm_num
  · rw [h1']; norm_num
  · rw [h1']; norm_num

/-- `C28_brighter` on a concrete pair of images: raising the right spot from 2 to 3 units raises the estimate. -/
example (y y' : ℝ) (e : calcOffsetFromSpots (twoSpots 2 1) 0 0 0 pixelSpots 1 = .ok y)
    (e' : calcOffsetFromSpots (twoSpots 3 1) 0 0 0 pixelSpots 1 = .ok y') : y < y' ∨ (y = y' ∧ |y| = 3) := by
  refine C28_brighter (twoSpots 2 1) (twoSpots 3 1) (by decide) (by decide) (by decide) (by decide) 0 0 0 pixelSpots 1 y y' pixelSpots_valid rfl
    ?_ ?_ ?_ e e'
  · rw [twoSpots_right]; norm_num
  · rw [twoSpots_right, twoSpots_right]; norm_num
  · rw [twoSpots_left, twoSpots_left]

/-- A lit and a dark spot: the estimate is positive in one system of units and negative in another. -/
theorem C92_dark_spot_flips : ∃ y y', calcOffsetFromSpots (exposed 1 (twoSpots 1 0)) 0 0 0 pixelSpots 1 = .ok y ∧ 0 < y ∧
    calcOffsetFromSpots (exposed (1 / 10 ^ 16) (twoSpots 1 0)) 0 0 0 pixelSpots 1 = .ok y' ∧ y' < 0 := by
  obtain ⟨y, e, p, -⟩ := C92_dark_spot (twoSpots 1 0) (by decide) (by decide) 0 0 0 pixelSpots pixelSpots_valid rfl 1 (twoSpots_right 1 0)
    one_pos (twoSpots_left 1 0).le 1 one_pos
  obtain ⟨y', e', -, q⟩ := C92_dark_spot (twoSpots 1 0) (by decide) (by decide) 0 0 0 pixelSpots pixelSpots_valid rfl 1 (twoSpots_right 1 0)
    one_pos (twoSpots_left 1 0).le (1 / 10 ^ 16) (by positivity)
  exact ⟨y, y', e, p.mpr (by norm_num), e', q.mpr (by norm_num)⟩

/-! ### Star location and spot separation -/

theorem starLoop_units (S : Solver) (F : ℝ → ℝ → ℝ) (cost cost' : ℝ → ℝ → Res ℝ) (k : ℝ) (hk : 1 ≤ k) (hcost : ∀ x y, cost x y = .ok (F x y))
    (hcost' : ∀ x y, cost' x y = .ok (k * F x y)) (nSteps : ℕ) (hn : 3 ≤ nSteps) (step : ℝ) (hs : step ≠ 0) (n : ℕ) (est p : ℝ × ℝ)
    (h : starLoop S cost nSteps step n est = .ok p) : starLoop S cost' nSteps step n est = .ok p := by
  induction n generalizing est with
  | zero => exact h
  | succ n ih =>
    unfold starLoop at h ⊢
    simp only [stepVec_trials] at h ⊢
    rw [costGrid_ok _ _ cost F (fun x _ y _ => hcost x y), res_ok_bind] at h
    rw [costGrid_ok _ _ cost' (fun x y => k * F x y) (fun x _ y _ => hcost' x y), res_ok_bind]
    obtain ⟨e, he, h'⟩ := res_bind_ok h
    have hu : gridFit S (trials nSteps step est.1) (trials nSteps step est.2) (Arr2.map (fun v : ℝ => k * v)
        ⟨(trials nSteps step est.2).length, (trials nSteps step est.1).length,
          fun i j => F ((trials nSteps step est.1).get j) ((trials nSteps step est.2).get i)⟩) = .ok e :=
      C14_units S _ _ _ _ (grid_determines _ _ (trials_three _ hn _ _ hs) (trials_three _ hn _ _ hs)) k (by rwa [abs_of_nonneg (by linarith)]) e he
    refine Eq.trans (congrArg (fun z : Res (ℝ × ℝ) => (z >>= fun est' => starLoop S cost' nSteps step n est' : Res (ℝ × ℝ))) hu) ?_
    exact ih e h'

theorem sepLoop_units (S : Solver) (F : ℝ → ℝ) (cost cost' : ℝ → Res ℝ) (k : ℝ) (hk : 1 ≤ k) (hcost : ∀ s, cost s = .ok (F s))
    (hcost' : ∀ s, cost' s = .ok (k * F s)) (nSteps : ℕ) (hn : 3 ≤ nSteps) (step : ℝ) (hs : step ≠ 0) (n : ℕ) (est p : ℝ)
    (h : sepLoop S cost nSteps step n est = .ok p) : sepLoop S cost' nSteps step n est = .ok p := by
  induction n generalizing est with
  | zero => exact h
  | succ n ih =>
    unfold sepLoop at h ⊢
    simp only [stepVec_trials] at h ⊢
    rw [mapM_ok cost F _ (fun s _ => hcost s), res_ok_bind] at h
    rw [mapM_ok cost' (fun s => k * F s) _ (fun s _ => hcost' s), res_ok_bind]
    obtain ⟨e, he, h'⟩ := res_bind_ok h
    have hu := C13_units S _ _ (trials_three nSteps hn step est hs) k (by rwa [abs_of_nonneg (by linarith)]) e he
    rw [List.map_map] at hu
    refine Eq.trans (congrArg (fun z : Res ℝ => (z >>= fun est' => sepLoop S cost' nSteps step n est' : Res ℝ)) hu) ?_
    exact ih e h'

theorem argmaxUpto_mul (k : ℝ) (hk : 0 < k) (f : ℕ → ℝ) (n : ℕ) : argmaxUpto (fun i => k * f i) n = argmaxUpto f n := by
  induction n with
  | zero => rfl
  | succ n ih =>
    unfold argmaxUpto
    simp only [ih, mul_lt_mul_iff_right₀ hk]

/-- **C92 (partial), star location.** An image in which the star is found gives the same position when it is brighter by any factor; so any two
exposures that both give an answer give the same one. -/
theorem C92_star_partial (S : Solver) (img : Arr2 ℝ) (hx : 2 ≤ img.nc) (hy : 1 ≤ img.nr) (t : StarTuning) (ht : t.Valid) (h3 : 3 ≤ t.nSteps)
    (gx gy : ℝ) (k k' : ℝ) (hk : 0 < k) (hk' : k ≤ k') (p : ℝ × ℝ) (h : calcStarLocation S (exposed k img) gx gy t = .ok p) :
    calcStarLocation S (exposed k' img) gx gy t = .ok p := by
  unfold calcStarLocation at h ⊢
  have := ht.sep; have := ht.roi; have := ht.sub; have := ht.steps; have := ht.step; have := ht.iter
  rw [if_neg (by rintro (h | h | h | h | h | h) <;> first | omega | linarith)] at h ⊢
  have hcost : ∀ k x y, roiEnergy (exposed k img) t.roiRadiusPix t.nSubpixels t.probeRotVecDeg t.sepPix (gx + x) (gy + y) =
      .ok (k * pairFlux img t.nSubpixels.toNat t.roiRadiusPix t.probeRotVecDeg t.sepPix (gx + x) (gy + y)) := by
    intro k x y
    rw [roiEnergy_eq (exposed k img) _ hx hy ht.sub _ ht.roi, pairFlux_exposed]
  refine starLoop_units S _ _ _ (k' / k) ((one_le_div hk).mpr hk') (hcost k) (fun x y => ?_) _ (by omega) _ ht.step.ne' _ _ _ h
  rw [hcost k', ← mul_assoc, div_mul_cancel₀ _ hk.ne']

/-- **C92 (partial), spot separation.** The same for the separation. -/
theorem C92_separation_partial (S : Solver) (img : Arr2 ℝ) (hx : 2 ≤ img.nc) (hy : 1 ≤ img.nr) (t : StarTuning) (ht : t.Valid) (h3 : 3 ≤ t.nSteps)
    (xo yo : ℝ) (k k' : ℝ) (hk : 0 < k) (hk' : k ≤ k') (p : ℝ) (h : calcSpotSeparation S (exposed k img) xo yo t = .ok p) :
    calcSpotSeparation S (exposed k' img) xo yo t = .ok p := by
  unfold calcSpotSeparation at h ⊢
  have := ht.sep; have := ht.roi; have := ht.sub; have := ht.steps; have := ht.step; have := ht.iter
  rw [if_neg (by rintro (h | h | h | h | h | h) <;> first | omega | linarith)] at h ⊢
  have hcost : ∀ k s, roiEnergy (exposed k img) t.roiRadiusPix t.nSubpixels t.probeRotVecDeg s xo yo =
      .ok (k * pairFlux img t.nSubpixels.toNat t.roiRadiusPix t.probeRotVecDeg s xo yo) := by
    intro k s
    rw [roiEnergy_eq (exposed k img) _ hx hy ht.sub _ ht.roi, pairFlux_exposed]
  have hcost2 : ∀ s, roiEnergy (exposed k' img) t.roiRadiusPix t.nSubpixels t.probeRotVecDeg s xo yo =
      .ok (k' / k * (k * pairFlux img t.nSubpixels.toNat t.roiRadiusPix t.probeRotVecDeg s xo yo)) := by
    intro s
    rw [hcost k', ← mul_assoc, div_mul_cancel₀ _ hk.ne']
  have hr1 : 1 ≤ k' / k := (one_le_div hk).mpr hk'
  simp only [stepVec_trials] at h ⊢
  by_cases h1 : t.nIter > 1
  · rw [if_pos h1, mapM_ok _ _ _ (fun s _ => hcost k s), res_ok_bind] at h
    rw [if_pos h1, mapM_ok _ _ _ (fun s _ => hcost2 s), res_ok_bind]
    have hmax : ∀ l : List ℝ, ∀ F : ℝ → ℝ, lineArgmax l (l.map fun s => k' / k * F s) = lineArgmax l (l.map F) := by
      intro l F
      unfold lineArgmax
      rw [List.length_map, List.length_map, ← argmaxUpto_mul (k' / k) (by linarith) fun i => (l.map F).getD i 0]
      congr 2
      funext i
      by_cases hi : i < l.length
      · rw [List.getD_eq_getElem _ _ (by simpa using hi), List.getD_eq_getElem _ _ (by simpa using hi), List.getElem_map, List.getElem_map]
      · rw [List.getD_eq_default _ _ (by simpa using hi), List.getD_eq_default _ _ (by simpa using hi), mul_zero]
    rw [hmax]
    exact sepLoop_units S _ _ _ _ hr1 (hcost k) hcost2 _ (by omega) _ ht.step.ne' _ _ _ h
  · rw [if_neg h1] at h ⊢
    exact sepLoop_units S _ _ _ _ hr1 (hcost k) hcost2 _ (by omega) _ ht.step.ne' _ _ _ h

/-- **C92 is false of the code (star location).** The star is found on the centre pixel of this image, but the same image in units in which it is
at least `10⁸` times fainter raises `QuadraticException`. -/
theorem C92_faint (S : Solver) (nIter : ℤ) (hn : 0 < nIter) (k : ℝ) (hk : 0 < k) (hk' : k ≤ 1 / 10 ^ 8) :
    calcStarLocation S spotsImg 0 0 (spotsTuning nIter) = .ok (0, 0) ∧
    calcStarLocation S (exposed k spotsImg) 0 0 (spotsTuning nIter) = .error .quadraticException := by
  refine ⟨(C58_depends_on_guess S nIter hn).1, ?_⟩
  unfold calcStarLocation
  rw [if_neg (by
    rintro (h | h | h | h | h | h)
    · norm_num [spotsTuning] at h
    · norm_num [spotsTuning] at h
    · norm_num [spotsTuning] at h
    · norm_num [spotsTuning] at h
    · norm_num [spotsTuning] at h
    · exact absurd h (not_le.mpr hn))]
  obtain ⟨n, hn'⟩ : ∃ n, (spotsTuning nIter).nIter.toNat = n + 1 := ⟨nIter.toNat - 1, by simp only [spotsTuning]; omega⟩
  rw [hn']
  unfold starLoop
  simp only [stepVec_trials]
  have hcost : ∀ x y, roiEnergy (exposed k spotsImg) (spotsTuning nIter).roiRadiusPix (spotsTuning nIter).nSubpixels
      (spotsTuning nIter).probeRotVecDeg (spotsTuning nIter).sepPix (0 + x) (0 + y) = .ok (k * pairFlux spotsImg 1 (1 / 2) [0] 2 x y) := by
    intro x y
    have := roiEnergy_eq (exposed k spotsImg) 1 (show 2 ≤ 9 by decide) (show 1 ≤ 3 by decide) (by decide) (1 / 2)
      (by norm_num) 2 x y [0]
    rw [pairFlux_exposed] at this
    rw [zero_add, zero_add]
    exact this
  rw [costGrid_ok _ _ _ _ (fun x _ y _ => hcost x y), res_ok_bind]
  have h3 : (spotsTuning nIter).nSteps.toNat = 3 := rfl
  have h1 : (spotsTuning nIter).stepSize = 1 := rfl
  rw [h3, h1]
  have ht := trials_three 3 le_rfl 1 0 one_ne_zero
  have hs : SamplesQuadratic (trials 3 1 0) (trials 3 1 0) ⟨(trials 3 1 0).length, (trials 3 1 0).length,
      fun i j => k * pairFlux spotsImg 1 (1 / 2) [0] 2 ((trials 3 1 0).get j) ((trials 3 1 0).get i)⟩
      (Arr2.full (trials 3 1 0).length (trials 3 1 0).length true) (k * -2) 0 (k * -2) 0 0 (k * -8) := by
    intro i j x y _ hx hy
    obtain ⟨hj, rfl⟩ := List.getElem?_eq_some_iff.mp hx
    obtain ⟨hi, rfl⟩ := List.getElem?_eq_some_iff.mp hy
    refine (Arr2.px_val (a := ⟨(trials 3 1 0).length, (trials 3 1 0).length,
      fun i j => k * pairFlux spotsImg 1 (1 / 2) [0] 2 ((trials 3 1 0).get j) ((trials 3 1 0).get i)⟩)
      (⟨i, hi⟩ : Fin (trials 3 1 0).length) (⟨j, hj⟩ : Fin (trials 3 1 0).length)).trans ?_
    congr 1
    obtain ⟨X, eX, a1, a2⟩ := mem_trials3 0 _ (by rw [Int.cast_zero]; exact List.getElem_mem hj)
    obtain ⟨Y, eY, a3, a4⟩ := mem_trials3 0 _ (by rw [Int.cast_zero]; exact List.getElem_mem hi)
    simp only [List.get_eq_getElem]
    rw [eX, eY]
    have := pairFlux_pixel spotsImg 2 X Y
    rw [show ((2 : ℤ) : ℝ) = 2 by norm_num] at this
    rw [this]
    have b1 := spotsImg_at Y (X + 2) (by omega) (by omega)
    have b2 := spotsImg_at Y (X - 2) (by omega) (by omega)
    refine (congrArg (fun z : ℝ => k * z) (congrArg₂ (· + ·) b1 b2)).trans ?_
    push_cast
    ring
  have herr := (C14_stationary_point S (trials 3 1 0) (trials 3 1 0) _ (Arr2.full (trials 3 1 0).length (trials 3 1 0).length true)
    rfl rfl rfl rfl _ _ _ _ _ _ hs (grid_determines _ _ ht ht)).2 (Or.inl (by
      rw [show (0 : ℝ) * 0 - 4 * (k * -2) * (k * -2) = -(16 * k ^ 2) by ring, abs_neg, abs_of_nonneg (by positivity)]
      have : k ^ 2 ≤ (1 / 10 ^ 8) ^ 2 := pow_le_pow_left₀ hk.le hk' 2
      norm_num at this ⊢
      linarith))
  refine Eq.trans (congrArg (fun z : Res (ℝ × ℝ) => (z >>= fun est' => starLoop S _ 3 1 n est' : Res (ℝ × ℝ))) herr) ?_
  rfl

/-- A brighter image of the same scene: the star stays where it is. -/
example (S : Solver) (nIter : ℤ) (hn : 0 < nIter) (k : ℝ) (hk : 1 ≤ k) : calcStarLocation S (exposed k spotsImg) 0 0 (spotsTuning nIter) = .ok (0, 0) := by
  have v : (spotsTuning nIter).Valid := ⟨by norm_num [spotsTuning], by norm_num [spotsTuning], by norm_num [spotsTuning],
    by norm_num [spotsTuning], by norm_num [spotsTuning], hn⟩
  refine C92_star_partial S spotsImg (by decide) (by decide) _ v (by norm_num [spotsTuning]) 0 0 1 k one_pos hk _ ?_
  have : exposed 1 spotsImg = spotsImg := by
    unfold exposed Arr2.map
    simp only [one_mul]
  rw [this]
  exact (C58_depends_on_guess S nIter hn).1

end Coralign.Props
