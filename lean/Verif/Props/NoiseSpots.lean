import Verif.Props.FocalFit
import Verif.Props.OccAstro

/-!
# C112: noise in the satellite-spot image and the stellar offset
-/

namespace Coralign.Props

open Coralign Coralign.Spec Finset

/-! ### The calibration curve -/

theorem curve_one_side (c1 q x x' r r' : ℝ) (h1 : 0 < c1) (hq : 0 ≤ q) (hx : 0 ≤ x) (hx' : 0 ≤ x') (e : 1 + c1 * x + q * x ^ 2 = r)
    (e' : 1 + c1 * x' + q * x' ^ 2 = r') : c1 * |x' - x| ≤ |r' - r| := by
  have : r' - r = (x' - x) * (c1 + q * (x + x')) := by rw [← e, ← e']; ring
  rw [this, abs_mul, mul_comm]
  refine mul_le_mul_of_nonneg_left ?_ (abs_nonneg _)
  have : 0 ≤ q * (x + x') := by positivity
  rw [abs_of_nonneg (by linarith)]
  linarith

theorem quotient_moves (P M P' M' ω m : ℝ) (hm : 0 < m) (hP : m ≤ P) (hM : m ≤ M) (hM' : m ≤ M') (dP : |P' - P| ≤ ω) (dM : |M' - M| ≤ ω) :
    |P' / M' - P / M| ≤ ω * (P + M) / m ^ 2 := by
  have hω : 0 ≤ ω := (abs_nonneg _).trans dP
  have p : 0 < P := by linarith
  have k : 0 < M := by linarith
  have k' : 0 < M' := by linarith
  have e : P' / M' - P / M = ((P' - P) * M - P * (M' - M)) / (M' * M) := by field_simp; ring
  rw [e, abs_div, abs_of_pos (mul_pos k' k)]
  refine div_le_div₀ (by positivity) ?_ (by positivity) (by rw [pow_two]; exact mul_le_mul hM' hM hm.le k'.le)
  refine (abs_sub _ _).trans ?_
  rw [abs_mul, abs_mul, abs_of_pos k, abs_of_pos p]
  have a1 := mul_le_mul_of_nonneg_right dP k.le
  have a2 := mul_le_mul_of_nonneg_left dM p.le
  linarith

/-- The offset which the calibration curve assigns to the ratio of two sums of light, when both sums change by at most `ω` and stay above `m`. -/
theorem offset_moves (c1 q x x' P M P' M' ω m : ℝ) (h1 : 0 < c1) (hq : 0 ≤ q) (hm : 0 < m) (hP : m ≤ P) (hM : m ≤ M) (hP' : m ≤ P') (hM' : m ≤ M')
    (dP : |P' - P| ≤ ω) (dM : |M' - M| ≤ ω) (e : ratioAt c1 q x = P / M) (e' : ratioAt c1 q x' = P' / M') :
    |x' - x| ≤ ω * (P + M) / (c1 * m ^ 2) := by
  have hω : 0 ≤ ω := (abs_nonneg _).trans dP
  have p : 0 < P := by linarith
  have k : 0 < M := by linarith
  have p' : 0 < P' := by linarith
  have k' : 0 < M' := by linarith
  suffices h : c1 * |x' - x| ≤ ω * (P + M) / m ^ 2 by
    rw [show ω * (P + M) / (c1 * m ^ 2) = (ω * (P + M) / m ^ 2) / c1 by field_simp, le_div_iff₀ h1, mul_comm]
    exact h
  have flip : ∀ z A B : ℝ, 0 < A → 0 < B → z < 0 → ratioAt c1 q z = A / B → 1 + c1 * -z + q * (-z) ^ 2 = B / A := by
    intro z A B hA hB hz ez
    rw [ratioAt_neg _ _ _ hz] at ez
    have hd : 0 < 1 + c1 * -z + q * z ^ 2 := by
      have := mul_pos h1 (neg_pos.mpr hz)
      positivity
    rw [neg_sq]
    rw [div_eq_div_iff hd.ne' hB.ne', one_mul] at ez
    rw [eq_div_iff hA.ne']
    linarith
  -- opposite sides of the centre
  have mixed : ∀ z z' A B A' B' : ℝ, m ≤ A → m ≤ B → m ≤ A' → m ≤ B' → |A' - A| ≤ ω → |B' - B| ≤ ω → 0 ≤ z → 0 ≤ z' →
      1 + c1 * z + q * z ^ 2 = B / A → 1 + c1 * z' + q * z' ^ 2 = A' / B' → c1 * (z + z') ≤ ω * (A + B) / m ^ 2 := by
    intro z z' A B A' B' hA hB hA' hB' dA dB hz hz' ez ez'
    have pA : 0 < A := by linarith
    have pB' : 0 < B' := by linarith
    have b1 : c1 * z ≤ (B - A) / A := by
      rw [sub_div, div_self pA.ne', ← ez]
      have : 0 ≤ q * z ^ 2 := by positivity
      linarith
    have b2 : c1 * z' ≤ (A' - B') / B' := by
      rw [sub_div, div_self pB'.ne', ← ez']
      have : 0 ≤ q * z' ^ 2 := by positivity
      linarith
    have c1z : 0 ≤ c1 * z := by positivity
    have c1z' : 0 ≤ c1 * z' := by positivity
    have n1 : 0 ≤ B - A := by
      by_contra hh
      have := div_neg_of_neg_of_pos (not_le.mp hh) pA
      linarith
    have n2 : 0 ≤ A' - B' := by
      by_contra hh
      have := div_neg_of_neg_of_pos (not_le.mp hh) pB'
      linarith
    have b3 : (B - A) / A ≤ (B - A) / m := div_le_div_of_nonneg_left n1 hm hA
    have b4 : (A' - B') / B' ≤ (A' - B') / m := div_le_div_of_nonneg_left n2 hm hB'
    have b5 : (B - A) / m + (A' - B') / m ≤ 2 * ω / m := by
      rw [← add_div]
      refine div_le_div_of_nonneg_right ?_ hm.le
      have := (abs_le.mp dA).2
      have := (abs_le.mp dB).1
      linarith
    have b6 : 2 * ω / m ≤ ω * (A + B) / m ^ 2 := by
      rw [div_le_div_iff₀ hm (by positivity)]
      have := mul_le_mul_of_nonneg_left (show 2 * m ≤ A + B by linarith) (mul_nonneg hω hm.le)
      calc 2 * ω * m ^ 2 = ω * m * (2 * m) := by ring
        _ ≤ ω * m * (A + B) := this
        _ = ω * (A + B) * m := by ring
    linarith
  rcases le_or_gt 0 x with hx | hx <;> rcases le_or_gt 0 x' with hx' | hx'
  · rw [ratioAt_nonneg _ _ _ hx] at e
    rw [ratioAt_nonneg _ _ _ hx'] at e'
    exact (curve_one_side c1 q x x' _ _ h1 hq hx hx' e e').trans (quotient_moves P M P' M' ω m hm hP hM hM' dP dM)
  · rw [ratioAt_nonneg _ _ _ hx] at e
    have e2 := flip x' P' M' p' k' hx' e'
    have := mixed x (-x') M P M' P' hM hP hM' hP' dM dP hx (by linarith) e e2
    rw [abs_of_neg (by linarith), add_comm P M]
    calc c1 * -(x' - x) = c1 * (x + -x') := by ring
      _ ≤ _ := this
  · rw [ratioAt_nonneg _ _ _ hx'] at e'
    have e2 := flip x P M p k hx e
    have := mixed (-x) x' P M P' M' hP hM hP' hM' dP dM (by linarith) hx' e2 e'
    rw [abs_of_pos (by linarith)]
    calc c1 * (x' - x) = c1 * (-x + x') := by ring
      _ ≤ _ := this
  · have e2 := flip x P M p k hx e
    have e3 := flip x' P' M' p' k' hx' e'
    have h2 := curve_one_side c1 q (-x) (-x') _ _ h1 hq (by linarith) (by linarith) e2 e3
    have h3 := quotient_moves M P M' P' ω m hm hM hP hP' dM dP
    rw [show -x' - -x = -(x' - x) by ring, abs_neg] at h2
    rw [add_comm P M]
    exact h2.trans h3

theorem clamp_moves (m a b : ℝ) : |clamp m a - clamp m b| ≤ |a - b| := by
  have h1 := abs_max_sub_max_le_max (-m) (min m a) (-m) (min m b)
  have h2 := abs_min_sub_min_le_max m a m b
  simp only [sub_self, abs_zero] at h1 h2
  exact h1.trans (max_le (abs_nonneg _) (h2.trans (max_le (abs_nonneg _) le_rfl)))

/-! ### The light of a spot -/

theorem flux_moves (n k : ℕ) (f w : Fin n → Fin k → ℝ) (N : ℕ) (r cx cy : ℝ) :
    |spotFlux ⟨n, k, fun i j => f i j + w i j⟩ N r cx cy - spotFlux ⟨n, k, f⟩ N r cx cy| ≤ spotFlux ⟨n, k, fun i j => |w i j|⟩ N r cx cy := by
  unfold spotFlux
  simp only
  rw [← Finset.sum_sub_distrib]
  refine (Finset.abs_sum_le_sum_abs _ _).trans (Finset.sum_le_sum fun i _ => ?_)
  rw [← Finset.sum_sub_distrib]
  refine (Finset.abs_sum_le_sum_abs _ _).trans (Finset.sum_le_sum fun j _ => ?_)
  rw [← mul_sub, add_sub_cancel_left, abs_mul, abs_of_nonneg (areaFraction_range _ _ _ _).1]

theorem bright_of_pos {s : ℝ} (h : 0 < s) : bright s = s := if_pos h

/-- What happens to a spot of light `s` when the disturbance of its disc is at most `ω`. -/
theorem spot_moves (n k : ℕ) (f w : Fin n → Fin k → ℝ) (N : ℕ) (r cx cy m ω : ℝ) (hm : 0 < m) (hω : spotFlux ⟨n, k, fun i j => |w i j|⟩ N r cx cy ≤ ω)
    (h : m + ω ≤ spotFlux ⟨n, k, f⟩ N r cx cy) :
    bright (spotFlux ⟨n, k, f⟩ N r cx cy) = spotFlux ⟨n, k, f⟩ N r cx cy ∧
    |bright (spotFlux ⟨n, k, fun i j => f i j + w i j⟩ N r cx cy) - spotFlux ⟨n, k, f⟩ N r cx cy| ≤ ω ∧
    m ≤ bright (spotFlux ⟨n, k, fun i j => f i j + w i j⟩ N r cx cy) ∧ m ≤ spotFlux ⟨n, k, f⟩ N r cx cy := by
  have h1 := (flux_moves n k f w N r cx cy).trans hω
  have h0 : 0 ≤ ω := (abs_nonneg _).trans h1
  have h2 := (abs_le.mp h1).1
  rw [bright_of_pos (by linarith : 0 < spotFlux ⟨n, k, f⟩ N r cx cy), bright_of_pos (by linarith : 0 < spotFlux ⟨n, k, fun i j => f i j + w i j⟩ N r cx cy)]
  exact ⟨rfl, h1, by linarith, by linarith⟩

/-- **C112.** `calc_offset_from_spots`: let `P` and `M` be the light of the two spots, and let a disturbance `w` of the image put no more than `ω` into either
disc, leaving at least `m` in both.  The estimate moves by at most `ω (P + M) / (c₁ m²)`, where `c₁` is the linear coefficient of the calibration. -/
theorem C112_spot_offset {n k : ℕ} (f w : Fin n → Fin k → ℝ) (hk : 2 ≤ k) (hn : 1 ≤ n) (rotDeg xo yo : ℝ) (t : SpotTuning) (target : ℝ)
    (h : SpotTuning.Valid t target) (P M ω m : ℝ) (hm : 0 < m)
    (hP : spotFlux ⟨n, k, f⟩ t.nSubpixels.toNat t.roiRadiusPix (xo + t.spotSepPix * dirX rotDeg) (yo + t.spotSepPix * dirY rotDeg) = P)
    (hM : spotFlux ⟨n, k, f⟩ t.nSubpixels.toNat t.roiRadiusPix (xo - t.spotSepPix * dirX rotDeg) (yo - t.spotSepPix * dirY rotDeg) = M)
    (wP : spotFlux ⟨n, k, fun i j => |w i j|⟩ t.nSubpixels.toNat t.roiRadiusPix (xo + t.spotSepPix * dirX rotDeg) (yo + t.spotSepPix * dirY rotDeg) ≤ ω)
    (wM : spotFlux ⟨n, k, fun i j => |w i j|⟩ t.nSubpixels.toNat t.roiRadiusPix (xo - t.spotSepPix * dirX rotDeg) (yo - t.spotSepPix * dirY rotDeg) ≤ ω)
    (h1 : m + ω ≤ P) (h2 : m + ω ≤ M) :
    ∃ y y', calcOffsetFromSpots ⟨n, k, f⟩ rotDeg xo yo t target = .ok y ∧
      calcOffsetFromSpots ⟨n, k, fun i j => f i j + w i j⟩ rotDeg xo yo t target = .ok y' ∧
      |y' - y| ≤ ω * (P + M) / (t.fitCoefPow1 * m ^ 2) := by
  obtain ⟨x, xt, hx, hxt, e⟩ := C28_estimate ⟨n, k, f⟩ hk hn rotDeg xo yo t target h
  obtain ⟨x', xt', hx', hxt', e'⟩ := C28_estimate ⟨n, k, fun i j => f i j + w i j⟩ hk hn rotDeg xo yo t target h
  have hxx : xt' = xt := (ratioAt_strictMono _ _ h.c1 h.quad_nonneg).injective (hxt'.trans hxt.symm)
  subst hxx
  refine ⟨_, _, e, e', ?_⟩
  obtain ⟨a1, a2, a3, a4⟩ := spot_moves n k f w t.nSubpixels.toNat t.roiRadiusPix (xo + t.spotSepPix * dirX rotDeg) (yo + t.spotSepPix * dirY rotDeg) m ω hm wP (by rw [hP]; exact h1)
  obtain ⟨b1, b2, b3, b4⟩ := spot_moves n k f w t.nSubpixels.toNat t.roiRadiusPix (xo - t.spotSepPix * dirX rotDeg) (yo - t.spotSepPix * dirY rotDeg) m ω hm wM (by rw [hM]; exact h2)
  unfold measuredRatio at hx hx'
  rw [a1, b1, hP, hM] at hx
  rw [hP] at a2 a4
  rw [hM] at b2 b4
  have key := offset_moves _ _ x x' P M _ _ ω m h.c1 h.quad_nonneg hm a4 b4 a3 b3 a2 b2 hx hx'
  rw [← mul_sub, abs_mul, show |(if t.maskIsInsideSpots = 1 then (1 : ℝ) else -1)| = 1 by split_ifs <;> simp, one_mul]
  refine (clamp_moves _ _ _).trans ?_
  rwa [sub_sub_sub_cancel_right]

/-- **C112.** `calc_bowtie_offsets_from_spots`: let the four spots have light `s1 … s4`, counted from the one at `spotRotDeg` counter-clockwise, and let a
disturbance of the image put no more than `ω` into any of the discs, leaving at least `m` in each.  Each coordinate of the estimate moves by at most
`ω (s1 + s2 + s3 + s4) / (2 c₁ m²)`, with the linear coefficient of that axis. -/
theorem C112_bowtie_offset {n k : ℕ} (f w : Fin n → Fin k → ℝ) (hk : 2 ≤ k) (hn : 1 ≤ n) (xo yo : ℝ) (t : BowtieTuning)
    (h : BowtieTuning.Valid t) (hxt : 0 < t.xRatioTarget) (hyt : 0 < t.yRatioTarget) (s : Fin 4 → ℝ) (ω m : ℝ) (hm : 0 < m)
    (hs : ∀ q : Fin 4, spotFlux ⟨n, k, f⟩ t.nSubpixels.toNat t.roiRadiusPix
        (xo + t.spotSepPix * dirX (t.spotExtraRotDeg + (![t.spotRotDeg, 180 - t.spotRotDeg, 180 + t.spotRotDeg, -t.spotRotDeg] : Fin 4 → ℝ) q))
        (yo + t.spotSepPix * dirY (t.spotExtraRotDeg + (![t.spotRotDeg, 180 - t.spotRotDeg, 180 + t.spotRotDeg, -t.spotRotDeg] : Fin 4 → ℝ) q)) = s q)
    (hw : ∀ q : Fin 4, spotFlux ⟨n, k, fun i j => |w i j|⟩ t.nSubpixels.toNat t.roiRadiusPix
        (xo + t.spotSepPix * dirX (t.spotExtraRotDeg + (![t.spotRotDeg, 180 - t.spotRotDeg, 180 + t.spotRotDeg, -t.spotRotDeg] : Fin 4 → ℝ) q))
        (yo + t.spotSepPix * dirY (t.spotExtraRotDeg + (![t.spotRotDeg, 180 - t.spotRotDeg, 180 + t.spotRotDeg, -t.spotRotDeg] : Fin 4 → ℝ) q)) ≤ ω)
    (hms : ∀ q, m + ω ≤ s q) :
    ∃ x y x' y', calcBowtieOffsets ⟨n, k, f⟩ xo yo t = .ok (x, y) ∧ calcBowtieOffsets ⟨n, k, fun i j => f i j + w i j⟩ xo yo t = .ok (x', y') ∧
      |x' - x| ≤ ω * (s 0 + s 1 + s 2 + s 3) / (2 * t.fitCoefPow1x * m ^ 2) ∧
      |y' - y| ≤ ω * (s 0 + s 1 + s 2 + s 3) / (2 * t.fitCoefPow1y * m ^ 2) := by
  obtain ⟨x, xt, y, yt, hx, hxr, hy, hyr, e⟩ := C28_bowtie_estimate ⟨n, k, f⟩ hk hn xo yo t h hxt hyt
  obtain ⟨x', xt', y', yt', hx', hxr', hy', hyr', e'⟩ := C28_bowtie_estimate ⟨n, k, fun i j => f i j + w i j⟩ hk hn xo yo t h hxt hyt
  have hxx : xt' = xt := (ratioAt_strictMono _ _ h.c1x h.c2x.le).injective (hxr'.trans hxr.symm)
  have hyy : yt' = yt := (ratioAt_strictMono _ _ h.c1y h.c2y.le).injective (hyr'.trans hyr.symm)
  subst hxx hyy
  refine ⟨_, _, _, _, e, e', ?_⟩
  have sp : ∀ q : Fin 4, spotAt ⟨n, k, f⟩ xo yo t (t.spotExtraRotDeg + (![t.spotRotDeg, 180 - t.spotRotDeg, 180 + t.spotRotDeg, -t.spotRotDeg] : Fin 4 → ℝ) q) = s q ∧
      |spotAt ⟨n, k, fun i j => f i j + w i j⟩ xo yo t (t.spotExtraRotDeg + (![t.spotRotDeg, 180 - t.spotRotDeg, 180 + t.spotRotDeg, -t.spotRotDeg] : Fin 4 → ℝ) q) - s q| ≤ ω ∧
      m ≤ spotAt ⟨n, k, fun i j => f i j + w i j⟩ xo yo t (t.spotExtraRotDeg + (![t.spotRotDeg, 180 - t.spotRotDeg, 180 + t.spotRotDeg, -t.spotRotDeg] : Fin 4 → ℝ) q) ∧ m ≤ s q := by
    intro q
    have := spot_moves n k f w t.nSubpixels.toNat t.roiRadiusPix _ _ m ω hm (hw q) (by rw [hs q]; exact hms q)
    refine ⟨this.1.trans (hs q), ?_, this.2.2.1, (hs q) ▸ this.2.2.2⟩
    rw [← hs q]
    exact this.2.1
  have p0 := sp 0
  have p1 := sp 1
  have p2 := sp 2
  have p3 := sp 3
  simp only [Matrix.cons_val_zero, Matrix.cons_val_one, Matrix.cons_val] at p0 p1 p2 p3
  rw [show t.spotExtraRotDeg + (180 - t.spotRotDeg) = t.spotExtraRotDeg + 180 - t.spotRotDeg by ring] at p1
  rw [show t.spotExtraRotDeg + (180 + t.spotRotDeg) = t.spotExtraRotDeg + 180 + t.spotRotDeg by ring] at p2
  rw [← sub_eq_add_neg] at p3
  obtain ⟨a0, d0, l0, m0⟩ := p0
  obtain ⟨a1, d1, l1, m1⟩ := p1
  obtain ⟨a2, d2, l2, m2⟩ := p2
  obtain ⟨a3, d3, l3, m3⟩ := p3
  unfold bowtieRatioX at hx hx'
  unfold bowtieRatioY at hy hy'
  rw [a0, a1, a2, a3] at hx hy
  have pair : ∀ u v u' v' : ℝ, |u' - u| ≤ ω → |v' - v| ≤ ω → |u' + v' - (u + v)| ≤ 2 * ω := by
    intro u v u' v' h1 h2
    rw [show u' + v' - (u + v) = (u' - u) + (v' - v) by ring]
    exact (abs_add_le _ _).trans (by linarith)
  have kx := offset_moves _ _ x x' _ _ _ _ (2 * ω) (2 * m) h.c1x h.c2x.le (by linarith) (by linarith) (by linarith) (by linarith) (by linarith)
    (pair _ _ _ _ d0 d3) (pair _ _ _ _ d1 d2) hx hx'
  have ky := offset_moves _ _ y y' _ _ _ _ (2 * ω) (2 * m) h.c1y h.c2y.le (by linarith) (by linarith) (by linarith) (by linarith) (by linarith)
    (pair _ _ _ _ d0 d1) (pair _ _ _ _ d2 d3) hy hy'
  have c1x := h.c1x
  have c1y := h.c1y
  constructor
  · refine (clamp_moves _ _ _).trans ?_
    rw [show xt' - x' - (xt' - x) = -(x' - x) by ring, abs_neg]
    refine kx.trans (le_of_eq ?_)
    field_simp
    ring
  · refine (clamp_moves _ _ _).trans ?_
    rw [show yt' - y' - (yt' - y) = -(y' - y) by ring, abs_neg]
    refine ky.trans (le_of_eq ?_)
    field_simp
    ring

/-! ### Cases -/

theorem flat_pixel (b : ℝ) (u v : ℤ) (hu : -2 ≤ u ∧ u ≤ 2) (hv : -2 ≤ v ∧ v ≤ 2) :
    spotFlux ⟨5, 5, fun _ _ => b⟩ 1 (1 / 2) u v = b := by
  rw [spotFlux_pixel, zext_in (by simp only; omega)]

/-- A flat image of level 10 with noise of at most one unit per pixel, spots of one pixel and a slope of `1/4`: the estimate moves by at most 80/81. -/
example (w : Fin 5 → Fin 5 → ℝ) (hw : ∀ i j, |w i j| = 1) :
    ∃ y y', calcOffsetFromSpots ⟨5, 5, fun _ _ => 10⟩ 0 0 0 ⟨1, 1 / 2, 1, 3, 1 / 4, 2, 2, 1⟩ 1 = .ok y ∧
      calcOffsetFromSpots ⟨5, 5, fun i j => 10 + w i j⟩ 0 0 0 ⟨1, 1 / 2, 1, 3, 1 / 4, 2, 2, 1⟩ 1 = .ok y' ∧ |y' - y| ≤ 1 * (10 + 10) / (1 / 4 * 9 ^ 2) := by
  have one : ∀ b : ℝ, spotFlux ⟨5, 5, fun _ _ => b⟩ 1 (1 / 2) 1 0 = b := fun b => by simpa using flat_pixel b 1 0 (by omega) (by omega)
  have two : ∀ b : ℝ, spotFlux ⟨5, 5, fun _ _ => b⟩ 1 (1 / 2) (-1) 0 = b := fun b => by simpa using flat_pixel b (-1) 0 (by omega) (by omega)
  have e : (fun i j => |w i j|) = fun (_ : Fin 5) (_ : Fin 5) => (1 : ℝ) := by funext i j; exact hw i j
  exact C112_spot_offset (fun _ _ => 10) w (by norm_num) (by norm_num) 0 0 0 ⟨1, 1 / 2, 1, 3, 1 / 4, 2, 2, 1⟩ 1
    (by refine ⟨?_, ?_, ?_, ?_, ?_, ?_, ?_, Or.inr rfl, Or.inr rfl⟩ <;> norm_num) 10 10 1 9 (by norm_num)
    (by simpa [dirX, dirY] using one 10) (by simpa [dirX, dirY] using two 10)
    (by rw [e]; simpa [dirX, dirY] using (one 1).le) (by rw [e]; simpa [dirX, dirY] using (two 1).le) (by norm_num) (by norm_num)

/-- The same for four spots at the corners of the inner 3×3 block. -/
example (w : Fin 5 → Fin 5 → ℝ) (hw : ∀ i j, |w i j| = 1) :
    ∃ x y x' y', calcBowtieOffsets ⟨5, 5, fun _ _ => 10⟩ 0 0 ⟨√2, 45, 0, 1 / 2, 1, 3, 1 / 4, 2, 1 / 2, 2, 1, 1⟩ = .ok (x, y) ∧
      calcBowtieOffsets ⟨5, 5, fun i j => 10 + w i j⟩ 0 0 ⟨√2, 45, 0, 1 / 2, 1, 3, 1 / 4, 2, 1 / 2, 2, 1, 1⟩ = .ok (x', y') ∧
      |x' - x| ≤ 1 * (10 + 10 + 10 + 10) / (2 * (1 / 4) * 9 ^ 2) ∧ |y' - y| ≤ 1 * (10 + 10 + 10 + 10) / (2 * (1 / 2) * 9 ^ 2) := by
  have r2 : √2 * (√2 / 2) = 1 := by
    have := Real.mul_self_sqrt (show (0 : ℝ) ≤ 2 by norm_num)
    linarith
  have c1 : dirX 45 = √2 / 2 ∧ dirY 45 = √2 / 2 := by
    unfold dirX dirY
    rw [show (45 : ℝ) * Real.pi / 180 = Real.pi / 4 by ring]
    exact ⟨Real.cos_pi_div_four, Real.sin_pi_div_four⟩
  have c2 : dirX (180 - 45) = -(√2 / 2) ∧ dirY (180 - 45) = √2 / 2 := by
    unfold dirX dirY
    rw [show (180 - 45 : ℝ) * Real.pi / 180 = Real.pi - Real.pi / 4 by ring, Real.cos_pi_sub, Real.sin_pi_sub]
    exact ⟨by rw [Real.cos_pi_div_four], Real.sin_pi_div_four⟩
  have c3 : dirX (180 + 45) = -(√2 / 2) ∧ dirY (180 + 45) = -(√2 / 2) := by
    unfold dirX dirY
    rw [show (180 + 45 : ℝ) * Real.pi / 180 = Real.pi / 4 + Real.pi by ring, Real.cos_add_pi, Real.sin_add_pi]
    exact ⟨by rw [Real.cos_pi_div_four], by rw [Real.sin_pi_div_four]⟩
  have c4 : dirX (-45) = √2 / 2 ∧ dirY (-45) = -(√2 / 2) := by
    unfold dirX dirY
    rw [show (-45 : ℝ) * Real.pi / 180 = -(Real.pi / 4) by ring, Real.cos_neg, Real.sin_neg]
    exact ⟨Real.cos_pi_div_four, by rw [Real.sin_pi_div_four]⟩
  have e : (fun i j => |w i j|) = fun (_ : Fin 5) (_ : Fin 5) => (1 : ℝ) := by funext i j; exact hw i j
  have all : ∀ (b : ℝ) (q : Fin 4), spotFlux ⟨5, 5, fun _ _ => b⟩ 1 (1 / 2)
      (0 + √2 * dirX (0 + (![45, 180 - 45, 180 + 45, -45] : Fin 4 → ℝ) q)) (0 + √2 * dirY (0 + (![45, 180 - 45, 180 + 45, -45] : Fin 4 → ℝ) q)) = b := by
    intro b q
    rw [zero_add, zero_add, zero_add]
    have f1 := flat_pixel b 1 1 (by omega) (by omega)
    have f2 := flat_pixel b (-1) 1 (by omega) (by omega)
    have f3 := flat_pixel b (-1) (-1) (by omega) (by omega)
    have f4 := flat_pixel b 1 (-1) (by omega) (by omega)
    push_cast at f1 f2 f3 f4
    fin_cases q
    · show spotFlux _ 1 (1 / 2) (√2 * dirX 45) (√2 * dirY 45) = b
      rw [c1.1, c1.2, r2, f1]
    · show spotFlux _ 1 (1 / 2) (√2 * dirX (180 - 45)) (√2 * dirY (180 - 45)) = b
      rw [c2.1, c2.2, mul_neg, r2, f2]
    · show spotFlux _ 1 (1 / 2) (√2 * dirX (180 + 45)) (√2 * dirY (180 + 45)) = b
      rw [c3.1, c3.2, mul_neg, r2, f3]
    · show spotFlux _ 1 (1 / 2) (√2 * dirX (-45)) (√2 * dirY (-45)) = b
      rw [c4.1, c4.2, mul_neg, r2, f4]
  exact C112_bowtie_offset (fun _ _ => 10) w (by norm_num) (by norm_num) 0 0 ⟨√2, 45, 0, 1 / 2, 1, 3, 1 / 4, 2, 1 / 2, 2, 1, 1⟩
    (by constructor <;> norm_num) (by norm_num) (by norm_num) (fun _ => 10) 1 9 (by norm_num) (all 10) (fun q => by rw [e]; exact (all 1 q).le) (fun _ => by norm_num)

end Coralign.Props
