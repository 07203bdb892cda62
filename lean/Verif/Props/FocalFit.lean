import Verif.Model.FocalFit
import Verif.Spec.Spots
import Verif.Props.FfUtil
import Verif.Props.Pupil

/-!
# Property C28: stellar offset from satellite spots
-/

namespace Coralign.Props

open Coralign Coralign.Spec Finset

/-! ### The calibration curve and its inverse -/

theorem ratioAt_nonneg (c1 c2 x : ℝ) (h : 0 ≤ x) : ratioAt c1 c2 x = 1 + c1 * x + c2 * x ^ 2 := by
  unfold ratioAt; exact if_pos h

theorem ratioAt_neg (c1 c2 x : ℝ) (h : x < 0) : ratioAt c1 c2 x = 1 / (1 + c1 * -x + c2 * x ^ 2) := by
  unfold ratioAt; rw [if_neg (not_le.mpr h), abs_of_neg h]

theorem ratioAt_pos (c1 c2 x : ℝ) (h1 : 0 < c1) (h2 : 0 ≤ c2) : 0 < ratioAt c1 c2 x := by
  rcases le_or_gt 0 x with h | h
  · rw [ratioAt_nonneg _ _ _ h]; positivity
  · rw [ratioAt_neg _ _ _ h]
    have : 0 < c1 * -x := mul_pos h1 (by linarith)
    positivity

theorem ratioAt_strictMono (c1 c2 : ℝ) (h1 : 0 < c1) (h2 : 0 ≤ c2) : StrictMono (ratioAt c1 c2) := by
  intro x y hxy
  rcases le_or_gt 0 x with hx | hx
  · rw [ratioAt_nonneg _ _ _ hx, ratioAt_nonneg _ _ _ (by linarith)]
    have a : c1 * x < c1 * y := mul_lt_mul_of_pos_left hxy h1
    have b : c2 * x ^ 2 ≤ c2 * y ^ 2 := mul_le_mul_of_nonneg_left (by nlinarith) h2
    linarith
  · have hx1 : 0 < c1 * -x := mul_pos h1 (by linarith)
    have hx2 : 0 ≤ c2 * x ^ 2 := by positivity
    rcases le_or_gt 0 y with hy | hy
    · rw [ratioAt_neg _ _ _ hx, ratioAt_nonneg _ _ _ hy]
      have : 1 / (1 + c1 * -x + c2 * x ^ 2) < 1 := by rw [div_lt_one (by linarith)]; linarith
      have : 0 ≤ c1 * y := by positivity
      have : 0 ≤ c2 * y ^ 2 := by positivity
      linarith
    · rw [ratioAt_neg _ _ _ hx, ratioAt_neg _ _ _ hy]
      have hy1 : 0 < c1 * -y := mul_pos h1 (by linarith)
      have hy2 : 0 ≤ c2 * y ^ 2 := by positivity
      apply one_div_lt_one_div_of_lt (by linarith)
      have a : c1 * -y < c1 * -x := mul_lt_mul_of_pos_left (by linarith) h1
      have b : c2 * y ^ 2 ≤ c2 * x ^ 2 := mul_le_mul_of_nonneg_left (by nlinarith) h2
      linarith

theorem quadratic_law (c1 c2 r : ℝ) (h1 : 0 < c1) (h2 : 0 < c2) (hr : 0 < r) :
    ∃ x, calcOffsetQuadratic c1 c2 r = .ok x ∧ ratioAt c1 c2 x = r := by
  rcases le_or_gt 1 r with h | h
  · obtain ⟨x, hx, h0, hroot, -⟩ := C27_quadratic_root c1 c2 r h1 h2 h
    exact ⟨x, hx, by rw [ratioAt_nonneg _ _ _ h0]; linarith⟩
  · have hi : 1 < 1 / r := by rw [lt_div_iff₀ hr]; linarith
    obtain ⟨x, hx, h0, hroot, -⟩ := C27_quadratic_root c1 c2 (1 / r) h1 h2 hi.le
    have hx0 : x ≠ 0 := by
      rintro rfl
      norm_num at hroot
      linarith
    have hpos : 0 < x := lt_of_le_of_ne h0 (Ne.symm hx0)
    have := (C27_inverse_negates c1 c2 (1 / r) h1 (by positivity) x _ hx (by
      rw [show calcOffsetLinear c1 (1 / r) = .ok ((1 / r - 1) / c1) by
        unfold calcOffsetLinear ratioAndSign
        rw [if_neg (by linarith), if_neg (by linarith)]; simp])).1
    rw [one_div_one_div] at this
    refine ⟨-x, this, ?_⟩
    rw [ratioAt_neg _ _ _ (by linarith), neg_neg, neg_sq]
    rw [show 1 + c1 * x + c2 * x ^ 2 = 1 / r by linarith, one_div_one_div]

theorem linear_law (c1 r : ℝ) (h1 : 0 < c1) (hr : 0 < r) :
    ∃ x, calcOffsetLinear c1 r = .ok x ∧ ratioAt c1 0 x = r := by
  rcases le_or_gt 1 r with h | h
  · obtain ⟨x, hx, h0, hroot⟩ := C27_linear_root c1 r h1 h
    exact ⟨x, hx, by rw [ratioAt_nonneg _ _ _ h0]; linarith⟩
  · have hi : 1 < 1 / r := by rw [lt_div_iff₀ hr]; linarith
    refine ⟨-((1 / r - 1) / c1), ?_, ?_⟩
    · unfold calcOffsetLinear ratioAndSign
      rw [if_neg (by linarith), if_pos h]
      simp only [Except.ok.injEq]; ring
    · have : 0 < (1 / r - 1) / c1 := div_pos (by linarith) h1
      rw [ratioAt_neg _ _ _ (by linarith), neg_neg, zero_mul, add_zero, mul_div_cancel₀ _ h1.ne']
      rw [add_sub_cancel, one_div_one_div]

/-! ### Spot sums -/

theorem liftSum_eq (s : ℝ) : liftSum s = bright s := by
  unfold liftSum bright macheps
  by_cases h : 0 < s
  · rw [if_pos h, if_neg (not_le.mpr h)]
  · rw [if_neg h, if_pos (not_lt.mp h)]

theorem bright_pos (s : ℝ) : 0 < bright s := by
  unfold bright
  split_ifs with h
  · exact h
  · positivity

theorem shapeAxis_val (n : ℕ) (hn : 2 ≤ n) (o : ℝ) (k : ℕ) : shapeAxis n o k = (k : ℝ) - ((n / 2 : ℕ) : ℝ) - o := by
  have h1 : (n : ℝ) - 1 ≠ 0 := by
    have : (2 : ℝ) ≤ n := by exact_mod_cast hn
    linarith
  unfold shapeAxis linspace
  rcases Nat.even_or_odd' n with ⟨m, rfl | rfl⟩
  · rw [if_pos (by omega), show 2 * m / 2 = m by omega]
    push_cast at h1 ⊢
    field_simp
    ring
  · rw [if_neg (by omega), show (2 * m + 1) / 2 = m by omega]
    push_cast at h1 ⊢
    field_simp
    ring

theorem shapeAxis_val_one (o : ℝ) (k : ℕ) (hk : k < 1) : shapeAxis 1 o k = (k : ℝ) - ((1 / 2 : ℕ) : ℝ) - o := by
  have : k = 0 := by omega
  subst this
  unfold shapeAxis linspace
  norm_num

theorem shapeAxis_px (n : ℕ) (o : ℝ) (k : Fin n) : shapeAxis n o k = ((k : ℕ) : ℝ) - ((n / 2 : ℕ) : ℝ) - o := by
  by_cases h : 2 ≤ n
  · exact shapeAxis_val n h o k
  · have hk := k.isLt
    have : n = 1 := by omega
    subst this
    exact shapeAxis_val_one o k hk

/-- The sum over a circular region of interest. -/
theorem roi_eq (img : Arr2 ℝ) (N : ℕ) (hx : 2 ≤ img.nc) (hy : 1 ≤ img.nr) (hN : 1 ≤ N) (r cx cy : ℝ) (hr : 0 < r) :
    ∃ m, circle img.nc img.nr r cx cy N false = .ok m ∧ roiSum m img = spotFlux img N r cx cy := by
  refine ⟨_, circle_eq img.nc img.nr N hx hy hN r cx cy hr false, ?_⟩
  obtain ⟨n, m, f⟩ := img
  unfold roiSum spotFlux
  rw [mulPx_eq]
  simp only
  refine Finset.sum_congr rfl fun i _ => Finset.sum_congr rfl fun j _ => ?_
  rw [shapeAxis_px, shapeAxis_px]
  simp [tone]

/-! ### C28 -/

/-- The tuning values `calc_offset_from_spots` accepts. -/
structure _root_.Coralign.SpotTuning.Valid (t : SpotTuning) (target : ℝ) : Prop where
  target : 0 < target
  sep : 0 < t.spotSepPix
  roi : 0 < t.roiRadiusPix
  sub : 0 < t.nSubpixels
  step : 0 < t.maxStep
  c1 : 0 < t.fitCoefPow1
  c2 : 0 < t.fitCoefPow2
  power : t.powerOfFit = 1 ∨ t.powerOfFit = 2
  inside : t.maskIsInsideSpots = 0 ∨ t.maskIsInsideSpots = 1

/-- Specification: the measured ratio of the spot at angle `rotDeg` from the star to the opposite one. -/
noncomputable def measuredRatio (img : Arr2 ℝ) (rotDeg xo yo : ℝ) (t : SpotTuning) : ℝ :=
  bright (spotFlux img t.nSubpixels.toNat t.roiRadiusPix (xo + t.spotSepPix * dirX rotDeg) (yo + t.spotSepPix * dirY rotDeg)) /
    bright (spotFlux img t.nSubpixels.toNat t.roiRadiusPix (xo - t.spotSepPix * dirX rotDeg) (yo - t.spotSepPix * dirY rotDeg))

/-- The quadratic coefficient in force: a linear fit ignores `fitCoefPow2`. -/
noncomputable def _root_.Coralign.SpotTuning.quad (t : SpotTuning) : ℝ := if t.powerOfFit = 1 then 0 else t.fitCoefPow2

theorem _root_.Coralign.SpotTuning.Valid.quad_nonneg {t : SpotTuning} {target : ℝ} (h : SpotTuning.Valid t target) : 0 ≤ t.quad := by
  unfold SpotTuning.quad
  split_ifs
  · exact le_rfl
  · exact h.c2.le

theorem measuredRatio_pos (img : Arr2 ℝ) (rotDeg xo yo : ℝ) (t : SpotTuning) : 0 < measuredRatio img rotDeg xo yo t :=
  div_pos (bright_pos _) (bright_pos _)

theorem offset_law (t : SpotTuning) (target : ℝ) (h : SpotTuning.Valid t target) (r : ℝ) (hr : 0 < r) :
    ∃ x, t.offset r = .ok x ∧ ratioAt t.fitCoefPow1 t.quad x = r := by
  unfold SpotTuning.quad SpotTuning.offset
  split_ifs
  · exact linear_law _ _ h.c1 hr
  · exact quadratic_law _ _ _ h.c1 h.c2 hr

/-- **C28.** On every image at least two pixels wide, with every acceptable tuning, the estimate is `x - xt` clamped to
`maxStep`, where the calibration curve takes the measured spot ratio at `x` and the target ratio at `xt`; the sign is
reversed when the mask cuts the spots from outside. -/
theorem C28_estimate (img : Arr2 ℝ) (hx : 2 ≤ img.nc) (hy : 1 ≤ img.nr) (rotDeg xo yo : ℝ) (t : SpotTuning) (target : ℝ)
    (h : SpotTuning.Valid t target) :
    ∃ x xt, ratioAt t.fitCoefPow1 t.quad x = measuredRatio img rotDeg xo yo t ∧ ratioAt t.fitCoefPow1 t.quad xt = target ∧
      calcOffsetFromSpots img rotDeg xo yo t target =
        .ok ((if t.maskIsInsideSpots = 1 then 1 else -1) * clamp t.maxStep (x - xt)) := by
  obtain ⟨x, ex, hxr⟩ := offset_law t target h _ (measuredRatio_pos img rotDeg xo yo t)
  obtain ⟨xt, ext, hxt⟩ := offset_law t target h _ h.target
  refine ⟨x, xt, hxr, hxt, ?_⟩
  unfold calcOffsetFromSpots
  have hN : ((t.nSubpixels.toNat : ℕ) : ℤ) = t.nSubpixels := Int.toNat_of_nonneg h.sub.le
  have hN1 : 1 ≤ t.nSubpixels.toNat := by have := h.sub; omega
  rw [if_neg (by
      rintro (a | a | a | a | a | a | a | a)
      · exact absurd a (not_le.mpr h.target)
      · exact absurd a (not_le.mpr h.sep)
      · exact absurd a (not_le.mpr h.roi)
      · exact absurd a (not_le.mpr h.sub)
      · exact absurd a (not_le.mpr h.step)
      · exact absurd a (not_le.mpr h.c1)
      · exact absurd a (not_le.mpr h.c2)
      · rcases h.power with b | b <;> omega),
    if_neg (not_not.mpr h.power), if_neg (not_not.mpr h.inside)]
  obtain ⟨mp, emp, fp⟩ := roi_eq img t.nSubpixels.toNat hx hy hN1 t.roiRadiusPix
    (Real.cos (Real.pi / 180 * rotDeg) * t.spotSepPix + xo) (Real.sin (Real.pi / 180 * rotDeg) * t.spotSepPix + yo) h.roi
  obtain ⟨mm, emm, fm⟩ := roi_eq img t.nSubpixels.toNat hx hy hN1 t.roiRadiusPix
    (Real.cos (Real.pi / 180 * rotDeg + Real.pi) * t.spotSepPix + xo)
    (Real.sin (Real.pi / 180 * rotDeg + Real.pi) * t.spotSepPix + yo) h.roi
  rw [hN] at emp emm
  simp only [emp, emm, res_ok_bind, fp, fm, liftSum_eq]
  have hratio : bright (spotFlux img t.nSubpixels.toNat t.roiRadiusPix
        (Real.cos (Real.pi / 180 * rotDeg) * t.spotSepPix + xo) (Real.sin (Real.pi / 180 * rotDeg) * t.spotSepPix + yo)) /
      bright (spotFlux img t.nSubpixels.toNat t.roiRadiusPix
        (Real.cos (Real.pi / 180 * rotDeg + Real.pi) * t.spotSepPix + xo)
        (Real.sin (Real.pi / 180 * rotDeg + Real.pi) * t.spotSepPix + yo)) = measuredRatio img rotDeg xo yo t := by
    unfold measuredRatio dirX dirY
    rw [Real.cos_add_pi, Real.sin_add_pi, show Real.pi / 180 * rotDeg = rotDeg * Real.pi / 180 by ring]
    congr 3 <;> ring
  rw [hratio, ex, ext]
  simp only [res_ok_bind]
  rw [boundValue_eq _ _ h.step.le]
  simp only [res_ok_bind, clamp]
  unfold SpotTuning.orient
  rcases h.inside with a | a <;> simp [a]

theorem clamp_abs_le (m x : ℝ) (hm : 0 ≤ m) : |clamp m x| ≤ m := by
  unfold clamp
  rw [abs_le]
  exact ⟨le_max_left _ _, max_le (by linarith) (min_le_left _ _)⟩

theorem clamp_mono (m : ℝ) {x y : ℝ} (h : x ≤ y) : clamp m x ≤ clamp m y :=
  max_le_max le_rfl (min_le_min le_rfl h)

theorem clamp_zero (m : ℝ) (hm : 0 ≤ m) : clamp m 0 = 0 := by
  unfold clamp; rw [min_eq_right hm, max_eq_right (by linarith)]

theorem clamp_neg (m x : ℝ) (hm : 0 ≤ m) : clamp m (-x) = -clamp m x := by
  unfold clamp
  rcases le_total m x with a | a <;> rcases le_total (-m) x with b | b <;>
    rcases le_total m (-x) with c | c <;> rcases le_total (-m) (-x) with d | d <;>
    simp [a, b, c, d, hm] <;> linarith

/-- **C28.** Whatever the image and the tuning, an answer never exceeds `maxStep` in magnitude. -/
theorem C28_bounded (img : Arr2 ℝ) (rotDeg xo yo : ℝ) (t : SpotTuning) (target y : ℝ)
    (h : calcOffsetFromSpots img rotDeg xo yo t target = .ok y) : |y| ≤ t.maxStep := by
  unfold calcOffsetFromSpots at h
  split_ifs at h with h1 h2 h3
  push Not at h1
  obtain ⟨-, -, -, -, hstep, -⟩ := h1
  simp only [bind, Except.bind] at h
  generalize hc1 : circle _ _ _ _ _ _ _ = m1 at h
  cases m1 with
  | error e => simp at h
  | ok m1 =>
    simp only at h
    generalize hc2 : circle _ _ _ _ _ _ _ = m2 at h
    cases m2 with
    | error e => simp at h
    | ok m2 =>
      simp only at h
      generalize t.offset _ = a at h
      cases a with
      | error e => simp at h
      | ok a =>
        simp only at h
        generalize t.offset _ = b at h
        cases b with
        | error e => simp at h
        | ok b =>
          simp only [boundValue_eq _ _ hstep.le, Except.ok.injEq] at h
          have := clamp_abs_le t.maxStep (a - b) hstep.le
          unfold clamp at this
          unfold SpotTuning.orient at h
          split_ifs at h
          · rw [← h, mul_neg, mul_one, abs_neg]; exact this
          · rw [← h]; exact this

/-- **C28.** The answer is exactly zero when the measured ratio equals the target ratio, and (for a mask inside the spots)
it has the sign of the difference of the two ratios otherwise. -/
theorem C28_sign (img : Arr2 ℝ) (hx : 2 ≤ img.nc) (hy : 1 ≤ img.nr) (rotDeg xo yo : ℝ) (t : SpotTuning) (target y : ℝ)
    (h : SpotTuning.Valid t target) (hin : t.maskIsInsideSpots = 1)
    (e : calcOffsetFromSpots img rotDeg xo yo t target = .ok y) :
    (y = 0 ↔ measuredRatio img rotDeg xo yo t = target) ∧ (0 < y ↔ target < measuredRatio img rotDeg xo yo t) ∧
      (y < 0 ↔ measuredRatio img rotDeg xo yo t < target) := by
  obtain ⟨x, xt, hxr, hxt, hy⟩ := C28_estimate img hx hy rotDeg xo yo t target h
  rw [hy] at e
  injection e with e
  rw [if_pos hin, one_mul] at e
  have hm := ratioAt_strictMono _ _ h.c1 h.quad_nonneg
  have hpos : xt < x → 0 < y := by
    intro hlt
    rw [← e]
    unfold clamp
    exact lt_max_of_lt_right (lt_min h.step (by linarith))
  have hneg : x < xt → y < 0 := by
    intro hlt
    rw [← e]
    unfold clamp
    exact max_lt (by linarith [h.step]) (min_lt_of_right_lt (by linarith))
  have hz : x = xt → y = 0 := by
    rintro rfl
    rw [← e, sub_self, clamp_zero _ h.step.le]
  rw [← hxr, ← hxt, hm.lt_iff_lt, hm.lt_iff_lt, hm.injective.eq_iff]
  rcases lt_trichotomy x xt with a | a | a
  · have := hneg a
    refine ⟨⟨fun k => by linarith, fun k => by linarith⟩, ⟨fun k => by linarith, fun k => by linarith⟩,
      ⟨fun _ => a, fun _ => this⟩⟩
  · have := hz a
    refine ⟨⟨fun _ => a, fun _ => this⟩, ⟨fun k => by linarith, fun k => by linarith⟩,
      ⟨fun k => by linarith, fun k => by linarith⟩⟩
  · have := hpos a
    refine ⟨⟨fun k => by linarith, fun k => by linarith⟩, ⟨fun _ => a, fun _ => this⟩,
      ⟨fun k => by linarith, fun k => by linarith⟩⟩

/-- **C28.** Switching the mask from inside to outside the spots only flips the sign. -/
theorem C28_flag (img : Arr2 ℝ) (hx : 2 ≤ img.nc) (hy : 1 ≤ img.nr) (rotDeg xo yo : ℝ) (t : SpotTuning) (target : ℝ)
    (h : SpotTuning.Valid t target) :
    ∃ y, calcOffsetFromSpots img rotDeg xo yo { t with maskIsInsideSpots := 1 } target = .ok y ∧
      calcOffsetFromSpots img rotDeg xo yo { t with maskIsInsideSpots := 0 } target = .ok (-y) := by
  have v : ∀ b : ℤ, (b = 0 ∨ b = 1) → SpotTuning.Valid { t with maskIsInsideSpots := b } target := fun b hb =>
    ⟨h.target, h.sep, h.roi, h.sub, h.step, h.c1, h.c2, h.power, hb⟩
  obtain ⟨x, xt, hxr, hxt, e⟩ := C28_estimate img hx hy rotDeg xo yo _ target (v 1 (Or.inr rfl))
  obtain ⟨x', xt', hxr', hxt', e'⟩ := C28_estimate img hx hy rotDeg xo yo _ target (v 0 (Or.inl rfl))
  have hm := ratioAt_strictMono t.fitCoefPow1 t.quad h.c1 h.quad_nonneg
  have h1 : x' = x := hm.injective (hxr'.trans hxr.symm)
  have h2 : xt' = xt := hm.injective (hxt'.trans hxt.symm)
  subst h1; subst h2
  refine ⟨_, e, ?_⟩
  rw [e']
  simp

/-- **C28.** A larger ratio of the two spots never lowers the estimate. -/
theorem C28_monotone (img img' : Arr2 ℝ) (hx : 2 ≤ img.nc) (hy : 1 ≤ img.nr) (hx' : 2 ≤ img'.nc) (hy' : 1 ≤ img'.nr)
    (rotDeg xo yo : ℝ) (t : SpotTuning) (target y y' : ℝ) (h : SpotTuning.Valid t target) (hin : t.maskIsInsideSpots = 1)
    (hle : measuredRatio img rotDeg xo yo t ≤ measuredRatio img' rotDeg xo yo t)
    (e : calcOffsetFromSpots img rotDeg xo yo t target = .ok y)
    (e' : calcOffsetFromSpots img' rotDeg xo yo t target = .ok y') : y ≤ y' := by
  obtain ⟨x, xt, hxr, hxt, hy⟩ := C28_estimate img hx hy rotDeg xo yo t target h
  obtain ⟨x', xt', hxr', hxt', hy'⟩ := C28_estimate img' hx' hy' rotDeg xo yo t target h
  have hm := ratioAt_strictMono _ _ h.c1 h.quad_nonneg
  have h2 : xt' = xt := hm.injective (hxt'.trans hxt.symm)
  subst h2
  rw [hy] at e
  rw [hy'] at e'
  injection e with e
  injection e' with e'
  rw [if_pos hin, one_mul] at e e'
  rw [← e, ← e']
  apply clamp_mono
  have : x ≤ x' := by rw [← hm.le_iff_le, hxr, hxr']; exact hle
  linarith

/-- Light added inside the plus spot only raises the ratio: the hypothesis of `C28_monotone` in terms of spot fluxes. -/
theorem measuredRatio_mono (img img' : Arr2 ℝ) (rotDeg xo yo : ℝ) (t : SpotTuning)
    (hp : 0 < spotFlux img t.nSubpixels.toNat t.roiRadiusPix (xo + t.spotSepPix * dirX rotDeg) (yo + t.spotSepPix * dirY rotDeg))
    (hle : spotFlux img t.nSubpixels.toNat t.roiRadiusPix (xo + t.spotSepPix * dirX rotDeg) (yo + t.spotSepPix * dirY rotDeg) ≤
      spotFlux img' t.nSubpixels.toNat t.roiRadiusPix (xo + t.spotSepPix * dirX rotDeg) (yo + t.spotSepPix * dirY rotDeg))
    (heq : spotFlux img t.nSubpixels.toNat t.roiRadiusPix (xo - t.spotSepPix * dirX rotDeg) (yo - t.spotSepPix * dirY rotDeg) =
      spotFlux img' t.nSubpixels.toNat t.roiRadiusPix (xo - t.spotSepPix * dirX rotDeg) (yo - t.spotSepPix * dirY rotDeg)) :
    measuredRatio img rotDeg xo yo t ≤ measuredRatio img' rotDeg xo yo t := by
  unfold measuredRatio
  rw [heq]
  apply div_le_div_of_nonneg_right _ (bright_pos _).le
  unfold bright
  rw [if_pos hp, if_pos (lt_of_lt_of_le hp hle)]
  exact hle

theorem clamp_strict (m : ℝ) (hm : 0 < m) {x y : ℝ} (h : x < y) : clamp m x < clamp m y ∨ (clamp m x = clamp m y ∧ |clamp m x| = m) := by
  unfold clamp
  rcases le_or_gt m x with a | a
  · right
    rw [min_eq_left a, min_eq_left (a.trans h.le), max_eq_right (by linarith), abs_of_nonneg hm.le]
    exact ⟨rfl, rfl⟩
  rcases le_or_gt y (-m) with b | b
  · right
    rw [min_eq_right a.le, min_eq_right (by linarith), max_eq_left b, max_eq_left (by linarith), abs_neg, abs_of_nonneg hm.le]
    exact ⟨rfl, rfl⟩
  · left
    rw [min_eq_right a.le, max_eq_right (le_min (by linarith) b.le)]
    exact max_lt (lt_min (by linarith) b) (lt_min a h)

/-- **C28.** More light in a lit plus spot, with the same light in the minus spot, gives a larger estimate, until the estimate is cut off at
`maxStep`.  (A spot without light counts as `2 ^ (-52)`, so a spot has to be lit for this.) -/
theorem C28_brighter (img img' : Arr2 ℝ) (hx : 2 ≤ img.nc) (hy : 1 ≤ img.nr) (hx' : 2 ≤ img'.nc) (hy' : 1 ≤ img'.nr)
    (rotDeg xo yo : ℝ) (t : SpotTuning) (target y y' : ℝ) (h : SpotTuning.Valid t target) (hin : t.maskIsInsideSpots = 1)
    (hp : 0 < spotFlux img t.nSubpixels.toNat t.roiRadiusPix (xo + t.spotSepPix * dirX rotDeg) (yo + t.spotSepPix * dirY rotDeg))
    (hlt : spotFlux img t.nSubpixels.toNat t.roiRadiusPix (xo + t.spotSepPix * dirX rotDeg) (yo + t.spotSepPix * dirY rotDeg) <
      spotFlux img' t.nSubpixels.toNat t.roiRadiusPix (xo + t.spotSepPix * dirX rotDeg) (yo + t.spotSepPix * dirY rotDeg))
    (heq : spotFlux img t.nSubpixels.toNat t.roiRadiusPix (xo - t.spotSepPix * dirX rotDeg) (yo - t.spotSepPix * dirY rotDeg) =
      spotFlux img' t.nSubpixels.toNat t.roiRadiusPix (xo - t.spotSepPix * dirX rotDeg) (yo - t.spotSepPix * dirY rotDeg))
    (e : calcOffsetFromSpots img rotDeg xo yo t target = .ok y)
    (e' : calcOffsetFromSpots img' rotDeg xo yo t target = .ok y') : y < y' ∨ (y = y' ∧ |y| = t.maxStep) := by
  have hlr : measuredRatio img rotDeg xo yo t < measuredRatio img' rotDeg xo yo t := by
    unfold measuredRatio
    rw [heq]
    apply div_lt_div_of_pos_right _ (bright_pos _)
    unfold bright
    rw [if_pos hp, if_pos (hp.trans hlt)]
    exact hlt
  obtain ⟨x, xt, hxr, hxt, hy⟩ := C28_estimate img hx hy rotDeg xo yo t target h
  obtain ⟨x', xt', hxr', hxt', hy'⟩ := C28_estimate img' hx' hy' rotDeg xo yo t target h
  have hm := ratioAt_strictMono _ _ h.c1 h.quad_nonneg
  have h2 : xt' = xt := hm.injective (hxt'.trans hxt.symm)
  subst h2
  rw [hy] at e
  rw [hy'] at e'
  injection e with e
  injection e' with e'
  rw [if_pos hin, one_mul] at e e'
  rw [← e, ← e']
  have : x < x' := by rw [← hm.lt_iff_lt, hxr, hxr']; exact hlr
  exact clamp_strict _ h.step (by linarith)

/-- **C28.** Turning the probe axis by half a turn negates the estimate when the target ratio is one. -/
theorem C28_half_turn (img : Arr2 ℝ) (hx : 2 ≤ img.nc) (hy : 1 ≤ img.nr) (rotDeg xo yo : ℝ) (t : SpotTuning)
    (h : SpotTuning.Valid t 1) :
    ∃ y, calcOffsetFromSpots img rotDeg xo yo t 1 = .ok y ∧ calcOffsetFromSpots img (rotDeg + 180) xo yo t 1 = .ok (-y) := by
  obtain ⟨x, xt, hxr, hxt, e⟩ := C28_estimate img hx hy rotDeg xo yo t 1 h
  obtain ⟨x', xt', hxr', hxt', e'⟩ := C28_estimate img hx hy (rotDeg + 180) xo yo t 1 h
  have hm := ratioAt_strictMono t.fitCoefPow1 t.quad h.c1 h.quad_nonneg
  have h0 : ratioAt t.fitCoefPow1 t.quad 0 = 1 := by rw [ratioAt_nonneg _ _ _ le_rfl]; ring
  have h1 : xt = 0 := hm.injective (hxt.trans h0.symm)
  have h2 : xt' = 0 := hm.injective (hxt'.trans h0.symm)
  have hinv : measuredRatio img (rotDeg + 180) xo yo t = 1 / measuredRatio img rotDeg xo yo t := by
    unfold measuredRatio dirX dirY
    rw [show (rotDeg + 180) * Real.pi / 180 = rotDeg * Real.pi / 180 + Real.pi by ring, Real.cos_add_pi, Real.sin_add_pi,
      one_div_div]
    simp only [mul_neg, sub_neg_eq_add, ← sub_eq_add_neg]
  have hneg : ∀ z, ratioAt t.fitCoefPow1 t.quad (-z) = 1 / ratioAt t.fitCoefPow1 t.quad z := by
    intro z
    rcases lt_trichotomy z 0 with a | a | a
    · rw [ratioAt_nonneg _ _ _ (by linarith : (0 : ℝ) ≤ -z), ratioAt_neg _ _ _ a, one_div_one_div, neg_sq]
    · subst a; rw [neg_zero, h0, div_one]
    · rw [ratioAt_neg _ _ _ (by linarith : -z < 0), ratioAt_nonneg _ _ _ a.le, neg_neg, neg_sq]
  have hxx : x' = -x := hm.injective (by rw [hxr', hinv, hneg, hxr])
  subst h1; subst h2; subst hxx
  refine ⟨_, e, ?_⟩
  rw [e', sub_zero, sub_zero, clamp_neg _ _ h.step.le, mul_neg]

/-- **C28.** Every other tuning is refused: with `TypeError` for values that should be positive, with `ValueError` for
other powers and flags. -/
theorem C28_rejects (img : Arr2 ℝ) (rotDeg xo yo : ℝ) (t : SpotTuning) (target : ℝ) (h : ¬ SpotTuning.Valid t target) :
    calcOffsetFromSpots img rotDeg xo yo t target = .error .typeError ∨
      calcOffsetFromSpots img rotDeg xo yo t target = .error .valueError := by
  by_cases h1 : target ≤ 0 ∨ t.spotSepPix ≤ 0 ∨ t.roiRadiusPix ≤ 0 ∨ t.nSubpixels ≤ 0 ∨ t.maxStep ≤ 0 ∨
      t.fitCoefPow1 ≤ 0 ∨ t.fitCoefPow2 ≤ 0 ∨ t.powerOfFit ≤ 0
  · left; unfold calcOffsetFromSpots; rw [if_pos h1]
  · right
    unfold calcOffsetFromSpots
    rw [if_neg h1]
    by_cases h2 : t.powerOfFit = 1 ∨ t.powerOfFit = 2
    · rw [if_neg (not_not.mpr h2)]
      by_cases h3 : t.maskIsInsideSpots = 0 ∨ t.maskIsInsideSpots = 1
      · exfalso
        push Not at h1
        obtain ⟨a, b, c, d, e, f, g, i⟩ := h1
        exact h ⟨a, b, c, d, e, f, g, h2, h3⟩
      · rw [if_pos h3]
    · rw [if_pos h2]

/-- A valid tuning. -/
def exampleTuning : SpotTuning := ⟨5, 2, 10, 3, 1, 2, 2, 1⟩

theorem exampleTuning_valid : SpotTuning.Valid exampleTuning (3 / 2) := by
  refine ⟨?_, ?_, ?_, ?_, ?_, ?_, ?_, Or.inr rfl, Or.inr rfl⟩ <;> norm_num [exampleTuning]

/-- A completely dark image: the ratio is one and the answer is finite. -/
example (rotDeg : ℝ) : ∃ y, calcOffsetFromSpots (Arr2.full 9 9 0) rotDeg 0 0 exampleTuning (3 / 2) = .ok y ∧ y < 0 := by
  obtain ⟨x, xt, -, -, e⟩ := C28_estimate (Arr2.full 9 9 0) (by decide) (by decide) rotDeg 0 0 exampleTuning _
    exampleTuning_valid
  refine ⟨_, e, (C28_sign (Arr2.full 9 9 0) (by decide) (by decide) rotDeg 0 0 exampleTuning _ _ exampleTuning_valid rfl
    e).2.2.mpr ?_⟩
  have h0 : ∀ N r cx cy, spotFlux (Arr2.full 9 9 0) N r cx cy = 0 := by
    intro N r cx cy
    unfold spotFlux
    refine Finset.sum_eq_zero fun i _ => Finset.sum_eq_zero fun j _ => ?_
    simp [Arr2.full]
  unfold measuredRatio
  rw [h0, h0, div_self (bright_pos 0).ne']
  norm_num

/-! ### The bowtie -/

/-- The tuning values `calc_bowtie_offsets_from_spots` accepts (the target ratios must be positive too, see
`C28_bowtie_rejects`). -/
structure _root_.Coralign.BowtieTuning.Valid (t : BowtieTuning) : Prop where
  sep : 0 < t.spotSepPix
  roi : 0 < t.roiRadiusPix
  sub : 0 < t.nSubpixels
  step : 0 < t.maxStep
  c1x : 0 < t.fitCoefPow1x
  c2x : 0 < t.fitCoefPow2x
  c1y : 0 < t.fitCoefPow1y
  c2y : 0 < t.fitCoefPow2y

/-- Specification: light of the spot at distance `spotSepPix` from the star, `deg` degrees from the x-axis. -/
noncomputable def spotAt (img : Arr2 ℝ) (xo yo : ℝ) (t : BowtieTuning) (deg : ℝ) : ℝ :=
  bright (spotFlux img t.nSubpixels.toNat t.roiRadiusPix (xo + t.spotSepPix * dirX deg) (yo + t.spotSepPix * dirY deg))

/-- Specification: light on the right over light on the left; spots at `±spotRotDeg` from the x-axis and opposite,
everything turned by `spotExtraRotDeg`. -/
noncomputable def bowtieRatioX (img : Arr2 ℝ) (xo yo : ℝ) (t : BowtieTuning) : ℝ :=
  (spotAt img xo yo t (t.spotExtraRotDeg + t.spotRotDeg) + spotAt img xo yo t (t.spotExtraRotDeg - t.spotRotDeg)) /
    (spotAt img xo yo t (t.spotExtraRotDeg + 180 - t.spotRotDeg) + spotAt img xo yo t (t.spotExtraRotDeg + 180 + t.spotRotDeg))

/-- Specification: light in the upper half over light in the lower half. -/
noncomputable def bowtieRatioY (img : Arr2 ℝ) (xo yo : ℝ) (t : BowtieTuning) : ℝ :=
  (spotAt img xo yo t (t.spotExtraRotDeg + t.spotRotDeg) + spotAt img xo yo t (t.spotExtraRotDeg + 180 - t.spotRotDeg)) /
    (spotAt img xo yo t (t.spotExtraRotDeg + 180 + t.spotRotDeg) + spotAt img xo yo t (t.spotExtraRotDeg - t.spotRotDeg))

theorem bowtieAxis_eq (c1 c2 r tgt : ℝ) (h1 : 0 < c1) (h2 : 0 < c2) (hr : 0 < r) (ht : 0 < tgt) :
    ∃ x xt, ratioAt c1 c2 x = r ∧ ratioAt c1 c2 xt = tgt ∧ bowtieAxis c1 c2 r tgt = .ok (xt - x) := by
  obtain ⟨x, ex, hx⟩ := quadratic_law c1 c2 r h1 h2 hr
  obtain ⟨xt, ext, hxt⟩ := quadratic_law c1 c2 tgt h1 h2 ht
  refine ⟨x, xt, hx, hxt, ?_⟩
  unfold bowtieAxis
  rw [ex, ext]
  simp only [res_ok_bind, Except.ok.injEq]
  ring

theorem spotAt_pos (img : Arr2 ℝ) (xo yo : ℝ) (t : BowtieTuning) (deg : ℝ) : 0 < spotAt img xo yo t deg := bright_pos _

/-- **C28 (bowtie).** Each coordinate is the clamped difference between the offset the calibration curve assigns to the
target ratio and the one it assigns to the measured ratio. -/
theorem C28_bowtie_estimate (img : Arr2 ℝ) (hx : 2 ≤ img.nc) (hy : 1 ≤ img.nr) (xo yo : ℝ) (t : BowtieTuning)
    (h : BowtieTuning.Valid t) (hxt : 0 < t.xRatioTarget) (hyt : 0 < t.yRatioTarget) :
    ∃ x xt y yt, ratioAt t.fitCoefPow1x t.fitCoefPow2x x = bowtieRatioX img xo yo t ∧
      ratioAt t.fitCoefPow1x t.fitCoefPow2x xt = t.xRatioTarget ∧
      ratioAt t.fitCoefPow1y t.fitCoefPow2y y = bowtieRatioY img xo yo t ∧
      ratioAt t.fitCoefPow1y t.fitCoefPow2y yt = t.yRatioTarget ∧
      calcBowtieOffsets img xo yo t = .ok (clamp t.maxStep (xt - x), clamp t.maxStep (yt - y)) := by
  have px : 0 < bowtieRatioX img xo yo t :=
    div_pos (add_pos (spotAt_pos _ _ _ _ _) (spotAt_pos _ _ _ _ _)) (add_pos (spotAt_pos _ _ _ _ _) (spotAt_pos _ _ _ _ _))
  have py : 0 < bowtieRatioY img xo yo t :=
    div_pos (add_pos (spotAt_pos _ _ _ _ _) (spotAt_pos _ _ _ _ _)) (add_pos (spotAt_pos _ _ _ _ _) (spotAt_pos _ _ _ _ _))
  obtain ⟨x, xt, hx1, hx2, ex⟩ := bowtieAxis_eq _ _ _ _ h.c1x h.c2x px hxt
  obtain ⟨y, yt, hy1, hy2, ey⟩ := bowtieAxis_eq _ _ _ _ h.c1y h.c2y py hyt
  refine ⟨x, xt, y, yt, hx1, hx2, hy1, hy2, ?_⟩
  have hN : ((t.nSubpixels.toNat : ℕ) : ℤ) = t.nSubpixels := Int.toNat_of_nonneg h.sub.le
  have hN1 : 1 ≤ t.nSubpixels.toNat := by have := h.sub; omega
  have key : ∀ (cx cy deg : ℝ), cx = xo + t.spotSepPix * dirX deg → cy = yo + t.spotSepPix * dirY deg →
      ∃ m, circle img.nc img.nr t.roiRadiusPix cx cy t.nSubpixels false = .ok m ∧
        liftSum (roiSum m img) = spotAt img xo yo t deg := by
    intro cx cy deg e1 e2
    obtain ⟨m, em, fm⟩ := roi_eq img t.nSubpixels.toNat hx hy hN1 t.roiRadiusPix cx cy h.roi
    rw [hN] at em
    exact ⟨m, em, by rw [fm, liftSum_eq, e1, e2]; rfl⟩
  obtain ⟨m1, e1, f1⟩ := key (t.spotSepPix * Real.cos (Real.pi / 180 * t.spotRotDeg + Real.pi / 180 * t.spotExtraRotDeg) + xo)
    (t.spotSepPix * Real.sin (Real.pi / 180 * t.spotRotDeg + Real.pi / 180 * t.spotExtraRotDeg) + yo)
    (t.spotExtraRotDeg + t.spotRotDeg)
    (by unfold dirX; rw [show (t.spotExtraRotDeg + t.spotRotDeg) * Real.pi / 180 =
          Real.pi / 180 * t.spotRotDeg + Real.pi / 180 * t.spotExtraRotDeg by ring]; ring)
    (by unfold dirY; rw [show (t.spotExtraRotDeg + t.spotRotDeg) * Real.pi / 180 =
          Real.pi / 180 * t.spotRotDeg + Real.pi / 180 * t.spotExtraRotDeg by ring]; ring)
  obtain ⟨m2, e2, f2⟩ := key (-t.spotSepPix * Real.cos (-(Real.pi / 180 * t.spotRotDeg) + Real.pi / 180 * t.spotExtraRotDeg) + xo)
    (-t.spotSepPix * Real.sin (-(Real.pi / 180 * t.spotRotDeg) + Real.pi / 180 * t.spotExtraRotDeg) + yo)
    (t.spotExtraRotDeg + 180 - t.spotRotDeg)
    (by unfold dirX; rw [show (t.spotExtraRotDeg + 180 - t.spotRotDeg) * Real.pi / 180 =
          -(Real.pi / 180 * t.spotRotDeg) + Real.pi / 180 * t.spotExtraRotDeg + Real.pi by ring, Real.cos_add_pi]; ring)
    (by unfold dirY; rw [show (t.spotExtraRotDeg + 180 - t.spotRotDeg) * Real.pi / 180 =
          -(Real.pi / 180 * t.spotRotDeg) + Real.pi / 180 * t.spotExtraRotDeg + Real.pi by ring, Real.sin_add_pi]; ring)
  obtain ⟨m3, e3, f3⟩ := key (-t.spotSepPix * Real.cos (Real.pi / 180 * t.spotRotDeg + Real.pi / 180 * t.spotExtraRotDeg) + xo)
    (-t.spotSepPix * Real.sin (Real.pi / 180 * t.spotRotDeg + Real.pi / 180 * t.spotExtraRotDeg) + yo)
    (t.spotExtraRotDeg + 180 + t.spotRotDeg)
    (by unfold dirX; rw [show (t.spotExtraRotDeg + 180 + t.spotRotDeg) * Real.pi / 180 =
          Real.pi / 180 * t.spotRotDeg + Real.pi / 180 * t.spotExtraRotDeg + Real.pi by ring, Real.cos_add_pi]; ring)
    (by unfold dirY; rw [show (t.spotExtraRotDeg + 180 + t.spotRotDeg) * Real.pi / 180 =
          Real.pi / 180 * t.spotRotDeg + Real.pi / 180 * t.spotExtraRotDeg + Real.pi by ring, Real.sin_add_pi]; ring)
  obtain ⟨m4, e4, f4⟩ := key (t.spotSepPix * Real.cos (-(Real.pi / 180 * t.spotRotDeg) + Real.pi / 180 * t.spotExtraRotDeg) + xo)
    (t.spotSepPix * Real.sin (-(Real.pi / 180 * t.spotRotDeg) + Real.pi / 180 * t.spotExtraRotDeg) + yo)
    (t.spotExtraRotDeg - t.spotRotDeg)
    (by unfold dirX; rw [show (t.spotExtraRotDeg - t.spotRotDeg) * Real.pi / 180 =
          -(Real.pi / 180 * t.spotRotDeg) + Real.pi / 180 * t.spotExtraRotDeg by ring]; ring)
    (by unfold dirY; rw [show (t.spotExtraRotDeg - t.spotRotDeg) * Real.pi / 180 =
          -(Real.pi / 180 * t.spotRotDeg) + Real.pi / 180 * t.spotExtraRotDeg by ring]; ring)
  unfold calcBowtieOffsets
  rw [if_neg (by
      rintro (a | a | a | a | a | a | a | a)
      · exact absurd a (not_le.mpr h.sep)
      · exact absurd a (not_le.mpr h.roi)
      · exact absurd a (not_le.mpr h.sub)
      · exact absurd a (not_le.mpr h.step)
      · exact absurd a (not_le.mpr h.c1x)
      · exact absurd a (not_le.mpr h.c2x)
      · exact absurd a (not_le.mpr h.c1y)
      · exact absurd a (not_le.mpr h.c2y))]
  simp only [e1, e2, e3, e4, res_ok_bind, f1, f2, f3, f4]
  rw [show (spotAt img xo yo t (t.spotExtraRotDeg + t.spotRotDeg) + spotAt img xo yo t (t.spotExtraRotDeg - t.spotRotDeg)) /
      (spotAt img xo yo t (t.spotExtraRotDeg + 180 - t.spotRotDeg) + spotAt img xo yo t (t.spotExtraRotDeg + 180 + t.spotRotDeg))
      = bowtieRatioX img xo yo t from rfl,
    show (spotAt img xo yo t (t.spotExtraRotDeg + t.spotRotDeg) + spotAt img xo yo t (t.spotExtraRotDeg + 180 - t.spotRotDeg)) /
      (spotAt img xo yo t (t.spotExtraRotDeg + 180 + t.spotRotDeg) + spotAt img xo yo t (t.spotExtraRotDeg - t.spotRotDeg))
      = bowtieRatioY img xo yo t from rfl, ex, ey]
  simp only [res_ok_bind]
  rw [boundValue_eq _ _ h.step.le, boundValue_eq _ _ h.step.le]
  rfl

/-- **C28 (bowtie).** Both coordinates stay within `maxStep`, are zero exactly at the target ratios, and fall as the
measured ratios rise. -/
theorem C28_bowtie_sign (img : Arr2 ℝ) (hx : 2 ≤ img.nc) (hy : 1 ≤ img.nr) (xo yo : ℝ) (t : BowtieTuning)
    (h : BowtieTuning.Valid t) (hxt : 0 < t.xRatioTarget) (hyt : 0 < t.yRatioTarget) :
    ∃ ox oy, calcBowtieOffsets img xo yo t = .ok (ox, oy) ∧ |ox| ≤ t.maxStep ∧ |oy| ≤ t.maxStep ∧
      (0 < ox ↔ bowtieRatioX img xo yo t < t.xRatioTarget) ∧ (ox < 0 ↔ t.xRatioTarget < bowtieRatioX img xo yo t) ∧
      (0 < oy ↔ bowtieRatioY img xo yo t < t.yRatioTarget) ∧ (oy < 0 ↔ t.yRatioTarget < bowtieRatioY img xo yo t) := by
  obtain ⟨x, xt, y, yt, hx1, hx2, hy1, hy2, e⟩ := C28_bowtie_estimate img hx hy xo yo t h hxt hyt
  have hm1 := ratioAt_strictMono _ _ h.c1x h.c2x.le
  have hm2 := ratioAt_strictMono _ _ h.c1y h.c2y.le
  have cp : ∀ z : ℝ, 0 < clamp t.maxStep z ↔ 0 < z := by
    intro z
    unfold clamp
    constructor
    · intro hz
      rcases lt_max_iff.mp hz with a | a
      · linarith [h.step]
      · exact (lt_min_iff.mp a).2
    · intro hz
      exact lt_max_of_lt_right (lt_min h.step hz)
  have cn : ∀ z : ℝ, clamp t.maxStep z < 0 ↔ z < 0 := by
    intro z
    have := cp (-z)
    rw [clamp_neg _ _ h.step.le] at this
    constructor
    · intro hz; linarith [this.mp (by linarith)]
    · intro hz; linarith [this.mpr (by linarith)]
  refine ⟨_, _, e, clamp_abs_le _ _ h.step.le, clamp_abs_le _ _ h.step.le, ?_, ?_, ?_, ?_⟩
  · rw [cp, ← hx1, ← hx2, hm1.lt_iff_lt, sub_pos]
  · rw [cn, ← hx1, ← hx2, hm1.lt_iff_lt, sub_neg]
  · rw [cp, ← hy1, ← hy2, hm2.lt_iff_lt, sub_pos]
  · rw [cn, ← hy1, ← hy2, hm2.lt_iff_lt, sub_neg]

/-- **C28 (bowtie).** Parameters that should be positive raise `TypeError` otherwise; a non-positive target ratio raises
`ValueError`. -/
theorem C28_bowtie_rejects (img : Arr2 ℝ) (hx : 2 ≤ img.nc) (hy : 1 ≤ img.nr) (xo yo : ℝ) (t : BowtieTuning) :
    (¬ BowtieTuning.Valid t → calcBowtieOffsets img xo yo t = .error .typeError) ∧
    (BowtieTuning.Valid t → (t.xRatioTarget ≤ 0 ∨ t.yRatioTarget ≤ 0) → calcBowtieOffsets img xo yo t = .error .valueError) := by
  constructor
  · intro h
    unfold calcBowtieOffsets
    rw [if_pos]
    by_contra hc
    push Not at hc
    obtain ⟨a, b, c, d, e, f, g, i⟩ := hc
    exact h ⟨a, b, c, d, e, f, g, i⟩
  · intro h hneg
    have hN : ((t.nSubpixels.toNat : ℕ) : ℤ) = t.nSubpixels := Int.toNat_of_nonneg h.sub.le
    have hN1 : 1 ≤ t.nSubpixels.toNat := by have := h.sub; omega
    have key : ∀ (cx cy : ℝ), ∃ m, circle img.nc img.nr t.roiRadiusPix cx cy t.nSubpixels false = .ok m ∧
        liftSum (roiSum m img) = bright (spotFlux img t.nSubpixels.toNat t.roiRadiusPix cx cy) := by
      intro cx cy
      obtain ⟨m, em, fm⟩ := roi_eq img t.nSubpixels.toNat hx hy hN1 t.roiRadiusPix cx cy h.roi
      rw [hN] at em
      exact ⟨m, em, by rw [fm, liftSum_eq]⟩
    choose m em fm using key
    unfold calcBowtieOffsets
    rw [if_neg (by
      rintro (a | a | a | a | a | a | a | a)
      · exact absurd a (not_le.mpr h.sep)
      · exact absurd a (not_le.mpr h.roi)
      · exact absurd a (not_le.mpr h.sub)
      · exact absurd a (not_le.mpr h.step)
      · exact absurd a (not_le.mpr h.c1x)
      · exact absurd a (not_le.mpr h.c2x)
      · exact absurd a (not_le.mpr h.c1y)
      · exact absurd a (not_le.mpr h.c2y))]
    simp only [em, res_ok_bind, fm]
    have hq : ∀ a b c d : ℝ, 0 < (bright a + bright b) / (bright c + bright d) := fun a b c d =>
      div_pos (add_pos (bright_pos _) (bright_pos _)) (add_pos (bright_pos _) (bright_pos _))
    have hbad : ∀ c1 c2 r : ℝ, 0 < c1 → 0 < c2 → 0 < r → ∀ tgt, tgt ≤ 0 → bowtieAxis c1 c2 r tgt = .error .valueError := by
      intro c1 c2 r h1 h2 hr tgt ht
      obtain ⟨x, ex, -⟩ := quadratic_law c1 c2 r h1 h2 hr
      unfold bowtieAxis
      rw [ex, (C27_rejects c1 c2 tgt ht).1]
      rfl
    by_cases hxt : t.xRatioTarget ≤ 0
    · rw [hbad _ _ _ h.c1x h.c2x (hq _ _ _ _) _ hxt]
      rfl
    · have hyt : t.yRatioTarget ≤ 0 := by tauto
      obtain ⟨x, xt, -, -, ex⟩ := bowtieAxis_eq _ _ _ _ h.c1x h.c2x (hq
        (spotFlux img t.nSubpixels.toNat t.roiRadiusPix
          (t.spotSepPix * Real.cos (Real.pi / 180 * t.spotRotDeg + Real.pi / 180 * t.spotExtraRotDeg) + xo)
          (t.spotSepPix * Real.sin (Real.pi / 180 * t.spotRotDeg + Real.pi / 180 * t.spotExtraRotDeg) + yo))
        (spotFlux img t.nSubpixels.toNat t.roiRadiusPix
          (t.spotSepPix * Real.cos (-(Real.pi / 180 * t.spotRotDeg) + Real.pi / 180 * t.spotExtraRotDeg) + xo)
          (t.spotSepPix * Real.sin (-(Real.pi / 180 * t.spotRotDeg) + Real.pi / 180 * t.spotExtraRotDeg) + yo))
        (spotFlux img t.nSubpixels.toNat t.roiRadiusPix
          (-t.spotSepPix * Real.cos (-(Real.pi / 180 * t.spotRotDeg) + Real.pi / 180 * t.spotExtraRotDeg) + xo)
          (-t.spotSepPix * Real.sin (-(Real.pi / 180 * t.spotRotDeg) + Real.pi / 180 * t.spotExtraRotDeg) + yo))
        (spotFlux img t.nSubpixels.toNat t.roiRadiusPix
          (-t.spotSepPix * Real.cos (Real.pi / 180 * t.spotRotDeg + Real.pi / 180 * t.spotExtraRotDeg) + xo)
          (-t.spotSepPix * Real.sin (Real.pi / 180 * t.spotRotDeg + Real.pi / 180 * t.spotExtraRotDeg) + yo)))
        (not_le.mp hxt)
      rw [ex]
      simp only [res_ok_bind]
      rw [hbad _ _ _ h.c1y h.c2y (hq _ _ _ _) _ hyt]
      rfl

example : BowtieTuning.Valid ⟨5, 30, 0, 2, 10, 3, 1, 2, 1, 2, 1, 1⟩ := by constructor <;> norm_num

end Coralign.Props
