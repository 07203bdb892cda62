import Verif.Props.Annular
import Verif.Props.ShapeArea

/-!
# Properties C38 and C67 at every pixel, and a size condition under which the annular segments are exact
-/

namespace Coralign.Props

open Coralign Coralign.Spec

/-- The value `v` at a pixel is the fraction of its sub-pixel centres inside the figure, or else one or zero according to its centre. -/
def FractionOrCentre (N : ℕ) (P : ℝ → ℝ → Prop) (x y v : ℝ) : Prop :=
  v = areaFraction N P x y ∨ (v = 1 ∧ P x y) ∨ (v = 0 ∧ ¬ P x y)

/-- The unit square around `(x, y)` lies in the figure. -/
def PixelInside (P : ℝ → ℝ → Prop) (x y : ℝ) : Prop := ∀ u v : ℝ, |u| ≤ 1 / 2 → |v| ≤ 1 / 2 → P (x + u) (y + v)

/-- The unit square around `(x, y)` does not meet the figure. -/
def PixelOutside (P : ℝ → ℝ → Prop) (x y : ℝ) : Prop := ∀ u v : ℝ, |u| ≤ 1 / 2 → |v| ≤ 1 / 2 → ¬ P (x + u) (y + v)

theorem antialiasVal_cases (is1 is0 P Q : ℝ → ℝ → Prop) (N : ℕ) (hPQ : ∀ x y, P x y ↔ Q x y) (x y : ℝ) (h1 : is1 x y → ¬ is0 x y → Q x y)
    (h0 : is0 x y → ¬ Q x y) : FractionOrCentre N Q x y (antialiasVal is1 is0 P N (1 / (N : ℝ)) x y) := by
  by_cases c0 : is0 x y
  · exact Or.inr (Or.inr ⟨antialiasVal_zero _ _ _ _ _ _ _ c0, h0 c0⟩)
  · by_cases c1 : is1 x y
    · exact Or.inr (Or.inl ⟨antialiasVal_one _ _ _ _ _ _ _ c1 c0, h1 c1 c0⟩)
    · left
      unfold antialiasVal
      simp only [c0, c1, if_false, if_true]
      rw [subMean_eq]
      exact areaFraction_congr N _ _ hPQ x y

theorem fractionOrCentre_whole {N : ℕ} (hN : 1 ≤ N) {P : ℝ → ℝ → Prop} {x y v : ℝ} (h : FractionOrCentre N P x y v) :
    (PixelInside P x y → v = 1) ∧ (PixelOutside P x y → v = 0) := by
  constructor
  · intro hi
    have hc := hi 0 0 (by norm_num) (by norm_num)
    rw [add_zero, add_zero] at hc
    rcases h with h | h | h
    · rw [h]
      exact areaFraction_all N (by omega) P x y fun u v hu hv => hi u v hu.lt.le hv.lt.le
    · exact h.1
    · exact absurd hc h.2
  · intro ho
    have hc := ho 0 0 (by norm_num) (by norm_num)
    rw [add_zero, add_zero] at hc
    rcases h with h | h | h
    · rw [h]
      exact areaFraction_none N P x y fun u v hu hv => ho u v hu.lt.le hv.lt.le
    · exact absurd h.2 hc
    · exact h.1

/-- **C38.** With no condition on the arguments: every pixel of `ellipse` is the fraction of its sub-pixel centres inside the ellipse, or else one or
zero according to its centre; so it is one if the pixel lies in the ellipse and zero if it misses it. -/
theorem C38_ellipse_pixels (nx ny N : ℕ) (hx : 2 ≤ nx) (hy : 2 ≤ ny) (hN : 1 ≤ N) (rx ry rot xo yo : ℝ) (h1 : 0 < rx) (h2 : 0 < ry) (isDark : Bool) :
    ∃ v : ℝ → ℝ → ℝ, IsImage (ellipse nx ny rx ry rot xo yo N isDark) nx ny xo yo (fun x y => tone isDark (v x y)) ∧
      ∀ x y, FractionOrCentre N (inEllipse rx ry rot) x y (v x y) ∧
        (PixelInside (inEllipse rx ry rot) x y → v x y = 1) ∧ (PixelOutside (inEllipse rx ry rot) x y → v x y = 0) := by
  set t := (Real.pi / 180) * rot with ht
  set w := ellipseWindow rx ry t (shapeAxis nx xo) (shapeAxis ny yo) with hw
  have hw0 : 0 ≤ w := le_max_of_le_left (abs_nonneg _)
  have key : ∀ x y, FractionOrCentre N (inEllipse rx ry rot) x y (antialiasVal (fun x y => |ellipseRho rx ry t x y| < 0.5 - w)
      (fun x y => |ellipseRho rx ry t x y| > 0.5 + w) (fun x y => ellipseRho rx ry t x y ≤ 0.5) N (1 / (N : ℝ)) x y) := by
    intro x y
    refine antialiasVal_cases _ _ _ _ N (fun x y => ellipseRho_le_iff rx ry rot x y) x y (fun h _ => ?_) fun h => ?_
    · rw [← ellipseRho_le_iff]
      rw [abs_of_nonneg (ellipseRho_nonneg _ _ _ _ _)] at h
      rw [← ht]
      linarith
    · rw [← ellipseRho_le_iff]
      rw [abs_of_nonneg (ellipseRho_nonneg _ _ _ _ _)] at h
      rw [← ht]
      linarith
  refine ⟨_, isImage_of _ _ _ _ _ _ ?_, fun x y => ⟨key x y, fractionOrCentre_whole hN (key x y)⟩⟩
  rw [ellipse_core nx ny N hx hy hN rx ry rot xo yo h1 h2]
  unfold antialias
  rw [darken_eq]

/-- **C38 (partial).** Under the condition of `C38_ellipse_exact_partial` every pixel is within `2 / nSubpixels` of the area of the ellipse in it. -/
theorem C38_area_partial (nx ny N : ℕ) (hx : 2 ≤ nx) (hy : 2 ≤ ny) (hN : 1 ≤ N) (rx ry rot xo yo : ℝ) (h1 : 0 < rx) (h2 : 0 < ry) (isDark : Bool)
    (hwin : ∀ u v, SubOffset N u → SubOffset N v → ellipticRadius rx ry rot u v ≤ cornerStep nx ny rx ry rot xo yo) :
    WithinArea (ellipse nx ny rx ry rot xo yo N isDark) nx ny xo yo (inEllipse rx ry rot) isDark (2 / N) :=
  withinArea_of (C38_ellipse_exact_partial nx ny N hx hy hN rx ry rot xo yo h1 h2 isDark hwin) fun x y =>
    fraction_area N hN (ellipse_closed _ _ _) (ellipse_convex _ _ _) x y

theorem annular_core (nSeg : ℤ) (rIn rOut : ℝ) (nx ny : ℕ) (xo yo angOpen angRot dTheta : ℝ) (hrot : angRot < 360)
    (hs : nSeg = 1 ∨ nSeg = 2) :
    ∃ is1 is0 P : ℝ → ℝ → Prop, (∀ N, SegArgs nSeg rIn rOut nx ny N angOpen dTheta →
      annularSegments nSeg rIn rOut nx ny xo yo angOpen angRot N dTheta =
        .ok (antialias ny nx (shapeAxis nx xo) (shapeAxis ny yo) is1 is0 P N (1 / (N : ℝ))) ∧ ∀ x y, P x y ↔ inSegments nSeg rIn rOut angOpen angRot x y) := by
  rcases hs with rfl | rfl
  · apply Exists.intro
    apply Exists.intro
    apply Exists.intro
    intro N h
    obtain ⟨h1, h2, h3, h4, h5, h6, h7, h8⟩ := h
    unfold annularSegments
    rw [if_neg (by omega), if_neg (by rintro (h | h | h | h | h | h | h) <;> first | omega | linarith), if_neg (by omega),
      if_neg (by simpa using hrot)]
    simp only [Int.toNat_natCast]
    rw [shapeAxis_dx nx xo h4, mul_one, if_pos trivial]
    refine ⟨rfl, fun x y => ?_⟩
    unfold inSegments
    rw [segment_code rIn rOut angOpen angRot x y h2 h7, and_assoc, abs_iff]
    norm_num
  · apply Exists.intro
    apply Exists.intro
    apply Exists.intro
    intro N h
    obtain ⟨h1, h2, h3, h4, h5, h6, h7, h8⟩ := h
    unfold annularSegments
    rw [if_neg (by omega), if_neg (by rintro (h | h | h | h | h | h | h) <;> first | omega | linarith), if_neg (by omega),
      if_neg (by simpa using hrot)]
    simp only [Int.toNat_natCast]
    rw [shapeAxis_dx nx xo h4, mul_one, if_neg (by norm_num)]
    refine ⟨rfl, fun x y => ?_⟩
    unfold inSegments
    rw [segment_code rIn rOut angOpen angRot x y h2 h7, segment_code_opposite rIn rOut angOpen angRot x y h2 h7, abs_iff, abs_iff]
    tauto

/-- **C67.** With no condition on the padding: every pixel of `annular_segments` is the fraction of its sub-pixel centres inside the segments, or else
one or zero according to its centre; so it is one if the pixel lies in the segments and zero if it misses them. -/
theorem C67_pixels (nSeg : ℤ) (rIn rOut : ℝ) (nx ny N : ℕ) (xo yo angOpen angRot dTheta : ℝ)
    (h : SegArgs nSeg rIn rOut nx ny N angOpen dTheta) (hrot : angRot < 360) :
    ∃ o, annularSegments nSeg rIn rOut nx ny xo yo angOpen angRot N dTheta = .ok o ∧ ∀ k l : ℤ, Reaches ny nx k l →
      ∃ v, o.centered k l = some v ∧ FractionOrCentre N (inSegments nSeg rIn rOut angOpen angRot) (l - xo) (k - yo) v ∧
        (PixelInside (inSegments nSeg rIn rOut angOpen angRot) (l - xo) (k - yo) → v = 1) ∧
        (PixelOutside (inSegments nSeg rIn rOut angOpen angRot) (l - xo) (k - yo) → v = 0) := by
  obtain ⟨is1, is0, P, hc⟩ := annular_core nSeg rIn rOut nx ny xo yo angOpen angRot dTheta hrot h.seg
  have hone : SegArgs nSeg rIn rOut nx ny 1 angOpen dTheta := { h with sub_ge := le_rfl }
  obtain ⟨e1, hP⟩ := hc 1 hone
  obtain ⟨eN, -⟩ := hc N h
  obtain ⟨o, ho, hx⟩ := C67_exact_partial nSeg rIn rOut nx ny 1 xo yo angOpen angRot dTheta hone hrot
  refine ⟨_, eN, fun k l hr => ⟨_, raster_centered ny nx xo yo _ k l hr, ?_⟩⟩
  have hsub : ∀ u, SubOffset 1 u → u = 0 := by
    rintro u ⟨s, hs, rfl⟩
    obtain rfl : s = 0 := by omega
    norm_num
  have hv := hx k l hr (fun u v hu hv => by
    rw [hsub u hu, hsub v hv]
    exact ⟨1, 0, zero_le_one, by rw [abs_zero]; have := h.dTheta_nonneg; have := Real.pi_pos; positivity, by simp, by simp⟩)
  rw [e1] at ho
  obtain rfl := Except.ok.inj ho
  have hv := Option.some.inj ((raster_centered ny nx xo yo (antialiasVal is1 is0 P 1 (1 / ((1 : ℕ) : ℝ))) k l hr).symm.trans hv)
  set x : ℝ := l - xo
  set y : ℝ := k - yo
  have key : FractionOrCentre N (inSegments nSeg rIn rOut angOpen angRot) x y (antialiasVal is1 is0 P N (1 / (N : ℝ)) x y) := by
    refine antialiasVal_cases _ _ _ _ N hP x y (fun c1 c0 => ?_) fun c0 => ?_
    · by_contra hno
      rw [antialiasVal_one _ _ _ _ _ _ _ c1 c0, areaFraction_none 1 _ x y fun u v hu hv => by rw [hsub u hu, hsub v hv, add_zero, add_zero]; exact hno] at hv
      norm_num at hv
    · intro hin
      rw [antialiasVal_zero _ _ _ _ _ _ _ c0,
        areaFraction_all 1 one_pos _ x y fun u v hu hv => by rw [hsub u hu, hsub v hv, add_zero, add_zero]; exact hin] at hv
      norm_num at hv
  exact ⟨key, fractionOrCentre_whole h.sub_ge key⟩

theorem arg_one_add (w : ℂ) (d : ℝ) (h0 : 0 ≤ d) (h1 : d ≤ Real.pi / 2) (hw : ‖w‖ ≤ Real.sin d) : |Complex.arg (1 + w)| ≤ d := by
  set s := Real.sin d with hs
  have hs0 : 0 ≤ s := (norm_nonneg w).trans hw
  have hs1 : s ≤ 1 := Real.sin_le_one d
  have hsq : w.re ^ 2 + w.im ^ 2 ≤ s ^ 2 := by
    have : ‖w‖ ^ 2 = w.re ^ 2 + w.im ^ 2 := by rw [Complex.sq_norm, Complex.normSq_apply]; ring
    rw [← this]
    exact pow_le_pow_left₀ (norm_nonneg w) hw 2
  have hre : 0 ≤ (1 + w).re := by
    have : |w.re| ≤ ‖w‖ := Complex.abs_re_le_norm w
    have := (abs_le.mp (this.trans (hw.trans hs1))).1
    simp
    linarith
  rw [Complex.arg_of_re_nonneg hre]
  have hq : |(1 + w).im / ‖1 + w‖| ≤ s := by
    rw [abs_div, abs_of_nonneg (norm_nonneg _)]
    rcases (norm_nonneg (1 + w)).eq_or_lt with e | e
    · rw [← e, div_zero]; exact hs0
    · rw [div_le_iff₀ e]
      refine abs_le_of_sq_le_sq ?_ (by positivity)
      have h2 : ‖1 + w‖ ^ 2 = (1 + w.re) ^ 2 + w.im ^ 2 := by
        rw [Complex.sq_norm, Complex.normSq_apply]; simp; ring
      rw [mul_pow, h2]
      simp only [Complex.add_im, Complex.one_im, zero_add]
      have hs2 : s ^ 2 ≤ 1 := by nlinarith
      nlinarith [sq_nonneg (s ^ 2 + w.re), mul_nonneg (sub_nonneg.mpr hs2) (sub_nonneg.mpr hsq)]
  rw [abs_le] at hq ⊢
  have hl : Real.arcsin s = d := Real.arcsin_sin (by linarith) h1
  constructor
  · rw [← hl, ← Real.arcsin_neg]; exact Real.monotone_arcsin hq.1
  · rw [← hl]; exact Real.monotone_arcsin hq.2

/-- Seen from a centre far enough away, the sub-pixel centres lie close in angle to the pixel centre. -/
theorem seen_far (deg x y u v : ℝ) (h0 : 0 ≤ deg) (h1 : deg ≤ 90) (hu : |u| < 1 / 2) (hv : |v| < 1 / 2)
    (hfar : Real.sqrt 2 / 2 ≤ Real.sqrt (x ^ 2 + y ^ 2) * Real.sin (deg * Real.pi / 180)) : SeenWithin deg x y (x + u) (y + v) := by
  have hpi := Real.pi_pos
  have h2 : 0 < Real.sqrt 2 := by positivity
  set p : ℂ := ⟨x, y⟩ with hp
  set d : ℂ := ⟨u, v⟩ with hd
  have hpn : ‖p‖ = Real.sqrt (x ^ 2 + y ^ 2) := by rw [Complex.norm_def, Complex.normSq_mk]; congr 1; ring
  have hdn : ‖d‖ ≤ Real.sqrt 2 / 2 := by
    rw [Complex.norm_def, Complex.normSq_mk]
    rw [abs_lt] at hu hv
    have e : Real.sqrt 2 / 2 = Real.sqrt (1 / 2) := by
      rw [show (1 / 2 : ℝ) = 2 / 2 ^ 2 by norm_num, Real.sqrt_div (by norm_num), Real.sqrt_sq (by norm_num)]
    rw [e]
    refine Real.sqrt_le_sqrt ?_
    nlinarith [hu.1, hu.2, hv.1, hv.2]
  have hp0 : 0 < ‖p‖ := by
    rcases (norm_nonneg p).eq_or_lt with e | e
    · rw [← hpn, ← e, zero_mul] at hfar; linarith
    · exact e
  have hw : ‖d / p‖ ≤ Real.sin (deg * Real.pi / 180) := by
    rw [norm_div, div_le_iff₀ hp0, mul_comm, hpn]
    exact hdn.trans hfar
  have ha := arg_one_add (d / p) (deg * Real.pi / 180) (by positivity) (by nlinarith) hw
  set z := 1 + d / p with hz
  have hpz : p * z = p + d := by
    rw [hz, mul_add, mul_one, mul_div_cancel₀]
    exact norm_pos_iff.mp hp0
  refine ⟨‖z‖, Complex.arg z, norm_nonneg z, ha, ?_, ?_⟩
  · have := congrArg Complex.re hpz
    rw [Complex.mul_re, ← Complex.norm_mul_cos_arg z, ← Complex.norm_mul_sin_arg z] at this
    simp only [hp, hd, Complex.add_re] at this
    linarith
  · have := congrArg Complex.im hpz
    rw [Complex.mul_im, ← Complex.norm_mul_cos_arg z, ← Complex.norm_mul_sin_arg z] at this
    simp only [hp, hd, Complex.add_im] at this
    linarith

/-- **C67 (partial).** If the annulus starts far enough from its centre for the padding — for the default of 5 degrees, at ten pixels — the whole image is
exact.  Missing: smaller inner radii, where the property is false (`C67_padding_too_small`). -/
theorem C67_large_partial (nSeg : ℤ) (rIn rOut : ℝ) (nx ny N : ℕ) (xo yo angOpen angRot dTheta : ℝ)
    (h : SegArgs nSeg rIn rOut nx ny N angOpen dTheta) (hrot : angRot < 360) (hd : dTheta ≤ 90)
    (hfar : Real.sqrt 2 / 2 ≤ (rIn - Real.sqrt 2) * Real.sin (dTheta * Real.pi / 180)) :
    IsImage (annularSegments nSeg rIn rOut nx ny xo yo angOpen angRot N dTheta) nx ny xo yo
      (areaFraction N (inSegments nSeg rIn rOut angOpen angRot)) := by
  have hpi := Real.pi_pos
  obtain ⟨o, ho, hex⟩ := C67_exact_partial nSeg rIn rOut nx ny N xo yo angOpen angRot dTheta h hrot
  obtain ⟨v, ⟨o', ho', hr, hc, hv⟩, -, hz⟩ := C39_range nSeg rIn rOut nx ny N xo yo angOpen angRot dTheta h hrot
  obtain rfl := Except.ok.inj (ho.symm.trans ho')
  refine ⟨o, ho, hr, hc, fun k l hkl => ?_⟩
  set x : ℝ := l - xo with hx
  set y : ℝ := k - yo with hy
  by_cases hin : Real.sqrt (x ^ 2 + y ^ 2) < rIn - Real.sqrt 2
  · rw [hv k l hkl, hz x y (Or.inr hin), areaFraction_none]
    intro u v hu hv hs
    have hrad := radial_sound x y u v hu.lt hv.lt
    rw [abs_lt] at hrad
    have : rIn ≤ Real.sqrt ((x + u) ^ 2 + (y + v) ^ 2) := by
      rcases hs with hs | ⟨-, hs⟩
      · exact ((segment_code rIn rOut angOpen angRot _ _ h.rIn_pos h.open_nonneg).mp hs).1.2
      · exact ((segment_code_opposite rIn rOut angOpen angRot _ _ h.rIn_pos h.open_nonneg).mp hs).1.2
    linarith [hrad.2]
  · push Not at hin
    refine hex k l hkl fun u v hu hv => seen_far dTheta _ _ u v h.dTheta_nonneg hd hu.lt hv.lt (hfar.trans ?_)
    have hsn : 0 ≤ Real.sin (dTheta * Real.pi / 180) :=
      Real.sin_nonneg_of_nonneg_of_le_pi (by have := h.dTheta_nonneg; positivity) (by nlinarith)
    exact mul_le_mul_of_nonneg_right hin hsn

/-- The default padding of 5 degrees is enough from an inner radius of ten pixels on. -/
theorem default_padding (rIn : ℝ) (h : 10 ≤ rIn) : Real.sqrt 2 / 2 ≤ (rIn - Real.sqrt 2) * Real.sin (5 * Real.pi / 180) := by
  have a1 : Real.sqrt 2 ≤ 1.415 := Real.sqrt_le_iff.mpr ⟨by norm_num, by norm_num⟩
  have p1 := Real.pi_gt_d2
  have p2 := Real.pi_lt_d2
  have hs := Real.sin_gt_sub_cube (x := 5 * Real.pi / 180) (by positivity)
  have hx : 0.087 ≤ 5 * Real.pi / 180 := by linarith
  have hx2 : 5 * Real.pi / 180 ≤ 0.088 := by linarith
  have h3 : (5 * Real.pi / 180) ^ 3 ≤ 0.088 ^ 3 := pow_le_pow_left₀ (by positivity) hx2 3
  have : 0.086 ≤ Real.sin (5 * Real.pi / 180) := by
    norm_num at h3 ⊢
    linarith
  nlinarith

example (xo yo : ℝ) : IsImage (annularSegments 2 12.5 40 100 90 xo yo 65 15 11 5) 100 90 xo yo (areaFraction 11 (inSegments 2 12.5 40 65 15)) :=
  C67_large_partial 2 12.5 40 100 90 11 xo yo 65 15 5 (by constructor <;> norm_num) (by norm_num) (by norm_num) (default_padding _ (by norm_num))

end Coralign.Props
