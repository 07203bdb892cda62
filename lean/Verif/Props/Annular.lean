import Verif.Props.Shapes
import Mathlib.Analysis.SpecialFunctions.Complex.Arg
import Mathlib.Analysis.SpecialFunctions.Trigonometric.Arctan
import Mathlib.Analysis.SpecialFunctions.Trigonometric.Bounds
import Mathlib.Analysis.Real.Pi.Bounds

/-!
# Properties C39 and C67: annular segments
-/

namespace Coralign.Props

open Coralign Coralign.Spec Finset

/-! ### Angles -/

theorem wrap_cos_sin (s : ℝ) : Real.cos (wrapAngle s) = Real.cos s ∧ Real.sin (wrapAngle s) = Real.sin s := by
  unfold wrapAngle
  have hn := Complex.norm_exp_ofReal_mul_I s
  have hz : Complex.exp (s * Complex.I) ≠ 0 := Complex.exp_ne_zero _
  constructor
  · rw [Complex.cos_arg hz, hn, div_one, Complex.exp_ofReal_mul_I_re]
  · rw [Complex.sin_arg, hn, div_one, Complex.exp_ofReal_mul_I_im]

theorem wrap_range (s : ℝ) : -Real.pi < wrapAngle s ∧ wrapAngle s ≤ Real.pi :=
  ⟨Complex.neg_pi_lt_arg _, Complex.arg_le_pi _⟩

/-- Two angles with the same direction closer than a turn are equal. -/
theorem angle_unique (a b : ℝ) (hc : Real.cos a = Real.cos b) (hs : Real.sin a = Real.sin b) (h1 : a - b < 2 * Real.pi)
    (h2 : -(2 * Real.pi) < a - b) : a = b := by
  have h : Real.cos (a - b) = 1 := by
    rw [Real.cos_sub, hc, hs]
    have := Real.sin_sq_add_cos_sq b
    nlinarith
  rw [Real.cos_eq_one_iff] at h
  obtain ⟨k, hk⟩ := h
  have hpi := Real.pi_pos
  have k1 : (k : ℝ) < 1 := by nlinarith
  have k2 : (-1 : ℝ) < k := by nlinarith
  have k1' : k < 1 := by exact_mod_cast k1
  have k2' : -1 < k := by exact_mod_cast k2
  have : k = 0 := by omega
  rw [this] at hk
  simp at hk
  linarith

theorem polar (x y : ℝ) : x = Real.sqrt (x ^ 2 + y ^ 2) * Real.cos (arctan2 y x) ∧
    y = Real.sqrt (x ^ 2 + y ^ 2) * Real.sin (arctan2 y x) := by
  have hn : Real.sqrt (x ^ 2 + y ^ 2) = ‖(⟨x, y⟩ : ℂ)‖ := by
    rw [Complex.norm_def, Complex.normSq_mk]; congr 1; ring
  have hc := Complex.norm_mul_cos_arg (⟨x, y⟩ : ℂ)
  have hs := Complex.norm_mul_sin_arg (⟨x, y⟩ : ℂ)
  unfold arctan2
  rw [hn]
  exact ⟨hc.symm, hs.symm⟩

theorem sqrt_polar (ρ β : ℝ) (hρ : 0 ≤ ρ) : Real.sqrt ((ρ * Real.cos β) ^ 2 + (ρ * Real.sin β) ^ 2) = ρ := by
  have : (ρ * Real.cos β) ^ 2 + (ρ * Real.sin β) ^ 2 = ρ ^ 2 := by
    have := Real.sin_sq_add_cos_sq β
    nlinarith
  rw [this, Real.sqrt_sq hρ]

/-- Membership of a segment in terms of a polar representation of the point. -/
theorem segment_iff_pos (rIn rOut op dir ρ β : ℝ) (hIn : 0 ≤ rIn) (h0 : 0 < rIn ∨ 0 < ρ) (hρ : 0 ≤ ρ) :
    inSegment rIn rOut op dir (ρ * Real.cos β) (ρ * Real.sin β) ↔
      (ρ ≤ rOut ∧ rIn ≤ ρ) ∧ |wrapAngle (β - dir * Real.pi / 180)| ≤ op * Real.pi / 180 / 2 := by
  have hpi := Real.pi_pos
  set t := dir * Real.pi / 180 with ht
  obtain ⟨wc, ws⟩ := wrap_cos_sin (β - t)
  obtain ⟨w1, w2⟩ := wrap_range (β - t)
  set th := wrapAngle (β - t)
  constructor
  · rintro ⟨ρ', φ, h1, h2, h3, hx, hy⟩
    have hρ' : ρ = ρ' := by
      have a := sqrt_polar ρ β hρ
      have b := sqrt_polar ρ' ((dir + φ) * Real.pi / 180) (by linarith)
      rw [← hx, ← hy, a] at b
      exact b
    subst hρ'
    refine ⟨⟨h2, h1⟩, ?_⟩
    have hρ0 : ρ ≠ 0 := by rcases h0 with h0 | h0 <;> linarith
    have hx' := mul_left_cancel₀ hρ0 hx
    have hy' := mul_left_cancel₀ hρ0 hy
    have e : (dir + φ) * Real.pi / 180 = t + φ * Real.pi / 180 := by rw [ht]; ring
    rw [e] at hx' hy'
    set f := φ * Real.pi / 180 with hf
    have hfa : |f| ≤ op * Real.pi / 180 / 2 := by
      rw [hf, show φ * Real.pi / 180 = φ * (Real.pi / 180) by ring, abs_mul, abs_of_pos (by positivity : 0 < Real.pi / 180)]
      have := mul_le_mul_of_nonneg_right h3 (by positivity : 0 ≤ Real.pi / 180)
      linarith
    by_cases hbig : Real.pi ≤ op * Real.pi / 180 / 2
    · rw [abs_le]; constructor <;> linarith
    · push Not at hbig
      have c1 : Real.cos th = Real.cos f := by
        rw [wc, Real.cos_sub, hx', hy', Real.cos_add, Real.sin_add]
        have := Real.sin_sq_add_cos_sq t
        have e : Real.cos t ^ 2 = 1 - Real.sin t ^ 2 := by linarith
        ring_nf; rw [e]; ring
      have c2 : Real.sin th = Real.sin f := by
        rw [ws, Real.sin_sub, hx', hy', Real.cos_add, Real.sin_add]
        have := Real.sin_sq_add_cos_sq t
        have e : Real.cos t ^ 2 = 1 - Real.sin t ^ 2 := by linarith
        ring_nf; rw [e]; ring
      rw [abs_le] at hfa
      have := angle_unique th f c1 c2 (by linarith [hfa.1]) (by linarith [hfa.2])
      rw [this, abs_le]
      exact hfa
  · rintro ⟨⟨h1, h2⟩, h3⟩
    refine ⟨ρ, th * 180 / Real.pi, h2, h1, ?_, ?_, ?_⟩
    · rw [abs_le] at h3 ⊢
      constructor
      · rw [le_div_iff₀ hpi]; linarith [h3.1]
      · rw [div_le_iff₀ hpi]; linarith [h3.2]
    all_goals
      have e : (dir + th * 180 / Real.pi) * Real.pi / 180 = t + th := by rw [ht]; field_simp
      rw [e]
      congr 1
    · rw [Real.cos_add, wc, ws, Real.cos_sub, Real.sin_sub]
      have := Real.sin_sq_add_cos_sq t
      have e : Real.cos t ^ 2 = 1 - Real.sin t ^ 2 := by linarith
      ring_nf; rw [e]; ring
    · rw [Real.sin_add, wc, ws, Real.cos_sub, Real.sin_sub]
      have := Real.sin_sq_add_cos_sq t
      have e : Real.cos t ^ 2 = 1 - Real.sin t ^ 2 := by linarith
      ring_nf; rw [e]; ring

theorem segment_iff (rIn rOut op dir ρ β : ℝ) (hIn : 0 < rIn) (_hop : 0 ≤ op) (hρ : 0 ≤ ρ) :
    inSegment rIn rOut op dir (ρ * Real.cos β) (ρ * Real.sin β) ↔
      (ρ ≤ rOut ∧ rIn ≤ ρ) ∧ |wrapAngle (β - dir * Real.pi / 180)| ≤ op * Real.pi / 180 / 2 :=
  segment_iff_pos rIn rOut op dir ρ β hIn.le (Or.inl hIn) hρ

/-- Membership of a segment as the code tests it on sub-pixels. -/
theorem segment_code (rIn rOut op dir x y : ℝ) (hIn : 0 < rIn) (hop : 0 ≤ op) :
    inSegment rIn rOut op dir x y ↔ (Real.sqrt (x ^ 2 + y ^ 2) ≤ rOut ∧ rIn ≤ Real.sqrt (x ^ 2 + y ^ 2)) ∧
      |wrapAngle (arctan2 y x - dir * Real.pi / 180)| ≤ op * Real.pi / 180 / 2 := by
  obtain ⟨hx, hy⟩ := polar x y
  have h := segment_iff rIn rOut op dir (Real.sqrt (x ^ 2 + y ^ 2)) (arctan2 y x) hIn hop (Real.sqrt_nonneg _)
  rw [← hx, ← hy] at h
  exact h

theorem segment_code_opposite (rIn rOut op dir x y : ℝ) (hIn : 0 < rIn) (hop : 0 ≤ op) :
    inSegment rIn rOut op dir (-x) (-y) ↔ (Real.sqrt (x ^ 2 + y ^ 2) ≤ rOut ∧ rIn ≤ Real.sqrt (x ^ 2 + y ^ 2)) ∧
      |wrapAngle (arctan2 y x - dir * Real.pi / 180 - Real.pi)| ≤ op * Real.pi / 180 / 2 := by
  obtain ⟨hx, hy⟩ := polar x y
  have h := segment_iff rIn rOut op dir (Real.sqrt (x ^ 2 + y ^ 2)) (arctan2 y x - Real.pi) hIn hop (Real.sqrt_nonneg _)
  rw [Real.cos_sub_pi, Real.sin_sub_pi, mul_neg, mul_neg, ← hx, ← hy,
    show arctan2 y x - Real.pi - dir * Real.pi / 180 = arctan2 y x - dir * Real.pi / 180 - Real.pi by ring] at h
  exact h

/-! ### C39 -/

/-- The arguments `annular_segments` validates. -/
structure SegArgs (nSeg : ℤ) (rIn rOut : ℝ) (nx ny N : ℕ) (angOpen dTheta : ℝ) : Prop where
  seg : nSeg = 1 ∨ nSeg = 2
  rIn_pos : 0 < rIn
  rOut_pos : 0 < rOut
  nx_ge : 2 ≤ nx
  ny_ge : 1 ≤ ny
  sub_ge : 1 ≤ N
  open_nonneg : 0 ≤ angOpen
  dTheta_nonneg : 0 ≤ dTheta

/-- **C39.** Every accepted call with rotation below 360 degrees returns an array of the requested shape with values in
`[0, 1]`, equal to zero further than `√2` pixels outside the annulus. -/
theorem C39_range (nSeg : ℤ) (rIn rOut : ℝ) (nx ny N : ℕ) (xo yo angOpen angRot dTheta : ℝ)
    (h : SegArgs nSeg rIn rOut nx ny N angOpen dTheta) (hrot : angRot < 360) :
    ∃ v : ℝ → ℝ → ℝ, IsImage (annularSegments nSeg rIn rOut nx ny xo yo angOpen angRot N dTheta) nx ny xo yo v ∧
      (∀ x y, 0 ≤ v x y ∧ v x y ≤ 1) ∧
      (∀ x y, Real.sqrt (x ^ 2 + y ^ 2) > rOut + Real.sqrt 2 ∨ Real.sqrt (x ^ 2 + y ^ 2) < rIn - Real.sqrt 2 → v x y = 0) := by
  obtain ⟨h1, h2, h3, h4, h5, h6, h7, h8⟩ := h
  unfold annularSegments
  rw [if_neg (by omega), if_neg (by rintro (h | h | h | h | h | h | h) <;> first | omega | linarith), if_neg (by omega),
    if_neg (by simpa using hrot)]
  simp only [Int.toNat_natCast]
  rw [shapeAxis_dx nx xo h4, mul_one]
  split_ifs
  · refine ⟨_, isImage_of _ _ _ _ _ _ rfl, fun x y => antialiasVal_range _ _ _ _ _ _ _, fun x y hxy => antialiasVal_zero _ _ _ _ _ _ _ ?_⟩
    left
    rw [sq, sq] at hxy
    exact hxy
  · refine ⟨_, isImage_of _ _ _ _ _ _ rfl, fun x y => antialiasVal_range _ _ _ _ _ _ _, fun x y hxy => antialiasVal_zero _ _ _ _ _ _ _ ?_⟩
    left
    left
    rw [sq, sq] at hxy
    exact hxy

/-- **C39.** "Returns an array for every accepted opening" is false: with a rotation of 360 degrees or more every call that
passes validation dies with `UnboundLocalError` (the code tests the rotation where it means the opening angle). -/
theorem C39_full_turn_crashes (nSeg : ℤ) (rIn rOut : ℝ) (nx ny N : ℕ) (xo yo angOpen angRot dTheta : ℝ)
    (h : SegArgs nSeg rIn rOut nx ny N angOpen dTheta) (hrot : 360 ≤ angRot) :
    annularSegments nSeg rIn rOut nx ny xo yo angOpen angRot N dTheta = .error .unboundLocalError := by
  obtain ⟨h1, h2, h3, h4, h5, h6, h7, h8⟩ := h
  unfold annularSegments
  rw [if_neg (by omega), if_neg (by rintro (h | h | h | h | h | h | h) <;> first | omega | linarith), if_neg (by omega),
    if_pos (by push Not; exact hrot)]

example : SegArgs 2 2.8 9.5 60 60 11 65 5 := by
  constructor <;> norm_num

/-! ### C67 -/

/-- Specification: seen from the origin, `(x', y')` lies within `deg` degrees of `(x, y)`. -/
def SeenWithin (deg x y x' y' : ℝ) : Prop :=
  ∃ r δ : ℝ, 0 ≤ r ∧ |δ| ≤ deg * Real.pi / 180 ∧ x' = r * (x * Real.cos δ - y * Real.sin δ) ∧
    y' = r * (x * Real.sin δ + y * Real.cos δ)

theorem seen_polar (dt x y x' y' : ℝ) (hs : SeenWithin dt x y x' y') : ∃ δ R : ℝ, |δ| ≤ dt * Real.pi / 180 ∧
    Real.sqrt (x' ^ 2 + y' ^ 2) = R ∧ 0 ≤ R ∧ x' = R * Real.cos (arctan2 y x + δ) ∧ y' = R * Real.sin (arctan2 y x + δ) := by
  obtain ⟨r, δ, hr, hδ, hx', hy'⟩ := hs
  obtain ⟨hx, hy⟩ := polar x y
  set ρ := Real.sqrt (x ^ 2 + y ^ 2) with hρ
  set α := arctan2 y x
  have ex : x' = (r * ρ) * Real.cos (α + δ) := by
    rw [hx', Real.cos_add]
    linear_combination (r * Real.cos δ) * hx - (r * Real.sin δ) * hy
  have ey : y' = (r * ρ) * Real.sin (α + δ) := by
    rw [hy', Real.sin_add]
    linear_combination (r * Real.sin δ) * hx + (r * Real.cos δ) * hy
  have hl : Real.sqrt (x' ^ 2 + y' ^ 2) = r * ρ := by
    rw [ex, ey]
    exact sqrt_polar _ _ (mul_nonneg hr (Real.sqrt_nonneg _))
  exact ⟨δ, _, hδ, hl, mul_nonneg hr (Real.sqrt_nonneg _), ex, ey⟩

theorem abs_iff (a b : ℝ) : (a ≤ b ∧ a ≥ -b) ↔ |a| ≤ b := by
  rw [abs_le]; tauto

/-- Same direction up to the wrap: `wrapAngle (β - s)` against a shifted angle. -/
theorem wrap_shift (a δ s : ℝ) (op : ℝ) (h : |wrapAngle (a + δ - s)| ≤ op) (hδ : ∃ dt, |δ| ≤ dt ∧
    (wrapAngle (a - s) > op + dt ∨ wrapAngle (a - s) < -op - dt)) : False := by
  obtain ⟨dt, hδ, hcase⟩ := hδ
  have hpi := Real.pi_pos
  obtain ⟨c1, s1⟩ := wrap_cos_sin (a + δ - s)
  obtain ⟨c2, s2⟩ := wrap_cos_sin (a - s)
  obtain ⟨l1, u1⟩ := wrap_range (a - s)
  obtain ⟨l2, u2⟩ := wrap_range (a + δ - s)
  set p := wrapAngle (a + δ - s)
  set q := wrapAngle (a - s)
  have cc : Real.cos p = Real.cos (q + δ) := by
    rw [c1, Real.cos_add, c2, s2, ← Real.cos_add]; congr 1; ring
  have ss : Real.sin p = Real.sin (q + δ) := by
    rw [s1, Real.sin_add, c2, s2, ← Real.sin_add]; congr 1; ring
  rw [abs_le] at h hδ
  have := angle_unique p (q + δ) cc ss
    (by rcases hcase with hc | hc <;> linarith [h.1, h.2, hδ.1, hδ.2])
    (by rcases hcase with hc | hc <;> linarith [h.1, h.2, hδ.1, hδ.2])
  rcases hcase with hc | hc <;> linarith [h.1, h.2, hδ.1, hδ.2]

/-- Sub-pixel centres near a pixel centre well inside, or well outside, a radius. -/
theorem radial_sound (x y u v : ℝ) (hu : |u| < 1 / 2) (hv : |v| < 1 / 2) :
    |Real.sqrt ((x + u) ^ 2 + (y + v) ^ 2) - Real.sqrt (x ^ 2 + y ^ 2)| < Real.sqrt 2 := by
  have h1 := sqrt_add_le x y u v
  have h2 := sub_length u v hu hv
  have h3 := sqrt_add_le (x + u) (y + v) (-u) (-v)
  rw [neg_sq, neg_sq, add_neg_cancel_right, add_neg_cancel_right] at h3
  rw [abs_lt]; constructor <;> linarith

/-- Angular part of "pixel is inside": the sub-pixel is in the segment. -/
theorem wrap_inside (a δ s op dt : ℝ) (hδ : |δ| ≤ dt) (h1 : wrapAngle (a - s) < op - dt)
    (h2 : wrapAngle (a - s) > -op + dt) : |wrapAngle (a + δ - s)| ≤ op := by
  obtain ⟨c1, s1⟩ := wrap_cos_sin (a + δ - s)
  obtain ⟨c2, s2⟩ := wrap_cos_sin (a - s)
  obtain ⟨l2, u2⟩ := wrap_range (a + δ - s)
  have cc : Real.cos (wrapAngle (a + δ - s)) = Real.cos (wrapAngle (a - s) + δ) := by
    rw [c1, Real.cos_add, c2, s2, ← Real.cos_add]; congr 1; ring
  have ss : Real.sin (wrapAngle (a + δ - s)) = Real.sin (wrapAngle (a - s) + δ) := by
    rw [s1, Real.sin_add, c2, s2, ← Real.sin_add]; congr 1; ring
  rw [abs_le] at hδ
  by_cases hbig : Real.pi ≤ op
  · rw [abs_le]; constructor <;> linarith
  · push Not at hbig
    have := angle_unique _ _ cc ss (by linarith [hδ.1, hδ.2]) (by linarith [hδ.1, hδ.2])
    rw [this, abs_le]; constructor <;> linarith [hδ.1, hδ.2]

/-- **C67 (partial).** A pixel of `annular_segments` is exactly the fraction of its sub-pixel centres inside the segment(s),
at every pixel whose sub-pixel centres are all seen, from the centre of the annulus, within `dTheta` degrees of the pixel
centre.  Missing: pixels for which the padding `dTheta` is too small, where the property is false
(`C67_padding_too_small`). -/
theorem C67_exact_partial (nSeg : ℤ) (rIn rOut : ℝ) (nx ny N : ℕ) (xo yo angOpen angRot dTheta : ℝ)
    (h : SegArgs nSeg rIn rOut nx ny N angOpen dTheta) (hrot : angRot < 360) :
    ∃ o, annularSegments nSeg rIn rOut nx ny xo yo angOpen angRot N dTheta = .ok o ∧ ∀ k l : ℤ, Reaches ny nx k l →
      (∀ u v, SubOffset N u → SubOffset N v → SeenWithin dTheta (l - xo) (k - yo) (l - xo + u) (k - yo + v)) →
      o.centered k l = some (areaFraction N (inSegments nSeg rIn rOut angOpen angRot) (l - xo) (k - yo)) := by
  obtain ⟨h1, h2, h3, h4, h5, h6, h7, h8⟩ := h
  have hpi := Real.pi_pos
  unfold annularSegments
  rw [if_neg (by omega), if_neg (by rintro (h | h | h | h | h | h | h) <;> first | omega | linarith), if_neg (by omega),
    if_neg (by simpa using hrot)]
  simp only [Int.toNat_natCast]
  rw [shapeAxis_dx nx xo h4, mul_one]
  set t := angRot * Real.pi / 180 with ht
  set op := angOpen * Real.pi / 180 with hop
  set dt := dTheta * Real.pi / 180 with hdt
  split_ifs with hs
  · subst hs
    refine ⟨_, rfl, fun k l hr hsee => ?_⟩
    refine (raster_centered ny nx xo yo _ k l hr).trans ?_
    congr 1
    set x : ℝ := l - xo
    set y : ℝ := k - yo
    have hP : ∀ x y : ℝ, (((Real.sqrt (x ^ 2 + y ^ 2) ≤ rOut ∧ Real.sqrt (x ^ 2 + y ^ 2) ≥ rIn) ∧
        wrapAngle (arctan2 y x - t) ≤ op / 2) ∧ wrapAngle (arctan2 y x - t) ≥ -(op / 2)) ↔
        inSegments 1 rIn rOut angOpen angRot x y := by
      intro x y
      unfold inSegments
      rw [segment_code rIn rOut angOpen angRot x y h2 h7, and_assoc, abs_iff]
      norm_num
      tauto
    rw [antialiasVal_exact _ _ _ N h6]
    · exact areaFraction_congr N _ _ hP _ _
    · rintro u v ⟨⟨⟨i1, i2⟩, i3⟩, i4⟩ hu hv
      obtain ⟨δ, R, hδ, hR, hR0, ex, ey⟩ := seen_polar _ _ _ _ _ (hsee u v hu hv)
      have hrad := radial_sound x y u v hu.lt hv.lt
      rw [hR, abs_lt] at hrad
      rw [hP]
      left
      rw [ex, ey, segment_iff _ _ _ _ _ _ h2 h7 hR0]
      rw [← sq, ← sq] at i1 i2
      refine ⟨⟨by linarith [hrad.2], by linarith [hrad.1]⟩, ?_⟩
      exact wrap_inside _ δ t (op / 2) dt hδ i3 i4
    · rintro u v h0 hu hv hc
      obtain ⟨δ, R, hδ, hR, hR0, ex, ey⟩ := seen_polar _ _ _ _ _ (hsee u v hu hv)
      have hrad := radial_sound x y u v hu.lt hv.lt
      rw [hR, abs_lt] at hrad
      rw [hP] at hc
      rcases hc with hc | ⟨hc, -⟩
      · rw [ex, ey, segment_iff _ _ _ _ _ _ h2 h7 hR0] at hc
        rw [← sq, ← sq] at h0
        rcases h0 with (h0 | h0) | h0
        · linarith [hrad.1, hc.1.1]
        · linarith [hrad.2, hc.1.2]
        · exact wrap_shift _ δ t (op / 2) hc.2 ⟨dt, hδ, h0⟩
      · norm_num at hc
  · have hs2 : nSeg = 2 := by omega
    subst hs2
    refine ⟨_, rfl, fun k l hr hsee => ?_⟩
    refine (raster_centered ny nx xo yo _ k l hr).trans ?_
    congr 1
    set x : ℝ := l - xo
    set y : ℝ := k - yo
    have hP : ∀ x y : ℝ, ((Real.sqrt (x ^ 2 + y ^ 2) ≤ rOut ∧ Real.sqrt (x ^ 2 + y ^ 2) ≥ rIn) ∧
        ((wrapAngle (arctan2 y x - t) ≤ op / 2 ∧ wrapAngle (arctan2 y x - t) ≥ -(op / 2)) ∨
        (wrapAngle (arctan2 y x - t - Real.pi) ≤ op / 2 ∧ wrapAngle (arctan2 y x - t - Real.pi) ≥ -(op / 2)))) ↔
        inSegments 2 rIn rOut angOpen angRot x y := by
      intro x y
      unfold inSegments
      rw [segment_code rIn rOut angOpen angRot x y h2 h7, segment_code_opposite rIn rOut angOpen angRot x y h2 h7, abs_iff, abs_iff]
      tauto
    have opp : ∀ ρ β : ℝ, 0 ≤ ρ → (inSegment rIn rOut angOpen angRot (-(ρ * Real.cos β)) (-(ρ * Real.sin β)) ↔
        (ρ ≤ rOut ∧ rIn ≤ ρ) ∧ |wrapAngle (β - (t + Real.pi))| ≤ op / 2) := by
      intro ρ β hρ
      have := segment_iff rIn rOut angOpen angRot ρ (β - Real.pi) h2 h7 hρ
      rw [Real.cos_sub_pi, Real.sin_sub_pi, mul_neg, mul_neg,
        show β - Real.pi - angRot * Real.pi / 180 = β - (t + Real.pi) by rw [ht]; ring] at this
      exact this
    have e180 : ∀ a : ℝ, a - t - Real.pi = a - (t + Real.pi) := fun a => by ring
    rw [antialiasVal_exact _ _ _ N h6]
    · exact areaFraction_congr N _ _ hP _ _
    · rintro u v ⟨⟨i1, i2⟩, i3⟩ hu hv
      obtain ⟨δ, R, hδ, hR, hR0, ex, ey⟩ := seen_polar _ _ _ _ _ (hsee u v hu hv)
      have hrad := radial_sound x y u v hu.lt hv.lt
      rw [hR, abs_lt] at hrad
      rw [hP]
      rw [← sq, ← sq] at i1 i2
      rcases i3 with ⟨i3, i4⟩ | ⟨i3, i4⟩
      · left
        rw [ex, ey, segment_iff _ _ _ _ _ _ h2 h7 hR0]
        exact ⟨⟨by linarith [hrad.2], by linarith [hrad.1]⟩, wrap_inside _ δ t (op / 2) dt hδ i3 i4⟩
      · right
        refine ⟨rfl, ?_⟩
        rw [e180] at i3 i4
        rw [ex, ey, opp _ _ hR0]
        exact ⟨⟨by linarith [hrad.2], by linarith [hrad.1]⟩, wrap_inside _ δ _ (op / 2) dt hδ i3 i4⟩
    · rintro u v h0 hu hv hc
      obtain ⟨δ, R, hδ, hR, hR0, ex, ey⟩ := seen_polar _ _ _ _ _ (hsee u v hu hv)
      have hrad := radial_sound x y u v hu.lt hv.lt
      rw [hR, abs_lt] at hrad
      rw [hP] at hc
      rw [← sq, ← sq] at h0
      set α := arctan2 y x with hα
      -- the wrapped angle relative to the opposite direction differs by half a turn
      have hdt' := hδ
      rw [abs_le] at hdt'
      obtain ⟨c1, s1⟩ := wrap_cos_sin (α - t)
      obtain ⟨c2, s2⟩ := wrap_cos_sin (α - t - Real.pi)
      rcases hc with hc | ⟨-, hc⟩
      · rw [ex, ey, segment_iff _ _ _ _ _ _ h2 h7 hR0] at hc
        rcases h0 with ((h0 | h0) | h0) | h0
        · linarith [hrad.1, hc.1.1]
        · linarith [hrad.2, hc.1.2]
        · exact wrap_shift _ δ t (op / 2) hc.2 ⟨dt, hδ, Or.inl h0.1⟩
        · obtain ⟨c3, s3⟩ := wrap_cos_sin (α + δ - t)
          have hh := hc.2
          rw [← ht] at hh
          rw [abs_le] at hh
          have := angle_unique (wrapAngle (α + δ - t)) (wrapAngle (α - t - Real.pi) + δ - Real.pi)
            (by rw [c3, Real.cos_sub_pi, Real.cos_add, c2, s2, ← Real.cos_add, ← Real.cos_sub_pi, ← Real.cos_add_two_pi (α - t - Real.pi + δ - Real.pi)]
                congr 1; ring)
            (by rw [s3, Real.sin_sub_pi, Real.sin_add, c2, s2, ← Real.sin_add, ← Real.sin_sub_pi, ← Real.sin_add_two_pi (α - t - Real.pi + δ - Real.pi)]
                congr 1; ring)
            (by linarith [hh.1, hh.2]) (by linarith [hh.1, hh.2])
          linarith [hh.1, hh.2]
      · rw [ex, ey, opp _ _ hR0] at hc
        rcases h0 with ((h0 | h0) | h0) | h0
        · linarith [hrad.1, hc.1.1]
        · linarith [hrad.2, hc.1.2]
        · obtain ⟨c3, s3⟩ := wrap_cos_sin (α + δ - (t + Real.pi))
          have hh := hc.2
          rw [abs_le] at hh
          have := angle_unique (wrapAngle (α + δ - (t + Real.pi))) (wrapAngle (α - t) + δ - Real.pi)
            (by rw [c3, Real.cos_sub_pi, Real.cos_add, c1, s1, ← Real.cos_add, ← Real.cos_sub_pi]
                congr 1; ring)
            (by rw [s3, Real.sin_sub_pi, Real.sin_add, c1, s1, ← Real.sin_add, ← Real.sin_sub_pi]
                congr 1; ring)
            (by linarith [hh.1, hh.2]) (by linarith [hh.1, hh.2])
          linarith [hh.1, hh.2]
        · rw [e180] at h0
          exact wrap_shift _ δ _ (op / 2) hc.2 ⟨dt, hδ, Or.inl h0.1⟩

/-- **C67.** The full property is false even with the default padding of 5 degrees: close to a small inner radius the padding
is too small.  With a 90 degree opening, the pixel at `(1.2 √3, 1.2)` (direction 30 degrees) is rendered as fully inside
although its upper left corner is beyond 45 degrees. -/
theorem C67_padding_too_small : ¬ ∀ (rIn rOut : ℝ) (nx ny N : ℕ) (xo yo angOpen angRot : ℝ),
    SegArgs 1 rIn rOut nx ny N angOpen 5 → angRot < 360 →
    IsImage (annularSegments 1 rIn rOut nx ny xo yo angOpen angRot N 5) nx ny xo yo
      (areaFraction N (inSegments 1 rIn rOut angOpen angRot)) := by
  intro H
  have hargs : SegArgs 1 (1 / 2) 20 2 2 11 90 5 := by constructor <;> norm_num
  obtain ⟨o, ho, -, -, hpx⟩ := H (1 / 2) 20 2 2 11 (-(1.2 * Real.sqrt 3)) (-1.2) 90 0 hargs (by norm_num)
  have hv := hpx 0 0 (by unfold Reaches; norm_num)
  have hpi := Real.pi_pos
  have q1 : Real.sqrt 3 ≤ 1.74 := Real.sqrt_le_iff.mpr ⟨by norm_num, by norm_num⟩
  have q0 : 0 ≤ Real.sqrt 3 := Real.sqrt_nonneg 3
  have q2 : Real.sqrt 2 ≤ 1.42 := Real.sqrt_le_iff.mpr ⟨by norm_num, by norm_num⟩
  have q3 : 0 ≤ Real.sqrt 2 := Real.sqrt_nonneg 2
  have hxe : ((0 : ℤ) : ℝ) - -(1.2 * Real.sqrt 3) = 2.4 * Real.cos (Real.pi / 6) := by
    rw [Real.cos_pi_div_six]; push_cast; ring
  have hye : ((0 : ℤ) : ℝ) - -1.2 = 2.4 * Real.sin (Real.pi / 6) := by
    rw [Real.sin_pi_div_six]; norm_num
  have hone : o.centered 0 0 = some 1 := by
    unfold annularSegments at ho
    rw [if_neg (by norm_num), if_neg (by norm_num), if_neg (by norm_num), if_neg (by norm_num)] at ho
    simp only [Int.toNat_natCast, if_true] at ho
    rw [shapeAxis_dx 2 _ le_rfl, mul_one] at ho
    obtain rfl := Except.ok.inj ho
    refine (raster_centered 2 2 _ _ _ 0 0 (by unfold Reaches; norm_num)).trans ?_
    congr 1
    rw [hxe, hye]
    set x := 2.4 * Real.cos (Real.pi / 6) with hx
    set y := 2.4 * Real.sin (Real.pi / 6) with hy
    have hl : Real.sqrt (x * x + y * y) = 2.4 := by
      rw [← sq, ← sq, hx, hy]; exact sqrt_polar _ _ (by norm_num)
    have hth : wrapAngle (arctan2 y x - 0 * Real.pi / 180) = Real.pi / 6 := by
      obtain ⟨c1, s1⟩ := wrap_cos_sin (arctan2 y x - 0 * Real.pi / 180)
      obtain ⟨l1, u1⟩ := wrap_range (arctan2 y x - 0 * Real.pi / 180)
      obtain ⟨p1, p2⟩ := polar x y
      rw [sq, sq, hl] at p1 p2
      have hc : Real.cos (arctan2 y x) = Real.cos (Real.pi / 6) := by
        have := hx.symm.trans p1; linarith
      have hs : Real.sin (arctan2 y x) = Real.sin (Real.pi / 6) := by
        have := hy.symm.trans p2; linarith
      refine angle_unique _ _ ?_ ?_ (by linarith) (by linarith)
      · rw [c1, ← hc]; congr 1; ring
      · rw [s1, ← hs]; congr 1; ring
    refine antialiasVal_one _ _ _ _ _ _ _ ?_ ?_
    · rw [hl, hth]
      refine ⟨⟨⟨?_, ?_⟩, ?_⟩, ?_⟩ <;> linarith
    · rw [hl, hth]
      rintro ((h | h) | (h | h)) <;> linarith
  rw [hone] at hv
  have hv' := Option.some.inj hv
  have hlt : areaFraction 11 (inSegments 1 (1 / 2) 20 90 0) (((0 : ℤ) : ℝ) - -(1.2 * Real.sqrt 3)) (((0 : ℤ) : ℝ) - -1.2) < 1 := by
    clear hv hv' hone hpx ho H
    classical
    unfold areaFraction
    have hcard : (Finset.univ.filter fun s : Fin 11 × Fin 11 => inSegments 1 (1 / 2) 20 90 0
        (((0 : ℤ) : ℝ) - -(1.2 * Real.sqrt 3) + (((s.2 : ℕ) + 1 / 2 : ℝ) / (11 : ℕ) - 1 / 2))
        (((0 : ℤ) : ℝ) - -1.2 + (((s.1 : ℕ) + 1 / 2 : ℝ) / (11 : ℕ) - 1 / 2))).card < 121 := by
      have : (Finset.univ : Finset (Fin 11 × Fin 11)).card = 121 := by simp
      rw [← this]
      refine Finset.card_lt_card ?_
      rw [Finset.filter_ssubset]
      refine ⟨(10, 0), Finset.mem_univ _, ?_⟩
      rintro (⟨ρ, φ, h1, h2, h3, hx, hy⟩ | ⟨h, -⟩)
      · have e : (0 + φ) * Real.pi / 180 = φ * Real.pi / 180 := by ring
        rw [e] at hx hy
        rw [abs_le] at h3
        set f := φ * Real.pi / 180 with hf
        clear this
        have f1 : f ≤ Real.pi / 4 := by
          have := mul_le_mul_of_nonneg_right h3.2 hpi.le
          linarith
        have f2 : -(Real.pi / 4) ≤ f := by
          have := mul_le_mul_of_nonneg_right h3.1 hpi.le
          linarith
        have hs := Real.sin_nonneg_of_nonneg_of_le_pi (x := Real.pi / 4 - f) (by linarith) (by linarith)
        rw [Real.sin_sub, Real.sin_pi_div_four, Real.cos_pi_div_four] at hs
        have q4 : 0 < Real.sqrt 2 := Real.sqrt_pos.mpr (by norm_num)
        have hcs : Real.sin f ≤ Real.cos f := by nlinarith
        have hle : ρ * Real.sin f ≤ ρ * Real.cos f := mul_le_mul_of_nonneg_left hcs (by linarith)
        rw [← hx, ← hy] at hle
        norm_num at hle
        linarith
      · norm_num at h
    rw [div_lt_one (by norm_num)]
    have : ((11 : ℕ) : ℝ) ^ 2 = ((121 : ℕ) : ℝ) := by norm_num
    rw [this]
    exact_mod_cast hcard
  linarith

/-- The hypothesis of `C67_exact_partial` is met in a concrete case: for one sub-pixel per pixel the only sub-pixel centre
is the pixel centre. -/
example (x y : ℝ) : ∀ u v, SubOffset 1 u → SubOffset 1 v → SeenWithin 5 x y (x + u) (y + v) := by
  rintro u v ⟨s, hs, rfl⟩ ⟨s', hs', rfl⟩
  have : s = 0 := by omega
  subst this
  have : s' = 0 := by omega
  subst this
  have hpi := Real.pi_pos
  refine ⟨1, 0, by norm_num, by simp; positivity, ?_, ?_⟩ <;> simp

theorem abs_arctan_le (t : ℝ) : |Real.arctan t| ≤ |t| := by
  have key : ∀ t : ℝ, 0 ≤ t → |Real.arctan t| ≤ |t| := by
    intro t ht
    have h0 : 0 ≤ Real.arctan t := Real.arctan_nonneg.mpr ht
    have := Real.le_tan h0 (Real.arctan_lt_pi_div_two t)
    rw [Real.tan_arctan] at this
    rwa [abs_of_nonneg h0, abs_of_nonneg ht]
  rcases le_total 0 t with ht | ht
  · exact key t ht
  · have := key (-t) (by linarith)
    rwa [Real.arctan_neg, abs_neg, abs_neg] at this

/-- A less trivial one: twenty pixels from the centre every sub-pixel, however fine, is seen within the default five
degrees. -/
example (N : ℕ) : ∀ u v, SubOffset N u → SubOffset N v → SeenWithin 5 20 0 (20 + u) (0 + v) := by
  intro u v hu hv
  have hu' := hu.lt
  have hv' := hv.lt
  rw [abs_lt] at hu'
  have hp : 0 < 20 + u := by linarith
  set t := v / (20 + u) with ht
  have hq : 0 < 1 + t ^ 2 := by positivity
  have hs : Real.sqrt (1 + t ^ 2) ≠ 0 := (Real.sqrt_pos.mpr hq).ne'
  refine ⟨(20 + u) * Real.sqrt (1 + t ^ 2) / 20, Real.arctan t, by positivity, ?_, ?_, ?_⟩
  · refine (abs_arctan_le t).trans ?_
    have h1 : |t| ≤ 1 / 39 := by
      rw [ht, abs_div, abs_of_pos hp, div_le_iff₀ hp]
      linarith
    have := Real.pi_gt_three
    linarith
  · rw [Real.cos_arctan]; field_simp; ring
  · rw [Real.sin_arctan, ht]; field_simp; ring

end Coralign.Props
