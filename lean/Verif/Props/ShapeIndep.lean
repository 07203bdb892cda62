import Verif.Props.ShapeEdges
import Verif.Props.Pupil
import Verif.Props.RectProper
import Verif.Props.PadCrop

/-!
# Property C96: the picture of a shape does not depend on the array it is drawn in
-/

namespace Coralign.Props

open Coralign Coralign.Spec

/-- Specification, for a generator `g nx ny xOffset yOffset` that accepts arrays with at least `mx` columns and `my` rows: moving the shape by whole
pixels moves the picture, and the size of the array only says how much of the picture is kept. -/
def SamePicture (g : ℕ → ℕ → ℝ → ℝ → Res (Arr2 ℝ)) (mx my : ℕ) : Prop :=
  ∀ (nx ny nx' ny' : ℕ) (xo yo : ℝ) (a b : ℤ), mx ≤ nx → my ≤ ny → mx ≤ nx' → my ≤ ny' →
    ∃ o o', g nx ny xo yo = .ok o ∧ g nx' ny' (xo + a) (yo + b) = .ok o' ∧
      ∀ k l : ℤ, Reaches ny nx k l → Reaches ny' nx' (k + b) (l + a) → o'.centered (k + b) (l + a) = o.centered k l

/-- Specification: drawing in a smaller array is drawing in a larger one and cropping with `pad_crop`. -/
def CropsAlike (g : ℕ → ℕ → ℝ → ℝ → Res (Arr2 ℝ)) (mx my : ℕ) : Prop :=
  ∀ (nx ny nx' ny' : ℕ) (xo yo ev : ℝ), mx ≤ nx' → my ≤ ny' → nx' ≤ nx → ny' ≤ ny → 1 ≤ nx' → 1 ≤ ny' →
    (g nx ny xo yo >>= fun o => padCrop o [(ny' : ℤ), (nx' : ℤ)] ev) = g nx' ny' xo yo

theorem samePicture_of {g : ℕ → ℕ → ℝ → ℝ → Res (Arr2 ℝ)} {mx my : ℕ} (v : ℝ → ℝ → ℝ)
    (h : ∀ nx ny xo yo, mx ≤ nx → my ≤ ny → IsImage (g nx ny xo yo) nx ny xo yo v) : SamePicture g mx my ∧ CropsAlike g mx my := by
  constructor
  · intro nx ny nx' ny' xo yo a b h1 h2 h3 h4
    obtain ⟨o, ho, -, -, hv⟩ := h nx ny xo yo h1 h2
    obtain ⟨o', ho', -, -, hv'⟩ := h nx' ny' (xo + a) (yo + b) h3 h4
    refine ⟨o, o', ho, ho', fun k l hr hr' => ?_⟩
    rw [hv k l hr, hv' _ _ hr']
    push_cast
    congr 2 <;> ring
  · intro nx ny nx' ny' xo yo ev h1 h2 h3 h4 h5 h6
    obtain ⟨o, ho, e1, e2, hv⟩ := h nx ny xo yo (by omega) (by omega)
    rw [ho, res_ok_bind]
    obtain ⟨c, hc, c1, c2, hcv⟩ := C01_pad_crop_registered o ny' nx' ev (by omega) (by omega)
    refine IsImage.eq (v := v) (v' := v) ⟨c, hc, c1, c2, fun k l hr => ?_⟩ (h nx' ny' xo yo h1 h2) fun _ _ => rfl
    have hr' : Reaches ny nx k l := by
      unfold Reaches at hr ⊢
      omega
    rw [hcv k l hr, hv k l hr']

/-- **C96.** `circle`. -/
theorem C96_circle (N : ℕ) (hN : 1 ≤ N) (radius : ℝ) (hr : 0 < radius) (isDark : Bool) :
    SamePicture (fun nx ny xo yo => circle nx ny radius xo yo N isDark) 2 1 ∧ CropsAlike (fun nx ny xo yo => circle nx ny radius xo yo N isDark) 2 1 :=
  samePicture_of _ fun nx ny xo yo hx hy => C36_circle_exact nx ny N hx hy hN radius xo yo hr isDark

/-- **C96.** `rectangle`. -/
theorem C96_rectangle (N : ℕ) (hN : 1 ≤ N) (w h rot : ℝ) (hw : 0 < w) (hh : 0 < h) (isDark : Bool) :
    SamePicture (fun nx ny xo yo => rectangle nx ny w h xo yo rot N isDark) 2 1 ∧
    CropsAlike (fun nx ny xo yo => rectangle nx ny w h xo yo rot N isDark) 2 1 :=
  samePicture_of _ fun nx ny xo yo hx hy => C37_rectangle_exact nx ny N hx hy hN w h xo yo rot hw hh isDark

/-- **C96.** `rect_proper`. -/
theorem C96_rect_proper (N : ℕ) (hN : 1 ≤ N) (w h rot : ℝ) (hw : 0 < w) (hh : 0 < h) (isDark : Bool) :
    SamePicture (fun nx ny xo yo => rectProper nx ny w h xo yo rot N isDark) 1 1 ∧
    CropsAlike (fun nx ny xo yo => rectProper nx ny w h xo yo rot N isDark) 1 1 :=
  samePicture_of _ fun nx ny xo yo hx hy => C86_exact nx ny N hx hy hN w h xo yo rot hw hh isDark

/-- **C96.** `simple_pupil`. -/
theorem C96_pupil (N : ℕ) (hN : 1 ≤ N) (dInner dOuter width : ℝ) (angles : List ℝ) (hi : 0 ≤ dInner) (hio : dInner < dOuter) (hw : 0 ≤ width) :
    SamePicture (fun nx ny xo yo => simplePupil nx ny xo yo dInner dOuter angles width N) 2 1 ∧
    CropsAlike (fun nx ny xo yo => simplePupil nx ny xo yo dInner dOuter angles width N) 2 1 :=
  samePicture_of _ fun nx ny xo yo hx hy => C40_pupil_exact nx ny N hx hy hN xo yo dInner dOuter width angles hi hio hw

theorem annular_raster (nSeg : ℤ) (rIn rOut : ℝ) (N : ℕ) (angOpen angRot dTheta : ℝ) (hrot : angRot < 360) (hs : nSeg = 1 ∨ nSeg = 2) :
    ∃ is1 is0 P : ℝ → ℝ → Prop, ∀ nx ny xo yo, SegArgs nSeg rIn rOut nx ny N angOpen dTheta →
      annularSegments nSeg rIn rOut nx ny xo yo angOpen angRot N dTheta =
        .ok (antialias ny nx (shapeAxis nx xo) (shapeAxis ny yo) is1 is0 P N (1 / (N : ℝ))) := by
  rcases hs with rfl | rfl
  · apply Exists.intro
    apply Exists.intro
    apply Exists.intro
    intro nx ny xo yo h
    obtain ⟨h1, h2, h3, h4, h5, h6, h7, h8⟩ := h
    unfold annularSegments
    rw [if_neg (by omega), if_neg (by rintro (h | h | h | h | h | h | h) <;> first | omega | linarith), if_neg (by omega),
      if_neg (by simpa using hrot)]
    simp only [Int.toNat_natCast]
    rw [shapeAxis_dx nx xo h4, mul_one, if_pos trivial]
  · apply Exists.intro
    apply Exists.intro
    apply Exists.intro
    intro nx ny xo yo h
    obtain ⟨h1, h2, h3, h4, h5, h6, h7, h8⟩ := h
    unfold annularSegments
    rw [if_neg (by omega), if_neg (by rintro (h | h | h | h | h | h | h) <;> first | omega | linarith), if_neg (by omega),
      if_neg (by simpa using hrot)]
    simp only [Int.toNat_natCast]
    rw [shapeAxis_dx nx xo h4, mul_one, if_neg (by norm_num)]

/-- **C96.** `annular_segments`, with one segment or two. -/
theorem C96_annular (nSeg : ℤ) (rIn rOut : ℝ) (N : ℕ) (hN : 1 ≤ N) (angOpen angRot dTheta : ℝ) (hrot : angRot < 360) (hs : nSeg = 1 ∨ nSeg = 2)
    (h1 : 0 < rIn) (h2 : 0 < rOut) (h3 : 0 ≤ angOpen) (h4 : 0 ≤ dTheta) :
    SamePicture (fun nx ny xo yo => annularSegments nSeg rIn rOut nx ny xo yo angOpen angRot N dTheta) 2 1 ∧
    CropsAlike (fun nx ny xo yo => annularSegments nSeg rIn rOut nx ny xo yo angOpen angRot N dTheta) 2 1 := by
  obtain ⟨is1, is0, P, h⟩ := annular_raster nSeg rIn rOut N angOpen angRot dTheta hrot hs
  refine samePicture_of (antialiasVal is1 is0 P N (1 / (N : ℝ))) fun nx ny xo yo hx hy => isImage_of _ _ _ _ _ _ ?_
  rw [h nx ny xo yo ⟨hs, h1, h2, hx, hy, hN, h3, h4⟩]
  rfl

/-! ### The ellipse -/

theorem antialiasVal_mid (is1 is0 P : ℝ → ℝ → Prop) (N : ℕ) (d x y : ℝ) (h1 : ¬ is1 x y) (h0 : ¬ is0 x y) :
    antialiasVal is1 is0 P N d x y = subMean N d P x y := by
  unfold antialiasVal
  simp only [h0, h1, if_false, if_true]

/-- The value of a pixel of `ellipse` within the window of the edge is the fraction of its sub-pixels. -/
theorem ellipse_fraction (nx ny N : ℕ) (hx : 2 ≤ nx) (hy : 2 ≤ ny) (hN : 1 ≤ N) (rx ry rot xo yo : ℝ) (h1 : 0 < rx) (h2 : 0 < ry) (k l : ℤ)
    (hr : Reaches ny nx k l)
    (hlo : 0.5 - ellipseWindow rx ry ((Real.pi / 180) * rot) (shapeAxis nx xo) (shapeAxis ny yo) ≤ ellipseRho rx ry ((Real.pi / 180) * rot) (l - xo) (k - yo))
    (hhi : ellipseRho rx ry ((Real.pi / 180) * rot) (l - xo) (k - yo) ≤ 0.5 + ellipseWindow rx ry ((Real.pi / 180) * rot) (shapeAxis nx xo) (shapeAxis ny yo)) :
    ∃ o, ellipse nx ny rx ry rot xo yo N false = .ok o ∧ o.centered k l = some (areaFraction N (inEllipse rx ry rot) (l - xo) (k - yo)) := by
  refine ⟨_, ellipse_core nx ny N hx hy hN rx ry rot xo yo h1 h2 false, ?_⟩
  refine (raster_centered ny nx xo yo _ k l hr).trans ?_
  congr 1
  rw [antialiasVal_mid, subMean_eq]
  · exact areaFraction_congr N _ _ (fun x y => ellipseRho_le_iff rx ry rot x y) _ _
  · rw [abs_of_nonneg (ellipseRho_nonneg _ _ _ _ _)]; linarith
  · rw [abs_of_nonneg (ellipseRho_nonneg _ _ _ _ _)]; linarith

/-- **C96.** For `ellipse` the property is false: the window in which edge pixels are refined is estimated at the corner of the array.  The unit circle
centred between four pixels fills them in a `2 × 2` array and does not in a `4 × 4` array. -/
theorem C96_ellipse_depends_on_array : ¬ ∀ (N : ℕ) (rx ry rot : ℝ), 1 ≤ N → 0 < rx → 0 < ry →
    SamePicture (fun nx ny xo yo => ellipse nx ny rx ry rot xo yo N false) 2 2 := by
  intro H
  obtain ⟨o, o', ho, ho', hv⟩ := H 2 1 1 0 (by norm_num) one_pos one_pos 2 2 4 4 (-(1 / 2)) (-(1 / 2)) 0 0 le_rfl le_rfl (by norm_num) (by norm_num)
  have h0 := hv 0 0 (by unfold Reaches; norm_num) (by unfold Reaches; norm_num)
  obtain ⟨p, hp, hone⟩ := unit_ellipse_one
  simp only [Int.cast_zero, add_zero] at ho ho' h0
  rw [hp] at ho
  obtain rfl := Except.ok.inj ho
  have a2 : Real.sqrt 2 ≤ 1.42 := Real.sqrt_le_iff.mpr ⟨by norm_num, by norm_num⟩
  have p2 : 0 < Real.sqrt 2 := Real.sqrt_pos.mpr (by norm_num)
  have w : (0.25 : ℝ) ≤ ellipseWindow 1 1 ((Real.pi / 180) * 0) (shapeAxis 4 (-(1 / 2))) (shapeAxis 4 (-(1 / 2))) := by
    unfold ellipseWindow
    refine le_trans ?_ (le_max_left _ _)
    rw [shapeAxis_eq 4 _ 0 (by norm_num), shapeAxis_eq 4 _ 1 (by norm_num)]
    unfold ellipseRho
    simp only [mul_zero, Real.cos_zero, Real.sin_zero]
    norm_num
    have a9 : Real.sqrt 9 = 3 := by rw [show (9 : ℝ) = 3 ^ 2 by norm_num]; exact Real.sqrt_sq (by norm_num)
    have a5 : Real.sqrt 5 ≤ 2.24 := Real.sqrt_le_iff.mpr ⟨by norm_num, by norm_num⟩
    rw [a9, abs_sub_comm, ← mul_sub, ← sub_div]
    refine le_trans ?_ (le_abs_self _)
    have : 1 / 2 ≤ (3 - Real.sqrt 5) / Real.sqrt 2 := by
      rw [le_div_iff₀ p2]; linarith
    linarith
  obtain ⟨q, hq, hfr⟩ := ellipse_fraction 4 4 2 (by norm_num) (by norm_num) (by norm_num) 1 1 0 (-(1 / 2)) (-(1 / 2)) one_pos one_pos 0 0
    (by unfold Reaches; norm_num) (by
      refine (sub_le_sub_left w _).trans ?_
      unfold ellipseRho
      simp only [mul_zero, Real.cos_zero, Real.sin_zero]
      norm_num
      have : (1.42 : ℝ)⁻¹ ≤ (Real.sqrt 2)⁻¹ := inv_anti₀ p2 a2
      norm_num at this
      linarith) (by
      refine le_trans ?_ (add_le_add_right w _)
      unfold ellipseRho
      simp only [mul_zero, Real.cos_zero, Real.sin_zero]
      norm_num
      have : (Real.sqrt 2)⁻¹ ≤ 1⁻¹ := inv_anti₀ one_pos (Real.one_le_sqrt.mpr (by norm_num))
      norm_num at this
      linarith)
  rw [ho'] at hq
  obtain rfl := Except.ok.inj hq
  rw [hone, hfr] at h0
  linarith [unit_ellipse_fraction, Option.some.inj h0]

theorem corner_step (p q h m u v : ℝ) (hp : 0 ≤ p) (hpq : p ≤ q) (hm : 0 ≤ m) (hmh : m ≤ h) (h4 : 4 * h * m ≤ 2 * h - 1) (hu : |u| ≤ m) (hv : |v| ≤ m) :
    Real.sqrt (p * u ^ 2 + q * v ^ 2) ≤ Real.sqrt (p * h ^ 2 + q * h ^ 2) - Real.sqrt (p * h ^ 2 + q * (h - 1) ^ 2) := by
  set S := Real.sqrt (p + q) with hS
  have hS0 : 0 ≤ S := Real.sqrt_nonneg _
  have hS2 : S ^ 2 = p + q := Real.sq_sqrt (by linarith)
  have hu2 : u ^ 2 ≤ m ^ 2 := sq_le_sq' (by linarith [(abs_le.mp hu).1]) (abs_le.mp hu).2
  have hv2 : v ^ 2 ≤ m ^ 2 := sq_le_sq' (by linarith [(abs_le.mp hv).1]) (abs_le.mp hv).2
  have e1 : Real.sqrt (p * u ^ 2 + q * v ^ 2) ≤ m * S := by
    refine Real.sqrt_le_iff.mpr ⟨by positivity, ?_⟩
    rw [mul_pow, hS2]
    nlinarith [mul_le_mul_of_nonneg_left hu2 hp, mul_le_mul_of_nonneg_left hv2 (hp.trans hpq)]
  have e2 : Real.sqrt (p * h ^ 2 + q * h ^ 2) = h * S := by
    rw [show p * h ^ 2 + q * h ^ 2 = h ^ 2 * (p + q) by ring, Real.sqrt_mul (sq_nonneg _), Real.sqrt_sq (by linarith)]
  have e3 : Real.sqrt (p * h ^ 2 + q * (h - 1) ^ 2) ≤ (h - m) * S := by
    refine Real.sqrt_le_iff.mpr ⟨mul_nonneg (by linarith) hS0, ?_⟩
    rw [mul_pow, hS2]
    have k1 : (2 * h * m - m ^ 2) * (p + q) ≤ (2 * h * m - m ^ 2) * (2 * q) := by
      refine mul_le_mul_of_nonneg_left (by linarith) ?_
      nlinarith
    have k2 : q * (4 * h * m) ≤ q * (2 * h - 1) := mul_le_mul_of_nonneg_left h4 (hp.trans hpq)
    nlinarith [mul_nonneg (hp.trans hpq) (sq_nonneg m)]
  rw [e2]
  linarith

theorem subOffset_le {N : ℕ} {u : ℝ} (hN : 1 ≤ N) (h : SubOffset N u) : |u| ≤ (1 - 1 / (N : ℝ)) / 2 := by
  obtain ⟨s, hs, rfl⟩ := h
  have hNr : (0 : ℝ) < N := by exact_mod_cast hN
  have hs' : (s : ℝ) + 1 ≤ N := by exact_mod_cast hs
  have hs0 : (0 : ℝ) ≤ s := by positivity
  have e : ((s : ℝ) + 1 / 2) / N = s / N + 1 / N / 2 := by ring
  have h1 : (s : ℝ) / N + 1 / N ≤ 1 := by
    rw [← add_div, div_le_one hNr]; exact hs'
  have h2 : 0 ≤ (s : ℝ) / N := by positivity
  rw [e, abs_le]
  constructor <;> linarith

/-- **C38 (partial).** In particular `ellipse` is exact for every unrotated ellipse centred in a square array at least as wide as the number of
sub-pixels, whatever its semi-axes.  Missing: rotated or displaced ellipses outside the condition of `C38_ellipse_exact_partial`. -/
theorem C38_centred_partial (n N : ℕ) (hn : 2 ≤ n) (hN : 1 ≤ N) (hbig : N ≤ 2 * (n / 2)) (rx ry : ℝ) (h1 : 0 < rx) (h2 : 0 < ry) (isDark : Bool) :
    IsImage (ellipse n n rx ry 0 0 0 N isDark) n n 0 0 (fun x y => tone isDark (areaFraction N (inEllipse rx ry 0) x y)) := by
  refine ellipse_exact_of_window n n N hn hn hN rx ry 0 0 0 h1 h2 isDark fun u v hu hv => ?_
  set h : ℝ := ((n / 2 : ℕ) : ℝ) with hh
  have hNr : (0 : ℝ) < N := by exact_mod_cast hN
  have hhN : (N : ℝ) ≤ 2 * h := by rw [hh]; exact_mod_cast hbig
  have hh1 : 1 ≤ h := by
    rw [hh]
    have : 1 ≤ n / 2 := by omega
    exact_mod_cast this
  have rho : ∀ x y : ℝ, ellipseRho rx ry ((Real.pi / 180) * 0) x y = 0.5 * Real.sqrt (1 / rx ^ 2 * x ^ 2 + 1 / ry ^ 2 * y ^ 2) := by
    intro x y
    unfold ellipseRho
    simp only [mul_zero, Real.cos_zero, Real.sin_zero]
    congr 2
    ring
  unfold ellipseWindow
  rw [shapeAxis_eq n 0 0 (by omega), shapeAxis_eq n 0 1 (by omega), ← hh]
  simp only [rho]
  set m : ℝ := (1 - 1 / (N : ℝ)) / 2 with hm
  have hN1 : 1 / (N : ℝ) ≤ 1 := by
    rw [div_le_one hNr]; exact_mod_cast hN
  have hinv : 0 < 1 / (N : ℝ) := by positivity
  have h4 : 4 * h * m ≤ 2 * h - 1 := by
    have : 1 ≤ 2 * h * (1 / (N : ℝ)) := by
      rw [mul_one_div, le_div_iff₀ hNr]; linarith
    rw [hm]; linarith
  have hu' : |u| ≤ m := subOffset_le hN hu
  have hv' : |v| ≤ m := subOffset_le hN hv
  have hp : 0 ≤ 1 / rx ^ 2 := by positivity
  have hq : 0 ≤ 1 / ry ^ 2 := by positivity
  push_cast
  rcases le_total (1 / rx ^ 2) (1 / ry ^ 2) with hc | hc
  · refine le_trans ?_ (le_max_left _ _)
    have := corner_step _ _ h m u v hp hc (by linarith) (by linarith) h4 hu' hv'
    rw [abs_sub_comm]
    refine le_trans ?_ (le_abs_self _)
    rw [show (0 - h - 0) ^ 2 = h ^ 2 by ring, show (1 - h - 0) ^ 2 = (h - 1) ^ 2 by ring]
    linarith
  · refine le_trans ?_ (le_max_right _ _)
    have := corner_step _ _ h m v u hq hc (by linarith) (by linarith) h4 hv' hu'
    rw [abs_sub_comm]
    refine le_trans ?_ (le_abs_self _)
    rw [show (0 - h - 0) ^ 2 = h ^ 2 by ring, show (1 - h - 0) ^ 2 = (h - 1) ^ 2 by ring]
    rw [add_comm (1 / ry ^ 2 * v ^ 2), add_comm (1 / ry ^ 2 * h ^ 2), add_comm (1 / ry ^ 2 * h ^ 2)] at this
    linarith

/-- The default of 100 sub-pixels on a `101 × 101` array. -/
example : (2 : ℕ) ≤ 101 ∧ (100 : ℕ) ≤ 2 * (101 / 2) := by norm_num

/-- **C96 (partial).** `ellipse` without rotation and displacement, in square arrays at least as wide as the number of sub-pixels: drawing in the smaller
array is cropping the larger.  Missing: the other ellipses, for which it is false in general (`C96_ellipse_depends_on_array`). -/
theorem C96_ellipse_partial (n n' N : ℕ) (hn : 2 ≤ n') (hle : n' ≤ n) (hN : 1 ≤ N) (hbig : N ≤ 2 * (n' / 2)) (rx ry ev : ℝ) (h1 : 0 < rx) (h2 : 0 < ry)
    (isDark : Bool) :
    (ellipse n n rx ry 0 0 0 N isDark >>= fun o => padCrop o [(n' : ℤ), (n' : ℤ)] ev) = ellipse n' n' rx ry 0 0 0 N isDark := by
  obtain ⟨o, ho, e1, e2, hv⟩ := C38_centred_partial n N (by omega) hN (by omega) rx ry h1 h2 isDark
  rw [ho, res_ok_bind]
  obtain ⟨c, hc, c1, c2, hcv⟩ := C01_pad_crop_registered o n' n' ev (by omega) (by omega)
  refine IsImage.eq ⟨c, hc, c1, c2, fun k l hr => ?_⟩ (C38_centred_partial n' N hn hN hbig rx ry h1 h2 isDark) fun _ _ => rfl
  have hr' : Reaches n n k l := by
    unfold Reaches at hr ⊢
    omega
  rw [hcv k l hr, hv k l hr']

end Coralign.Props
