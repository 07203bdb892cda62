import Verif.Props.Pupil
import Verif.Props.PatternSymmetry

/-!
# C125, continued: mirrored and transposed shapes with antialiased edges
-/

namespace Coralign.Props

open Coralign Coralign.Spec Finset

/-- Specification: an angle, counted from the first axis to the second, as seen mirrored or transposed. -/
noncomputable def Flip.angle (f : Flip) (a : ℝ) : ℝ := match f with
  | .mirror => 180 - a
  | .transpose => 90 - a

/-- A displacement as seen mirrored or transposed. -/
def Flip.dir (f : Flip) (x y : ℝ) : ℝ × ℝ := match f with
  | .mirror => (-x, y)
  | .transpose => (y, x)

theorem image_on_flip (f : Flip) (r r' : Res (Arr2 ℝ)) (nx ny : ℕ) (xo yo : ℝ) (v v' : ℝ → ℝ → ℝ) (h : IsImage r nx ny xo yo v)
    (h' : IsImage r' (f.sizes ny nx).2 (f.sizes ny nx).1 (f.point nx xo yo).1 (f.point nx xo yo).2 v') (hv : ∀ x y, v' x y = v (f.dir x y).1 (f.dir x y).2) :
    r' = r.map f.on := by
  obtain ⟨o, rfl, a1, a2, a3⟩ := h
  obtain ⟨q, rfl, b1, b2, b3⟩ := h'
  show Except.ok _ = Except.ok (f.on o)
  congr 1
  cases f with
  | mirror =>
    have b1 : (q.nr : ℤ) = ny := b1
    have b2 : (q.nc : ℤ) = nx := b2
    refine Arr2.ext_px (show q.nr = o.nr by omega) (show q.nc = o.nc by omega) fun i j h1 h2 h3 h4 => ?_
    have e1 := a3 (i - (ny : ℤ) / 2) ((nx : ℤ) - 1 - j - (nx : ℤ) / 2) (by unfold Reaches; omega)
    have e2 := b3 (i - (ny : ℤ) / 2) (j - (nx : ℤ) / 2) (by show Reaches (ny : ℤ) (nx : ℤ) _ _; unfold Reaches; omega)
    rw [hv] at e2
    have t : (Flip.mirror.dir (((j - (nx : ℤ) / 2 : ℤ) : ℝ) - (Flip.mirror.point nx xo yo).1) (((i - (ny : ℤ) / 2 : ℤ) : ℝ) - (Flip.mirror.point nx xo yo).2)) =
        ((((nx : ℤ) - 1 - j - (nx : ℤ) / 2 : ℤ) : ℝ) - xo, ((i - (ny : ℤ) / 2 : ℤ) : ℝ) - yo) := by
      refine Prod.ext ?_ rfl
      show -(((j - (nx : ℤ) / 2 : ℤ) : ℝ) - mirroredCoord nx xo) = _
      unfold mirroredCoord
      split
      · have : (nx : ℤ) - 1 - j - (nx : ℤ) / 2 = -(j - (nx : ℤ) / 2) - 1 := by omega
        rw [this]; push_cast; ring
      · have : (nx : ℤ) - 1 - j - (nx : ℤ) / 2 = -(j - (nx : ℤ) / 2) := by omega
        rw [this]; push_cast; ring
    rw [t] at e2
    rw [← e1] at e2
    unfold Arr2.centered at e2
    rw [a1, a2, b1, b2] at e2
    show _ = o.fliplr.px i j
    rw [fliplr_px]
    convert e2 using 2 <;> omega
  | transpose =>
    have b1 : (q.nr : ℤ) = nx := b1
    have b2 : (q.nc : ℤ) = ny := b2
    refine Arr2.ext_px (show q.nr = o.nc by omega) (show q.nc = o.nr by omega) fun i j h1 h2 h3 h4 => ?_
    have e1 := a3 (j - (ny : ℤ) / 2) (i - (nx : ℤ) / 2) (by unfold Reaches; omega)
    have e2 := b3 (i - (nx : ℤ) / 2) (j - (ny : ℤ) / 2) (by show Reaches (nx : ℤ) (ny : ℤ) _ _; unfold Reaches; omega)
    rw [hv] at e2
    have e2 : q.centered (i - (nx : ℤ) / 2) (j - (ny : ℤ) / 2) = some (v (((i - (nx : ℤ) / 2 : ℤ) : ℝ) - xo) (((j - (ny : ℤ) / 2 : ℤ) : ℝ) - yo)) := e2
    rw [← e1] at e2
    unfold Arr2.centered at e2
    rw [a1, a2, b1, b2] at e2
    show _ = o.tr.px i j
    rw [tr_px]
    convert e2 using 2 <;> omega

theorem area_flip (f : Flip) (N : ℕ) (P Q : ℝ → ℝ → Prop) (h : ∀ x y, Q x y ↔ P (f.dir x y).1 (f.dir x y).2) (x y : ℝ) :
    areaFraction N Q x y = areaFraction N P (f.dir x y).1 (f.dir x y).2 := by
  classical
  unfold areaFraction
  congr 2
  cases f with
  | mirror =>
    refine card_equiv ((Equiv.refl _).prodCongr Fin.revPerm) fun s => ?_
    simp only [mem_filter, mem_univ, true_and]
    rw [h]
    show P (-(x + _)) _ ↔ P (-x + ((((Fin.rev s.2 : Fin N) : ℕ) + 1 / 2 : ℝ) / N - 1 / 2)) _
    have hN : (N : ℝ) ≠ 0 := by
      have := s.2.isLt
      exact_mod_cast (by omega : N ≠ 0)
    have : (((Fin.rev s.2 : Fin N) : ℕ) : ℝ) = N - 1 - (s.2 : ℕ) := by
      have := rev_real s.2
      exact_mod_cast this
    rw [this, show -(x + (((s.2 : ℕ) + 1 / 2 : ℝ) / N - 1 / 2)) = -x + (((N : ℝ) - 1 - (s.2 : ℕ) + 1 / 2) / N - 1 / 2) by field_simp; ring]
    rfl
  | transpose =>
    refine card_equiv (Equiv.prodComm _ _) fun s => ?_
    simp only [mem_filter, mem_univ, true_and]
    rw [h]
    rfl

theorem disc_dir (f : Flip) (r x y : ℝ) : inDisc r x y ↔ inDisc r (f.dir x y).1 (f.dir x y).2 := by
  cases f with
  | mirror => show _ ↔ (-x) ^ 2 + y ^ 2 ≤ r ^ 2; rw [neg_sq]; rfl
  | transpose => show _ ↔ y ^ 2 + x ^ 2 ≤ r ^ 2; rw [add_comm]; rfl

theorem rect_dir (f : Flip) (w h a x y : ℝ) : inRect w h (f.angle a) x y ↔ inRect w h a (f.dir x y).1 (f.dir x y).2 := by
  unfold inRect turnedX turnedY
  cases f with
  | mirror =>
    show (|x * Real.cos ((180 - a) * Real.pi / 180) + y * Real.sin ((180 - a) * Real.pi / 180)| ≤ _ ∧ |y * Real.cos ((180 - a) * Real.pi / 180) - x * Real.sin ((180 - a) * Real.pi / 180)| ≤ _) ↔
      (|(-x) * _ + y * _| ≤ _ ∧ |y * _ - (-x) * _| ≤ _)
    rw [show (180 - a) * Real.pi / 180 = Real.pi - a * Real.pi / 180 by ring, Real.cos_pi_sub, Real.sin_pi_sub, ← abs_neg (y * -Real.cos (a * Real.pi / 180) - _)]
    ring_nf
  | transpose =>
    show (|x * Real.cos ((90 - a) * Real.pi / 180) + y * Real.sin ((90 - a) * Real.pi / 180)| ≤ _ ∧ |y * Real.cos ((90 - a) * Real.pi / 180) - x * Real.sin ((90 - a) * Real.pi / 180)| ≤ _) ↔
      (|y * _ + x * _| ≤ _ ∧ |x * _ - y * _| ≤ _)
    rw [show (90 - a) * Real.pi / 180 = Real.pi / 2 - a * Real.pi / 180 by ring, Real.cos_pi_div_two_sub, Real.sin_pi_div_two_sub,
      abs_sub_comm (y * Real.sin (a * Real.pi / 180)), add_comm (x * _)]

/-- **C125.** The disc drawn with its offset mirrored, or with sizes and offsets exchanged, is the mirrored or transposed one, with all its grey edge pixels. -/
theorem C125_circle (f : Flip) (nx ny N : ℕ) (hx : 2 ≤ nx) (hy : 2 ≤ ny) (hN : 1 ≤ N) (radius xo yo : ℝ) (hr : 0 < radius) (isDark : Bool) :
    circle (f.sizes ny nx).2 (f.sizes ny nx).1 radius (f.point nx xo yo).1 (f.point nx xo yo).2 N isDark = (circle nx ny radius xo yo N isDark).map f.on := by
  refine image_on_flip f _ _ nx ny xo yo _ _ (C36_circle_exact nx ny N hx (by omega) hN radius xo yo hr isDark)
    (C36_circle_exact _ _ N (by cases f; exacts [hx, hy]) (by cases f; exacts [le_trans one_le_two hy, le_trans one_le_two hx]) hN radius _ _ hr isDark) fun x y => ?_
  rw [area_flip f N _ _ (disc_dir f radius)]

/-- **C125.** The same for rectangles, turned by any angle. -/
theorem C125_rectangle (f : Flip) (nx ny N : ℕ) (hx : 2 ≤ nx) (hy : 2 ≤ ny) (hN : 1 ≤ N) (w h xo yo rot : ℝ) (hw : 0 < w) (hh : 0 < h) (isDark : Bool) :
    rectangle (f.sizes ny nx).2 (f.sizes ny nx).1 w h (f.point nx xo yo).1 (f.point nx xo yo).2 (f.angle rot) N isDark =
      (rectangle nx ny w h xo yo rot N isDark).map f.on := by
  refine image_on_flip f _ _ nx ny xo yo _ _ (C37_rectangle_exact nx ny N hx (by omega) hN w h xo yo rot hw hh isDark)
    (C37_rectangle_exact _ _ N (by cases f; exacts [hx, hy]) (by cases f; exacts [le_trans one_le_two hy, le_trans one_le_two hx]) hN w h _ _ _ hw hh isDark) fun x y => ?_
  rw [area_flip f N _ _ (rect_dir f w h rot)]

theorem strut_dir (f : Flip) (N : ℕ) (d w a x y : ℝ) : strutClear N d w (f.angle a) x y = strutClear N d w a (f.dir x y).1 (f.dir x y).2 := by
  unfold strutClear
  rw [area_flip f N _ _ (rect_dir f (0.6 * d) w a)]
  cases f with
  | mirror =>
    show 1 - areaFraction N _ (-(x - Real.cos ((180 - a) * Real.pi / 180) * (0.6 * d) / 2)) (y - Real.sin ((180 - a) * Real.pi / 180) * (0.6 * d) / 2) =
      1 - areaFraction N _ (-x - _) (y - _)
    rw [show (180 - a) * Real.pi / 180 = Real.pi - a * Real.pi / 180 by ring, Real.cos_pi_sub, Real.sin_pi_sub]
    congr 2
    ring
  | transpose =>
    show 1 - areaFraction N _ (y - Real.sin ((90 - a) * Real.pi / 180) * (0.6 * d) / 2) (x - Real.cos ((90 - a) * Real.pi / 180) * (0.6 * d) / 2) =
      1 - areaFraction N _ (y - _) (x - _)
    rw [show (90 - a) * Real.pi / 180 = Real.pi / 2 - a * Real.pi / 180 by ring, Real.cos_pi_div_two_sub, Real.sin_pi_div_two_sub]

/-- **C125.** The same for a pupil with a central obscuration and any number of struts. -/
theorem C125_pupil (f : Flip) (nx ny N : ℕ) (hx : 2 ≤ nx) (hy : 2 ≤ ny) (hN : 1 ≤ N) (xo yo dInner dOuter width : ℝ) (angles : List ℝ) (hi : 0 ≤ dInner)
    (hio : dInner < dOuter) (hw : 0 ≤ width) :
    simplePupil (f.sizes ny nx).2 (f.sizes ny nx).1 (f.point nx xo yo).1 (f.point nx xo yo).2 dInner dOuter (angles.map f.angle) width N =
      (simplePupil nx ny xo yo dInner dOuter angles width N).map f.on := by
  refine image_on_flip f _ _ nx ny xo yo _ _ (C40_pupil_exact nx ny N hx (by omega) hN xo yo dInner dOuter width angles hi hio hw)
    (C40_pupil_exact _ _ N (by cases f; exacts [hx, hy]) (by cases f; exacts [le_trans one_le_two hy, le_trans one_le_two hx]) hN _ _ dInner dOuter width _ hi hio hw) fun x y => ?_
  unfold pupilValue
  rw [area_flip f N _ _ (disc_dir f _), area_flip f N (fun x y => 0 < dInner ∧ inDisc (dInner / 2) x y) (fun x y => 0 < dInner ∧ inDisc (dInner / 2) x y)
    (fun x y => and_congr_right fun _ => disc_dir f _ x y), List.map_map]
  congr 2
  refine List.map_congr_left fun a _ => ?_
  show (if 0 < width then strutClear N dOuter width (f.angle a) x y else 1) = _
  rw [strut_dir]

/-! ### Ellipses -/

theorem rho_swap (rx ry a x y : ℝ) : ellipseRho rx ry (Real.pi / 2 - a) x y = ellipseRho rx ry a y x := by
  unfold ellipseRho
  rw [Real.cos_pi_div_two_sub, Real.sin_pi_div_two_sub]
  ring_nf

theorem subMean_swap (N : ℕ) (d : ℝ) (P : ℝ → ℝ → Prop) (x y : ℝ) : subMean N d (fun x y => P y x) x y = subMean N d P y x := by
  classical
  unfold subMean
  rw [sum_comm]

/-- **C125.** The ellipse with sizes and offsets exchanged, turned to the complement of its angle, is exactly the transposed one, whatever its window; the same
arguments are refused. -/
theorem C125_ellipse_transposed (nx ny : ℤ) (rx ry rot xo yo : ℝ) (N : ℤ) (isDark : Bool) :
    ellipse ny nx rx ry (90 - rot) yo xo N isDark = (ellipse nx ny rx ry rot xo yo N isDark).map Arr2.tr := by
  unfold ellipse
  by_cases h1 : nx ≤ 0 ∨ ny ≤ 0 ∨ rx ≤ 0 ∨ ry ≤ 0 ∨ N ≤ 0
  · rw [if_pos h1, if_pos (by tauto)]; rfl
  rw [if_neg h1, if_neg (by tauto)]
  by_cases h2 : nx = 1 ∨ ny = 1
  · rw [if_pos h2, if_pos (by tauto)]; rfl
  rw [if_neg h2, if_neg (by tauto)]
  simp only [Except.map]
  have hx : 2 ≤ nx.toNat := by omega
  have hy : 2 ≤ ny.toNat := by omega
  have hw : ellipseWindow rx ry (Real.pi / 180 * (90 - rot)) (shapeAxis ny.toNat yo) (shapeAxis nx.toNat xo) =
      ellipseWindow rx ry (Real.pi / 180 * rot) (shapeAxis nx.toNat xo) (shapeAxis ny.toNat yo) := by
    unfold ellipseWindow
    rw [show Real.pi / 180 * (90 - rot) = Real.pi / 2 - Real.pi / 180 * rot by ring]
    simp only [rho_swap]
    exact max_comm _ _
  rw [hw, shapeAxis_dx _ _ hx, shapeAxis_dx _ _ hy, show Real.pi / 180 * (90 - rot) = Real.pi / 2 - Real.pi / 180 * rot by ring]
  simp only [rho_swap]
  have key : ∀ a b c : ℝ → ℝ → Prop, antialias nx.toNat ny.toNat (shapeAxis ny.toNat yo) (shapeAxis nx.toNat xo) (fun x y => a y x) (fun x y => b y x) (fun x y => c y x) N.toNat
      (1 / (N.toNat : ℝ)) = (antialias ny.toNat nx.toNat (shapeAxis nx.toNat xo) (shapeAxis ny.toNat yo) a b c N.toNat (1 / (N.toNat : ℝ))).tr := by
    intro a b c
    unfold antialias Arr2.tr antialiasVal
    simp only [subMean_swap]
  rw [← show (darken isDark (antialias ny.toNat nx.toNat (shapeAxis nx.toNat xo) (shapeAxis ny.toNat yo) _ _ _ N.toNat (1 / (N.toNat : ℝ)))).tr = _ from rfl]
  cases isDark
  · exact congrArg Except.ok (key (fun x y => |ellipseRho rx ry (Real.pi / 180 * rot) x y| < 0.5 - _) (fun x y => |ellipseRho rx ry (Real.pi / 180 * rot) x y| > 0.5 + _)
      (fun x y => ellipseRho rx ry (Real.pi / 180 * rot) x y ≤ 0.5))
  · exact congrArg (fun a : Arr2 ℝ => Except.ok (a.map fun v => 1 - v)) (key (fun x y => |ellipseRho rx ry (Real.pi / 180 * rot) x y| < 0.5 - _)
      (fun x y => |ellipseRho rx ry (Real.pi / 180 * rot) x y| > 0.5 + _) (fun x y => ellipseRho rx ry (Real.pi / 180 * rot) x y ≤ 0.5))

/-! ### Cases -/

/-- A pupil of even and odd size with two struts, off centre, as seen mirrored: 41 degrees becomes 139, and the offset moves by the pixel that an even axis has more. -/
example : (Flip.mirror.sizes 11 12 = (11, 12)) ∧ (Flip.mirror.point 12 1.5 2).1 = -2.5 ∧ (Flip.mirror.point 11 1.5 2).1 = -1.5 ∧ Flip.mirror.angle 41 = 139 ∧
    Flip.transpose.sizes 11 12 = (12, 11) ∧ Flip.transpose.angle 41 = 49 ∧ (2 : ℕ) ≤ 12 ∧ (2 : ℕ) ≤ 11 ∧ (0 : ℝ) ≤ 2 ∧ (2 : ℝ) < 9 := by
  refine ⟨rfl, ?_, ?_, ?_, rfl, ?_, by norm_num, by norm_num, by norm_num, by norm_num⟩ <;> simp only [Flip.point, Flip.angle, mirroredCoord] <;> norm_num

end Coralign.Props
