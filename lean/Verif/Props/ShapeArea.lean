import Verif.Lemmas.Area
import Verif.Props.RectProper

/-!
# Properties C36, C37, C38 and C86: distance of the antialiased values from the covered area
-/

namespace Coralign.Props

open Coralign Coralign.Spec

theorem rect_closed (w h rot : ℝ) : IsClosed {p : ℝ × ℝ | inRect w h rot p.1 p.2} := by
  have h1 : IsClosed {p : ℝ × ℝ | |turnedX rot p.1 p.2| ≤ w / 2} := isClosed_le (by unfold turnedX; fun_prop) (by fun_prop)
  have h2 : IsClosed {p : ℝ × ℝ | |turnedY rot p.1 p.2| ≤ h / 2} := isClosed_le (by unfold turnedY; fun_prop) (by fun_prop)
  exact h1.inter h2

theorem rect_convex (w h rot : ℝ) : Convex ℝ {p : ℝ × ℝ | inRect w h rot p.1 p.2} := by
  rintro ⟨x, y⟩ ⟨hp1, hp2⟩ ⟨x', y'⟩ ⟨hq1, hq2⟩ a b ha hb hab
  unfold turnedX at hp1 hq1
  unfold turnedY at hp2 hq2
  show inRect w h rot (a • x + b • x') (a • y + b • y')
  unfold inRect turnedX turnedY
  simp only [smul_eq_mul] at *
  rw [abs_le] at *
  refine ⟨⟨?_, ?_⟩, ?_⟩
  · nlinarith [mul_nonneg ha (sub_nonneg.mpr hp1.1), mul_nonneg hb (sub_nonneg.mpr hq1.1)]
  · nlinarith [mul_nonneg ha (sub_nonneg.mpr hp1.2), mul_nonneg hb (sub_nonneg.mpr hq1.2)]
  · rw [abs_le]
    constructor
    · nlinarith [mul_nonneg ha (sub_nonneg.mpr hp2.1), mul_nonneg hb (sub_nonneg.mpr hq2.1)]
    · nlinarith [mul_nonneg ha (sub_nonneg.mpr hp2.2), mul_nonneg hb (sub_nonneg.mpr hq2.2)]

theorem ellipse_closed (rx ry rot : ℝ) : IsClosed {p : ℝ × ℝ | inEllipse rx ry rot p.1 p.2} :=
  isClosed_le (by unfold turnedX turnedY; fun_prop) (by fun_prop)

theorem ellipse_convex (rx ry rot : ℝ) : Convex ℝ {p : ℝ × ℝ | inEllipse rx ry rot p.1 p.2} := by
  rintro ⟨x, y⟩ hp ⟨x', y'⟩ hq a b ha hb hab
  show inEllipse rx ry rot (a • x + b • x') (a • y + b • y')
  have hp' : (turnedX rot x y / rx) ^ 2 + (turnedY rot x y / ry) ^ 2 ≤ 1 := hp
  have hq' : (turnedX rot x' y' / rx) ^ 2 + (turnedY rot x' y' / ry) ^ 2 ≤ 1 := hq
  unfold inEllipse
  have e1 : turnedX rot (a • x + b • x') (a • y + b • y') / rx = a * (turnedX rot x y / rx) + b * (turnedX rot x' y' / rx) := by
    unfold turnedX; simp only [smul_eq_mul]; ring
  have e2 : turnedY rot (a • x + b • x') (a • y + b • y') / ry = a * (turnedY rot x y / ry) + b * (turnedY rot x' y' / ry) := by
    unfold turnedY; simp only [smul_eq_mul]; ring
  rw [e1, e2]
  generalize turnedX rot x y / rx = p at *
  generalize turnedY rot x y / ry = q at *
  generalize turnedX rot x' y' / rx = p' at *
  generalize turnedY rot x' y' / ry = q' at *
  have hb' : b = 1 - a := by linarith
  subst hb'
  nlinarith [mul_nonneg ha hb, mul_nonneg (mul_nonneg ha hb) (sq_nonneg (p - p')), mul_nonneg (mul_nonneg ha hb) (sq_nonneg (q - q')),
    mul_nonneg ha (sub_nonneg.mpr hp'), mul_nonneg hb (sub_nonneg.mpr hq')]

theorem disc_ellipse (r : ℝ) (hr : 0 < r) : inDisc r = inEllipse r r 0 := by
  funext x y
  apply propext
  unfold inDisc inEllipse turnedX turnedY
  rw [zero_mul, zero_div, Real.cos_zero, Real.sin_zero, mul_one, mul_one, mul_zero, mul_zero, add_zero, sub_zero, div_pow, div_pow, ← add_div,
    div_le_one (by positivity)]

/-- The values `v` of an image are within `e` of the area of the figure in each pixel (of the rest of the pixel for a dark figure). -/
def WithinArea (r : Res (Arr2 ℝ)) (nx ny : ℤ) (xo yo : ℝ) (P : ℝ → ℝ → Prop) (isDark : Bool) (e : ℝ) : Prop :=
  ∃ o, r = .ok o ∧ (o.nr : ℤ) = ny ∧ (o.nc : ℤ) = nx ∧ ∀ k l : ℤ, Reaches ny nx k l →
    ∃ v, o.centered k l = some v ∧ |v - (if isDark then 1 - pixelArea P (l - xo) (k - yo) else pixelArea P (l - xo) (k - yo))| ≤ e

theorem withinArea_of {r : Res (Arr2 ℝ)} {nx ny : ℤ} {xo yo : ℝ} {isDark : Bool} {f : ℝ → ℝ → ℝ} {P : ℝ → ℝ → Prop} {e : ℝ}
    (h : IsImage r nx ny xo yo fun x y => tone isDark (f x y)) (hf : ∀ x y, |f x y - pixelArea P x y| ≤ e) :
    WithinArea r nx ny xo yo P isDark e := by
  obtain ⟨o, ho, h1, h2, h3⟩ := h
  refine ⟨o, ho, h1, h2, fun k l hr => ⟨_, h3 k l hr, ?_⟩⟩
  have := hf (l - xo) (k - yo)
  unfold tone
  cases isDark
  · simpa using this
  · simp only [if_true]
    rw [show 1 - f (l - xo) (k - yo) - (1 - pixelArea P (l - xo) (k - yo)) = -(f (l - xo) (k - yo) - pixelArea P (l - xo) (k - yo)) by ring, abs_neg]
    exact this

/-- **C86.** Every pixel of the scan-converted rectangle is within `1 / nSubpixels` of the area of the rectangle in it. -/
theorem C86_area (nx ny N : ℕ) (hx : 1 ≤ nx) (hy : 1 ≤ ny) (hN : 1 ≤ N) (w h xo yo rot : ℝ) (hw : 0 < w) (hh : 0 < h) (isDark : Bool) :
    WithinArea (rectProper nx ny w h xo yo rot N isDark) nx ny xo yo (inRect w h rot) isDark (1 / N) :=
  withinArea_of (C86_exact nx ny N hx hy hN w h xo yo rot hw hh isDark) fun x y => strip_area N hN (rect_closed w h rot) (rect_convex w h rot) x y

/-- **C37.** Every pixel of `rectangle` is within `2 / nSubpixels` of the area of the rectangle in it. -/
theorem C37_area (nx ny N : ℕ) (hx : 2 ≤ nx) (hy : 1 ≤ ny) (hN : 1 ≤ N) (w h xo yo rot : ℝ) (hw : 0 < w) (hh : 0 < h) (isDark : Bool) :
    WithinArea (rectangle nx ny w h xo yo rot N isDark) nx ny xo yo (inRect w h rot) isDark (2 / N) :=
  withinArea_of (C37_rectangle_exact nx ny N hx hy hN w h xo yo rot hw hh isDark) fun x y =>
    fraction_area N hN (rect_closed w h rot) (rect_convex w h rot) x y

/-- **C36.** Every pixel of `circle` is within `2 / nSubpixels` of the area of the disc in it. -/
theorem C36_area (nx ny N : ℕ) (hx : 2 ≤ nx) (hy : 1 ≤ ny) (hN : 1 ≤ N) (radius xo yo : ℝ) (hr : 0 < radius) (isDark : Bool) :
    WithinArea (circle nx ny radius xo yo N isDark) nx ny xo yo (inDisc radius) isDark (2 / N) :=
  withinArea_of (C36_circle_exact nx ny N hx hy hN radius xo yo hr isDark) fun x y => by
    rw [disc_ellipse radius hr]
    exact fraction_area N hN (ellipse_closed _ _ _) (ellipse_convex _ _ _) x y

/-- **C86.** The two rectangle functions agree to within `1 / nSubpixels` on every array both accept. -/
theorem C86_rectangle (nx ny N : ℕ) (hx : 2 ≤ nx) (hy : 1 ≤ ny) (hN : 1 ≤ N) (w h xo yo rot : ℝ) (hw : 0 < w) (hh : 0 < h) (isDark : Bool) :
    ∃ o o', rectProper nx ny w h xo yo rot N isDark = .ok o ∧ rectangle nx ny w h xo yo rot N isDark = .ok o' ∧
      ∀ k l : ℤ, Reaches ny nx k l → ∃ v v', o.centered k l = some v ∧ o'.centered k l = some v' ∧ |v - v'| ≤ 1 / N := by
  obtain ⟨o, ho, -, -, h1⟩ := C86_exact nx ny N (by omega) hy hN w h xo yo rot hw hh isDark
  obtain ⟨o', ho', -, -, h2⟩ := C37_rectangle_exact nx ny N hx hy hN w h xo yo rot hw hh isDark
  refine ⟨o, o', ho, ho', fun k l hr => ⟨_, _, h1 k l hr, h2 k l hr, ?_⟩⟩
  have := fraction_strip N hN (rect_closed w h rot) (rect_convex w h rot) (l - xo) (k - yo)
  rw [abs_sub_comm] at this
  unfold tone
  cases isDark
  · simpa using this
  · simp only [if_true]
    rw [sub_sub_sub_cancel_left, abs_sub_comm]
    exact this

example : (1 : ℕ) ≤ 1 ∧ (2 : ℕ) ≤ 100 ∧ (1 : ℕ) ≤ 10 ∧ (0 : ℝ) < 20.5 ∧ (0 : ℝ) < 3.25 := by norm_num

end Coralign.Props
