import Verif.Props.Center
import Verif.Props.Quad
import Verif.Props.ShapeEdges
import Verif.Props.Pupil
import Verif.Props.RectProper
import Verif.Props.ConjugateOutside

/-!
# Property C95: the shapes are centred where they were asked for

The shape generators of `coralign/util/shapes.py` and the measuring functions `center_of_energy` (`util/center.py`) and
`quadrant_energy_balance` (`util/quad.py`) use the same convention for the centre of an array.
-/

namespace Coralign.Props

open Coralign Coralign.Spec

/-- Specification: the figure, displaced by `(xo, yo)`, keeps clear of every pixel outside the `ny × nx` array. -/
def FitsArray (nx ny : ℤ) (xo yo : ℝ) (P : ℝ → ℝ → Prop) : Prop :=
  ∀ k l : ℤ, ¬ Reaches ny nx k l → PixelOutside P (l - xo) (k - yo)

/-- Specification: `r` is an image that, unless it is blank, has its centre of energy exactly at the centre pixel (`nx // 2`, `ny // 2`) displaced by
`(xo, yo)`; and if that point is a pixel, both quadrant balances about it are exactly zero, for every radius. -/
def CentredAt (r : Res (Arr2 ℝ)) (nx ny : ℤ) (xo yo : ℝ) : Prop :=
  ∃ o, r = .ok o ∧
    ((∃ i j, o.val i j ≠ 0) → centerOfEnergy o = some (((nx / 2 : ℤ) : ℝ) + xo, ((ny / 2 : ℤ) : ℝ) + yo)) ∧
    ∀ ox oy : ℤ, (ox : ℝ) = ((nx / 2 : ℤ) : ℝ) + xo → (oy : ℝ) = ((ny / 2 : ℤ) : ℝ) + yo →
      ∀ (radius : ℝ) (d : ℝ × ℝ), quadrantEnergyBalance o ox oy radius = .ok (some d) → d = (0, 0)

/-- `a` is unchanged by the half-turn about the point `(sx / 2, sy / 2)`. -/
def HalfTurn (a : Arr2 ℝ) (sy sx : ℤ) : Prop := ∀ i j, a.zext (sy - i) (sx - j) = a.zext i j

theorem halfTurn_sum {a : Arr2 ℝ} {sy sx : ℤ} (h : HalfTurn a sy sx) (g : ℤ → ℤ → ℝ) :
    ∑ i : Fin a.nr, ∑ j : Fin a.nc, g (i : ℕ) (j : ℕ) * a.val i j =
      ∑ i : Fin a.nr, ∑ j : Fin a.nc, g (sy - (i : ℕ)) (sx - (j : ℕ)) * a.val i j := by
  let e : ℤ × ℤ ≃ ℤ × ℤ := (Equiv.subLeft sy).prodCongr (Equiv.subLeft sx)
  rw [Arr2.sum_eq_finsum a (fun i j v => g i j * v) (by simp),
    Arr2.sum_eq_finsum a (fun i j v => g (sy - i) (sx - j) * v) (by simp), ← finsum_comp_equiv e]
  refine finsum_congr fun p => ?_
  show g (sy - p.1) (sx - p.2) * a.zext (sy - p.1) (sx - p.2) = _
  rw [h]

theorem halfTurn_centre {a : Arr2 ℝ} {sy sx : ℤ} (h : HalfTurn a sy sx) (he : energy a ≠ 0) :
    centerOfEnergy a = some ((sx : ℝ) / 2, (sy : ℝ) / 2) := by
  obtain ⟨x, y, hxy, hx, hy⟩ := C10_weighted_mean a he
  have split : ∀ (c : ℝ) (w : Fin a.nr → Fin a.nc → ℝ), ∑ i, ∑ j, (c - w i j) * a.val i j = c * energy a - ∑ i, ∑ j, w i j * a.val i j := by
    intro c w
    unfold energy
    simp only [Finset.mul_sum, sub_mul, Finset.sum_sub_distrib]
  have h1 := halfTurn_sum h (fun _ j => (j : ℝ))
  have h2 := halfTurn_sum h (fun i _ => (i : ℝ))
  simp only [Int.cast_sub, Int.cast_natCast] at h1 h2
  rw [split _ (fun _ j => ((j : ℕ) : ℝ))] at h1
  rw [split _ (fun i _ => ((i : ℕ) : ℝ))] at h2
  unfold colMoment at hx
  unfold rowMoment at hy
  rw [hxy]
  have ex : x = (sx : ℝ) / 2 := by
    have : (2 * x - sx) * energy a = 0 := by linarith
    rcases mul_eq_zero.mp this with h | h
    · linarith
    · exact absurd h he
  have ey : y = (sy : ℝ) / 2 := by
    have : (2 * y - sy) * energy a = 0 := by linarith
    rcases mul_eq_zero.mp this with h | h
    · linarith
    · exact absurd h he
  rw [ex, ey]

theorem discEnergy_halfTurn {a : Arr2 ℝ} {ox oy : ℤ} (h : HalfTurn a (2 * oy) (2 * ox)) (radius : ℝ) (q : ℤ → ℤ → Prop) :
    discEnergy a ox oy radius q = discEnergy a ox oy radius (fun x y => q (-x) (-y)) := by
  let e : ℤ × ℤ ≃ ℤ × ℤ := (Equiv.subLeft (2 * oy)).prodCongr (Equiv.subLeft (2 * ox))
  rw [discEnergy_finsum, discEnergy_finsum, ← finsum_comp_equiv e]
  refine finsum_congr fun p => ?_
  show sel (q (2 * ox - p.2 - ox) (2 * oy - p.1 - oy) ∧ ((2 * ox - p.2 - ox : ℤ) : ℝ) ^ 2 + ((2 * oy - p.1 - oy : ℤ) : ℝ) ^ 2
    ≤ radius ^ 2) (a.zext (2 * oy - p.1) (2 * ox - p.2)) = _
  rw [h, show 2 * ox - p.2 - ox = -(p.2 - ox) by ring, show 2 * oy - p.1 - oy = -(p.1 - oy) by ring]
  push_cast
  rw [neg_sq, neg_sq]

/-- An image unchanged by the half-turn about the origin pixel has both balances exactly zero. -/
theorem halfTurn_balance {a : Arr2 ℝ} {ox oy : ℤ} (h : HalfTurn a (2 * oy) (2 * ox)) {radius : ℝ} {d : ℝ × ℝ}
    (ha : quadrantEnergyBalance a ox oy radius = .ok (some d)) : d = (0, 0) := by
  obtain ⟨hr, hx, hy, hx', hy', he⟩ := balance_ok_inv ha
  rw [balance_eq a ox oy radius hr hx hy hx' hy' he] at ha
  have q1 := discEnergy_halfTurn h radius (fun x y => x ≥ 0 ∧ y ≥ 0)
  have q2 := discEnergy_halfTurn h radius (fun x y => x ≤ 0 ∧ y ≥ 0)
  simp only [Left.nonneg_neg_iff, Left.neg_nonpos_iff, ge_iff_le] at q1 q2
  simp only [Except.ok.injEq, Option.some.injEq, ge_iff_le] at ha
  rw [← ha, q1, q2]
  congr 1 <;> ring

/-- An image whose values do not change under the half-turn about the displaced centre, and vanish outside the array. -/
theorem centredAt_of {r : Res (Arr2 ℝ)} {nx ny : ℤ} {xo yo : ℝ} {v : ℝ → ℝ → ℝ} (hi : IsImage r nx ny xo yo v)
    (hs : ∀ x y, v (-x) (-y) = v x y) (h0 : ∀ x y, 0 ≤ v x y) (hz : ∀ k l : ℤ, ¬ Reaches ny nx k l → v (l - xo) (k - yo) = 0)
    (a b : ℤ) (ha : 2 * xo = a) (hb : 2 * yo = b) : CentredAt r nx ny xo yo := by
  obtain ⟨o, ho, e1, e2, hv⟩ := hi
  subst e1 e2
  have zx : ∀ i j : ℤ, o.zext i j = v ((j - (o.nc / 2 : ℤ) : ℤ) - xo) ((i - (o.nr / 2 : ℤ) : ℤ) - yo) := by
    intro i j
    by_cases hr : Reaches o.nr o.nc (i - (o.nr / 2 : ℤ)) (j - (o.nc / 2 : ℤ))
    · have h1 := hv _ _ hr
      rw [zext_centered hr] at h1
      have h2 := Option.some.inj h1
      rw [← h2]
      congr 1 <;> ring
    · rw [hz _ _ hr]
      by_contra hne
      have := Arr2.zext_ne_zero o hne
      apply hr
      unfold Reaches
      omega
  have ht : HalfTurn o (2 * (o.nr / 2 : ℤ) + b) (2 * (o.nc / 2 : ℤ) + a) := by
    intro i j
    rw [zx, zx, ← hs]
    congr 1
    · push_cast; rw [← ha]; ring
    · push_cast; rw [← hb]; ring
  refine ⟨o, ho, fun ⟨i, j, hij⟩ => ?_, fun ox oy hx hy radius d hd => ?_⟩
  · have he : energy o ≠ 0 := by
      have nn : ∀ i j, 0 ≤ o.val i j := by
        intro i j
        rw [← Arr2.zext_val, zx]
        exact h0 _ _
      unfold energy
      refine ne_of_gt (Finset.sum_pos' (fun i _ => Finset.sum_nonneg fun j _ => nn i j) ⟨i, Finset.mem_univ _, ?_⟩)
      exact Finset.sum_pos' (fun j _ => nn i j) ⟨j, Finset.mem_univ _, lt_of_le_of_ne (nn i j) (Ne.symm hij)⟩
    rw [halfTurn_centre ht he]
    push_cast
    rw [← ha, ← hb]
    congr 2 <;> ring
  · refine halfTurn_balance (a := o) ?_ hd
    have e1 : 2 * oy = 2 * (o.nr / 2 : ℤ) + b := by
      have : (2 * oy : ℝ) = 2 * ((o.nr / 2 : ℤ) : ℝ) + b := by rw [hy, ← hb]; ring
      exact_mod_cast this
    have e2 : 2 * ox = 2 * (o.nc / 2 : ℤ) + a := by
      have : (2 * ox : ℝ) = 2 * ((o.nc / 2 : ℤ) : ℝ) + a := by rw [hx, ← ha]; ring
      exact_mod_cast this
    rw [e1, e2]
    exact ht

theorem areaFraction_half (N : ℕ) (P : ℝ → ℝ → Prop) (hP : ∀ x y, P (-x) (-y) ↔ P x y) (x y : ℝ) :
    areaFraction N P (-x) (-y) = areaFraction N P x y := by
  rw [areaFraction_flip_x, areaFraction_flip_y]
  exact areaFraction_congr N _ _ hP x y

theorem inRect_neg (w h rot x y : ℝ) : inRect w h rot (-x) (-y) ↔ inRect w h rot x y := by
  unfold inRect turnedX turnedY
  rw [show -x * Real.cos (rot * Real.pi / 180) + -y * Real.sin (rot * Real.pi / 180) =
        -(x * Real.cos (rot * Real.pi / 180) + y * Real.sin (rot * Real.pi / 180)) by ring,
      show -y * Real.cos (rot * Real.pi / 180) - -x * Real.sin (rot * Real.pi / 180) =
        -(y * Real.cos (rot * Real.pi / 180) - x * Real.sin (rot * Real.pi / 180)) by ring, abs_neg, abs_neg]

theorem inDisc_neg (r x y : ℝ) : inDisc r (-x) (-y) ↔ inDisc r x y := by
  unfold inDisc
  rw [neg_sq, neg_sq]

theorem areaFraction_outside {N : ℕ} {P : ℝ → ℝ → Prop} {x y : ℝ} (h : PixelOutside P x y) : areaFraction N P x y = 0 :=
  areaFraction_none N P x y fun u v hu hv => h u v hu.lt.le hv.lt.le

/-- **C95.** A disc that fits in the array, at offsets that are multiples of half a pixel, is centred exactly where it was asked for. -/
theorem C95_circle (nx ny N : ℕ) (hx : 2 ≤ nx) (hy : 1 ≤ ny) (hN : 1 ≤ N) (radius xo yo : ℝ) (hr : 0 < radius)
    (a b : ℤ) (ha : 2 * xo = a) (hb : 2 * yo = b) (hfit : FitsArray nx ny xo yo (inDisc radius)) :
    CentredAt (circle nx ny radius xo yo N false) nx ny xo yo :=
  centredAt_of (C36_circle_exact nx ny N hx hy hN radius xo yo hr false) (fun x y => areaFraction_half N _ (inDisc_neg radius) x y)
    (fun x y => (areaFraction_range N _ x y).1) (fun k l hk => areaFraction_outside (hfit k l hk)) a b ha hb

/-- **C95.** Likewise a rectangle, whatever its rotation. -/
theorem C95_rectangle (nx ny N : ℕ) (hx : 2 ≤ nx) (hy : 1 ≤ ny) (hN : 1 ≤ N) (w h xo yo rot : ℝ) (hw : 0 < w) (hh : 0 < h)
    (a b : ℤ) (ha : 2 * xo = a) (hb : 2 * yo = b) (hfit : FitsArray nx ny xo yo (inRect w h rot)) :
    CentredAt (rectangle nx ny w h xo yo rot N false) nx ny xo yo :=
  centredAt_of (C37_rectangle_exact nx ny N hx hy hN w h xo yo rot hw hh false) (fun x y => areaFraction_half N _ (inRect_neg w h rot) x y)
    (fun x y => (areaFraction_range N _ x y).1) (fun k l hk => areaFraction_outside (hfit k l hk)) a b ha hb

/-- **C95.** Likewise an ellipse, whatever its rotation; also where its edge pixels are not exact. -/
theorem C95_ellipse (nx ny N : ℕ) (hx : 2 ≤ nx) (hy : 2 ≤ ny) (hN : 1 ≤ N) (rx ry rot xo yo : ℝ) (h1 : 0 < rx) (h2 : 0 < ry)
    (a b : ℤ) (ha : 2 * xo = a) (hb : 2 * yo = b) (hfit : FitsArray nx ny xo yo (inEllipse rx ry rot)) :
    CentredAt (ellipse nx ny rx ry rot xo yo N false) nx ny xo yo := by
  set t := (Real.pi / 180) * rot with ht
  set w := ellipseWindow rx ry t (shapeAxis nx xo) (shapeAxis ny yo) with hw
  have hw0 : 0 ≤ w := le_max_of_le_left (abs_nonneg _)
  have key : ∀ x y, FractionOrCentre N (inEllipse rx ry rot) x y (antialiasVal (fun x y => |ellipseRho rx ry t x y| < 0.5 - w)
      (fun x y => |ellipseRho rx ry t x y| > 0.5 + w) (fun x y => ellipseRho rx ry t x y ≤ 0.5) N (1 / (N : ℝ)) x y) := by
    intro x y
    refine antialiasVal_cases _ _ _ _ N (fun x y => ellipseRho_le_iff rx ry rot x y) x y (fun h _ => ?_) fun h => ?_
    · rw [← ellipseRho_le_iff]
      rw [abs_of_nonneg (ellipseRho_nonneg _ _ _ _ _)] at h
      rw [← ht]
      linarith
    · rw [← ellipseRho_le_iff]
      rw [abs_of_nonneg (ellipseRho_nonneg _ _ _ _ _)] at h
      rw [← ht]
      linarith
  have him : IsImage (ellipse nx ny rx ry rot xo yo N false) nx ny xo yo (antialiasVal (fun x y => |ellipseRho rx ry t x y| < 0.5 - w)
      (fun x y => |ellipseRho rx ry t x y| > 0.5 + w) (fun x y => ellipseRho rx ry t x y ≤ 0.5) N (1 / (N : ℝ))) := by
    refine isImage_of _ _ _ _ _ _ ?_
    rw [ellipse_core nx ny N hx hy hN rx ry rot xo yo h1 h2]
    rfl
  refine centredAt_of him (fun x y => ?_) (fun x y => (antialiasVal_range _ _ _ _ _ _ _).1)
    (fun k l hk => (fractionOrCentre_whole hN (key _ _)).2 (hfit k l hk)) a b ha hb
  unfold antialiasVal
  simp only [subMean_eq, ellipseRho_neg]
  rw [areaFraction_half N _ fun x y => by rw [ellipseRho_neg]]

theorem lineCover_half (w h rot x y : ℝ) : lineCover (inRect w h rot) (-x) (-y) = lineCover (inRect w h rot) x y := by
  unfold lineCover
  have : {t : ℝ | |t - -x| ≤ 1 / 2 ∧ inRect w h rot t (-y)} = (fun t => -t) ⁻¹' {t : ℝ | |t - x| ≤ 1 / 2 ∧ inRect w h rot t y} := by
    ext t
    have e := inRect_neg w h rot (-t) y
    rw [neg_neg] at e
    show (|t - -x| ≤ 1 / 2 ∧ inRect w h rot t (-y)) ↔ (|-t - x| ≤ 1 / 2 ∧ inRect w h rot (-t) y)
    rw [e, show -t - x = -(t - -x) by ring, abs_neg]
  rw [this, MeasureTheory.Measure.measure_preimage_neg]

theorem stripMean_half (N : ℕ) (w h rot x y : ℝ) : stripMean N (inRect w h rot) (-x) (-y) = stripMean N (inRect w h rot) x y := by
  unfold stripMean
  congr 1
  rw [← Equiv.sum_comp Fin.revPerm]
  refine Finset.sum_congr rfl fun s _ => ?_
  rw [← lineCover_half]
  rw [neg_neg]
  congr 1
  have := s.isLt
  have hN : (N : ℝ) ≠ 0 := by have : 0 < N := by omega
                              positivity
  rw [Fin.revPerm_apply, Fin.val_rev, Nat.cast_sub (by omega)]
  push_cast
  field_simp
  ring

theorem stripMean_outside {N : ℕ} (hN : 1 ≤ N) {P : ℝ → ℝ → Prop} {x y : ℝ} (h : PixelOutside P x y) : stripMean N P x y = 0 := by
  unfold stripMean
  rw [Finset.sum_eq_zero, zero_div]
  intro s _
  unfold lineCover
  have hNr : (0 : ℝ) < N := by exact_mod_cast hN
  have hs : (((s : ℕ) : ℝ) + 1) ≤ N := by exact_mod_cast s.isLt
  have hoff : |(((s : ℕ) + 1 / 2 : ℝ) / N - 1 / 2)| ≤ 1 / 2 := by
    rw [abs_le]
    constructor
    · have : (0 : ℝ) ≤ ((s : ℕ) + 1 / 2 : ℝ) / N := by positivity
      linarith
    · have : ((s : ℕ) + 1 / 2 : ℝ) / N ≤ 1 := by
        rw [div_le_one hNr]; linarith
      linarith
  have : {t : ℝ | |t - x| ≤ 1 / 2 ∧ P t (y + (((s : ℕ) + 1 / 2 : ℝ) / N - 1 / 2))} = ∅ := by
    ext t
    simp only [Set.mem_ofPred_eq, Set.mem_empty_iff_false, iff_false]
    rintro ⟨h1, h2⟩
    have := h (t - x) _ h1 hoff
    rw [add_sub_cancel] at this
    exact this h2
  rw [this, MeasureTheory.measure_empty]
  rfl

/-- **C95.** Likewise the scan-converted rectangle. -/
theorem C95_rect_proper (nx ny N : ℕ) (hx : 1 ≤ nx) (hy : 1 ≤ ny) (hN : 1 ≤ N) (w h xo yo rot : ℝ) (hw : 0 < w) (hh : 0 < h)
    (a b : ℤ) (ha : 2 * xo = a) (hb : 2 * yo = b) (hfit : FitsArray nx ny xo yo (inRect w h rot)) :
    CentredAt (rectProper nx ny w h xo yo rot N false) nx ny xo yo :=
  centredAt_of (C86_exact nx ny N hx hy hN w h xo yo rot hw hh false) (fun x y => stripMean_half N w h rot x y)
    (fun x y => (stripMean_range N hN _ x y).1) (fun k l hk => stripMean_outside hN (hfit k l hk)) a b ha hb

theorem strutClear_half (N : ℕ) (d width angle x y : ℝ) : strutClear N d width angle (-x) (-y) = strutClear N d width (angle + 180) x y := by
  unfold strutClear
  have ec : Real.cos ((angle + 180) * Real.pi / 180) = -Real.cos (angle * Real.pi / 180) := by
    rw [show (angle + 180) * Real.pi / 180 = angle * Real.pi / 180 + Real.pi by ring, Real.cos_add_pi]
  have es : Real.sin ((angle + 180) * Real.pi / 180) = -Real.sin (angle * Real.pi / 180) := by
    rw [show (angle + 180) * Real.pi / 180 = angle * Real.pi / 180 + Real.pi by ring, Real.sin_add_pi]
  rw [show inRect (0.6 * d) width (angle + 180) = inRect (0.6 * d) width angle from by
    funext x y; exact propext (inRect_half _ _ _ x y)]
  rw [ec, es, ← areaFraction_half N _ (inRect_neg (0.6 * d) width angle)]
  congr 2 <;> ring

theorem strutClear_turn (N : ℕ) (d width angle x y : ℝ) : strutClear N d width (angle + 180 + 180) x y = strutClear N d width angle x y := by
  rw [← strutClear_half, ← strutClear_half, neg_neg, neg_neg]

/-- **C95.** Likewise a pupil whose struts come in opposite pairs (in particular one without struts). -/
theorem C95_pupil (nx ny N : ℕ) (hx : 2 ≤ nx) (hy : 1 ≤ ny) (hN : 1 ≤ N) (xo yo dInner dOuter width : ℝ) (half : List ℝ)
    (hi : 0 ≤ dInner) (hio : dInner < dOuter) (hw : 0 ≤ width)
    (a b : ℤ) (ha : 2 * xo = a) (hb : 2 * yo = b) (hfit : FitsArray nx ny xo yo (inDisc (dOuter / 2))) :
    CentredAt (simplePupil nx ny xo yo dInner dOuter (half ++ half.map (· + 180)) width N) nx ny xo yo := by
  refine centredAt_of (C40_pupil_exact nx ny N hx hy hN xo yo dInner dOuter width _ hi hio hw) (fun x y => ?_)
    (fun x y => (C40_pupil_bounds N dInner dOuter width _ x y).1) (fun k l hk => ?_) a b ha hb
  · unfold pupilValue
    rw [areaFraction_half N _ (inDisc_neg _), areaFraction_half N _ (fun x y => by rw [inDisc_neg])]
    congr 1
    simp only [List.map_append, List.prod_append, List.map_map]
    rw [mul_comm]
    congr 1
    · congr 1
      refine List.map_congr_left fun t _ => ?_
      simp only [Function.comp_apply]
      split_ifs
      · rw [strutClear_half, strutClear_turn]
      · rfl
    · congr 1
      refine List.map_congr_left fun t _ => ?_
      simp only [Function.comp_apply]
      split_ifs
      · rw [strutClear_half]
      · rfl
  · unfold pupilValue
    rw [areaFraction_outside (hfit k l hk), zero_mul, zero_mul]

/-- A figure within `|x| ≤ hw`, `|y| ≤ hh` fits if the array is wide enough. -/
theorem fitsArray_box (nx ny : ℕ) (xo yo hw hh : ℝ) (P : ℝ → ℝ → Prop) (hP : ∀ x y, P x y → |x| ≤ hw ∧ |y| ≤ hh)
    (h1 : hw + |xo| < ((nx : ℝ) - 1) / 2) (h2 : hh + |yo| < ((ny : ℝ) - 1) / 2) : FitsArray nx ny xo yo P := by
  intro k l hk u v hu hv hp
  obtain ⟨p1, p2⟩ := hP _ _ hp
  apply hk
  have half : ∀ (n : ℕ) (z : ℤ) (o s t : ℝ), |s| ≤ 1 / 2 → |(z : ℝ) - o + s| ≤ t → t + |o| < ((n : ℝ) - 1) / 2 →
      0 ≤ (n : ℤ) / 2 + z ∧ (n : ℤ) / 2 + z < n := by
    intro n z o s t hs hz hn
    rw [abs_le] at hs hz
    have ho := abs_le.mp (le_refl |o|)
    have a1 : (2 * z : ℝ) < n := by linarith
    have a2 : -(n : ℝ) < 2 * z := by linarith
    have b1 : 2 * z < n := by exact_mod_cast a1
    have b2 : -(n : ℤ) < 2 * z := by exact_mod_cast a2
    omega
  exact ⟨half ny k yo v hh hv p2 h2, half nx l xo u hw hu p1 h1⟩

/-- **C95.** For a disc of radius at least one and a half pixels that leaves half a pixel to the edge, `center_of_energy` gives back the offset. -/
theorem C95_circle_found (nx ny N : ℕ) (hN : 1 ≤ N) (radius xo yo : ℝ) (hr : 3 / 2 ≤ radius) (a b : ℤ) (ha : 2 * xo = a) (hb : 2 * yo = b)
    (h1 : radius + |xo| < ((nx : ℝ) - 1) / 2) (h2 : radius + |yo| < ((ny : ℝ) - 1) / 2) :
    ∃ o, circle nx ny radius xo yo N false = .ok o ∧
      centerOfEnergy o = some (((nx / 2 : ℕ) : ℝ) + xo, ((ny / 2 : ℕ) : ℝ) + yo) := by
  have big : ∀ (n : ℕ) (o : ℝ), radius + |o| < ((n : ℝ) - 1) / 2 → 2 ≤ n := by
    intro n o h
    have h0 := abs_nonneg o
    have : (2 : ℝ) ≤ n := by linarith
    exact_mod_cast this
  have hx := big nx xo h1
  have hy := big ny yo h2
  have hfit : FitsArray nx ny xo yo (inDisc radius) := by
    refine fitsArray_box nx ny xo yo radius radius _ (fun x y h => ?_) h1 h2
    unfold inDisc at h
    exact ⟨abs_le_of_sq_le_sq (by nlinarith [sq_nonneg y]) (by linarith), abs_le_of_sq_le_sq (by nlinarith [sq_nonneg x]) (by linarith)⟩
  obtain ⟨o, ho, hc, -⟩ := C95_circle nx ny N hx (by omega) hN radius xo yo (by linarith) a b ha hb hfit
  refine ⟨o, ho, ?_⟩
  have := hc ?_
  · rw [this]; rfl
  obtain ⟨o', ho', e1, e2, hv⟩ := C36_circle_exact nx ny N hx (by omega) hN radius xo yo (by linarith) false
  rw [ho] at ho'
  obtain rfl := Except.ok.inj ho'
  have near : ∀ (z : ℤ) (t : ℝ), 2 * t = z → ((z / 2 : ℤ) : ℝ) - t ≤ 0 ∧ -(1 / 2) ≤ ((z / 2 : ℤ) : ℝ) - t := by
    intro z t hz
    have e1 : 2 * (z / 2) ≤ z := by omega
    have e2 : z ≤ 2 * (z / 2) + 1 := by omega
    have e1' : (2 * ((z / 2 : ℤ) : ℝ)) ≤ z := by exact_mod_cast e1
    have e2' : (z : ℝ) ≤ 2 * ((z / 2 : ℤ) : ℝ) + 1 := by exact_mod_cast e2
    constructor <;> linarith
  have nx1 := near a xo ha
  have ny1 := near b yo hb
  have hin : ∀ u v : ℝ, |u| ≤ 1 / 2 → |v| ≤ 1 / 2 → inDisc radius (((a / 2 : ℤ) : ℝ) - xo + u) (((b / 2 : ℤ) : ℝ) - yo + v) := by
    intro u v hu hv
    unfold inDisc
    rw [abs_le] at hu hv
    nlinarith
  have hrea : Reaches ny nx (b / 2) (a / 2) := by
    by_contra hn
    have := hfit _ _ hn 0 0 (by norm_num) (by norm_num)
    exact this (hin 0 0 (by norm_num) (by norm_num))
  have hval := hv _ _ hrea
  have hone : tone false (areaFraction N (inDisc radius) (((a / 2 : ℤ) : ℝ) - xo) (((b / 2 : ℤ) : ℝ) - yo)) = 1 :=
    areaFraction_all N (by omega) _ _ _ fun u v hu hv => hin u v hu.lt.le hv.lt.le
  beta_reduce at hval
  rw [hone] at hval
  unfold Arr2.centered at hval
  have hin' : (0 ≤ (o.nr : ℤ) / 2 + b / 2 ∧ (o.nr : ℤ) / 2 + b / 2 < o.nr) ∧ (0 ≤ (o.nc : ℤ) / 2 + a / 2 ∧ (o.nc : ℤ) / 2 + a / 2 < o.nc) := by
    rw [e1, e2]; exact hrea
  rw [Arr2.px_of_inB o hin'] at hval
  exact ⟨_, _, by rw [Option.some.inj hval]; exact one_ne_zero⟩

/-- A disc of radius 5.5 at `(2.5, -1)` in a `22 × 21` array. -/
example : ∃ o, circle 22 21 5.5 2.5 (-1) 10 false = .ok o ∧ centerOfEnergy o = some (13.5, 9) := by
  obtain ⟨o, ho, hc⟩ := C95_circle_found 22 21 10 (by norm_num) 5.5 2.5 (-1) (by norm_num) 5 (-2) (by norm_num) (by norm_num)
    (by norm_num [abs_of_pos]) (by norm_num)
  refine ⟨o, ho, hc.trans ?_⟩
  norm_num

/-- A turned rectangle fits. -/
example : FitsArray (40 : ℕ) (40 : ℕ) 3 (-4.5) (inRect 10 4 30) := by
  refine fitsArray_box 40 40 3 (-4.5) 7 7 _ (fun x y h => ?_) (by norm_num [abs_of_pos]) (by norm_num [abs_of_neg])
  unfold inRect turnedX turnedY at h
  set c := Real.cos (30 * Real.pi / 180)
  set s := Real.sin (30 * Real.pi / 180)
  have e : c ^ 2 + s ^ 2 = 1 := Real.cos_sq_add_sin_sq _
  rw [abs_le, abs_le] at h
  have q1 : (x * c + y * s) ^ 2 ≤ 25 := by nlinarith
  have q2 : (y * c - x * s) ^ 2 ≤ 4 := by nlinarith
  have q : x ^ 2 + y ^ 2 = (x * c + y * s) ^ 2 + (y * c - x * s) ^ 2 := by
    have : (x * c + y * s) ^ 2 + (y * c - x * s) ^ 2 = (x ^ 2 + y ^ 2) * (c ^ 2 + s ^ 2) := by ring
    rw [this, e, mul_one]
  exact ⟨abs_le_of_sq_le_sq (by nlinarith [sq_nonneg y]) (by norm_num), abs_le_of_sq_le_sq (by nlinarith [sq_nonneg x]) (by norm_num)⟩

end Coralign.Props
