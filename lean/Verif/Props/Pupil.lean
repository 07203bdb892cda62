import Verif.Props.Shapes
import Mathlib.Algebra.Order.BigOperators.Ring.List

/-!
# Properties C40 and C66: the simple pupil, and symmetry of the shapes
-/

namespace Coralign.Props

open Coralign Coralign.Spec Finset

/-! ### C40 -/

/-- Specification: the fraction of a pixel that a strut leaves clear.  The strut is the rectangle of length `0.6` times the
outer diameter and given width that starts at the pupil's centre and points in direction `angle`. -/
noncomputable def strutClear (N : ℕ) (dOuter width angle x y : ℝ) : ℝ :=
  1 - areaFraction N (inRect (0.6 * dOuter) width angle)
    (x - Real.cos (angle * Real.pi / 180) * (0.6 * dOuter) / 2) (y - Real.sin (angle * Real.pi / 180) * (0.6 * dOuter) / 2)

/-- Specification: transmission of the pupil at a pixel, as a product of clear fractions. -/
noncomputable def pupilValue (N : ℕ) (dInner dOuter : ℝ) (angles : List ℝ) (width x y : ℝ) : ℝ :=
  areaFraction N (inDisc (dOuter / 2)) x y *
    (1 - areaFraction N (fun x y => 0 < dInner ∧ inDisc (dInner / 2) x y) x y) *
    (angles.map fun a => if 0 < width then strutClear N dOuter width a x y else 1).prod

theorem res_ok_bind {α β : Type} (a : α) (f : α → Res β) : ((Except.ok a : Res α) >>= f) = f a := rfl

theorem mulPx_eq (n m : ℕ) (f g : Fin n → Fin m → ℝ) :
    Arr2.mulPx ⟨n, m, f⟩ ⟨n, m, g⟩ = ⟨n, m, fun i j => f i j * g i j⟩ := by
  unfold Arr2.mulPx
  congr 1
  funext i j
  have := Arr2.px_val (⟨n, m, g⟩ : Arr2 ℝ) i j
  show f i j * ((⟨n, m, g⟩ : Arr2 ℝ).px ((i : ℕ) : ℤ) ((j : ℕ) : ℤ)).getD 0 = _
  rw [this]; rfl

theorem shapeAxis_shift (n : ℕ) (o d : ℝ) (k : ℕ) : shapeAxis n (o + d) k = shapeAxis n o k - d := by
  unfold shapeAxis
  split_ifs <;> ring

theorem strut_eq (nx ny N : ℕ) (hx : 2 ≤ nx) (hy : 1 ≤ ny) (hN : 1 ≤ N) (xo yo dOuter width angle : ℝ) (hd : 0 < dOuter)
    (hw : 0 < width) :
    pupilStrut nx ny xo yo dOuter width N angle = .ok ⟨ny, nx, fun i j =>
      strutClear N dOuter width angle (shapeAxis nx xo j) (shapeAxis ny yo i)⟩ := by
  unfold pupilStrut
  simp only
  rw [rectangle_eq nx ny N hx hy hN _ _ _ _ _ (by linarith) hw]
  simp only [shapeAxis_shift, tone, strutClear, if_true]

theorem struts_fold (nx ny N : ℕ) (hx : 2 ≤ nx) (hy : 1 ≤ ny) (hN : 1 ≤ N) (xo yo dOuter width : ℝ) (hd : 0 < dOuter)
    (hw : 0 < width) (angles : List ℝ) (p : Fin ny → Fin nx → ℝ) :
    angles.foldlM (fun (p : Arr2 ℝ) angle => do
        let s ← pupilStrut nx ny xo yo dOuter width N angle
        (.ok (p.mulPx s) : Res (Arr2 ℝ))) ⟨ny, nx, p⟩ =
      .ok ⟨ny, nx, fun i j => p i j * (angles.map fun a => strutClear N dOuter width a (shapeAxis nx xo j) (shapeAxis ny yo i)).prod⟩ := by
  induction angles generalizing p with
  | nil => simp [pure, Except.pure]
  | cons a as ih =>
    rw [List.foldlM_cons, strut_eq nx ny N hx hy hN xo yo dOuter width a hd hw]
    simp only [bind, Except.bind]
    rw [mulPx_eq]
    have := ih (fun i j => p i j * strutClear N dOuter width a (shapeAxis nx xo j) (shapeAxis ny yo i))
    simp only [bind, Except.bind] at this
    rw [this]
    simp only [List.map_cons, List.prod_cons, mul_assoc]

theorem pupil_eq (nx ny N : ℕ) (hx : 2 ≤ nx) (hy : 1 ≤ ny) (hN : 1 ≤ N) (xo yo dInner dOuter width : ℝ) (angles : List ℝ)
    (hi : 0 ≤ dInner) (hio : dInner < dOuter) (hw : 0 ≤ width) :
    simplePupil nx ny xo yo dInner dOuter angles width N = .ok ⟨ny, nx, fun i j =>
      pupilValue N dInner dOuter angles width (shapeAxis nx xo j) (shapeAxis ny yo i)⟩ := by
  have hd : 0 < dOuter := by linarith
  have hfin : ∀ p : Fin ny → Fin nx → ℝ, (if 0 < angles.length ∧ width > 0 then
      angles.foldlM (fun (p : Arr2 ℝ) angle => do
        let s ← pupilStrut nx ny xo yo dOuter width N angle
        (.ok (p.mulPx s) : Res (Arr2 ℝ))) ⟨ny, nx, p⟩ else .ok ⟨ny, nx, p⟩) =
      .ok ⟨ny, nx, fun i j => p i j * (angles.map fun a => if 0 < width then
        strutClear N dOuter width a (shapeAxis nx xo j) (shapeAxis ny yo i) else 1).prod⟩ := by
    intro p
    rcases hw.lt_or_eq with hpos | h0
    · have hf := struts_fold nx ny N hx hy hN xo yo dOuter width hd hpos angles p
      by_cases hl : 0 < angles.length
      · rw [if_pos ⟨hl, hpos⟩, hf]
        simp only [hpos, if_true]
      · have : angles = [] := List.length_eq_zero_iff.mp (by omega)
        subst this
        simp
    · subst h0
      rw [if_neg (by rintro ⟨_, h⟩; exact lt_irrefl _ h)]
      simp
  unfold simplePupil
  rw [if_neg (by rintro (h | h | h | h | h | h | h) <;> first | omega | linarith)]
  rw [circle_eq nx ny N hx hy hN _ _ _ (by linarith), res_ok_bind]
  rcases hi.lt_or_eq with hpos | h0
  · simp only [if_pos hpos]
    rw [circle_eq nx ny N hx hy hN _ _ _ (by linarith), res_ok_bind, mulPx_eq]
    have : (fun x y => 0 < dInner ∧ inDisc (dInner / 2) x y) = inDisc (dInner / 2) := by
      funext x y; simp [hpos]
    refine (hfin _).trans ?_
    unfold pupilValue
    rw [this]
    rfl
  · have : ∀ x y, areaFraction N (fun x y => 0 < dInner ∧ inDisc (dInner / 2) x y) x y = 0 := by
      intro x y
      refine areaFraction_none N _ _ _ fun u v _ _ h => ?_
      linarith [h.1]
    have hn : ¬ dInner > 0 := by linarith
    simp only [if_neg hn]
    refine (hfin _).trans ?_
    unfold pupilValue
    simp only [this, sub_zero, mul_one]
    rfl

/-- **C40.** `simple_pupil` is, at every pixel, the product of the clear fractions: the outer disc, the complement of the
central obscuration and the complement of each strut. -/
theorem C40_pupil_exact (nx ny N : ℕ) (hx : 2 ≤ nx) (hy : 1 ≤ ny) (hN : 1 ≤ N) (xo yo dInner dOuter width : ℝ)
    (angles : List ℝ) (hi : 0 ≤ dInner) (hio : dInner < dOuter) (hw : 0 ≤ width) :
    IsImage (simplePupil nx ny xo yo dInner dOuter angles width N) nx ny xo yo
      (pupilValue N dInner dOuter angles width) :=
  isImage_of _ _ _ _ _ _ (pupil_eq nx ny N hx hy hN xo yo dInner dOuter width angles hi hio hw)

theorem strutClear_range (N : ℕ) (dOuter width a x y : ℝ) : 0 ≤ strutClear N dOuter width a x y ∧ strutClear N dOuter width a x y ≤ 1 := by
  unfold strutClear
  have := areaFraction_range N (inRect (0.6 * dOuter) width a)
    (x - Real.cos (a * Real.pi / 180) * (0.6 * dOuter) / 2) (y - Real.sin (a * Real.pi / 180) * (0.6 * dOuter) / 2)
  constructor <;> linarith [this.1, this.2]

theorem prod_range (l : List ℝ) (h : ∀ a ∈ l, 0 ≤ a ∧ a ≤ 1) : 0 ≤ l.prod ∧ l.prod ≤ 1 := by
  induction l with
  | nil => simp
  | cons a as ih =>
    obtain ⟨i1, i2⟩ := ih fun b hb => h b (by simp [hb])
    obtain ⟨a1, a2⟩ := h a (by simp)
    rw [List.prod_cons]
    exact ⟨mul_nonneg a1 i1, mul_le_one₀ a2 i1 i2⟩

/-- **C40.** The pupil is a transmission: in `[0, 1]`, never above the clear outer disc, zero where the whole pixel is
covered by the central obscuration and zero wherever no part of the pixel is within the outer radius; and every further
strut can only remove light. -/
theorem C40_pupil_bounds (N : ℕ) (dInner dOuter width : ℝ) (angles : List ℝ) (x y : ℝ) :
    0 ≤ pupilValue N dInner dOuter angles width x y ∧
    pupilValue N dInner dOuter angles width x y ≤ areaFraction N (inDisc (dOuter / 2)) x y ∧
    pupilValue N dInner dOuter angles width x y ≤ 1 ∧
    (0 < dInner → areaFraction N (inDisc (dInner / 2)) x y = 1 → pupilValue N dInner dOuter angles width x y = 0) ∧
    (areaFraction N (inDisc (dOuter / 2)) x y = 0 → pupilValue N dInner dOuter angles width x y = 0) ∧
    (∀ more, pupilValue N dInner dOuter (angles ++ more) width x y ≤ pupilValue N dInner dOuter angles width x y) := by
  have hA := areaFraction_range N (inDisc (dOuter / 2)) x y
  have hB := areaFraction_range N (fun x y => 0 < dInner ∧ inDisc (dInner / 2) x y) x y
  have hP : ∀ as : List ℝ, 0 ≤ (as.map fun a => if 0 < width then strutClear N dOuter width a x y else 1).prod ∧
      (as.map fun a => if 0 < width then strutClear N dOuter width a x y else 1).prod ≤ 1 := by
    intro as
    refine prod_range _ fun b hb => ?_
    obtain ⟨a, _, rfl⟩ := List.mem_map.mp hb
    split_ifs
    · exact strutClear_range _ _ _ _ _ _
    · norm_num
  have hAB : 0 ≤ areaFraction N (inDisc (dOuter / 2)) x y * (1 - areaFraction N (fun x y => 0 < dInner ∧ inDisc (dInner / 2) x y) x y) :=
    mul_nonneg hA.1 (by linarith [hB.2])
  have hle : pupilValue N dInner dOuter angles width x y ≤ areaFraction N (inDisc (dOuter / 2)) x y := by
    unfold pupilValue
    refine (mul_le_of_le_one_right hAB (hP angles).2).trans ?_
    exact mul_le_of_le_one_right hA.1 (by linarith [hB.1])
  refine ⟨mul_nonneg hAB (hP angles).1, hle, hle.trans hA.2, ?_, ?_, ?_⟩
  · intro hpos h1
    have : (fun x y => 0 < dInner ∧ inDisc (dInner / 2) x y) = inDisc (dInner / 2) := by funext x y; simp [hpos]
    unfold pupilValue
    rw [this, h1]; simp
  · intro h0
    unfold pupilValue
    rw [h0]; simp
  · intro more
    unfold pupilValue
    rw [List.map_append, List.prod_append, ← mul_assoc]
    exact mul_le_of_le_one_right (mul_nonneg hAB (hP angles).1) (hP more).2

/-- **C40.** The pixel regions of the previous theorem in terms of distances: a pixel whose centre is at least `√2` within
the obscuration, or at least `√2` beyond the outer radius, is dark. -/
theorem C40_pupil_dark (N : ℕ) (hN : 1 ≤ N) (dInner dOuter width : ℝ) (angles : List ℝ) (x y : ℝ) (hd : 0 < dOuter)
    (h : (0 < dInner ∧ Real.sqrt (x ^ 2 + y ^ 2) ≤ dInner / 2 - Real.sqrt 2) ∨
      Real.sqrt (x ^ 2 + y ^ 2) ≥ dOuter / 2 + Real.sqrt 2) :
    pupilValue N dInner dOuter angles width x y = 0 := by
  obtain ⟨_, _, _, h4, h5, _⟩ := C40_pupil_bounds N dInner dOuter width angles x y
  rcases h with ⟨hp, h⟩ | h
  · refine h4 hp (areaFraction_all N (by omega) _ _ _ fun u v hu hv => ?_)
    rw [← sqrt_le_iff_disc _ _ _ (by linarith)]
    have h1 := sqrt_add_le x y u v
    have h2 := sub_length u v hu.lt hv.lt
    linarith
  · refine h5 (areaFraction_none N _ _ _ fun u v hu hv hc => ?_)
    rw [← sqrt_le_iff_disc _ _ _ (by linarith)] at hc
    have h1 := sqrt_add_le (x + u) (y + v) (-u) (-v)
    have h2 := sub_length u v hu.lt hv.lt
    rw [neg_sq, neg_sq, add_neg_cancel_right, add_neg_cancel_right] at h1
    linarith

example : (0 : ℝ) ≤ 15.2 ∧ (15.2 : ℝ) < 46.3 ∧ (0 : ℝ) ≤ 1.6 := by norm_num

/-! ### C66 -/

theorem areaFraction_flip_x (N : ℕ) (P : ℝ → ℝ → Prop) (x y : ℝ) :
    areaFraction N P (-x) y = areaFraction N (fun x y => P (-x) y) x y := by
  classical
  unfold areaFraction
  congr 2
  refine Finset.card_bij' (fun s _ => (s.1, s.2.rev)) (fun s _ => (s.1, s.2.rev)) ?_ ?_ ?_ ?_
  · intro s hs
    simp only [Finset.mem_filter, Finset.mem_univ, true_and] at hs ⊢
    convert hs using 1
    have := s.2.isLt
    have hN : (N : ℝ) ≠ 0 := by have : 0 < N := by omega
                                positivity
    rw [Fin.val_rev, Nat.cast_sub (by omega)]
    push_cast
    field_simp
    ring
  · intro s hs
    simp only [Finset.mem_filter, Finset.mem_univ, true_and] at hs ⊢
    convert hs using 1
    have := s.2.isLt
    have hN : (N : ℝ) ≠ 0 := by have : 0 < N := by omega
                                positivity
    rw [Fin.val_rev, Nat.cast_sub (by omega)]
    push_cast
    field_simp
    ring
  · intro s _; simp
  · intro s _; simp

theorem areaFraction_flip_y (N : ℕ) (P : ℝ → ℝ → Prop) (x y : ℝ) :
    areaFraction N P x (-y) = areaFraction N (fun x y => P x (-y)) x y := by
  classical
  unfold areaFraction
  congr 2
  refine Finset.card_bij' (fun s _ => (s.1.rev, s.2)) (fun s _ => (s.1.rev, s.2)) ?_ ?_ ?_ ?_
  · intro s hs
    simp only [Finset.mem_filter, Finset.mem_univ, true_and] at hs ⊢
    convert hs using 1
    have := s.1.isLt
    have hN : (N : ℝ) ≠ 0 := by have : 0 < N := by omega
                                positivity
    rw [Fin.val_rev, Nat.cast_sub (by omega)]
    push_cast
    field_simp
    ring
  · intro s hs
    simp only [Finset.mem_filter, Finset.mem_univ, true_and] at hs ⊢
    convert hs using 1
    have := s.1.isLt
    have hN : (N : ℝ) ≠ 0 := by have : 0 < N := by omega
                                positivity
    rw [Fin.val_rev, Nat.cast_sub (by omega)]
    push_cast
    field_simp
    ring
  · intro s _; simp
  · intro s _; simp

theorem areaFraction_transpose (N : ℕ) (P : ℝ → ℝ → Prop) (x y : ℝ) :
    areaFraction N P y x = areaFraction N (fun x y => P y x) x y := by
  classical
  unfold areaFraction
  congr 2
  refine Finset.card_bij' (fun s _ => (s.2, s.1)) (fun s _ => (s.2, s.1)) ?_ ?_ ?_ ?_
  · intro s hs
    simpa only [Finset.mem_filter, Finset.mem_univ, true_and] using hs
  · intro s hs
    simpa only [Finset.mem_filter, Finset.mem_univ, true_and] using hs
  · intro s _; rfl
  · intro s _; rfl

/-- Outside the array there is no pixel. -/
theorem centered_none (o : Arr2 ℝ) (k l : ℤ) (h : ¬ Reaches o.nr o.nc k l) : o.centered k l = none :=
  Arr2.px_of_not_inB _ h

theorem image_flip (r : Res (Arr2 ℝ)) (nx ny : ℤ) (v : ℝ → ℝ → ℝ) (h : IsImage r nx ny 0 0 v) :
    ∃ o, r = .ok o ∧
      (nx % 2 = 1 → (∀ x y, v (-x) y = v x y) → ∀ k l, o.centered k (-l) = o.centered k l) ∧
      (ny % 2 = 1 → (∀ x y, v x (-y) = v x y) → ∀ k l, o.centered (-k) l = o.centered k l) ∧
      (nx % 2 = 1 → ny % 2 = 1 → (∀ x y, v (-x) (-y) = v x y) → ∀ k l, o.centered (-k) (-l) = o.centered k l) ∧
      (nx = ny → (∀ x y, v y x = v x y) → ∀ k l, o.centered l k = o.centered k l) := by
  obtain ⟨o, ho, h1, h2, hv⟩ := h
  refine ⟨o, ho, ?_, ?_, ?_, ?_⟩
  · intro hodd hs k l
    by_cases hr : Reaches ny nx k l
    · rw [hv k l hr, hv k (-l) (by unfold Reaches at hr ⊢; omega)]
      have := hs l k
      push_cast
      simpa using this
    · rw [centered_none o k l (by rw [h1, h2]; exact hr), centered_none o k (-l) (by rw [h1, h2]; unfold Reaches at hr ⊢; omega)]
  · intro hodd hs k l
    by_cases hr : Reaches ny nx k l
    · rw [hv k l hr, hv (-k) l (by unfold Reaches at hr ⊢; omega)]
      have := hs l k
      push_cast
      simpa using this
    · rw [centered_none o k l (by rw [h1, h2]; exact hr), centered_none o (-k) l (by rw [h1, h2]; unfold Reaches at hr ⊢; omega)]
  · intro hx hy hs k l
    by_cases hr : Reaches ny nx k l
    · rw [hv k l hr, hv (-k) (-l) (by unfold Reaches at hr ⊢; omega)]
      have := hs l k
      push_cast
      simpa using this
    · rw [centered_none o k l (by rw [h1, h2]; exact hr), centered_none o (-k) (-l) (by rw [h1, h2]; unfold Reaches at hr ⊢; omega)]
  · intro he hs k l
    by_cases hr : Reaches ny nx k l
    · rw [hv k l hr, hv l k (by unfold Reaches at hr ⊢; omega)]
      have := hs l k
      simpa using this
    · rw [centered_none o k l (by rw [h1, h2]; exact hr), centered_none o l k (by rw [h1, h2]; unfold Reaches at hr ⊢; omega)]

/-- **C66.** A centred `circle` is symmetric left-right and up-down on odd arrays, and under transposition on square
arrays. -/
theorem C66_circle_symmetric (nx ny N : ℕ) (hx : 2 ≤ nx) (hy : 1 ≤ ny) (hN : 1 ≤ N) (radius : ℝ) (hr : 0 < radius)
    (isDark : Bool) :
    ∃ o, circle nx ny radius 0 0 N isDark = .ok o ∧
      (nx % 2 = 1 → ∀ k l, o.centered k (-l) = o.centered k l) ∧
      (ny % 2 = 1 → ∀ k l, o.centered (-k) l = o.centered k l) ∧
      (nx = ny → ∀ k l, o.centered l k = o.centered k l) := by
  obtain ⟨o, ho, f1, f2, -, f4⟩ := image_flip _ _ _ _ (C36_circle_exact nx ny N hx hy hN radius 0 0 hr isDark)
  refine ⟨o, ho, fun h => f1 (by omega) ?_, fun h => f2 (by omega) ?_, fun h => f4 (by omega) ?_⟩
  · intro x y
    rw [areaFraction_flip_x]
    congr 1
    exact areaFraction_congr N _ _ (fun x y => by unfold inDisc; rw [neg_sq]) x y
  · intro x y
    rw [areaFraction_flip_y]
    congr 1
    exact areaFraction_congr N _ _ (fun x y => by unfold inDisc; rw [neg_sq]) x y
  · intro x y
    rw [areaFraction_transpose]
    congr 1
    exact areaFraction_congr N _ _ (fun x y => by unfold inDisc; rw [add_comm]) x y

/-- **C66.** A centred `rectangle` is invariant under the half-turn on odd arrays, whatever its rotation; without rotation
it is symmetric left-right and up-down. -/
theorem C66_rectangle_symmetric (nx ny N : ℕ) (hx : 2 ≤ nx) (hy : 1 ≤ ny) (hN : 1 ≤ N) (w h rot : ℝ) (hw : 0 < w) (hh : 0 < h)
    (isDark : Bool) :
    ∃ o, rectangle nx ny w h 0 0 rot N isDark = .ok o ∧
      (nx % 2 = 1 → ny % 2 = 1 → ∀ k l, o.centered (-k) (-l) = o.centered k l) ∧
      (rot = 0 → nx % 2 = 1 → ∀ k l, o.centered k (-l) = o.centered k l) ∧
      (rot = 0 → ny % 2 = 1 → ∀ k l, o.centered (-k) l = o.centered k l) := by
  obtain ⟨o, ho, f1, f2, f3, -⟩ := image_flip _ _ _ _ (C37_rectangle_exact nx ny N hx hy hN w h 0 0 rot hw hh isDark)
  refine ⟨o, ho, fun a b => f3 (by omega) (by omega) ?_, fun r0 a => f1 (by omega) ?_, fun r0 a => f2 (by omega) ?_⟩
  · intro x y
    rw [areaFraction_flip_x, areaFraction_flip_y]
    congr 1
    refine areaFraction_congr N _ _ (fun x y => ?_) x y
    unfold inRect turnedX turnedY
    rw [show -x * Real.cos (rot * Real.pi / 180) + -y * Real.sin (rot * Real.pi / 180) =
        -(x * Real.cos (rot * Real.pi / 180) + y * Real.sin (rot * Real.pi / 180)) by ring,
      show -y * Real.cos (rot * Real.pi / 180) - -x * Real.sin (rot * Real.pi / 180) =
        -(y * Real.cos (rot * Real.pi / 180) - x * Real.sin (rot * Real.pi / 180)) by ring, abs_neg, abs_neg]
  · intro x y
    rw [areaFraction_flip_x]
    congr 1
    refine areaFraction_congr N _ _ (fun x y => ?_) x y
    unfold inRect turnedX turnedY
    subst r0
    simp
  · intro x y
    rw [areaFraction_flip_y]
    congr 1
    refine areaFraction_congr N _ _ (fun x y => ?_) x y
    unfold inRect turnedX turnedY
    subst r0
    simp

end Coralign.Props
