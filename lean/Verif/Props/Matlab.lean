import Verif.Model.Matlab
import Verif.Props.FocalFit

/-!
# Property C61: the MATLAB port agrees with the Python code
-/

namespace Coralign.Props

open Coralign Coralign.Spec Finset

/-- The value of a call, `none` if it raises. -/
def okValue {α : Type} (r : Res α) : Option α := r.toOption

@[simp] theorem okValue_ok {α : Type} (a : α) : okValue (.ok a : Res α) = some a := rfl
@[simp] theorem okValue_error {α : Type} (e : PyExc) : okValue (.error e : Res α) = none := rfl

/-- **C61.** `bound_value` agrees on all reals, including which bounds are refused. -/
theorem C61_bound_value (x m : ℝ) : Matlab.boundValue x m = okValue (boundValue x m) := by
  unfold Matlab.boundValue boundValue
  split_ifs <;> rfl

/-- **C61.** `calc_offset_linear` agrees on all reals. -/
theorem C61_linear (c1 r : ℝ) : Matlab.calcOffsetLinear c1 r = okValue (calcOffsetLinear c1 r) := by
  unfold Matlab.calcOffsetLinear calcOffsetLinear ratioAndSign
  split_ifs <;> rfl

/-- **C61.** `calc_offset_quadratic` agrees wherever its root is real. -/
theorem C61_quadratic (c1 c2 r : ℝ) : Matlab.calcOffsetQuadratic c1 c2 r = okValue (calcOffsetQuadratic c1 c2 r) := by
  unfold Matlab.calcOffsetQuadratic calcOffsetQuadratic ratioAndSign
  split_ifs <;> rfl

theorem axis_eq (n : ℕ) (o : ℝ) (k : ℕ) : Matlab.axis n o k = shapeAxis n o k := by
  unfold Matlab.axis shapeAxis
  rw [neg_div, neg_div]

theorem foldl_setAt {n m : ℕ} (v : Fin n × Fin m → ℝ) (l : List (Fin n × Fin m)) (mask : Fin n → Fin m → ℝ) (i : Fin n)
    (j : Fin m) : l.foldl (Matlab.setAt v) mask i j = if (i, j) ∈ l then v (i, j) else mask i j := by
  induction l generalizing mask with
  | nil => simp
  | cons g l ih =>
    rw [List.foldl_cons, ih]
    unfold Matlab.setAt
    by_cases h : (i, j) ∈ l
    · simp [h]
    · by_cases e : (i, j) = g
      · simp [h, e]
      · simp [h, e]

/-- **C61.** `circle.m` produces the same array as `shapes.circle`, and fails on exactly the same arguments. -/
theorem C61_circle (nx ny : ℤ) (r xo yo : ℝ) (N : ℤ) :
    Matlab.circle nx ny r xo yo N = okValue (circle nx ny r xo yo N false) := by
  classical
  unfold Matlab.circle circle
  by_cases h1 : nx ≤ 0 ∨ ny ≤ 0 ∨ r ≤ 0 ∨ N ≤ 0
  · rw [if_pos h1, if_pos h1]; rfl
  · rw [if_neg h1, if_neg h1]
    by_cases h2 : nx = 1
    · rw [if_pos h2, if_pos (by omega)]; rfl
    · rw [if_neg h2, if_neg (by push Not at h1; omega)]
      simp only [okValue_ok, darken, Bool.false_eq_true, if_false, antialias, axis_eq]
      congr 2
      funext i j
      rw [foldl_setAt]
      unfold antialiasVal subMean subAxis
      simp only [List.mem_flatMap, List.mem_finRange, true_and, List.mem_filter, List.mem_map, Prod.mk.injEq,
        exists_eq_right_right, exists_eq_right, decide_eq_true_eq, neg_div]
      simp

theorem roiSum_eq (n m : ℕ) (f g : Fin n → Fin m → ℝ) : Matlab.roiSum ⟨n, m, f⟩ ⟨n, m, g⟩ = roiSum ⟨n, m, f⟩ ⟨n, m, g⟩ := by
  unfold Matlab.roiSum roiSum
  rw [mulPx_eq]
  simp only
  rw [Finset.sum_comm]
  refine Finset.sum_congr rfl fun i _ => Finset.sum_congr rfl fun j _ => ?_
  rw [Arr2.px_val (⟨n, m, g⟩ : Arr2 ℝ) i j]
  rfl

theorem circle_shape (nx ny : ℕ) (r xo yo : ℝ) (N : ℤ) (d : Bool) (o : Arr2 ℝ) (h : circle nx ny r xo yo N d = .ok o) :
    o.nr = ny ∧ o.nc = nx := by
  unfold circle at h
  split_ifs at h
  simp only [Except.ok.injEq] at h
  subst h
  unfold darken antialias
  split_ifs <;> simp [Arr2.map]

/-- **C61.** `calc_offset_from_spots.m` agrees with the Python function called with target ratio one, for every image,
angle and tuning. -/
theorem C61_from_spots (img : Arr2 ℝ) (rotDeg xo yo : ℝ) (t : SpotTuning) :
    Matlab.calcOffsetFromSpots img rotDeg xo yo t = okValue (calcOffsetFromSpots img rotDeg xo yo t 1) := by
  unfold Matlab.calcOffsetFromSpots calcOffsetFromSpots
  by_cases h1 : t.spotSepPix ≤ 0 ∨ t.roiRadiusPix ≤ 0 ∨ t.nSubpixels ≤ 0 ∨ t.maxStep ≤ 0 ∨ t.fitCoefPow1 ≤ 0 ∨
      t.fitCoefPow2 ≤ 0 ∨ t.powerOfFit ≤ 0
  · rw [if_pos h1, if_pos (Or.inr h1)]; rfl
  rw [if_neg h1, if_neg (show ¬ ((1 : ℝ) ≤ 0 ∨ _) by rintro (a | a); · linarith
                                                     · exact h1 a)]
  by_cases h2 : t.powerOfFit = 1 ∨ t.powerOfFit = 2
  swap
  · rw [if_pos h2, if_pos h2]; rfl
  rw [if_neg (not_not.mpr h2), if_neg (not_not.mpr h2)]
  by_cases h3 : t.maskIsInsideSpots = 0 ∨ t.maskIsInsideSpots = 1
  swap
  · rw [if_pos h3, if_pos h3]; rfl
  rw [if_neg (not_not.mpr h3), if_neg (not_not.mpr h3)]
  simp only [C61_circle, C61_linear, C61_quadratic, C61_bound_value]
  have hs : ∀ r, (if t.powerOfFit = 1 then okValue (calcOffsetLinear t.fitCoefPow1 r)
      else okValue (calcOffsetQuadratic t.fitCoefPow1 t.fitCoefPow2 r)) = okValue (t.offset r) := by
    intro r
    unfold SpotTuning.offset
    split_ifs <;> rfl
  simp only [hs]
  cases hc1 : circle img.nc img.nr t.roiRadiusPix (Real.cos (Real.pi / 180 * rotDeg) * t.spotSepPix + xo)
    (Real.sin (Real.pi / 180 * rotDeg) * t.spotSepPix + yo) t.nSubpixels false with
  | error e => rfl
  | ok m1 =>
    cases hc2 : circle img.nc img.nr t.roiRadiusPix (Real.cos (Real.pi / 180 * rotDeg + Real.pi) * t.spotSepPix + xo)
      (Real.sin (Real.pi / 180 * rotDeg + Real.pi) * t.spotSepPix + yo) t.nSubpixels false with
    | error e => rfl
    | ok m2 =>
      obtain ⟨n, m, g⟩ := img
      obtain ⟨n1, k1, f1⟩ := m1
      obtain ⟨n2, k2, f2⟩ := m2
      obtain ⟨a1, b1⟩ := circle_shape _ _ _ _ _ _ _ _ hc1
      obtain ⟨a2, b2⟩ := circle_shape _ _ _ _ _ _ _ _ hc2
      simp only at a1 b1 a2 b2
      subst a1; subst b1; subst a2; subst b2
      simp only [okValue_ok, Option.bind_eq_bind, Option.bind_some, res_ok_bind, roiSum_eq]
      rw [show ∀ s : ℝ, (if s ≤ 0 then macheps else s) = liftSum s from fun s => rfl]
      rw [show ∀ s : ℝ, (if s ≤ 0 then macheps else s) = liftSum s from fun s => rfl]
      cases hx : t.offset (liftSum (roiSum ⟨n2, k2, f1⟩ ⟨n2, k2, g⟩) / liftSum (roiSum ⟨n2, k2, f2⟩ ⟨n2, k2, g⟩)) with
      | error e => rfl
      | ok x =>
        simp only [okValue_ok, Option.bind_some, res_ok_bind]
        cases hxt : t.offset 1 with
        | error e => rfl
        | ok xt =>
          simp only [okValue_ok, Option.bind_some, res_ok_bind]
          cases hb : boundValue (x - xt) t.maxStep with
          | error e => rfl
          | ok y =>
            simp only [okValue_ok, Option.bind_some, res_ok_bind, Option.some.injEq]
            unfold SpotTuning.orient
            split_ifs <;> ring

/-- A case where both succeed, with a non-zero answer. -/
example : Matlab.calcOffsetLinear 2 3 = some 1 := by rw [C61_linear]; unfold calcOffsetLinear ratioAndSign; norm_num

/-- **C61, limit.** With any other target ratio the port is not equivalent: it has no such parameter. -/
theorem C61_target_ignored (img : Arr2 ℝ) (hx : 2 ≤ img.nc) (hy : 1 ≤ img.nr) (rotDeg xo yo : ℝ) (t : SpotTuning)
    (target : ℝ) (h : t.Valid target) (hin : t.maskIsInsideSpots = 1)
    (hr : measuredRatio img rotDeg xo yo t = 1) (ht : target ≠ 1) :
    Matlab.calcOffsetFromSpots img rotDeg xo yo t = some 0 ∧
      okValue (calcOffsetFromSpots img rotDeg xo yo t target) ≠ some 0 := by
  have v1 : t.Valid 1 := ⟨one_pos, h.sep, h.roi, h.sub, h.step, h.c1, h.c2, h.power, h.inside⟩
  constructor
  · obtain ⟨x, xt, -, -, e⟩ := C28_estimate img hx hy rotDeg xo yo t 1 v1
    rw [C61_from_spots, e, okValue_ok, (C28_sign img hx hy rotDeg xo yo t 1 _ v1 hin e).1.mpr hr]
  · obtain ⟨x, xt, -, -, e⟩ := C28_estimate img hx hy rotDeg xo yo t target h
    rw [e, okValue_ok]
    intro hc
    injection hc with hc
    exact ht ((C28_sign img hx hy rotDeg xo yo t target _ h hin e).1.mp hc ▸ hr)

end Coralign.Props
