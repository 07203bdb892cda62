import Verif.Model.DrUtil
import Verif.Spec.Center
import Mathlib.Tactic.LinearCombination
import Mathlib.Tactic.FieldSimp
import Mathlib.Algebra.BigOperators.Ring.Finset

/-!
# Property C25: `remove_piston_tip_tilt`
-/

namespace Coralign.Props

open Coralign Coralign.Spec

/-- Specification: the image plus the plane `p + q * row + r * column`. -/
noncomputable def addPlane (a : Arr2 ℝ) (p q r : ℝ) : Arr2 ℝ :=
  ⟨a.nr, a.nc, fun i j => a.val i j + (p + q * (i : ℕ) + r * (j : ℕ))⟩

/-- Specification: the image is zero at every pixel outside the mask. -/
def VanishesOutside (o : Arr2 ℝ) (mask : Arr2 Bool) : Prop :=
  ∀ i j : ℤ, mask.px i j = some false → o.px i j = some 0

/-- Specification: the image is orthogonal to planes: zero sum and zero row and column moments. -/
def OrthogonalToPlanes (o : Arr2 ℝ) : Prop := energy o = 0 ∧ rowMoment o = 0 ∧ colMoment o = 0

section core
variable {n m : ℕ}

theorem sum_selected (k : Fin n → Fin m → Bool) (g : Fin n → Fin m → ℝ) :
    ∑ i, ∑ j, (if k i j then g i j else 0) = ∑ q : Selected k, g q.1.1 q.1.2 := by
  have h1 : ∑ i, ∑ j, (if k i j then g i j else 0)
      = ∑ p : Fin n × Fin m, if k p.1 p.2 = true then g p.1 p.2 else 0 := by
    rw [← Finset.univ_product_univ, Finset.sum_product]
  rw [h1, ← Finset.sum_filter]
  exact Finset.sum_subtype _ (by simp) (fun p : Fin n × Fin m => g p.1 p.2)

theorem fitted_ptt (k : Fin n → Fin m → Bool) (c : Fin 3 → ℝ) (q : Selected k) :
    fitted (fun q : Selected k => ![pttCoord m q.1.2, pttCoord n q.1.1, 1]) c q
      = c 0 * pttCoord m q.1.2 + c 1 * pttCoord n q.1.1 + c 2 := by
  simp [fitted, Fin.sum_univ_three]; ring

theorem row_of_coord (i : Fin n) : ((i : ℕ) : ℝ) = n * pttCoord n i + n / 2 := by
  have : (n : ℝ) ≠ 0 := by have := i.isLt; exact_mod_cast (by omega : n ≠ 0)
  unfold pttCoord; field_simp; ring

/-- Every plane in pixel coordinates is a combination of the three basis functions. -/
theorem plane_fitted (k : Fin n → Fin m → Bool) (p q r : ℝ) (s : Selected k) :
    fitted (fun q : Selected k => ![pttCoord m q.1.2, pttCoord n q.1.1, 1])
      ![r * m, q * n, p + q * n / 2 + r * m / 2] s
      = p + q * ((s.1.1 : ℕ) : ℝ) + r * ((s.1.2 : ℕ) : ℝ) := by
  rw [fitted_ptt, row_of_coord s.1.1, row_of_coord s.1.2]
  simp; ring

theorem ptt_on_mask (S : Solver) (v : Fin n → Fin m → ℝ) (k : Fin n → Fin m → Bool) (q : Selected k) :
    pttValues S v k q.1.1 q.1.2
      = v q.1.1 q.1.2 - fitted (fun q : Selected k => ![pttCoord m q.1.2, pttCoord n q.1.1, 1])
          (pttCoeffs S v k) q := by
  unfold pttValues
  simp only
  rw [if_pos q.2, fitted_ptt]

/-- The output is orthogonal to every plane. -/
theorem ptt_moment (S : Solver) (v : Fin n → Fin m → ℝ) (k : Fin n → Fin m → Bool) (p q r : ℝ) :
    ∑ i : Fin n, ∑ j : Fin m, (p + q * ((i : ℕ) : ℝ) + r * ((j : ℕ) : ℝ)) * pttValues S v k i j = 0 := by
  have h1 : ∑ i : Fin n, ∑ j : Fin m, (p + q * ((i : ℕ) : ℝ) + r * ((j : ℕ) : ℝ)) * pttValues S v k i j
      = ∑ i : Fin n, ∑ j : Fin m, (if k i j then (p + q * ((i : ℕ) : ℝ) + r * ((j : ℕ) : ℝ)) * pttValues S v k i j else 0) := by
    refine Finset.sum_congr rfl fun i _ => Finset.sum_congr rfl fun j _ => ?_
    by_cases h : k i j
    · rw [if_pos h]
    · rw [if_neg h]; simp [pttValues, h]
  rw [h1, sum_selected k (fun i j => (p + q * ((i : ℕ) : ℝ) + r * ((j : ℕ) : ℝ)) * pttValues S v k i j)]
  have h2 := (S.isLeastSq (fun q : Selected k => ![pttCoord m q.1.2, pttCoord n q.1.1, 1])
    (fun q => v q.1.1 q.1.2)).orthogonal ![r * m, q * n, p + q * n / 2 + r * m / 2]
  rw [← neg_eq_zero, ← Finset.sum_neg_distrib, ← h2]
  refine Finset.sum_congr rfl fun s _ => ?_
  rw [plane_fitted, ptt_on_mask]
  unfold pttCoeffs
  ring

/-- If two inputs differ on the mask by a plane, the outputs agree. -/
theorem ptt_congr_plane (S : Solver) (v w : Fin n → Fin m → ℝ) (k : Fin n → Fin m → Bool) (p q r : ℝ)
    (h : ∀ i j, k i j = true → w i j = v i j + (p + q * ((i : ℕ) : ℝ) + r * ((j : ℕ) : ℝ))) :
    pttValues S w k = pttValues S v k := by
  funext i j
  by_cases hk : k i j = true
  · let s : Selected k := ⟨(i, j), hk⟩
    have e1 := ptt_on_mask S w k s
    have e2 := ptt_on_mask S v k s
    simp only [s] at e1 e2
    rw [e1, e2, h i j hk]
    set A := (fun q : Selected k => ![pttCoord m q.1.2, pttCoord n q.1.1, 1]) with hA
    have hv := S.isLeastSq A (fun q => v q.1.1 q.1.2)
    have hw := S.isLeastSq A (fun q => w q.1.1 q.1.2)
    -- shifting the coefficients of `v`'s fit by the plane gives a least-squares fit of `w`
    have hshift : IsLeastSq A (fun q => w q.1.1 q.1.2)
        (fun t => pttCoeffs S v k t + ![r * m, q * n, p + q * n / 2 + r * m / 2] t) := by
      refine isLeastSq_of_orthogonal fun y => ?_
      rw [← hv.orthogonal y]
      refine Finset.sum_congr rfl fun t _ => ?_
      rw [fitted_add, plane_fitted, h _ _ t.2]
      unfold pttCoeffs
      ring
    have := hw.fitted_unique hshift ⟨(i, j), hk⟩
    rw [fitted_add, plane_fitted] at this
    unfold pttCoeffs at this ⊢
    simp only at this
    rw [this]
    ring
  · simp [pttValues, hk]

end core

theorem ptt_ok (S : Solver) (arr : Arr2 ℝ) (mask : Arr2 Bool) (hr : arr.nr = mask.nr) (hc : arr.nc = mask.nc) :
    removePistonTipTilt S arr mask
      = .ok ⟨arr.nr, arr.nc, pttValues S arr.val fun i j => mask.val (i.cast hr) (j.cast hc)⟩ := by
  unfold removePistonTipTilt; rw [dif_pos ⟨hr, hc⟩]

/-- **C25.** The result has the input's shape, is zero outside the mask, and has zero sum and zero row and
column moments. -/
theorem C25_residual (S : Solver) (arr : Arr2 ℝ) (mask : Arr2 Bool) (hr : arr.nr = mask.nr)
    (hc : arr.nc = mask.nc) :
    ∃ o, removePistonTipTilt S arr mask = .ok o ∧ o.nr = arr.nr ∧ o.nc = arr.nc ∧
      VanishesOutside o mask ∧ OrthogonalToPlanes o := by
  refine ⟨_, ptt_ok S arr mask hr hc, rfl, rfl, ?_, ?_, ?_, ?_⟩
  · intro i j h
    have hin := (Arr2.px_isSome mask i j).mp (by rw [h]; rfl)
    rw [Arr2.px_of_inB _ (by simp only; omega)]
    rw [Arr2.px_of_inB mask hin] at h
    have := Option.some.inj h
    simp only [pttValues, Fin.cast_mk]
    rw [this]
    simp
  · have := ptt_moment S arr.val (fun i j => mask.val (i.cast hr) (j.cast hc)) 1 0 0
    simpa [energy] using this
  · have := ptt_moment S arr.val (fun i j => mask.val (i.cast hr) (j.cast hc)) 0 1 0
    simpa [rowMoment] using this
  · have := ptt_moment S arr.val (fun i j => mask.val (i.cast hr) (j.cast hc)) 0 0 1
    simpa [colMoment] using this

/-- **C25.** Adding any plane to the input does not change the result. -/
theorem C25_plane_invariant (S : Solver) (arr : Arr2 ℝ) (mask : Arr2 Bool) (p q r : ℝ) :
    removePistonTipTilt S (addPlane arr p q r) mask = removePistonTipTilt S arr mask := by
  by_cases h : arr.nr = mask.nr ∧ arr.nc = mask.nc
  · rw [ptt_ok S arr mask h.1 h.2, ptt_ok S (addPlane arr p q r) mask h.1 h.2]
    congr 2
    exact ptt_congr_plane S arr.val (addPlane arr p q r).val _ p q r (fun i j _ => rfl)
  · unfold removePistonTipTilt
    rw [dif_neg h, dif_neg (show ¬ ((addPlane arr p q r).nr = mask.nr ∧ (addPlane arr p q r).nc = mask.nc) from h)]

/-- **C25.** A map that already vanishes outside the mask and is orthogonal to planes is returned unchanged. -/
theorem C25_identity (S : Solver) (arr : Arr2 ℝ) (mask : Arr2 Bool) (hr : arr.nr = mask.nr)
    (hc : arr.nc = mask.nc) (hv : VanishesOutside arr mask) (ho : OrthogonalToPlanes arr) :
    removePistonTipTilt S arr mask = .ok arr := by
  rw [ptt_ok S arr mask hr hc]
  have hout : ∀ i j, (mask.val (Fin.cast hr i) (Fin.cast hc j)) = false → arr.val i j = 0 := by
    intro i j h
    have := hv (i : ℕ) (j : ℕ) (by
      have := Arr2.px_val mask (Fin.cast hr i) (Fin.cast hc j)
      simp only [Fin.val_cast] at this
      rw [this, h])
    rw [Arr2.px_val] at this
    exact Option.some.inj this
  congr 1
  obtain ⟨nr, nc, v⟩ := arr
  simp only at *
  congr
  funext i j
  generalize hk : (fun i j => mask.val (Fin.cast hr i) (Fin.cast hc j)) = k at *
  have hout' : ∀ i j, k i j = false → v i j = 0 := by
    intro i j h; apply hout; rw [← hk] at h; exact h
  by_cases hkij : k i j = true
  · -- the zero plane is a least-squares fit
    let A := (fun q : Selected k => ![pttCoord nc q.1.2, pttCoord nr q.1.1, 1])
    have hz : IsLeastSq A (fun q => v q.1.1 q.1.2) (fun _ => 0) := by
      refine isLeastSq_of_orthogonal fun y => ?_
      have e : ∀ q : Selected k, (fitted A (fun _ => 0) q - v q.1.1 q.1.2) * fitted A y q
          = -(v q.1.1 q.1.2 * (y 0 * pttCoord nc q.1.2 + y 1 * pttCoord nr q.1.1 + y 2)) := by
        intro q
        rw [fitted_ptt, fitted_ptt]; ring
      rw [Finset.sum_congr rfl fun q _ => e q, Finset.sum_neg_distrib, neg_eq_zero]
      rw [← sum_selected k (fun i j => v i j * (y 0 * pttCoord nc j + y 1 * pttCoord nr i + y 2))]
      have e2 : ∀ i j, (if k i j = true then v i j * (y 0 * pttCoord nc j + y 1 * pttCoord nr i + y 2) else 0)
          = y 0 / nc * (((j : ℕ) : ℝ) * v i j) + y 1 / nr * (((i : ℕ) : ℝ) * v i j)
            + (y 2 - y 0 / 2 - y 1 / 2) * v i j := by
        intro i j
        by_cases h : k i j = true
        · rw [if_pos h]
          have h1 : (nr : ℝ) ≠ 0 := by have := i.isLt; exact_mod_cast Nat.ne_of_gt (Nat.lt_of_le_of_lt (Nat.zero_le _) this)
          have h2 : (nc : ℝ) ≠ 0 := by have := j.isLt; exact_mod_cast Nat.ne_of_gt (Nat.lt_of_le_of_lt (Nat.zero_le _) this)
          unfold pttCoord; field_simp; ring
        · rw [if_neg h, hout' i j (by simpa using h)]; ring
      simp only [e2, Finset.sum_add_distrib, ← Finset.mul_sum]
      obtain ⟨o1, o2, o3⟩ := ho
      unfold energy at o1
      unfold rowMoment at o2
      unfold colMoment at o3
      simp only [← Finset.mul_sum] at o1 o2 o3
      rw [o1, o2, o3]; ring
    have := (S.isLeastSq A (fun q => v q.1.1 q.1.2)).fitted_unique hz ⟨(i, j), hkij⟩
    have e1 := ptt_on_mask S v k ⟨(i, j), hkij⟩
    simp only at e1
    rw [e1]
    unfold pttCoeffs
    rw [this, fitted_ptt]
    ring
  · rw [hout' i j (by simpa using hkij)]
    simp [pttValues, hkij]

/-- **C25.** Applying the function twice is the same as applying it once. -/
theorem C25_idempotent (S : Solver) (arr o : Arr2 ℝ) (mask : Arr2 Bool)
    (h : removePistonTipTilt S arr mask = .ok o) : removePistonTipTilt S o mask = .ok o := by
  by_cases hs : arr.nr = mask.nr ∧ arr.nc = mask.nc
  · obtain ⟨o', h1, h2, h3, h4, h5⟩ := C25_residual S arr mask hs.1 hs.2
    rw [h] at h1
    injection h1 with h1
    subst h1
    exact C25_identity S o mask (by omega) (by omega) h4 h5
  · unfold removePistonTipTilt at h
    rw [dif_neg hs] at h
    cases h

/-- **C25.** A mask of another shape is rejected. -/
theorem C25_shape_mismatch (S : Solver) (arr : Arr2 ℝ) (mask : Arr2 Bool)
    (h : ¬ (arr.nr = mask.nr ∧ arr.nc = mask.nc)) : removePistonTipTilt S arr mask = .error .valueError := by
  unfold removePistonTipTilt; rw [dif_neg h]

/-- Non-trivial map satisfying the hypotheses of `C25_identity`: 1, -2, 1 along a row. -/
example : OrthogonalToPlanes (Arr2.ofFn 1 3 fun _ j => if j = 1 then -2 else 1) ∧
    VanishesOutside (Arr2.ofFn 1 3 fun _ j => if j = 1 then -2 else 1) (Arr2.full 1 3 true) := by
  refine ⟨⟨?_, ?_, ?_⟩, ?_⟩
  · show ∑ i : Fin 1, ∑ j : Fin 3, (if (j : ℕ) = 1 then (-2 : ℝ) else 1) = 0
    simp only [Fin.sum_univ_three, Fin.sum_univ_one]; norm_num
  · show ∑ i : Fin 1, ∑ j : Fin 3, ((i : ℕ) : ℝ) * (if (j : ℕ) = 1 then (-2 : ℝ) else 1) = 0
    simp only [Fin.sum_univ_three, Fin.sum_univ_one]; norm_num
  · show ∑ i : Fin 1, ∑ j : Fin 3, ((j : ℕ) : ℝ) * (if (j : ℕ) = 1 then (-2 : ℝ) else 1) = 0
    simp only [Fin.sum_univ_three, Fin.sum_univ_one]; norm_num
  · intro i j h
    rw [Arr2.px_full] at h
    split at h <;> cases h

end Coralign.Props
