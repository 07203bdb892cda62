import Verif.Props.Center
import Verif.Props.Quad
import Verif.Props.NormFactor
import Verif.Props.DrUtil
import Verif.Props.Zernike
import Verif.Props.FindOptFit

/-!
# Property C112: how far noise in the data moves the estimates

`center_of_energy`, `quadrant_energy_balance`, `compute_norm_factor`, `remove_piston_tip_tilt`, `fit_zernikes` and
`find_optimum_1d` on data `f` and on the same data with an arbitrary disturbance added.
-/

namespace Coralign.Props

open Coralign Coralign.Spec

/-! ### Centre of energy -/

section centre
variable {K : Type} [Field K] [LinearOrder K] [IsStrictOrderedRing K] {n m : ℕ}

omit [LinearOrder K] [IsStrictOrderedRing K] in
theorem energy_add (f w : Fin n → Fin m → K) :
    energy (⟨n, m, fun i j => f i j + w i j⟩ : Arr2 K) = energy (⟨n, m, f⟩ : Arr2 K) + energy (⟨n, m, w⟩ : Arr2 K) := by
  simp only [energy, Finset.sum_add_distrib]

omit [IsStrictOrderedRing K] in
theorem center_ok {a : Arr2 K} {x y : K} (hne : energy a ≠ 0) (h : centerOfEnergy a = some (x, y)) :
    x = colMoment a / energy a ∧ y = rowMoment a / energy a := by
  rw [centerOfEnergy_eq a hne] at h
  injection h with h
  injection h with h1 h2
  exact ⟨h1.symm, h2.symm⟩

omit [IsStrictOrderedRing K] in
/-- **C112.** A disturbance `w` of the image moves the centre of energy by the moment of `w` about the centre found without
it, divided by the energy of the disturbed image. -/
theorem C112_center (f w : Fin n → Fin m → K) (x y : K) (h : centerOfEnergy (⟨n, m, f⟩ : Arr2 K) = some (x, y))
    (hf : ∑ i, ∑ j, f i j ≠ 0) (hs : ∑ i, ∑ j, (f i j + w i j) ≠ 0) :
    centerOfEnergy (⟨n, m, fun i j => f i j + w i j⟩ : Arr2 K) = some
      (x + (∑ i : Fin n, ∑ j : Fin m, w i j * (((j : ℕ) : K) - x)) / ∑ i, ∑ j, (f i j + w i j),
       y + (∑ i : Fin n, ∑ j : Fin m, w i j * (((i : ℕ) : K) - y)) / ∑ i, ∑ j, (f i j + w i j)) := by
  have hne : energy (⟨n, m, f⟩ : Arr2 K) ≠ 0 := hf
  obtain ⟨hx, hy⟩ := center_ok hne h
  have hE : energy (⟨n, m, fun i j => f i j + w i j⟩ : Arr2 K) ≠ 0 := hs
  rw [centerOfEnergy_eq _ hE, show (∑ i, ∑ j, (f i j + w i j)) = energy (⟨n, m, fun i j => f i j + w i j⟩ : Arr2 K) from rfl]
  have key : ∀ (c : Fin n → Fin m → K) (z : K), z * energy (⟨n, m, f⟩ : Arr2 K) = ∑ i, ∑ j, c i j * f i j →
      (∑ i, ∑ j, c i j * (f i j + w i j)) = z * energy (⟨n, m, fun i j => f i j + w i j⟩ : Arr2 K)
        + ∑ i, ∑ j, w i j * (c i j - z) := by
    intro c z hz
    rw [energy_add, mul_add, hz]
    have : z * energy (⟨n, m, w⟩ : Arr2 K) = ∑ i, ∑ j, z * w i j := by simp only [energy, Finset.mul_sum]
    rw [this]
    simp only [← Finset.sum_add_distrib]
    exact Finset.sum_congr rfl fun i _ => Finset.sum_congr rfl fun j _ => by ring
  have h1 := key (fun _ j => ((j : ℕ) : K)) x (by rw [hx]; field_simp; rfl)
  have h2 := key (fun i _ => ((i : ℕ) : K)) y (by rw [hy]; field_simp; rfl)
  congr 2
  · rw [show colMoment (⟨n, m, fun i j => f i j + w i j⟩ : Arr2 K) = _ from h1, add_div, mul_div_assoc, div_self hE, mul_one]
  · rw [show rowMoment (⟨n, m, fun i j => f i j + w i j⟩ : Arr2 K) = _ from h2, add_div, mul_div_assoc, div_self hE, mul_one]

/-- **C112.** On a non-negative image the centre moves by at most the size of the array times the fraction of the energy
that is disturbed. -/
theorem C112_center_bound (f w : Fin n → Fin m → K) (h0 : ∀ i j, 0 ≤ f i j) (h1 : ∃ i j, f i j ≠ 0)
    (hs : 0 < ∑ i, ∑ j, (f i j + w i j)) :
    ∃ x y x' y', centerOfEnergy (⟨n, m, f⟩ : Arr2 K) = some (x, y) ∧
      centerOfEnergy (⟨n, m, fun i j => f i j + w i j⟩ : Arr2 K) = some (x', y') ∧
      |x' - x| ≤ ((m : K) - 1) * ((∑ i, ∑ j, |w i j|) / ∑ i, ∑ j, (f i j + w i j)) ∧
      |y' - y| ≤ ((n : K) - 1) * ((∑ i, ∑ j, |w i j|) / ∑ i, ∑ j, (f i j + w i j)) := by
  obtain ⟨x, y, hc, hx0, hx1, hy0, hy1⟩ := C10_inside (⟨n, m, f⟩ : Arr2 K) h0 h1
  have hf : ∑ i, ∑ j, f i j ≠ 0 := by
    obtain ⟨i, j, hij⟩ := h1
    exact (Finset.sum_pos' (fun i _ => Finset.sum_nonneg fun j _ => h0 i j) ⟨i, Finset.mem_univ _,
      Finset.sum_pos' (fun j _ => h0 i j) ⟨j, Finset.mem_univ _, lt_of_le_of_ne (h0 i j) (Ne.symm hij)⟩⟩).ne'
  refine ⟨x, y, _, _, hc, C112_center f w x y hc hf hs.ne', ?_, ?_⟩
  · rw [add_sub_cancel_left, abs_div, abs_of_pos hs, ← mul_div_assoc]
    refine div_le_div_of_nonneg_right ?_ hs.le
    rw [Finset.mul_sum]
    refine (Finset.abs_sum_le_sum_abs _ _).trans (Finset.sum_le_sum fun i _ => ?_)
    rw [Finset.mul_sum]
    refine (Finset.abs_sum_le_sum_abs _ _).trans (Finset.sum_le_sum fun j _ => ?_)
    rw [abs_mul, mul_comm]
    refine mul_le_mul_of_nonneg_right ?_ (abs_nonneg _)
    have hj : ((j : ℕ) : K) + 1 ≤ m := by exact_mod_cast j.isLt
    have hj0 : (0 : K) ≤ ((j : ℕ) : K) := Nat.cast_nonneg _
    simp only at hx1
    rw [abs_le]; constructor <;> linarith
  · rw [add_sub_cancel_left, abs_div, abs_of_pos hs, ← mul_div_assoc]
    refine div_le_div_of_nonneg_right ?_ hs.le
    rw [Finset.mul_sum]
    refine (Finset.abs_sum_le_sum_abs _ _).trans (Finset.sum_le_sum fun i _ => ?_)
    rw [Finset.mul_sum]
    refine (Finset.abs_sum_le_sum_abs _ _).trans (Finset.sum_le_sum fun j _ => ?_)
    rw [abs_mul, mul_comm]
    refine mul_le_mul_of_nonneg_right ?_ (abs_nonneg _)
    have hi : ((i : ℕ) : K) + 1 ≤ n := by exact_mod_cast i.isLt
    have hi0 : (0 : K) ≤ ((i : ℕ) : K) := Nat.cast_nonneg _
    simp only at hy1
    rw [abs_le]; constructor <;> linarith

end centre

/-- One pixel of brightness 3, and a stray count one column to the right: the centre moves by a quarter of a pixel. -/
example : centerOfEnergy (⟨1, 2, ![![(3 : ℚ), 0]]⟩ : Arr2 ℚ) = some (0, 0) ∧
    centerOfEnergy (⟨1, 2, fun i j => ![![(3 : ℚ), 0]] i j + ![![0, 1]] i j⟩ : Arr2 ℚ) = some (1 / 4, 0) := by
  have h : centerOfEnergy (⟨1, 2, ![![(3 : ℚ), 0]]⟩ : Arr2 ℚ) = some (0, 0) := by
    rw [centerOfEnergy_eq _ (by simp [energy])]
    simp [energy, colMoment, rowMoment]
  refine ⟨h, ?_⟩
  have := C112_center ![![(3 : ℚ), 0]] ![![0, 1]] 0 0 h (by simp) (by simp; norm_num)
  rw [this]
  simp
  norm_num

/-! ### Quadrant balances -/

section quad
variable {n m : ℕ}

/-- The sign-weighted sum that the x balance (`swap = false`) or the y balance (`swap = true`) divides by the energy. -/
noncomputable def lopsided (swap : Bool) (f : Fin n → Fin m → ℝ) (ox oy : ℤ) (radius : ℝ) : ℝ :=
  if swap then
    discEnergy ⟨n, m, f⟩ ox oy radius (fun x y => x ≥ 0 ∧ y ≥ 0) + discEnergy ⟨n, m, f⟩ ox oy radius (fun x y => x ≤ 0 ∧ y ≥ 0)
        - (discEnergy ⟨n, m, f⟩ ox oy radius (fun x y => x ≥ 0 ∧ y ≤ 0)
          + discEnergy ⟨n, m, f⟩ ox oy radius (fun x y => x ≤ 0 ∧ y ≤ 0))
  else
    discEnergy ⟨n, m, f⟩ ox oy radius (fun x y => x ≥ 0 ∧ y ≥ 0) + discEnergy ⟨n, m, f⟩ ox oy radius (fun x y => x ≥ 0 ∧ y ≤ 0)
        - (discEnergy ⟨n, m, f⟩ ox oy radius (fun x y => x ≤ 0 ∧ y ≥ 0)
          + discEnergy ⟨n, m, f⟩ ox oy radius (fun x y => x ≤ 0 ∧ y ≤ 0))

theorem discEnergy_add (f w : Fin n → Fin m → ℝ) (ox oy : ℤ) (radius : ℝ) (q : ℤ → ℤ → Prop) :
    discEnergy ⟨n, m, fun i j => f i j + w i j⟩ ox oy radius q
      = discEnergy ⟨n, m, f⟩ ox oy radius q + discEnergy ⟨n, m, w⟩ ox oy radius q := by
  unfold discEnergy
  simp only [← Finset.sum_add_distrib]
  refine Finset.sum_congr rfl fun i _ => Finset.sum_congr rfl fun j _ => ?_
  by_cases h : q (((j : ℕ) : ℤ) - ox) (((i : ℕ) : ℤ) - oy) ∧
      ((((j : ℕ) : ℤ) - ox : ℤ) : ℝ) ^ 2 + ((((i : ℕ) : ℤ) - oy : ℤ) : ℝ) ^ 2 ≤ radius ^ 2
  · rw [sel_pos h, sel_pos h, sel_pos h]
  · rw [sel_neg h, sel_neg h, sel_neg h, add_zero]

theorem lopsided_add (swap : Bool) (f w : Fin n → Fin m → ℝ) (ox oy : ℤ) (radius : ℝ) :
    lopsided swap (fun i j => f i j + w i j) ox oy radius = lopsided swap f ox oy radius + lopsided swap w ox oy radius := by
  unfold lopsided
  cases swap
  · simp only [Bool.false_eq_true, if_false, discEnergy_add]; ring
  · simp only [if_true, discEnergy_add]; ring

/-- No pixel counts more than twice. -/
theorem lopsided_bound (swap : Bool) (f : Fin n → Fin m → ℝ) (ox oy : ℤ) (radius : ℝ) :
    |lopsided swap f ox oy radius| ≤ 2 * ∑ i, ∑ j, |f i j| := by
  have pt : ∀ (P : Prop) (a b : ℤ) (v : ℝ),
      |sel ((a ≥ 0 ∧ b ≥ 0) ∧ P) v + sel ((a ≥ 0 ∧ b ≤ 0) ∧ P) v - (sel ((a ≤ 0 ∧ b ≥ 0) ∧ P) v + sel ((a ≤ 0 ∧ b ≤ 0) ∧ P) v)|
        ≤ 2 * |v| := by
    intro P a b v
    have hv := abs_nonneg v
    have h1 := le_abs_self v
    have h2 := neg_abs_le v
    by_cases hP : P
    · simp only [hP, and_true]
      rcases lt_trichotomy a 0 with ha | ha | ha <;> rcases lt_trichotomy b 0 with hb | hb | hb
      all_goals
        simp only [sel]
        split_ifs <;> first | omega | (rw [abs_le]; constructor <;> linarith)
    · simp only [hP, and_false, sel, if_false]
      simp
  have pt' : ∀ (P : Prop) (a b : ℤ) (v : ℝ),
      |sel ((a ≥ 0 ∧ b ≥ 0) ∧ P) v + sel ((a ≤ 0 ∧ b ≥ 0) ∧ P) v - (sel ((a ≥ 0 ∧ b ≤ 0) ∧ P) v + sel ((a ≤ 0 ∧ b ≤ 0) ∧ P) v)|
        ≤ 2 * |v| := by
    intro P a b v
    have := pt P b a v
    simp only [and_comm (a := a ≥ 0), and_comm (a := a ≤ 0)]
    exact this
  unfold lopsided discEnergy
  cases swap
  · simp only [Bool.false_eq_true, if_false, ← Finset.sum_add_distrib, ← Finset.sum_sub_distrib, Finset.mul_sum]
    refine (Finset.abs_sum_le_sum_abs _ _).trans (Finset.sum_le_sum fun i _ => ?_)
    refine (Finset.abs_sum_le_sum_abs _ _).trans (Finset.sum_le_sum fun j _ => ?_)
    exact pt _ _ _ _
  · simp only [if_true, ← Finset.sum_add_distrib, ← Finset.sum_sub_distrib, Finset.mul_sum]
    refine (Finset.abs_sum_le_sum_abs _ _).trans (Finset.sum_le_sum fun i _ => ?_)
    refine (Finset.abs_sum_le_sum_abs _ _).trans (Finset.sum_le_sum fun j _ => ?_)
    exact pt' _ _ _ _

theorem balance_lopsided (f : Fin n → Fin m → ℝ) (ox oy : ℤ) (radius : ℝ) (hr : 0 ≤ radius) (hx : 0 ≤ ox) (hy : 0 ≤ oy)
    (hx' : ox < n) (hy' : oy < m) (he : ∑ i, ∑ j, f i j ≠ 0) :
    quadrantEnergyBalance ⟨n, m, f⟩ ox oy radius = .ok (some (
      lopsided false f ox oy radius / ∑ i, ∑ j, f i j, lopsided true f ox oy radius / ∑ i, ∑ j, f i j)) :=
  balance_eq ⟨n, m, f⟩ ox oy radius hr hx hy hx' hy' he

/-- **C112.** On a non-negative image the balances move by at most four times the fraction of the energy that is disturbed. -/
theorem C112_quadrants (f w : Fin n → Fin m → ℝ) (h0 : ∀ i j, 0 ≤ f i j) (ox oy : ℤ) (radius : ℝ)
    (hr : 0 ≤ radius) (hx : 0 ≤ ox) (hy : 0 ≤ oy) (hx' : ox < n) (hy' : oy < m)
    (hf : ∑ i, ∑ j, f i j ≠ 0) (hs : 0 < ∑ i, ∑ j, (f i j + w i j)) :
    ∃ d d', quadrantEnergyBalance ⟨n, m, f⟩ ox oy radius = .ok (some d) ∧
      quadrantEnergyBalance ⟨n, m, fun i j => f i j + w i j⟩ ox oy radius = .ok (some d') ∧
      |d'.1 - d.1| ≤ 4 * ((∑ i, ∑ j, |w i j|) / ∑ i, ∑ j, (f i j + w i j)) ∧
      |d'.2 - d.2| ≤ 4 * ((∑ i, ∑ j, |w i j|) / ∑ i, ∑ j, (f i j + w i j)) := by
  refine ⟨_, _, balance_lopsided f ox oy radius hr hx hy hx' hy' hf, balance_lopsided _ ox oy radius hr hx hy hx' hy' hs.ne', ?_⟩
  have hfp : 0 < ∑ i, ∑ j, f i j := lt_of_le_of_ne (Finset.sum_nonneg fun i _ => Finset.sum_nonneg fun j _ => h0 i j) (Ne.symm hf)
  have hfa : ∑ i, ∑ j, |f i j| = ∑ i, ∑ j, f i j :=
    Finset.sum_congr rfl fun i _ => Finset.sum_congr rfl fun j _ => abs_of_nonneg (h0 i j)
  have hsum : ∑ i, ∑ j, (f i j + w i j) = (∑ i, ∑ j, f i j) + ∑ i, ∑ j, w i j := by simp only [Finset.sum_add_distrib]
  have hw : |∑ i, ∑ j, w i j| ≤ ∑ i, ∑ j, |w i j| :=
    (Finset.abs_sum_le_sum_abs _ _).trans (Finset.sum_le_sum fun i _ => Finset.abs_sum_le_sum_abs _ _)
  have main : ∀ swap, |lopsided swap (fun i j => f i j + w i j) ox oy radius / ∑ i, ∑ j, (f i j + w i j)
      - lopsided swap f ox oy radius / ∑ i, ∑ j, f i j| ≤ 4 * ((∑ i, ∑ j, |w i j|) / ∑ i, ∑ j, (f i j + w i j)) := by
    intro swap
    have b1 := lopsided_bound swap f ox oy radius
    have b2 := lopsided_bound swap w ox oy radius
    rw [lopsided_add]
    rw [hfa] at b1
    generalize lopsided swap f ox oy radius = F at *
    generalize lopsided swap w ox oy radius = G at *
    rw [hsum] at hs ⊢
    generalize (∑ i, ∑ j, f i j) = E at *
    generalize (∑ i, ∑ j, w i j) = W at *
    generalize (∑ i, ∑ j, |w i j|) = A at *
    have hd : |F / E| ≤ 2 := by rw [abs_div, abs_of_pos hfp, div_le_iff₀ hfp]; exact b1
    have e : (F + G) / (E + W) - F / E = (G - F / E * W) / (E + W) := by field_simp; ring
    rw [e, abs_div, abs_of_pos hs, ← mul_div_assoc]
    refine div_le_div_of_nonneg_right ?_ hs.le
    have h3 : |F / E * W| ≤ 2 * A := by
      rw [abs_mul]
      exact mul_le_mul hd hw (abs_nonneg _) (by norm_num)
    have h4 := abs_sub G (F / E * W)
    linarith
  exact ⟨main false, main true⟩

/-- A uniform image and one stray count. -/
example : ∃ d d', quadrantEnergyBalance ⟨3, 3, fun _ _ => 1⟩ 1 1 5 = .ok (some d) ∧
    quadrantEnergyBalance ⟨3, 3, fun i j => 1 + (fun (i j : Fin 3) => if (i : ℕ) = 0 ∧ (j : ℕ) = 0 then (1 : ℝ) else 0) i j⟩ 1 1 5 = .ok (some d') ∧
      |d'.1 - d.1| ≤ 2 / 5 ∧ |d'.2 - d.2| ≤ 2 / 5 := by
  obtain ⟨d, d', h1, h2, h3, h4⟩ := C112_quadrants (n := 3) (m := 3) (fun _ _ => 1)
    (fun i j => if (i : ℕ) = 0 ∧ (j : ℕ) = 0 then (1 : ℝ) else 0) (by intros; norm_num) 1 1 5 (by norm_num) (by norm_num) (by norm_num)
    (by norm_num) (by norm_num) (by simp) (by
      simp only [Fin.sum_univ_three]; norm_num)
  refine ⟨d, d', h1, h2, h3.trans ?_, h4.trans ?_⟩ <;> (simp only [Fin.sum_univ_three]; norm_num)

end quad

/-! ### Normalisation factor -/

section norm
variable {K : Type} [Field K] [LinearOrder K] [IsStrictOrderedRing K] [FloorRing K]

/-- The `k`-th of sorted values is at most `x` when more than `k` of the values are. -/
theorem sorted_le_of_count (s : List K) (hmon : ∀ i j : ℕ, (hij : i ≤ j) → (hj : j < s.length) → s[i]'(by omega) ≤ s[j]) (k : ℕ)
    (hk : k < s.length) (x : K) (hc : k + 1 ≤ s.countP fun v => decide (v ≤ x)) : s[k] ≤ x := by
  by_contra hn
  have h1 := count_suffix s (fun v => !decide (v ≤ x)) k hk.le (fun i hi hi' => by
    have := hmon k i hi hi'
    simp only [Bool.not_eq_true', decide_eq_false_iff_not, not_le]
    exact lt_of_lt_of_le (not_le.mp hn) this)
  have h2 := List.length_eq_countP_add_countP (fun v => decide (v ≤ x)) (l := s)
  simp only [Bool.not_eq_true, decide_eq_false_iff_not] at h2
  have h3 : s.countP (fun v => !decide (v ≤ x)) = s.countP (fun v => decide ¬ v ≤ x) := by
    congr 1; funext v; exact (decide_not ..).symm
  omega

omit [Field K] [IsStrictOrderedRing K] [FloorRing K] in
theorem sort_mono (l : List K) : ∀ i j : ℕ, (hij : i ≤ j) → (hj : j < (l.mergeSort fun a b => decide (a ≤ b)).length) →
    (l.mergeSort fun a b => decide (a ≤ b))[i]'(by omega) ≤ (l.mergeSort fun a b => decide (a ≤ b))[j] := by
  have hs := List.pairwise_mergeSort (le := fun a b : K => decide (a ≤ b)) (fun a b c h1 h2 => by
    simp only [decide_eq_true_eq] at h1 h2 ⊢; exact h1.trans h2) (fun a b => by simp; exact le_total a b) l
  intro i j hij hj
  rcases Nat.eq_or_lt_of_le hij with h | h
  · subst h; exact le_rfl
  · have := (List.pairwise_iff_getElem.mp hs) i j (by omega) hj h
    simpa using this

/-- Raising values raises every order statistic. -/
theorem order_le {α : Type} (L : List α) (g h : α → K) (hgh : ∀ a ∈ L, g a ≤ h a) (k : ℕ)
    (hk : k < ((L.map g).mergeSort fun a b => decide (a ≤ b)).length) (hk' : k < ((L.map h).mergeSort fun a b => decide (a ≤ b)).length) :
    ((L.map g).mergeSort fun a b => decide (a ≤ b))[k] ≤ ((L.map h).mergeSort fun a b => decide (a ≤ b))[k] := by
  refine sorted_le_of_count _ (sort_mono _) k hk _ ?_
  rw [(List.mergeSort_perm _ _).countP_eq, List.countP_map]
  have h1 := count_prefix ((L.map h).mergeSort fun a b => decide (a ≤ b))
    (fun v => decide (v ≤ ((L.map h).mergeSort fun a b => decide (a ≤ b))[k])) (k + 1) (by omega)
    (fun i hi => by simp only [decide_eq_true_eq]; exact sort_mono _ i k (by omega) hk')
  rw [(List.mergeSort_perm (L.map h) _).countP_eq, List.countP_map] at h1
  refine h1.trans (List.countP_mono_left fun a ha => ?_)
  simp only [Function.comp, decide_eq_true_eq]
  exact fun h => (hgh a ha).trans h

theorem percentile_le {α : Type} (L : List α) (hL : L ≠ []) (g h : α → K) (hgh : ∀ a ∈ L, g a ≤ h a) (p : K) (h0 : 0 ≤ p) (h1 : p ≤ 100) :
    percentile (L.map g) p ≤ percentile (L.map h) p := by
  obtain ⟨k, hk, ⟨hle, hlt⟩, hcase⟩ := percentile_between (L.map g) (by simpa using hL) p h0 h1
  obtain ⟨k', hk', ⟨hle', hlt'⟩, hcase'⟩ := percentile_between (L.map h) (by simpa using hL) p h0 h1
  have ord := order_le L g h hgh
  have lg : ((L.map g).mergeSort fun a b => decide (a ≤ b)).length = L.length := by rw [List.length_mergeSort, List.length_map]
  have lh : ((L.map h).mergeSort fun a b => decide (a ≤ b)).length = L.length := by rw [List.length_mergeSort, List.length_map]
  generalize ((L.map g).mergeSort fun a b => decide (a ≤ b)) = s at *
  generalize ((L.map h).mergeSort fun a b => decide (a ≤ b)) = s' at *
  rw [List.length_map] at *
  generalize ((L.length : K) - 1) * p / 100 = t at *
  obtain rfl : k = k' := by
    have a1 : (k : K) < k' + 1 := by linarith
    have a2 : (k' : K) < k + 1 := by linarith
    have a3 : k < k' + 1 := by exact_mod_cast a1
    have a4 : k' < k + 1 := by exact_mod_cast a2
    omega
  have o1 := ord k hk hk'
  rcases hcase with ⟨e, v⟩ | ⟨hk1, v⟩ <;> rcases hcase' with ⟨e', v'⟩ | ⟨hk1', v'⟩
  · rw [v, v']; exact o1
  · rw [v, v', e, sub_self, zero_mul, add_zero]; exact o1
  · rw [v, v', e', sub_self, zero_mul, add_zero]; exact o1
  · have o2 := ord (k + 1) hk1 hk1'
    rw [v, v']
    have a1 := mul_nonneg (sub_nonneg.mpr hle) (sub_nonneg.mpr o2)
    have a2 := mul_nonneg (sub_nonneg.mpr hlt.le) (sub_nonneg.mpr o1)
    linarith

theorem percentile_shift (l : List K) (c p : K) (hl : l ≠ []) (h0 : 0 ≤ p) (h1 : p ≤ 100) :
    percentile (l.map fun v => v + c) p = percentile l p + c := by
  have hm : (l.map fun v => v + c).mergeSort (fun a b => decide (a ≤ b)) = (l.mergeSort fun a b => decide (a ≤ b)).map fun v => v + c := by
    symm
    refine List.map_mergeSort fun a _ b _ => ?_
    simp only [decide_eq_decide]
    exact (add_le_add_iff_right c).symm
  obtain ⟨k, hk, ⟨hle, hlt⟩, hcase⟩ := percentile_between (l.map fun v => v + c) (by simpa using hl) p h0 h1
  obtain ⟨k', hk', ⟨hle', hlt'⟩, hcase'⟩ := percentile_between l hl p h0 h1
  simp only [hm, List.length_map, List.getElem_map] at hk hle hlt hcase
  generalize (l.mergeSort fun a b => decide (a ≤ b)) = s at *
  generalize ((l.length : K) - 1) * p / 100 = t at *
  obtain rfl : k = k' := by
    have a1 : (k : K) < k' + 1 := by linarith
    have a2 : (k' : K) < k + 1 := by linarith
    have a3 : k < k' + 1 := by exact_mod_cast a1
    have a4 : k' < k + 1 := by exact_mod_cast a2
    omega
  rcases hcase with ⟨e, v⟩ | ⟨hk1, v⟩ <;> rcases hcase' with ⟨e', v'⟩ | ⟨hk1', v'⟩
  · rw [v, v']
  · rw [v, v', e]; ring
  · rw [v, v', e']; ring
  · rw [v, v']; ring

/-- **C112.** The normalisation factor moves by no more than the largest disturbance of a selected pixel. -/
theorem C112_norm {n m : ℕ} (f w mask : Fin n → Fin m → K) (p δ : K) (h : NormArgs mask p)
    (hw : ∀ i j, mask i j = 1 → |w i j| ≤ δ) :
    ∃ r r', computeNormFactor ⟨n, m, f⟩ ⟨n, m, mask⟩ p = .ok r ∧
      computeNormFactor ⟨n, m, fun i j => f i j + w i j⟩ ⟨n, m, mask⟩ p = .ok r' ∧ |r' - r| ≤ δ := by
  refine ⟨_, _, norm_eq f mask p h, norm_eq _ mask p h, ?_⟩
  obtain ⟨-, ⟨i, j, hij⟩, h0, h1⟩ := h
  have rep : ∀ g : Fin n → Fin m → K, selectedValues g mask =
      ((List.finRange n).flatMap fun i => ((List.finRange m).filter fun j => mask i j = 1).map fun j => (i, j)).map
        fun q => g q.1 q.2 := by
    intro g
    unfold selectedValues
    rw [List.map_flatMap]
    congr 1
    funext a
    rw [List.map_map]
    rfl
  rw [rep f, rep fun i j => f i j + w i j]
  have mem : ∀ q ∈ ((List.finRange n).flatMap fun i => ((List.finRange m).filter fun j => mask i j = 1).map fun j => (i, j)),
      mask q.1 q.2 = 1 := by
    intro q hq
    simp only [List.mem_flatMap, List.mem_map, List.mem_filter, decide_eq_true_eq] at hq
    obtain ⟨a, -, b, ⟨-, hb⟩, rfl⟩ := hq
    exact hb
  have hne : ((List.finRange n).flatMap fun i => ((List.finRange m).filter fun j => mask i j = 1).map fun j => (i, j)) ≠ [] := by
    refine List.ne_nil_of_mem (a := (i, j)) ?_
    simp only [List.mem_flatMap, List.mem_map, List.mem_filter, decide_eq_true_eq]
    exact ⟨i, List.mem_finRange i, j, ⟨List.mem_finRange j, hij⟩, rfl⟩
  generalize ((List.finRange n).flatMap fun i => ((List.finRange m).filter fun j => mask i j = 1).map fun j => (i, j)) = L at *
  have up := percentile_le L hne (fun q => f q.1 q.2 + w q.1 q.2) (fun q => f q.1 q.2 + δ)
    (fun q hq => by have := abs_le.mp (hw _ _ (mem q hq)); linarith) p h0 h1
  have dn := percentile_le L hne (fun q => f q.1 q.2 + -δ) (fun q => f q.1 q.2 + w q.1 q.2)
    (fun q hq => by have := abs_le.mp (hw _ _ (mem q hq)); linarith) p h0 h1
  have sh : ∀ c, percentile (L.map fun q => f q.1 q.2 + c) p = percentile (L.map fun q => f q.1 q.2) p + c := by
    intro c
    rw [← percentile_shift _ c p (by simpa using hne) h0 h1, List.map_map]
    rfl
  rw [sh] at up dn
  rw [abs_le]; constructor <;> linarith

end norm

/-- A hot pixel outside the mask does not count. -/
example : ∃ r r', computeNormFactor (⟨1, 3, ![![(1 : ℚ), 2, 3]]⟩ : Arr2 ℚ) ⟨1, 3, ![![1, 1, 0]]⟩ 50 = .ok r ∧
    computeNormFactor (⟨1, 3, fun i j => ![![(1 : ℚ), 2, 3]] i j + ![![1 / 10, -1 / 10, 1000]] i j⟩ : Arr2 ℚ) ⟨1, 3, ![![1, 1, 0]]⟩ 50 = .ok r' ∧
    |r' - r| ≤ 1 / 10 :=
  C112_norm ![![(1 : ℚ), 2, 3]] ![![1 / 10, -1 / 10, 1000]] ![![1, 1, 0]] 50 (1 / 10)
    ⟨by intro i j; fin_cases i; fin_cases j <;> simp, ⟨0, 0, rfl⟩, by norm_num, by norm_num⟩
    (by intro i j; fin_cases i; fin_cases j <;> simp <;> norm_num)

/-! ### Least squares -/

section leastsq
variable {ι κ : Type} [Fintype ι] [Fintype κ]

/-- The fitted values and the residuals move by no more than the data (in the mean square). -/
theorem IsLeastSq.nonexpansive {A : ι → κ → ℝ} {b b' : ι → ℝ} {x x' : κ → ℝ} (h : IsLeastSq A b x) (h' : IsLeastSq A b' x') :
    ∑ i, (fitted A x' i - fitted A x i) ^ 2 ≤ ∑ i, (b' i - b i) ^ 2 ∧
    ∑ i, ((b' i - fitted A x' i) - (b i - fitted A x i)) ^ 2 ≤ ∑ i, (b' i - b i) ^ 2 := by
  have o := h.orthogonal (fun k => x' k - x k)
  have o' := h'.orthogonal (fun k => x' k - x k)
  simp only [fitted_sub] at o o'
  have e : ∑ i, (b' i - b i) ^ 2 = ∑ i, (fitted A x' i - fitted A x i) ^ 2
      + ∑ i, ((b' i - fitted A x' i) - (b i - fitted A x i)) ^ 2 := by
    have : ∀ i, (b' i - b i) ^ 2 = (fitted A x' i - fitted A x i) ^ 2 + ((b' i - fitted A x' i) - (b i - fitted A x i)) ^ 2
        + 2 * ((fitted A x i - b i) * (fitted A x' i - fitted A x i)) - 2 * ((fitted A x' i - b' i) * (fitted A x' i - fitted A x i)) := by
      intro i; ring
    simp only [this, Finset.sum_sub_distrib, Finset.sum_add_distrib, ← Finset.mul_sum, o, o']
    ring
  have p1 := Finset.sum_nonneg (s := Finset.univ) fun (i : ι) _ => sq_nonneg (fitted A x' i - fitted A x i)
  have p2 := Finset.sum_nonneg (s := Finset.univ) fun (i : ι) _ => sq_nonneg ((b' i - fitted A x' i) - (b i - fitted A x i))
  constructor <;> linarith

end leastsq

/-- **C112.** Removing piston, tip and tilt does not amplify noise: the output moves, in the mean square, by no more than the
input moves inside the mask. -/
theorem C112_ptt (S : Solver) {n m : ℕ} (f w : Fin n → Fin m → ℝ) (k : Fin n → Fin m → Bool) :
    ∃ o o' : Fin n → Fin m → ℝ, removePistonTipTilt S ⟨n, m, f⟩ ⟨n, m, k⟩ = .ok ⟨n, m, o⟩ ∧
      removePistonTipTilt S ⟨n, m, fun i j => f i j + w i j⟩ ⟨n, m, k⟩ = .ok ⟨n, m, o'⟩ ∧
      ∑ i, ∑ j, (o' i j - o i j) ^ 2 ≤ ∑ i, ∑ j, if k i j then w i j ^ 2 else 0 := by
  refine ⟨_, _, by unfold removePistonTipTilt; rw [dif_pos ⟨rfl, rfl⟩], by unfold removePistonTipTilt; rw [dif_pos ⟨rfl, rfl⟩], ?_⟩
  simp only [Fin.cast_eq_self]
  have e : ∑ i, ∑ j, (pttValues S (fun i j => f i j + w i j) k i j - pttValues S f k i j) ^ 2
      = ∑ i, ∑ j, if k i j then (pttValues S (fun i j => f i j + w i j) k i j - pttValues S f k i j) ^ 2 else 0 := by
    refine Finset.sum_congr rfl fun i _ => Finset.sum_congr rfl fun j _ => ?_
    by_cases h : k i j
    · rw [if_pos h]
    · rw [if_neg h]; simp [pttValues, h]
  rw [e, sum_selected k (fun i j => (pttValues S (fun i j => f i j + w i j) k i j - pttValues S f k i j) ^ 2),
    sum_selected k (fun i j => w i j ^ 2)]
  have := (IsLeastSq.nonexpansive
    (S.isLeastSq (fun q : Selected k => ![pttCoord m q.1.2, pttCoord n q.1.1, 1]) (fun q => f q.1.1 q.1.2))
    (S.isLeastSq (fun q : Selected k => ![pttCoord m q.1.2, pttCoord n q.1.1, 1]) (fun q => f q.1.1 q.1.2 + w q.1.1 q.1.2))).2
  simp only [add_sub_cancel_left] at this
  refine le_trans (le_of_eq ?_) this
  refine Finset.sum_congr rfl fun q _ => ?_
  rw [ptt_on_mask, ptt_on_mask]
  rfl

/-- **C112.** Zernike fits do not amplify noise in the fitted wavefront; and the coefficients move by at most the noise divided by
`σ` whenever every wavefront made of the fitted modes has, on the usable pixels, at least `σ` times the norm of its
coefficients. -/
theorem C112_zernikes (S : Solver) {ny nx : ℕ} (f w : Fin ny → Fin nx → ℝ) (u : Fin ny → Fin nx → Bool) (N : ℕ) (hN : 0 < N)
    (nBeam dx dy : ℝ) (hb : 0 < nBeam) :
    ∃ c c' : Fin N → ℝ, fitZernikes S ⟨ny, nx, f⟩ ⟨ny, nx, u⟩ N nBeam dx dy = .ok c ∧
      fitZernikes S ⟨ny, nx, fun i k => f i k + w i k⟩ ⟨ny, nx, u⟩ N nBeam dx dy = .ok c' ∧
      ∑ i, ∑ k, (if u i k then ((∑ s : Fin N, fitBasis ny nx nBeam dx dy s i k * c' s)
          - ∑ s : Fin N, fitBasis ny nx nBeam dx dy s i k * c s) ^ 2 else 0) ≤ ∑ i, ∑ k, (if u i k then w i k ^ 2 else 0) ∧
      ∀ σ : ℝ, (∀ d : Fin N → ℝ, σ ^ 2 * ∑ s, d s ^ 2 ≤
          ∑ i, ∑ k, if u i k then (∑ s : Fin N, fitBasis ny nx nBeam dx dy s i k * d s) ^ 2 else 0) →
        σ ^ 2 * ∑ s, (c' s - c s) ^ 2 ≤ ∑ i, ∑ k, if u i k then w i k ^ 2 else 0 := by
  refine ⟨_, _, fit_eq S ny nx f u N hN nBeam dx dy hb, fit_eq S ny nx _ u N hN nBeam dx dy hb, ?_⟩
  have key := (IsLeastSq.nonexpansive
    (S.isLeastSq (fun (q : Selected u) (c : Fin N) => fitBasis ny nx nBeam dx dy c q.1.1 q.1.2) (fun q => f q.1.1 q.1.2))
    (S.isLeastSq (fun (q : Selected u) (c : Fin N) => fitBasis ny nx nBeam dx dy c q.1.1 q.1.2) (fun q => f q.1.1 q.1.2 + w q.1.1 q.1.2))).1
  simp only [add_sub_cancel_left] at key
  generalize S.solve (fun (q : Selected u) (c : Fin N) => fitBasis ny nx nBeam dx dy c q.1.1 q.1.2) (fun q => f q.1.1 q.1.2) = c at *
  generalize S.solve (fun (q : Selected u) (c : Fin N) => fitBasis ny nx nBeam dx dy c q.1.1 q.1.2) (fun q => f q.1.1 q.1.2 + w q.1.1 q.1.2) = c' at *
  have first : ∑ i, ∑ k, (if u i k then ((∑ s : Fin N, fitBasis ny nx nBeam dx dy s i k * c' s)
          - ∑ s : Fin N, fitBasis ny nx nBeam dx dy s i k * c s) ^ 2 else 0) ≤ ∑ i, ∑ k, (if u i k then w i k ^ 2 else 0) := by
    rw [sum_selected u (fun (i : Fin ny) (k : Fin nx) => ((∑ s : Fin N, fitBasis ny nx nBeam dx dy s i k * c' s)
          - ∑ s : Fin N, fitBasis ny nx nBeam dx dy s i k * c s) ^ 2), sum_selected u (fun i k => w i k ^ 2)]
    exact key
  refine ⟨first, fun σ hσ => (hσ fun s => c' s - c s).trans (le_trans (le_of_eq ?_) first)⟩
  refine Finset.sum_congr rfl fun i _ => Finset.sum_congr rfl fun k _ => ?_
  simp only [mul_sub, Finset.sum_sub_distrib]

/-- Piston on four pixels: the coefficient moves by at most half the norm of the noise. -/
example (S : Solver) (f w : Fin 2 → Fin 2 → ℝ) : ∃ c c' : Fin 1 → ℝ,
    fitZernikes S ⟨2, 2, f⟩ ⟨2, 2, fun _ _ => true⟩ 1 2 0 0 = .ok c ∧
    fitZernikes S ⟨2, 2, fun i k => f i k + w i k⟩ ⟨2, 2, fun _ _ => true⟩ 1 2 0 0 = .ok c' ∧
    2 ^ 2 * (c' 0 - c 0) ^ 2 ≤ ∑ i, ∑ k, w i k ^ 2 := by
  obtain ⟨c, c', h1, h2, -, h3⟩ := C112_zernikes S f w (fun _ _ => true) 1 one_pos 2 0 0 (by norm_num)
  refine ⟨c, c', h1, h2, ?_⟩
  have := h3 2 (by
    intro d
    simp only [Fin.sum_univ_two, Fin.sum_univ_one, fitBasis, if_true]
    simp [mode_piston]
    ring_nf
    exact le_rfl)
  simpa using this

/-! ### Vertex of a parabola -/

/-- **C112.** `find_optimum_1d` on a disturbed parabola `a x² + b x + c`.  If the disturbance has norm at most `ε` and every
parabola has, at the samples, at least `σ` times the norm of its coefficients, then for `|a|` above `ε/σ` (by the smallest
curvature the code accepts) the answer is within `(ε/σ) (1 + 2|v|) / (2 (|a| - ε/σ))` of the true vertex `v`. -/
theorem C112_vertex (S : Solver) (xs ys : List ℝ) (hl : xs.length = ys.length) (a b c σ ε : ℝ) (hσ : 0 < σ) (hε : 0 ≤ ε)
    (hcond : ∀ u v t : ℝ, σ ^ 2 * (u ^ 2 + v ^ 2 + t ^ 2) ≤ (xs.map fun x => (u * x ^ 2 + v * x + t) ^ 2).sum)
    (hnoise : ((xs.zip ys).map fun s : ℝ × ℝ => (s.2 - (a * s.1 ^ 2 + b * s.1 + c)) ^ 2).sum ≤ ε ^ 2)
    (hcurv : ε / σ + 1 / 2 ^ 52 ≤ |a|) :
    ∃ v, findOptimum1d S xs ys = .ok v ∧
      |v - -b / (2 * a)| ≤ ε / σ * (1 + 2 * |-b / (2 * a)|) / (2 * (|a| - ε / σ)) := by
  have hne : xs.length ≠ 0 := by
    intro h0
    have : xs = [] := List.length_eq_zero_iff.mp h0
    have := hcond 1 0 0
    subst xs
    simp at this
    have : 0 < σ ^ 2 := by positivity
    linarith
  unfold findOptimum1d
  rw [dif_neg (by simpa using hl), if_neg hne]
  have hls := S.isLeastSq (vander2 fun i : Fin xs.length => xs.get i) (fun i => ys.get (i.cast hl))
  simp only
  generalize S.solve (vander2 fun i : Fin xs.length => xs.get i) (fun i => ys.get (i.cast hl)) = p at *
  have h0 : IsLeastSq (vander2 fun i : Fin xs.length => xs.get i) (fun i => fitted (vander2 fun i : Fin xs.length => xs.get i) ![a, b, c] i) ![a, b, c] := by
    refine isLeastSq_of_orthogonal fun y => ?_
    simp
  have key := (IsLeastSq.nonexpansive h0 hls).1
  have e1 : ∑ i : Fin xs.length, (ys.get (i.cast hl) - fitted (vander2 fun i : Fin xs.length => xs.get i) ![a, b, c] i) ^ 2
      = ((xs.zip ys).map fun s : ℝ × ℝ => (s.2 - (a * s.1 ^ 2 + b * s.1 + c)) ^ 2).sum := by
    rw [← List.sum_ofFn]
    congr 1
    refine List.ext_getElem (by simp [hl]) fun k h1 h2 => ?_
    simp only [List.getElem_map, List.getElem_zip, List.getElem_ofFn, fitted_vander2, List.get_eq_getElem, Fin.val_cast]
    simp
  have e2 : ∑ i : Fin xs.length, (fitted (vander2 fun i : Fin xs.length => xs.get i) p i
      - fitted (vander2 fun i : Fin xs.length => xs.get i) ![a, b, c] i) ^ 2
      = (xs.map fun x => ((p 0 - a) * x ^ 2 + (p 1 - b) * x + (p 2 - c)) ^ 2).sum := by
    rw [← List.sum_ofFn]
    congr 1
    refine List.ext_getElem (by simp) fun k h1 h2 => ?_
    simp only [List.getElem_map, List.getElem_ofFn, fitted_vander2, List.get_eq_getElem]
    simp
    ring
  rw [e1, e2] at key
  have h3 := (hcond (p 0 - a) (p 1 - b) (p 2 - c)).trans (key.trans hnoise)
  set η := ε / σ with hη
  have hη0 : 0 ≤ η := div_nonneg hε hσ.le
  have h4 : (p 0 - a) ^ 2 + (p 1 - b) ^ 2 + (p 2 - c) ^ 2 ≤ η ^ 2 := by
    rw [hη, div_pow, le_div_iff₀ (by positivity)]
    linarith
  have ha : |p 0 - a| ≤ η := abs_le_of_sq_le_sq (by nlinarith [sq_nonneg (p 1 - b), sq_nonneg (p 2 - c)]) hη0
  have hb : |p 1 - b| ≤ η := abs_le_of_sq_le_sq (by nlinarith [sq_nonneg (p 0 - a), sq_nonneg (p 2 - c)]) hη0
  have hpa : |a| - η ≤ |p 0| := by
    have := abs_sub_abs_le_abs_sub a (p 0)
    rw [abs_sub_comm] at this
    linarith
  have hm : (0 : ℝ) < 1 / 2 ^ 52 := by positivity
  have hme : macheps = (1 : ℝ) / 2 ^ 52 := rfl
  rw [if_neg (by rw [not_lt, hme]; linarith)]
  refine ⟨_, rfl, ?_⟩
  generalize (1 : ℝ) / 2 ^ 52 = μ at *
  have hp0 : p 0 ≠ 0 := by intro h; rw [h, abs_zero] at hpa; linarith
  have ha0 : a ≠ 0 := by intro h; rw [h, abs_zero] at hcurv; linarith
  have e : -p 1 / (2 * p 0) - -b / (2 * a) = -((p 1 - b) + 2 * (-b / (2 * a)) * (p 0 - a)) / (2 * p 0) := by
    field_simp
    ring
  rw [e, abs_div, abs_neg, abs_mul, abs_of_pos (by norm_num : (0 : ℝ) < 2)]
  have hd : 0 < 2 * (|a| - η) := by linarith
  generalize -b / (2 * a) = v at *
  have hnum : |(p 1 - b) + 2 * v * (p 0 - a)| ≤ η * (1 + 2 * |v|) := by
    refine (abs_add_le _ _).trans ?_
    rw [abs_mul, abs_mul, abs_of_pos (by norm_num : (0 : ℝ) < 2)]
    have := mul_le_mul_of_nonneg_left ha (by positivity : 0 ≤ 2 * |v|)
    linarith
  exact div_le_div₀ (by positivity) hnum hd (by linarith)

/-- Samples at -1, 0, 1 of `x²` with an error of 1/10: the vertex is found within 1/3. -/
example (S : Solver) : ∃ v, findOptimum1d S [-1, 0, 1] [1, 0, 11 / 10] = .ok v ∧ |v| ≤ 1 / 3 := by
  obtain ⟨v, h1, h2⟩ := C112_vertex S [-1, 0, 1] [1, 0, 11 / 10] rfl 1 0 0 (1 / 2) (1 / 10) (by norm_num) (by norm_num)
    (by
      intro u v t
      simp only [List.map_cons, List.map_nil, List.sum_cons, List.sum_nil]
      nlinarith [sq_nonneg (2 * u + 3 * t), sq_nonneg v, sq_nonneg (u + t), sq_nonneg u, sq_nonneg t])
    (by norm_num) (by norm_num)
  refine ⟨v, h1, ?_⟩
  norm_num at h2
  linarith

end Coralign.Props
