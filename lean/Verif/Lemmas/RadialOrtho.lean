import Verif.Lemmas.Zernike
import Mathlib.LinearAlgebra.Lagrange
import Mathlib.Analysis.SpecialFunctions.Integrals.Basic

/-!
# The radial polynomials are orthogonal with weight `r`
-/

namespace Coralign.Props

open Coralign Coralign.Spec Finset

/-- The interpolation weight at node `t` of the nodes `0, …, K`. -/
theorem node_prod (K t : ℕ) (ht : t ≤ K) :
    ∏ j ∈ (range (K + 1)).erase t, ((t : ℝ) - j) = t.factorial * ((-1) ^ (K - t) * (K - t).factorial) := by
  have hs : (range (K + 1)).erase t = (range t) ∪ (Ico (t + 1) (K + 1)) := by
    ext j; simp only [mem_erase, mem_range, mem_union, mem_Ico]; omega
  rw [hs, prod_union (by rw [disjoint_left]; intro j; simp only [mem_range, mem_Ico]; omega)]
  congr 1
  · rw [← prod_range_reflect, ← prod_range_add_one_eq_factorial]
    push_cast
    refine prod_congr rfl fun j hj => ?_
    rw [mem_range] at hj
    have : ((t - 1 - j : ℕ) : ℝ) = t - 1 - j := by
      rw [Nat.cast_sub (by omega), Nat.cast_sub (by omega)]; simp
    rw [this]; ring
  · rw [prod_Ico_eq_prod_range, ← prod_range_add_one_eq_factorial, show K + 1 - (t + 1) = K - t by omega]
    push_cast
    rw [show ((-1 : ℝ) ^ (K - t)) = ∏ _j ∈ range (K - t), (-1 : ℝ) by rw [prod_const, card_range], ← prod_mul_distrib]
    exact prod_congr rfl fun j _ => by ring

/-- Partial fractions in the form needed: an alternating binomial sum of a product of `K` linear factors over another one. -/
theorem alternating (K : ℕ) (b : ℕ → ℝ) (c : ℝ) (hc : 0 < c) :
    ∑ t ∈ range (K + 1), (-1 : ℝ) ^ (K - t) / (t.factorial * (K - t).factorial) * (∏ j ∈ range K, (t + b j)) / (t + c) =
      (-1) ^ K * (∏ j ∈ range K, (b j - c)) / ∏ s ∈ range (K + 1), (c + s) := by
  classical
  set P : Polynomial ℝ := ∏ j ∈ range K, (Polynomial.X + Polynomial.C (b j)) with hP
  have hd : P.degree < #(range (K + 1)) := by
    rw [hP, Polynomial.degree_prod]
    simp only [Polynomial.degree_X_add_C, sum_const, card_range, nsmul_eq_mul, mul_one]
    exact_mod_cast Nat.lt_succ_self K
  have hx : ∀ i ∈ range (K + 1), -c ≠ ((i : ℕ) : ℝ) := by
    intro i _ h
    have : (0 : ℝ) ≤ i := Nat.cast_nonneg i
    linarith
  have h := congrArg (Polynomial.eval (-c))
    (Lagrange.eq_interpolate (v := fun i : ℕ => (i : ℝ)) (fun a _ b _ h => Nat.cast_injective h) hd)
  rw [Lagrange.eval_interpolate_not_at_node _ hx, Lagrange.eval_nodal] at h
  have e1 : P.eval (-c) = ∏ j ∈ range K, (b j - c) := by
    rw [hP, Polynomial.eval_prod]
    exact prod_congr rfl fun j _ => by simp; ring
  have e2 : ∏ i ∈ range (K + 1), (-c - (i : ℝ)) = (-1) ^ (K + 1) * ∏ s ∈ range (K + 1), (c + s) := by
    rw [show ((-1 : ℝ) ^ (K + 1)) = ∏ _j ∈ range (K + 1), (-1 : ℝ) by rw [prod_const, card_range], ← prod_mul_distrib]
    exact prod_congr rfl fun j _ => by ring
  have hne : ∏ s ∈ range (K + 1), (c + s) ≠ 0 := prod_ne_zero_iff.mpr fun s _ => by positivity
  rw [e1, e2] at h
  rw [h, mul_sum, mul_sum, sum_div]
  refine sum_congr rfl fun t ht => ?_
  have ht' : t ≤ K := by rw [mem_range] at ht; omega
  have hw : Lagrange.nodalWeight (range (K + 1)) (fun i : ℕ => (i : ℝ)) t =
      ((t.factorial : ℝ) * ((-1) ^ (K - t) * (K - t).factorial))⁻¹ := by
    unfold Lagrange.nodalWeight
    rw [prod_inv_distrib, node_prod K t ht']
  have e3 : P.eval (t : ℝ) = ∏ j ∈ range K, (t + b j) := by
    rw [hP, Polynomial.eval_prod]
    exact prod_congr rfl fun j _ => by simp
  rw [hw, e3]
  have htc : (t : ℝ) + c ≠ 0 := by positivity
  have hsq : (-1 : ℝ) ^ (K - t) * (-1) ^ (K - t) = 1 := by rw [← mul_pow]; norm_num
  have hsK : (-1 : ℝ) ^ K * (-1) ^ K = 1 := by rw [← mul_pow]; norm_num
  have hinv : ((-1 : ℝ) ^ (K - t))⁻¹ = (-1) ^ (K - t) := (eq_inv_of_mul_eq_one_left hsq).symm
  rw [mul_inv, mul_inv, hinv, show (-c - (t : ℝ)) = -((t : ℝ) + c) by ring, inv_neg, pow_succ]
  have hf1 : (t.factorial : ℝ) ≠ 0 := by exact_mod_cast t.factorial_ne_zero
  have hf2 : ((K - t).factorial : ℝ) ≠ 0 := by exact_mod_cast (K - t).factorial_ne_zero
  field_simp
  rw [show ((-1 : ℝ) ^ K) ^ 2 = 1 by rw [sq, hsK]]
  ring

/-- The coefficient of `r ^ (m + 2 t)` in the radial polynomial of order `m + 2 K`. -/
noncomputable def radialW (m K t : ℕ) : ℝ :=
  (-1) ^ (K - t) / (t.factorial * (K - t).factorial) * ∏ j ∈ range K, ((t : ℝ) + (m + 1 + j))

theorem radial_low (m K : ℕ) (r : ℝ) : radial (m + 2 * K) m r = ∑ t ∈ range (K + 1), radialW m K t * r ^ (m + 2 * t) := by
  unfold radial
  rw [show (m + 2 * K - m) / 2 + 1 = K + 1 by omega, ← sum_range_reflect]
  refine sum_congr rfl fun t ht => ?_
  have ht' : t ≤ K := by rw [mem_range] at ht; omega
  rw [show K + 1 - 1 - t = K - t by omega, show m + 2 * K - 2 * (K - t) = m + 2 * t by omega]
  congr 1
  unfold radialCoef radialW
  rw [show m + 2 * K - (K - t) = m + t + K by omega, show (m + 2 * K + m) / 2 - (K - t) = m + t by omega,
    show (m + 2 * K - m) / 2 - (K - t) = t by omega, ← Nat.factorial_mul_ascFactorial, Nat.ascFactorial_eq_prod_range]
  have h1 : ((m + t).factorial : ℝ) ≠ 0 := by exact_mod_cast (m + t).factorial_ne_zero
  have hf1 : (t.factorial : ℝ) ≠ 0 := by exact_mod_cast t.factorial_ne_zero
  have hf2 : ((K - t).factorial : ℝ) ≠ 0 := by exact_mod_cast (K - t).factorial_ne_zero
  have : ((∏ i ∈ range K, (m + t + 1 + i) : ℕ) : ℝ) = ∏ j ∈ range K, ((t : ℝ) + (m + 1 + j)) := by
    push_cast
    exact prod_congr rfl fun j _ => by ring
  push_cast at this ⊢
  rw [this]
  field_simp

/-- The moments of the radial polynomial. -/
theorem radial_moment (m K i : ℕ) : ∫ r in (0 : ℝ)..1, radial (m + 2 * K) m r * r ^ (m + 2 * i) * r =
    (-1) ^ K * (∏ j ∈ range K, ((j : ℝ) - i)) / (2 * ∏ s ∈ range (K + 1), ((m : ℝ) + i + 1 + s)) := by
  have h1 : ∀ r : ℝ, radial (m + 2 * K) m r * r ^ (m + 2 * i) * r =
      ∑ t ∈ range (K + 1), radialW m K t * r ^ (2 * m + 2 * t + 2 * i + 1) := by
    intro r
    rw [radial_low, sum_mul, sum_mul]
    exact sum_congr rfl fun t _ => by ring
  simp_rw [h1]
  rw [intervalIntegral.integral_finsetSum fun t _ => (by fun_prop : Continuous _).intervalIntegrable _ _]
  have h2 := alternating K (fun j => (m : ℝ) + 1 + j) ((m : ℝ) + i + 1) (by positivity)
  have h3 : ∀ t ∈ range (K + 1), ∫ r in (0 : ℝ)..1, radialW m K t * r ^ (2 * m + 2 * t + 2 * i + 1) =
      1 / 2 * ((-1 : ℝ) ^ (K - t) / (t.factorial * (K - t).factorial) * (∏ j ∈ range K, (t + ((m : ℝ) + 1 + j))) / (t + ((m : ℝ) + i + 1))) := by
    intro t _
    rw [intervalIntegral.integral_const_mul, integral_pow]
    unfold radialW
    have : (t : ℝ) + (m + i + 1) ≠ 0 := by positivity
    have : (2 * (m : ℝ) + 2 * t + 2 * i + 1) + 1 ≠ 0 := by positivity
    push_cast
    field_simp
    ring
  rw [sum_congr rfl h3, ← mul_sum, h2]
  have h4 : ∏ j ∈ range K, ((m : ℝ) + 1 + j - (m + i + 1)) = ∏ j ∈ range K, ((j : ℝ) - i) := prod_congr rfl fun j _ => by ring
  rw [h4]
  have : ∏ s ∈ range (K + 1), ((m : ℝ) + i + 1 + s) ≠ 0 := prod_ne_zero_iff.mpr fun s _ => by positivity
  field_simp

theorem radial_ortho_lt (m K L : ℕ) (h : L < K) : ∫ r in (0 : ℝ)..1, radial (m + 2 * K) m r * radial (m + 2 * L) m r * r = 0 := by
  have h1 : ∀ r : ℝ, radial (m + 2 * K) m r * radial (m + 2 * L) m r * r =
      ∑ t ∈ range (L + 1), radialW m L t * (radial (m + 2 * K) m r * r ^ (m + 2 * t) * r) := by
    intro r
    rw [radial_low m L, mul_sum, sum_mul]
    exact sum_congr rfl fun t _ => by ring
  have hc : Continuous fun r : ℝ => radial (m + 2 * K) m r := by unfold radial; fun_prop
  simp_rw [h1]
  rw [intervalIntegral.integral_finsetSum fun t _ => (by fun_prop : Continuous _).intervalIntegrable _ _]
  refine sum_eq_zero fun t ht => ?_
  rw [mem_range] at ht
  rw [intervalIntegral.integral_const_mul, radial_moment, prod_eq_zero (mem_range.mpr (show t < K by omega)) (sub_self _)]
  simp

theorem radial_norm (m K : ℕ) : ∫ r in (0 : ℝ)..1, radial (m + 2 * K) m r * radial (m + 2 * K) m r * r = 1 / (2 * (m + 2 * K + 1)) := by
  have h1 : ∀ r : ℝ, radial (m + 2 * K) m r * radial (m + 2 * K) m r * r =
      ∑ t ∈ range (K + 1), radialW m K t * (radial (m + 2 * K) m r * r ^ (m + 2 * t) * r) := by
    intro r
    conv_lhs => rw [mul_comm (radial _ _ _)]
    conv_lhs => rw [radial_low m K]
    conv_rhs => rw [radial_low m K]
    rw [sum_mul, sum_mul]
    exact sum_congr rfl fun t _ => by ring
  have hc : Continuous fun r : ℝ => radial (m + 2 * K) m r := by unfold radial; fun_prop
  simp_rw [h1]
  rw [intervalIntegral.integral_finsetSum fun t _ => (by fun_prop : Continuous _).intervalIntegrable _ _, sum_range_succ, sum_eq_zero, zero_add]
  · rw [intervalIntegral.integral_const_mul, radial_moment]
    have e1 : ∏ j ∈ range K, ((j : ℝ) - K) = (-1) ^ K * K.factorial := by
      rw [← prod_range_reflect, ← prod_range_add_one_eq_factorial,
        show ((-1 : ℝ) ^ K) = ∏ _j ∈ range K, (-1 : ℝ) by rw [prod_const, card_range]]
      push_cast
      rw [← prod_mul_distrib]
      refine prod_congr rfl fun j hj => ?_
      rw [mem_range] at hj
      rw [show ((K - 1 - j : ℕ) : ℝ) = K - 1 - j by rw [Nat.cast_sub (by omega), Nat.cast_sub (by omega)]; simp]
      ring
    rw [e1, prod_range_succ]
    unfold radialW
    have e2 : ∏ j ∈ range K, ((K : ℝ) + (m + 1 + j)) = ∏ s ∈ range K, ((m : ℝ) + K + 1 + s) := prod_congr rfl fun j _ => by ring
    have hne : ∏ s ∈ range K, ((m : ℝ) + K + 1 + s) ≠ 0 := prod_ne_zero_iff.mpr fun s _ => by positivity
    have hf1 : (K.factorial : ℝ) ≠ 0 := by exact_mod_cast K.factorial_ne_zero
    have hsK : (-1 : ℝ) ^ K * (-1) ^ K = 1 := by rw [← mul_pow]; norm_num
    have h5 : (m : ℝ) + K + 1 + K ≠ 0 := by positivity
    have h6 : (m : ℝ) + 2 * K + 1 ≠ 0 := by positivity
    rw [e2, Nat.sub_self, pow_zero, Nat.factorial_zero, ← mul_assoc ((-1 : ℝ) ^ K), hsK]
    push_cast
    field_simp
    ring
  · intro t ht
    rw [mem_range] at ht
    rw [intervalIntegral.integral_const_mul, radial_moment, prod_eq_zero (mem_range.mpr ht) (sub_self _)]
    simp

/-- Radial polynomials of equal frequency are orthogonal with weight `r`, with norm `1 / (2 (n + 1))`. -/
theorem radial_ortho (n n' m : ℕ) (h : ValidMode n m) (h' : ValidMode n' m) :
    ∫ r in (0 : ℝ)..1, radial n m r * radial n' m r * r = if n = n' then 1 / (2 * ((n : ℝ) + 1)) else 0 := by
  obtain ⟨h1, K, hK⟩ := h
  obtain ⟨h1', L, hL⟩ := h'
  obtain rfl : n = m + 2 * K := by omega
  obtain rfl : n' = m + 2 * L := by omega
  rcases lt_trichotomy K L with hl | rfl | hl
  · rw [if_neg (by omega)]
    refine Eq.trans (intervalIntegral.integral_congr fun r _ => ?_) (radial_ortho_lt m L K hl)
    exact congrArg (· * r) (mul_comm _ _)
  · rw [if_pos rfl, radial_norm]; push_cast; rfl
  · rw [if_neg (by omega), radial_ortho_lt m K L hl]

end Coralign.Props
