import Verif.Lemmas.RadialOrtho
import Verif.Props.Zernike
import Verif.Spec.PupilMean
import Mathlib.Analysis.SpecialFunctions.PolarCoord

/-!
# The Zernike polynomials are orthonormal over the disc
-/

namespace Coralign.Props

open Coralign Coralign.Spec MeasureTheory

theorem integral_cos_int (k : ℤ) : ∫ θ in (-Real.pi)..Real.pi, Real.cos (k * θ) = if k = 0 then 2 * Real.pi else 0 := by
  split_ifs with h
  · subst h; simp; ring
  · have hk : (k : ℝ) ≠ 0 := by exact_mod_cast h
    rw [intervalIntegral.integral_comp_mul_left (fun θ => Real.cos θ) hk, integral_cos]
    rw [mul_neg, Real.sin_neg, Real.sin_int_mul_pi]; simp

theorem integral_sin_int (k : ℤ) : ∫ θ in (-Real.pi)..Real.pi, Real.sin (k * θ) = 0 := by
  by_cases h : k = 0
  · subst h; simp
  · have hk : (k : ℝ) ≠ 0 := by exact_mod_cast h
    rw [intervalIntegral.integral_comp_mul_left (fun θ => Real.sin θ) hk, integral_sin]
    rw [mul_neg, Real.cos_neg, sub_self]; simp

/-- The angular factor of a Zernike mode. -/
noncomputable def angular (m : ℕ) (s : Bool) (θ : ℝ) : ℝ := if m = 0 then 1 else if s then Real.sin (m * θ) else Real.cos (m * θ)

theorem angular_continuous (m : ℕ) (s : Bool) : Continuous (angular m s) := by
  unfold angular
  split_ifs <;> fun_prop

theorem angular_ortho (m m' : ℕ) (s s' : Bool) : ∫ θ in (-Real.pi)..Real.pi, angular m s θ * angular m' s' θ =
    if m = m' ∧ (m = 0 ∨ s = s') then (if m = 0 then 2 * Real.pi else Real.pi) else 0 := by
  have hc : ∀ k : ℤ, IntervalIntegrable (fun θ : ℝ => Real.cos (k * θ)) volume (-Real.pi) Real.pi :=
    fun k => (by fun_prop : Continuous _).intervalIntegrable _ _
  have hs : ∀ k : ℤ, IntervalIntegrable (fun θ : ℝ => Real.sin (k * θ)) volume (-Real.pi) Real.pi :=
    fun k => (by fun_prop : Continuous _).intervalIntegrable _ _
  have CC : ∫ θ in (-Real.pi)..Real.pi, Real.cos (m * θ) * Real.cos (m' * θ) =
      ((if (m : ℤ) - m' = 0 then 2 * Real.pi else 0) + (if (m : ℤ) + m' = 0 then 2 * Real.pi else 0)) / 2 := by
    rw [← integral_cos_int, ← integral_cos_int, ← intervalIntegral.integral_add (hc _) (hc _), ← intervalIntegral.integral_div]
    refine intervalIntegral.integral_congr fun θ _ => ?_
    show Real.cos (m * θ) * Real.cos (m' * θ) = _
    push_cast
    rw [sub_mul, add_mul, Real.cos_sub, Real.cos_add]; ring
  have SS : ∫ θ in (-Real.pi)..Real.pi, Real.sin (m * θ) * Real.sin (m' * θ) =
      ((if (m : ℤ) - m' = 0 then 2 * Real.pi else 0) - (if (m : ℤ) + m' = 0 then 2 * Real.pi else 0)) / 2 := by
    rw [← integral_cos_int, ← integral_cos_int, ← intervalIntegral.integral_sub (hc _) (hc _), ← intervalIntegral.integral_div]
    refine intervalIntegral.integral_congr fun θ _ => ?_
    show Real.sin (m * θ) * Real.sin (m' * θ) = _
    push_cast
    rw [sub_mul, add_mul, Real.cos_sub, Real.cos_add]; ring
  have SC : ∀ a b : ℕ, ∫ θ in (-Real.pi)..Real.pi, Real.sin (a * θ) * Real.cos (b * θ) = 0 := by
    intro a b
    have : ∫ θ in (-Real.pi)..Real.pi, Real.sin (a * θ) * Real.cos (b * θ) =
        ((∫ θ in (-Real.pi)..Real.pi, Real.sin (((a : ℤ) + b : ℤ) * θ)) + ∫ θ in (-Real.pi)..Real.pi, Real.sin (((a : ℤ) - b : ℤ) * θ)) / 2 := by
      rw [← intervalIntegral.integral_add (hs _) (hs _), ← intervalIntegral.integral_div]
      refine intervalIntegral.integral_congr fun θ _ => ?_
      show Real.sin (a * θ) * Real.cos (b * θ) = _
      push_cast
      rw [sub_mul, add_mul, Real.sin_sub, Real.sin_add]; ring
    rw [this, integral_sin_int, integral_sin_int]; simp
  have CS : ∀ a b : ℕ, ∫ θ in (-Real.pi)..Real.pi, Real.cos (a * θ) * Real.sin (b * θ) = 0 := by
    intro a b
    rw [← SC b a]
    exact intervalIntegral.integral_congr fun θ _ => mul_comm _ _
  have h1 : ∀ (a : ℕ) (t : Bool), ∫ θ in (-Real.pi)..Real.pi, angular a t θ = if a = 0 then 2 * Real.pi else 0 := by
    intro a t
    unfold angular
    by_cases ha : a = 0
    · simp [ha]; ring
    · have hC := integral_cos_int a
      have hS := integral_sin_int a
      rw [if_neg (by exact_mod_cast ha)] at hC
      simp only [Int.cast_natCast] at hC hS
      cases t <;> simp only [ha, if_false, if_true, Bool.false_eq_true, hC, hS]
  by_cases hm : m = 0
  · subst hm
    have : ∀ θ, angular 0 s θ = 1 := fun θ => by simp [angular]
    simp only [this, one_mul, h1, true_or, and_true, if_true, eq_comm]
  by_cases hm' : m' = 0
  · subst hm'
    have : ∀ θ, angular 0 s' θ = 1 := fun θ => by simp [angular]
    simp only [this, mul_one, h1, hm, false_and, if_false]
  have hp : ¬ ((m : ℤ) + m' = 0) := by omega
  rw [if_neg hp] at CC SS
  have he : ((m : ℤ) - m' = 0) ↔ m = m' := by omega
  simp only [he] at CC SS
  unfold angular
  cases s <;> cases s' <;> simp only [hm, hm', if_false, if_true, Bool.false_eq_true, reduceCtorEq, or_self, and_false, and_true, or_true,
    SC, CS, CC, SS] <;> split_ifs <;> ring

/-- Integration over the disc in polar coordinates. -/
theorem disc_polar (prad : ℝ) (hp : 0 < prad) (F G : ℝ → ℝ) :
    ∫ p in {p : ℝ × ℝ | p.1 ^ 2 + p.2 ^ 2 ≤ prad ^ 2}, F (Real.sqrt (p.1 ^ 2 + p.2 ^ 2) / prad) * G (Complex.arg ⟨p.1, p.2⟩) =
      prad ^ 2 * (∫ r in (0 : ℝ)..1, F r * r) * ∫ θ in (-Real.pi)..Real.pi, G θ := by
  have hD : MeasurableSet {p : ℝ × ℝ | p.1 ^ 2 + p.2 ^ 2 ≤ prad ^ 2} :=
    (isClosed_le (by fun_prop) (by fun_prop)).measurableSet
  rw [← integral_indicator hD, ← integral_comp_polarCoord_symm]
  have h1 : ∫ p in polarCoord.target, p.1 • ({p : ℝ × ℝ | p.1 ^ 2 + p.2 ^ 2 ≤ prad ^ 2}.indicator
      (fun p => F (Real.sqrt (p.1 ^ 2 + p.2 ^ 2) / prad) * G (Complex.arg ⟨p.1, p.2⟩))) (polarCoord.symm p) =
      ∫ p in polarCoord.target, (Set.Iic prad).indicator (fun r => F (r / prad) * r) p.1 * G p.2 := by
    refine setIntegral_congr_fun (IsOpen.measurableSet polarCoord.open_target) fun p hpt => ?_
    rw [polarCoord_target, Set.mem_prod, Set.mem_Ioi, Set.mem_Ioo] at hpt
    obtain ⟨hr, hθ⟩ := hpt
    have e1 : (p.1 * Real.cos p.2) ^ 2 + (p.1 * Real.sin p.2) ^ 2 = p.1 ^ 2 := by
      have := Real.sin_sq_add_cos_sq p.2
      linear_combination p.1 ^ 2 * this
    have e2 : Complex.arg ⟨p.1 * Real.cos p.2, p.1 * Real.sin p.2⟩ = p.2 := by
      have : (⟨p.1 * Real.cos p.2, p.1 * Real.sin p.2⟩ : ℂ) = p.1 * (Complex.cos p.2 + Complex.sin p.2 * Complex.I) := by
        apply Complex.ext <;> simp [Complex.cos_ofReal_re, Complex.sin_ofReal_re]
      rw [this, Complex.arg_mul_cos_add_sin_mul_I hr ⟨hθ.1, hθ.2.le⟩]
    have e3 : p.1 ^ 2 ≤ prad ^ 2 ↔ p.1 ≤ prad := by
      rw [sq_le_sq, abs_of_pos hr, abs_of_pos hp]
    simp only [polarCoord_symm_apply, smul_eq_mul]
    by_cases hle : p.1 ≤ prad
    · rw [Set.indicator_of_mem (show (_ : ℝ × ℝ) ∈ _ by rw [Set.mem_ofPred_eq]; simp only [e1]; exact e3.mpr hle),
        Set.indicator_of_mem (show p.1 ∈ Set.Iic prad from hle)]
      simp only [e1, e2, Real.sqrt_sq hr.le]
      ring
    · rw [Set.indicator_of_notMem (show (_ : ℝ × ℝ) ∉ _ by rw [Set.mem_ofPred_eq]; simp only [e1]; exact fun h => hle (e3.mp h)),
        Set.indicator_of_notMem (show p.1 ∉ Set.Iic prad from hle)]
      ring
  rw [h1, polarCoord_target, Measure.volume_eq_prod, setIntegral_prod_mul, setIntegral_indicator measurableSet_Iic, Set.Ioi_inter_Iic,
    ← intervalIntegral.integral_of_le hp.le, ← integral_Ioc_eq_integral_Ioo, ← intervalIntegral.integral_of_le (by linarith [Real.pi_pos])]
  congr 1
  have h2 := intervalIntegral.integral_comp_div (a := 0) (b := prad) (fun u => F u * (u * prad)) hp.ne'
  simp only [zero_div, div_self hp.ne', smul_eq_mul, div_mul_cancel₀ _ hp.ne'] at h2
  have h3 : ∫ u in (0 : ℝ)..1, F u * (u * prad) = prad * ∫ u in (0 : ℝ)..1, F u * u := by
    rw [← intervalIntegral.integral_const_mul]
    refine congrArg (fun f : ℝ → ℝ => ∫ u in (0 : ℝ)..1, f u) (funext fun u => ?_)
    ring
  rw [h2, h3, sq, mul_assoc]

/-- Noll's normalisation. -/
noncomputable def nollFactor (n m : ℕ) : ℝ := if m = 0 then Real.sqrt (n + 1) else Real.sqrt (2 * (n + 1))

/-- The modes are orthonormal. -/
theorem zernike_ortho (n m n' m' : ℕ) (s s' : Bool) (h : ValidMode n m) (h' : ValidMode n' m') (prad : ℝ) (hp : 0 < prad) :
    pupilMean prad (fun x y => zernike n m s (Real.sqrt (x ^ 2 + y ^ 2) / prad) (Complex.arg ⟨x, y⟩) *
      zernike n' m' s' (Real.sqrt (x ^ 2 + y ^ 2) / prad) (Complex.arg ⟨x, y⟩)) =
      if n = n' ∧ m = m' ∧ (m = 0 ∨ s = s') then 1 else 0 := by
  have hz : ∀ (n m : ℕ) (s : Bool) (r θ : ℝ), zernike n m s r θ =
      nollFactor n m * radial n m r * angular m s θ := by
    intro n m s r θ
    unfold zernike angular nollFactor
    split_ifs with h1
    · subst h1; ring
    · rfl
    · rfl
  have hd := disc_polar prad hp
    (fun r => (nollFactor n m * radial n m r) *
      (nollFactor n' m' * radial n' m' r))
    (fun θ => angular m s θ * angular m' s' θ)
  have hpi := Real.pi_pos
  unfold pupilMean
  refine Eq.trans (congrArg (fun v => v / (Real.pi * prad ^ 2)) (Eq.trans ?_ hd)) ?_
  · refine congrArg (fun f : ℝ × ℝ → ℝ => ∫ p in {p : ℝ × ℝ | p.1 ^ 2 + p.2 ^ 2 ≤ prad ^ 2}, f p) (funext fun p => ?_)
    simp only [hz]; ring
  rw [angular_ortho]
  by_cases hm : m = m' ∧ (m = 0 ∨ s = s')
  · obtain ⟨rfl, hs⟩ := hm
    rw [if_pos (⟨rfl, hs⟩ : m = m ∧ (m = 0 ∨ s = s'))]
    have hr := radial_ortho n n' m h h'
    rw [show (∫ r in (0 : ℝ)..1, (nollFactor n m * radial n m r) *
      (nollFactor n' m * radial n' m r) * r) =
      (nollFactor n m * nollFactor n' m) *
        ∫ r in (0 : ℝ)..1, radial n m r * radial n' m r * r from ?_, hr]
    · by_cases hn : n = n'
      · subst hn
        have hpos : (0 : ℝ) < (n : ℝ) + 1 := by positivity
        rw [if_pos rfl, if_pos (⟨rfl, rfl, hs⟩ : n = n ∧ m = m ∧ (m = 0 ∨ s = s'))]
        unfold nollFactor
        split_ifs
        · rw [Real.mul_self_sqrt hpos.le]; field_simp
        · rw [Real.mul_self_sqrt (by positivity)]; field_simp
      · rw [if_neg hn, if_neg (fun hc : n = n' ∧ m = m ∧ (m = 0 ∨ s = s') => hn hc.1)]; simp
    · rw [← intervalIntegral.integral_const_mul]
      exact intervalIntegral.integral_congr fun r _ => by ring
  · rw [if_neg hm, if_neg (fun hc : n = n' ∧ m = m' ∧ (m = 0 ∨ s = s') => hm hc.2)]; simp

end Coralign.Props
