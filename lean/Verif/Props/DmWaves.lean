import Verif.Props.DmShapes
import Mathlib.Analysis.SpecialFunctions.Integrals.Basic

/-!
# What the sine and the probe patterns are (C42, C43)
-/

namespace Coralign.Props
open Coralign Coralign.Spec
open scoped Interval

theorem integral_sine_band (a b k c : ℝ) (hab : a < b) :
    ∫ x in a..b, Real.sin (k * x + c) = (b - a) * npSinc (k * (b - a) / (2 * Real.pi)) * Real.sin (k * ((a + b) / 2) + c) := by
  have hpi := Real.pi_pos
  by_cases hk : k = 0
  · subst hk
    simp [npSinc]
  · rw [intervalIntegral.integral_comp_mul_add (fun x => Real.sin x) hk c, integral_sin]
    have hne : k * (b - a) / (2 * Real.pi) ≠ 0 := by
      have : b - a ≠ 0 := by linarith
      positivity
    have hb : b - a ≠ 0 := by linarith
    unfold npSinc
    rw [if_neg hne, Real.cos_sub_cos]
    rw [show (k * a + c + (k * b + c)) / 2 = k * ((a + b) / 2) + c by ring, show (k * a + c - (k * b + c)) / 2 = -(k * (b - a) / 2) by ring, Real.sin_neg,
      show Real.pi * (k * (b - a) / (2 * Real.pi)) = k * (b - a) / 2 by field_simp]
    rw [smul_eq_mul]
    field_simp

/-- **C42.** What the pattern is: at column `j` and row `i`, measured from the middle of the grid, a plane wave with the given number of cycles per beam. -/
theorem C42_sine_value (nact : ℤ) (dact a phase fx fy : ℝ) (o : Arr2 ℝ) (h : sine nact dact a phase fx fy = .ok o) (i j : ℤ) (hi : 0 ≤ i ∧ i < nact)
    (hj : 0 ≤ j ∧ j < nact) :
    o.px i j = some (a * Real.sin (2 * Real.pi * ((j - ((nact : ℝ) - 1) / 2) * fx + (i - ((nact : ℝ) - 1) / 2) * fy) / dact + phase * Real.pi / 180)) := by
  obtain ⟨n, rfl, hn, hd, ha⟩ := sine_args h
  rw [sine_eq n dact a phase fx fy hn hd ha] at h
  obtain rfl := Except.ok.inj h
  rw [Arr2.px_ofFn_in _ ⟨hi, hj⟩]
  unfold dmAxis
  rw [toNat_real _ hi.1, toNat_real _ hj.1]
  push_cast
  rfl

/-- **C43.** What the probe is: the superposition, with equal weight, of the sines whose frequencies fill the given rectangle of the focal plane,
centred at `(xc, yc)` and turned by `clock` degrees. -/
theorem C43_superposition (nact : ℤ) (dact xc yc clock height ximin ximax etamin etamax phase : ℝ) (o : Arr2 ℝ)
    (h : probe nact dact xc yc clock height ximin ximax etamin etamax phase = .ok o) (i j : ℤ) (hi : 0 ≤ i ∧ i < nact) (hj : 0 ≤ j ∧ j < nact) (x y u v : ℝ)
    (hx : x = j - ((nact : ℝ) - 1) / 2 - xc) (hy : y = i - ((nact : ℝ) - 1) / 2 - yc)
    (hu : u = x * Real.cos (clock * Real.pi / 180) - y * Real.sin (clock * Real.pi / 180))
    (hv : v = x * Real.sin (clock * Real.pi / 180) + y * Real.cos (clock * Real.pi / 180)) :
    o.px i j = some (2 * height / dact ^ 2 * ∫ ξ in ximin..ximax, ∫ η in etamin..etamax,
      Real.sin (2 * Real.pi * (u * ξ + v * η) / dact + phase * Real.pi / 180)) := by
  have ha := probe_args h
  rw [probe_eq _ _ _ _ _ _ _ _ _ _ _ ha] at h
  obtain rfl := Except.ok.inj h
  have hn := ha.nact_pos
  have hd := ha.dact_pos
  have hpi := Real.pi_pos
  rw [Arr2.px_ofFn_in _ ⟨by omega, by omega⟩]
  have e1 : dmAxis nact.toNat j.toNat - xc = x := by
    unfold dmAxis
    rw [toNat_real _ hj.1, toNat_real _ hn.le, hx]
  have e2 : dmAxis nact.toNat i.toNat - yc = y := by
    unfold dmAxis
    rw [toNat_real _ hi.1, toNat_real _ hn.le, hy]
  rw [e1, e2]
  have inner : ∀ ξ : ℝ, ∫ η in etamin..etamax, Real.sin (2 * Real.pi * (u * ξ + v * η) / dact + phase * Real.pi / 180) =
      (etamax - etamin) * npSinc (2 * Real.pi * v / dact * (etamax - etamin) / (2 * Real.pi)) *
        Real.sin (2 * Real.pi * u / dact * ξ + (2 * Real.pi * v / dact * ((etamin + etamax) / 2) + phase * Real.pi / 180)) := by
    intro ξ
    have := integral_sine_band etamin etamax (2 * Real.pi * v / dact) (2 * Real.pi * u / dact * ξ + phase * Real.pi / 180) ha.eta
    rw [show (2 * Real.pi * v / dact * ((etamin + etamax) / 2) + (2 * Real.pi * u / dact * ξ + phase * Real.pi / 180)) =
      2 * Real.pi * u / dact * ξ + (2 * Real.pi * v / dact * ((etamin + etamax) / 2) + phase * Real.pi / 180) by ring] at this
    rw [← this]
    congr 1
    funext η
    congr 1
    ring
  simp only [inner]
  rw [intervalIntegral.integral_const_mul, integral_sine_band ximin ximax _ _ ha.xi]
  have hx0 : ximax - ximin ≠ 0 := by have := ha.xi; linarith
  have hy0 : etamax - etamin ≠ 0 := by have := ha.eta; linarith
  unfold probeVal
  simp only
  rw [← hu, ← hv, show u / (dact / (ximax - ximin)) = 2 * Real.pi * u / dact * (ximax - ximin) / (2 * Real.pi) by field_simp,
    show v / (dact / (etamax - etamin)) = 2 * Real.pi * v / dact * (etamax - etamin) / (2 * Real.pi) by field_simp]
  rw [show 2 * Real.pi * (u * ((ximin + ximax) / 2) + v * ((etamin + etamax) / 2)) / dact + phase * Real.pi / 180 =
    2 * Real.pi * u / dact * ((ximin + ximax) / 2) + (2 * Real.pi * v / dact * ((etamin + etamax) / 2) + phase * Real.pi / 180) by ring]
  congr 1
  generalize npSinc _ = A
  generalize npSinc _ = B
  field_simp

/-- A probe that is accepted, turned and off centre, with an actuator at the edge. -/
example : ∃ o, probe 48 46.3 1.5 (-2) 30 1e-9 3 10 (-10) 10 90 = .ok o ∧ (0 : ℤ) ≤ 0 ∧ (47 : ℤ) < 48 :=
  ⟨_, probe_eq 48 46.3 1.5 (-2) 30 1e-9 3 10 (-10) 10 90 (by constructor <;> norm_num), by norm_num, by norm_num⟩

end Coralign.Props
