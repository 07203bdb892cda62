import Verif.Base.Ndimage
import Mathlib.Analysis.SpecialFunctions.Trigonometric.Basic

/-!
# What `scipy.ndimage.rotate` does at pixel centres

A further contract, kept apart from `Rotate` so that only the theorems about the direction of a rotation ask for it.
-/

namespace Coralign

/-- `scipy.ndimage.rotate(a, th, reshape=False)` gives output pixel `(i, j)` the value of the input at
`center + [[cos, sin], [-sin, cos]] ((i, j) - center)`, where the centre is `((nr - 1)/2, (nc - 1)/2)`.  The interpolating spline takes
the value of a pixel at its centre, and outside the array the value is zero. -/
def Rotate.Exact (R : Rotate) : Prop :=
  ∀ (th : ℝ) (a : Arr2 ℝ) (i j p q : ℤ), (0 ≤ i ∧ i < a.nr) ∧ (0 ≤ j ∧ j < a.nc) →
    (p : ℝ) - ((a.nr : ℝ) - 1) / 2 = Real.cos (th * Real.pi / 180) * (i - ((a.nr : ℝ) - 1) / 2) +
      Real.sin (th * Real.pi / 180) * (j - ((a.nc : ℝ) - 1) / 2) →
    (q : ℝ) - ((a.nc : ℝ) - 1) / 2 = -(Real.sin (th * Real.pi / 180) * (i - ((a.nr : ℝ) - 1) / 2)) +
      Real.cos (th * Real.pi / 180) * (j - ((a.nc : ℝ) - 1) / 2) →
    (R.run th a).px i j = some ((a.px p q).getD 0)

open scoped Classical in
/-- The contract can be met: take the pixel found at the rotated position, if there is one. -/
noncomputable def Rotate.atPixels : Rotate where
  run th a := ⟨a.nr, a.nc, fun i j =>
    if h : ∃ s : ℤ × ℤ,
        (s.1 : ℝ) - ((a.nr : ℝ) - 1) / 2 = Real.cos (th * Real.pi / 180) * ((i : ℕ) - ((a.nr : ℝ) - 1) / 2) +
          Real.sin (th * Real.pi / 180) * ((j : ℕ) - ((a.nc : ℝ) - 1) / 2) ∧
        (s.2 : ℝ) - ((a.nc : ℝ) - 1) / 2 = -(Real.sin (th * Real.pi / 180) * ((i : ℕ) - ((a.nr : ℝ) - 1) / 2)) +
          Real.cos (th * Real.pi / 180) * ((j : ℕ) - ((a.nc : ℝ) - 1) / 2)
    then (a.px h.choose.1 h.choose.2).getD 0 else 0⟩
  nr _ _ := rfl
  nc _ _ := rfl
  linear th n m f g a b i j := by
    have hp : ∀ i j : ℤ, ((⟨n, m, fun i j => a * f i j + b * g i j⟩ : Arr2 ℝ).px i j).getD 0 =
        a * ((⟨n, m, f⟩ : Arr2 ℝ).px i j).getD 0 + b * ((⟨n, m, g⟩ : Arr2 ℝ).px i j).getD 0 := by
      intro i j
      by_cases h : (0 ≤ i ∧ i < n) ∧ (0 ≤ j ∧ j < m)
      · rw [Arr2.px_of_inB _ h, Arr2.px_of_inB _ h, Arr2.px_of_inB _ h]; rfl
      · rw [Arr2.px_of_not_inB _ h, Arr2.px_of_not_inB _ h, Arr2.px_of_not_inB _ h]; simp
    by_cases h : (0 ≤ i ∧ i < n) ∧ (0 ≤ j ∧ j < m)
    · rw [Arr2.px_of_inB _ h, Arr2.px_of_inB _ h, Arr2.px_of_inB _ h]
      simp only [Option.getD_some]
      split
      · exact hp _ _
      · simp
    · rw [Arr2.px_of_not_inB _ h, Arr2.px_of_not_inB _ h, Arr2.px_of_not_inB _ h]; simp
  zeroAngle a := by
    obtain ⟨n, m, v⟩ := a
    simp only [zero_mul, zero_div, Real.cos_zero, Real.sin_zero, one_mul, neg_zero, zero_add, add_zero]
    congr 1
    funext i j
    have h : ∃ s : ℤ × ℤ, (s.1 : ℝ) - ((n : ℝ) - 1) / 2 = (i : ℕ) - ((n : ℝ) - 1) / 2 ∧ (s.2 : ℝ) - ((m : ℝ) - 1) / 2 = (j : ℕ) - ((m : ℝ) - 1) / 2 :=
      ⟨((i : ℕ), (j : ℕ)), by simp⟩
    rw [dif_pos h]
    obtain ⟨h1, h2⟩ := h.choose_spec
    have e1 : h.choose.1 = ((i : ℕ) : ℤ) := by
      have : (h.choose.1 : ℝ) = (i : ℕ) := by linarith
      exact_mod_cast this
    have e2 : h.choose.2 = ((j : ℕ) : ℤ) := by
      have : (h.choose.2 : ℝ) = (j : ℕ) := by linarith
      exact_mod_cast this
    rw [e1, e2, Arr2.px_val]
    rfl

theorem Rotate.atPixels_exact : Rotate.atPixels.Exact := by
  intro th a i j p q hb hp hq
  refine (Arr2.px_of_inB (Rotate.atPixels.run th a) hb).trans ?_
  have ei : (((i.toNat : ℕ) : ℤ) : ℝ) = (i : ℝ) := by rw [Int.toNat_of_nonneg hb.1.1]
  have ej : (((j.toNat : ℕ) : ℤ) : ℝ) = (j : ℝ) := by rw [Int.toNat_of_nonneg hb.2.1]
  rw [Int.cast_natCast] at ei ej
  rw [← ei, ← ej] at hp hq
  unfold Rotate.atPixels
  simp only
  have h : ∃ s : ℤ × ℤ,
      (s.1 : ℝ) - ((a.nr : ℝ) - 1) / 2 = Real.cos (th * Real.pi / 180) * ((i.toNat : ℕ) - ((a.nr : ℝ) - 1) / 2) +
        Real.sin (th * Real.pi / 180) * ((j.toNat : ℕ) - ((a.nc : ℝ) - 1) / 2) ∧
      (s.2 : ℝ) - ((a.nc : ℝ) - 1) / 2 = -(Real.sin (th * Real.pi / 180) * ((i.toNat : ℕ) - ((a.nr : ℝ) - 1) / 2)) +
        Real.cos (th * Real.pi / 180) * ((j.toNat : ℕ) - ((a.nc : ℝ) - 1) / 2) := ⟨(p, q), hp, hq⟩
  rw [dif_pos h]
  obtain ⟨h1, h2⟩ := h.choose_spec
  have e1 : h.choose.1 = p := by
    have : (h.choose.1 : ℝ) = p := by linarith
    exact_mod_cast this
  have e2 : h.choose.2 = q := by
    have : (h.choose.2 : ℝ) = q := by linarith
    exact_mod_cast this
  rw [e1, e2]

end Coralign
