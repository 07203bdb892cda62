import Verif.Base.Arr2
import Mathlib.Data.Real.Basic
import Mathlib.Data.Matrix.Mul
import Mathlib.LinearAlgebra.Matrix.NonsingularInverse

/-!
# Contracts of the scipy routines used by the DM code

The routines themselves are not modelled; every theorem holds for anything that meets these contracts.
-/

namespace Coralign

/-- `scipy.interpolate.RectBivariateSpline(r0, c0, f)` evaluated at `(r, c)`.  `r0`, `c0` are the coordinates of the rows and
columns of `f`.  With the default smoothing `s=0` the spline interpolates its samples and depends linearly on them. -/
structure Spline where
  eval : (ℕ → ℝ) → (ℕ → ℝ) → Arr2 ℝ → ℝ → ℝ → ℝ
  /-- The spline passes through the samples. -/
  interpolates : ∀ (r0 c0 : ℕ → ℝ) (f : Arr2 ℝ) (i : Fin f.nr) (j : Fin f.nc), StrictMono r0 → StrictMono c0 →
    eval r0 c0 f (r0 i) (c0 j) = f.val i j
  /-- The spline is linear in the samples. -/
  linear : ∀ (r0 c0 : ℕ → ℝ) (n m : ℕ) (f g : Fin n → Fin m → ℝ) (a b r c : ℝ),
    eval r0 c0 ⟨n, m, fun i j => a * f i j + b * g i j⟩ r c = a * eval r0 c0 ⟨n, m, f⟩ r c + b * eval r0 c0 ⟨n, m, g⟩ r c

theorem Spline.zero (S : Spline) (r0 c0 : ℕ → ℝ) (n m : ℕ) (r c : ℝ) : S.eval r0 c0 ⟨n, m, fun _ _ => 0⟩ r c = 0 := by
  have := S.linear r0 c0 n m (fun _ _ => 0) (fun _ _ => 0) 0 0 r c
  simpa using this

open scoped Classical in
/-- The contract can be met: look the point up among the samples. -/
noncomputable def Spline.lookup : Spline where
  eval r0 c0 f r c :=
    if h : ∃ i : Fin f.nr, ∃ j : Fin f.nc, r0 i = r ∧ c0 j = c then f.val h.choose h.choose_spec.choose else 0
  interpolates r0 c0 f i j hr hc := by
    have h : ∃ i' : Fin f.nr, ∃ j' : Fin f.nc, r0 i' = r0 i ∧ c0 j' = c0 j := ⟨i, j, rfl, rfl⟩
    rw [dif_pos h]
    have h1 := hr.injective h.choose_spec.choose_spec.1
    have h2 := hc.injective h.choose_spec.choose_spec.2
    exact congr (congrArg f.val (Fin.ext h1)) (Fin.ext h2)
  linear r0 c0 n m f g a b r c := by
    by_cases h : ∃ i : Fin n, ∃ j : Fin m, r0 i = r ∧ c0 j = c
    · simp only [dif_pos h]
    · simp only [dif_neg h]; simp

/-- The nearest point of an interval. -/
noncomputable def clampTo (lo hi r : ℝ) : ℝ := max lo (min hi r)

/-- The same routine with what it does outside the rectangle of its samples: FITPACK's `fpbisp` moves the point to the edge. -/
structure ClampSpline extends Spline where
  clamps : ∀ (r0 c0 : ℕ → ℝ) (f : Arr2 ℝ) (r c : ℝ),
    eval r0 c0 f r c = eval r0 c0 f (clampTo (r0 0) (r0 (f.nr - 1)) r) (clampTo (c0 0) (c0 (f.nc - 1)) c)

theorem clampTo_idem (lo hi r : ℝ) (h : lo ≤ hi) : clampTo lo hi (clampTo lo hi r) = clampTo lo hi r := by
  unfold clampTo
  rw [min_eq_right (max_le h (min_le_left _ _)), max_eq_right (le_max_left _ _)]

theorem clampTo_mem (lo hi r : ℝ) (h1 : lo ≤ r) (h2 : r ≤ hi) : clampTo lo hi r = r := by
  unfold clampTo
  rw [min_eq_right h2, max_eq_right h1]

open scoped Classical in
/-- The contract can be met: move the point to the edge and look it up among the samples. -/
noncomputable def ClampSpline.lookup : ClampSpline where
  eval r0 c0 f r c := if r0 0 ≤ r0 (f.nr - 1) ∧ c0 0 ≤ c0 (f.nc - 1) then
    Spline.lookup.eval r0 c0 f (clampTo (r0 0) (r0 (f.nr - 1)) r) (clampTo (c0 0) (c0 (f.nc - 1)) c) else 0
  interpolates r0 c0 f i j hr hc := by
    have hi := i.isLt
    have hj := j.isLt
    rw [if_pos ⟨hr.monotone (Nat.zero_le _), hc.monotone (Nat.zero_le _)⟩, clampTo_mem _ _ _ (hr.monotone (Nat.zero_le _)) (hr.monotone (by omega)),
      clampTo_mem _ _ _ (hc.monotone (Nat.zero_le _)) (hc.monotone (by omega))]
    exact Spline.lookup.interpolates r0 c0 f i j hr hc
  linear r0 c0 n m f g a b r c := by
    by_cases h : r0 0 ≤ r0 (n - 1) ∧ c0 0 ≤ c0 (m - 1)
    · simp only [if_pos h]
      exact Spline.lookup.linear _ _ _ _ _ _ _ _ _ _
    · simp only [if_neg h]; ring
  clamps r0 c0 f r c := by
    by_cases h : r0 0 ≤ r0 (f.nr - 1) ∧ c0 0 ≤ c0 (f.nc - 1)
    · simp only [if_pos h, clampTo_idem _ _ _ h.1, clampTo_idem _ _ _ h.2]
    · simp only [if_neg h]

/-- `scipy.sparse.linalg.spsolve(A, b)`: the solution of `A x = b` when `A` is non-singular.  For a singular matrix scipy warns
and returns NaN; nothing is assumed about that case. -/
structure SpSolve where
  solve : {n : ℕ} → Matrix (Fin n) (Fin n) ℝ → (Fin n → ℝ) → Fin n → ℝ
  solves : ∀ {n : ℕ} (A : Matrix (Fin n) (Fin n) ℝ) (b : Fin n → ℝ), IsUnit A.det → A.mulVec (solve A b) = b

/-- The contract can be met by the inverse matrix. -/
noncomputable def SpSolve.inverse : SpSolve where
  solve A b := A⁻¹.mulVec b
  solves A b h := by
    rw [Matrix.mulVec_mulVec, Matrix.mul_nonsing_inv _ h, Matrix.one_mulVec]

/-- The solution is the only one. -/
theorem SpSolve.unique (S : SpSolve) {n : ℕ} (A : Matrix (Fin n) (Fin n) ℝ) (b x : Fin n → ℝ) (h : IsUnit A.det)
    (hx : A.mulVec x = b) : S.solve A b = x := by
  have h1 := S.solves A b h
  have h2 : A⁻¹.mulVec (A.mulVec (S.solve A b)) = A⁻¹.mulVec (A.mulVec x) := by rw [h1, hx]
  rw [Matrix.mulVec_mulVec, Matrix.mulVec_mulVec, Matrix.nonsing_inv_mul _ h, Matrix.one_mulVec, Matrix.one_mulVec] at h2
  exact h2

end Coralign
