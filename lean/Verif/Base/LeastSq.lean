import Mathlib.Analysis.InnerProductSpace.PiL2
import Mathlib.Analysis.InnerProductSpace.Projection.FiniteDimensional
import Mathlib.Algebra.Order.BigOperators.Ring.Finset
import Mathlib.Tactic.Linarith
import Mathlib.Tactic.Ring

/-!
# Linear least squares

`np.linalg.lstsq` and `np.polyfit` are external.  The only thing the model assumes about them is that the
coefficients they return minimise the sum of squared residuals.  `Solver` bundles such a routine with that
contract, and `Solver.some` shows that the contract can be met, so no theorem about all solvers is vacuous.
-/

namespace Coralign

variable {ι κ : Type} [Fintype ι] [Fintype κ]

/-- The value of the fitted model `A x` at sample `i`. -/
def fitted (A : ι → κ → ℝ) (x : κ → ℝ) (i : ι) : ℝ := ∑ k, A i k * x k

/-- The sum of squared residuals. -/
def sqResidual (A : ι → κ → ℝ) (b : ι → ℝ) (x : κ → ℝ) : ℝ := ∑ i, (fitted A x i - b i) ^ 2

/-- `x` minimises the sum of squared residuals. -/
def IsLeastSq (A : ι → κ → ℝ) (b : ι → ℝ) (x : κ → ℝ) : Prop :=
  ∀ y, sqResidual A b x ≤ sqResidual A b y

/-- A linear least-squares routine: `np.linalg.lstsq(A, b)[0]` for any number of samples and unknowns. -/
structure Solver where
  solve : {ι : Type} → [Fintype ι] → {k : ℕ} → (ι → Fin k → ℝ) → (ι → ℝ) → Fin k → ℝ
  isLeastSq : ∀ {ι : Type} [Fintype ι] {k : ℕ} (A : ι → Fin k → ℝ) (b : ι → ℝ), IsLeastSq A b (solve A b)

omit [Fintype ι] in
theorem fitted_add (A : ι → κ → ℝ) (x y : κ → ℝ) (i : ι) :
    fitted A (fun k => x k + y k) i = fitted A x i + fitted A y i := by
  simp only [fitted, mul_add, Finset.sum_add_distrib]

omit [Fintype ι] in
theorem fitted_sub (A : ι → κ → ℝ) (x y : κ → ℝ) (i : ι) :
    fitted A (fun k => x k - y k) i = fitted A x i - fitted A y i := by
  simp only [fitted, mul_sub, Finset.sum_sub_distrib]

omit [Fintype ι] in
theorem fitted_smul (A : ι → κ → ℝ) (c : ℝ) (x : κ → ℝ) (i : ι) :
    fitted A (fun k => c * x k) i = c * fitted A x i := by
  simp only [fitted, Finset.mul_sum]
  exact Finset.sum_congr rfl fun k _ => by ring

theorem sqResidual_nonneg (A : ι → κ → ℝ) (b : ι → ℝ) (x : κ → ℝ) : 0 ≤ sqResidual A b x :=
  Finset.sum_nonneg fun _ _ => sq_nonneg _

/-- If the data can be fitted exactly then a least-squares solution fits it exactly. -/
theorem IsLeastSq.exact {A : ι → κ → ℝ} {b : ι → ℝ} {x : κ → ℝ} (h : IsLeastSq A b x)
    {x₀ : κ → ℝ} (h₀ : ∀ i, fitted A x₀ i = b i) (i : ι) : fitted A x i = b i := by
  have h1 := h x₀
  have h2 : sqResidual A b x₀ = 0 := by
    unfold sqResidual; exact Finset.sum_eq_zero fun i _ => by rw [h₀ i]; ring
  have h3 : sqResidual A b x = 0 := le_antisymm (h2 ▸ h1) (sqResidual_nonneg A b x)
  have h4 := (Finset.sum_eq_zero_iff_of_nonneg (fun i _ => sq_nonneg (fitted A x i - b i))).mp h3 i
    (Finset.mem_univ i)
  have := pow_eq_zero_iff (two_ne_zero) |>.mp h4
  linarith

/-- Normal equations: at a least-squares solution the residual is orthogonal to every model vector. -/
theorem IsLeastSq.orthogonal {A : ι → κ → ℝ} {b : ι → ℝ} {x : κ → ℝ} (h : IsLeastSq A b x) (y : κ → ℝ) :
    ∑ i, (fitted A x i - b i) * fitted A y i = 0 := by
  set P := ∑ i, (fitted A x i - b i) * fitted A y i with hP
  set Q := ∑ i, (fitted A y i) ^ 2 with hQ
  have key : ∀ t : ℝ, 0 ≤ 2 * t * P + t ^ 2 * Q := by
    intro t
    have h1 := h (fun k => x k + t * y k)
    have h2 : sqResidual A b (fun k => x k + t * y k) = sqResidual A b x + (2 * t * P + t ^ 2 * Q) := by
      simp only [sqResidual, hP, hQ, Finset.mul_sum]
      rw [← Finset.sum_add_distrib, ← Finset.sum_add_distrib]
      refine Finset.sum_congr rfl fun i _ => ?_
      rw [fitted_add A x (fun k => t * y k) i, fitted_smul]
      ring
    linarith
  have hQ0 : 0 ≤ Q := Finset.sum_nonneg fun _ _ => sq_nonneg _
  by_contra hne
  rcases eq_or_lt_of_le hQ0 with hz | hpos
  · have := key (-P)
    rw [← hz] at this
    have hp : 0 < P ^ 2 := by positivity
    nlinarith
  · have := key (-P / Q)
    have e : 2 * (-P / Q) * P + (-P / Q) ^ 2 * Q = -(P ^ 2 / Q) := by field_simp; ring
    rw [e] at this
    have hp : 0 < P ^ 2 / Q := by positivity
    linarith

/-- Conversely, residuals orthogonal to the model make a least-squares solution. -/
theorem isLeastSq_of_orthogonal {A : ι → κ → ℝ} {b : ι → ℝ} {x : κ → ℝ}
    (h : ∀ y, ∑ i, (fitted A x i - b i) * fitted A y i = 0) : IsLeastSq A b x := by
  intro y
  have h1 := h (fun k => y k - x k)
  have e : sqResidual A b y = sqResidual A b x + 2 * ∑ i, (fitted A x i - b i) * fitted A (fun k => y k - x k) i
      + ∑ i, (fitted A (fun k => y k - x k) i) ^ 2 := by
    simp only [sqResidual, Finset.mul_sum]
    rw [← Finset.sum_add_distrib, ← Finset.sum_add_distrib]
    refine Finset.sum_congr rfl fun i _ => ?_
    rw [fitted_sub]; ring
  rw [e, h1]
  have : 0 ≤ ∑ i, (fitted A (fun k => y k - x k) i) ^ 2 := Finset.sum_nonneg fun _ _ => sq_nonneg _
  linarith

/-- The fitted values are unique, even when the coefficients are not. -/
theorem IsLeastSq.fitted_unique {A : ι → κ → ℝ} {b : ι → ℝ} {x y : κ → ℝ}
    (hx : IsLeastSq A b x) (hy : IsLeastSq A b y) (i : ι) : fitted A x i = fitted A y i := by
  have h1 := hx.orthogonal (fun k => x k - y k)
  have h2 := hy.orthogonal (fun k => x k - y k)
  have h3 : ∑ i, (fitted A x i - fitted A y i) ^ 2 = 0 := by
    have : ∑ i, (fitted A x i - fitted A y i) ^ 2 =
        ∑ i, (fitted A x i - b i) * fitted A (fun k => x k - y k) i
          - ∑ i, (fitted A y i - b i) * fitted A (fun k => x k - y k) i := by
      rw [← Finset.sum_sub_distrib]
      refine Finset.sum_congr rfl fun i _ => ?_
      rw [fitted_sub]; ring
    rw [this, h1, h2, sub_zero]
  have h4 := (Finset.sum_eq_zero_iff_of_nonneg (fun i _ => sq_nonneg (fitted A x i - fitted A y i))).mp h3 i
    (Finset.mem_univ i)
  have := pow_eq_zero_iff (two_ne_zero) |>.mp h4
  linarith

/-- A least-squares solution always exists. -/
theorem exists_isLeastSq (A : ι → κ → ℝ) (b : ι → ℝ) : ∃ x, IsLeastSq A b x := by
  classical
  let E := EuclideanSpace ℝ ι
  let L : (κ → ℝ) →ₗ[ℝ] E :=
    { toFun := fun x => WithLp.toLp 2 (fitted A x)
      map_add' := by
        intro x y
        ext i
        exact fitted_add A x y i
      map_smul' := by
        intro c x
        ext i
        exact fitted_smul A c x i }
  let S : Submodule ℝ E := LinearMap.range L
  let bb : E := WithLp.toLp 2 b
  obtain ⟨x, hx⟩ : ∃ x, L x = S.starProjection bb := by
    have := S.starProjection_apply_mem bb
    exact this
  refine ⟨x, isLeastSq_of_orthogonal fun y => ?_⟩
  have horth := S.starProjection_inner_eq_zero bb (L y) ⟨y, rfl⟩
  rw [← hx] at horth
  have e : inner ℝ (bb - L x) (L y) = ∑ i, (fitted A y i) * (b i - fitted A x i) := by
    show inner ℝ (WithLp.toLp 2 b - WithLp.toLp 2 (fitted A x) : EuclideanSpace ℝ ι)
      (WithLp.toLp 2 (fitted A y)) = _
    rw [PiLp.inner_apply]
    simp
  rw [e] at horth
  rw [← neg_eq_zero, ← horth, ← Finset.sum_neg_distrib]
  exact Finset.sum_congr rfl fun i _ => by ring

/-- The contract can be met. -/
theorem Solver.nonempty : Nonempty Solver :=
  ⟨{ solve := fun A b => Classical.choose (exists_isLeastSq A b)
     isLeastSq := fun A b => Classical.choose_spec (exists_isLeastSq A b) }⟩

end Coralign
