import Mathlib.Analysis.SpecialFunctions.Complex.Circle
import Mathlib.RingTheory.RootsOfUnity.Complex
import Mathlib.Data.Matrix.Mul
import Mathlib.LinearAlgebra.Matrix.ConjTranspose
import Mathlib.Algebra.BigOperators.Fin

/-!
# Turns on the unit circle and finite orthogonality

`cis t = exp(2πi t)`.
-/

namespace Coralign

open Complex

/-- `exp(2πi t)`. -/
noncomputable def cis (t : ℝ) : ℂ := Complex.exp (2 * Real.pi * I * t)

theorem cis_add (s t : ℝ) : cis (s + t) = cis s * cis t := by
  unfold cis; rw [← Complex.exp_add]; congr 1; push_cast; ring

@[simp] theorem cis_zero : cis 0 = 1 := by unfold cis; simp

theorem cis_int (k : ℤ) : cis k = 1 := by
  unfold cis
  rw [Complex.exp_eq_one_iff]
  exact ⟨k, by push_cast; ring⟩

theorem cis_add_int (t : ℝ) (k : ℤ) : cis (t + k) = cis t := by rw [cis_add, cis_int, mul_one]

theorem cis_ne_zero (t : ℝ) : cis t ≠ 0 := Complex.exp_ne_zero _

theorem cis_neg (t : ℝ) : cis (-t) = (cis t)⁻¹ := by
  apply eq_inv_of_mul_eq_one_left
  rw [← cis_add]; simp

theorem conj_cis (t : ℝ) : (starRingEnd ℂ) (cis t) = cis (-t) := by
  unfold cis
  rw [← Complex.exp_conj]
  congr 1
  simp [map_ofNat]

@[simp] theorem norm_cis (t : ℝ) : ‖cis t‖ = 1 := by
  unfold cis
  rw [show (2 * Real.pi * I * t : ℂ) = ((2 * Real.pi * t : ℝ) : ℂ) * I by push_cast; ring]
  exact Complex.norm_exp_ofReal_mul_I _

theorem cis_nat_mul (n : ℕ) (t : ℝ) : cis (n * t) = cis t ^ n := by
  unfold cis
  rw [← Complex.exp_nat_mul]
  congr 1; push_cast; ring

theorem cis_eq_one_iff (t : ℝ) : cis t = 1 ↔ ∃ k : ℤ, t = k := by
  constructor
  · intro h
    unfold cis at h
    rw [Complex.exp_eq_one_iff] at h
    obtain ⟨k, hk⟩ := h
    refine ⟨k, ?_⟩
    have h2 : (2 * Real.pi * I : ℂ) ≠ 0 := by
      simp [Real.pi_ne_zero]
    have : (t : ℂ) = (k : ℂ) := by
      apply mul_left_cancel₀ h2
      rw [hk]; ring
    exact_mod_cast this
  · rintro ⟨k, rfl⟩; exact cis_int k

/-- Geometric sum over one period. -/
theorem sum_cis (n : ℕ) (hn : 0 < n) (d : ℤ) :
    ∑ k : Fin n, cis ((k : ℕ) * (d / n : ℝ)) = if (n : ℤ) ∣ d then (n : ℂ) else 0 := by
  have hn' : (n : ℝ) ≠ 0 := by positivity
  simp_rw [cis_nat_mul]
  rw [Fin.sum_univ_eq_sum_range (fun k => cis (d / n : ℝ) ^ k) n]
  split
  · next h =>
    obtain ⟨c, rfl⟩ := h
    have : cis (((n * c : ℤ) : ℝ) / n) = 1 := by
      rw [show (((n * c : ℤ) : ℝ) / n) = ((c : ℤ) : ℝ) by push_cast; field_simp]
      exact cis_int c
    rw [this]; simp
  · next h =>
    have hne : cis (d / n : ℝ) ≠ 1 := by
      intro h1
      obtain ⟨k, hk⟩ := (cis_eq_one_iff _).mp h1
      apply h
      refine ⟨k, ?_⟩
      have : (d : ℝ) = n * k := by field_simp at hk; linarith
      exact_mod_cast this
    rw [geom_sum_eq hne, ← cis_nat_mul]
    rw [show (n : ℝ) * (d / n) = ((d : ℤ) : ℝ) by field_simp]
    rw [cis_int]; simp

/-- The centre index of an axis. -/
noncomputable def ctr (n : ℕ) (i : Fin n) : ℝ := ((i : ℕ) : ℝ) - ((n / 2 : ℕ) : ℝ)

/-- Centred Fourier matrix: entry `exp(-2πi (p-c)(i-c)/n)`, `c = n//2`. -/
noncomputable def fmat (n : ℕ) : Matrix (Fin n) (Fin n) ℂ :=
  fun p i => cis (-(ctr n p * ctr n i / n))

theorem fmat_symm (n : ℕ) : (fmat n).transpose = fmat n := by
  funext p i
  simp only [Matrix.transpose_apply, fmat]
  rw [mul_comm]

theorem fmat_conj_mul (n : ℕ) : (fmat n).conjTranspose * fmat n = (n : ℂ) • (1 : Matrix (Fin n) (Fin n) ℂ) := by
  classical
  ext i j
  have hn : 0 < n := Nat.lt_of_le_of_lt (Nat.zero_le _) i.isLt
  have hn' : (n : ℝ) ≠ 0 := by positivity
  rw [Matrix.mul_apply]
  simp only [Matrix.conjTranspose_apply, fmat, RCLike.star_def, conj_cis, neg_neg]
  let d : ℤ := ((i : ℕ) : ℤ) - ((j : ℕ) : ℤ)
  let h : ℕ := n / 2
  have e : ∀ p : Fin n, cis (ctr n p * ctr n i / n) * cis (-(ctr n p * ctr n j / n))
      = cis (-(h * (d / n : ℝ))) * cis ((p : ℕ) * (d / n : ℝ)) := by
    intro p
    rw [← cis_add, ← cis_add]
    congr 1
    simp only [ctr, d, h]
    push_cast
    field_simp
    ring
  rw [Finset.sum_congr rfl fun p _ => e p, ← Finset.mul_sum, sum_cis n hn d]
  by_cases hij : i = j
  · subst hij
    have : d = 0 := by simp [d]
    simp [this]
  · have hnd : ¬ (n : ℤ) ∣ d := by
      intro hd
      have h1 : |d| < n := by
        have := i.isLt; have := j.isLt
        simp only [d]; rw [abs_lt]; omega
      have := Int.eq_zero_of_abs_lt_dvd hd h1
      apply hij; apply Fin.ext; simp only [d] at this; omega
    rw [if_neg hnd]
    simp [hij]

theorem fmat_mul_conj (n : ℕ) : fmat n * (fmat n).conjTranspose = (n : ℂ) • (1 : Matrix (Fin n) (Fin n) ℂ) := by
  have h := fmat_conj_mul n
  have h2 := congrArg Matrix.transpose h
  rw [Matrix.transpose_mul, fmat_symm] at h2
  have h3 : (fmat n).conjTranspose.transpose = (fmat n).conjTranspose := by
    have : (fmat n).conjTranspose.transpose = ((fmat n).transpose).conjTranspose := rfl
    rw [this, fmat_symm]
  rw [h3] at h2
  rw [h2]
  simp

/-- The index map of a roll by `h`. -/
def rollIdx (n h : ℕ) (i : Fin n) : Fin n := ⟨((i : ℕ) + h) % n, Nat.mod_lt _ (Nat.lt_of_le_of_lt (Nat.zero_le _) i.isLt)⟩

theorem rollIdx_injective (n h : ℕ) : Function.Injective (rollIdx n h) := by
  intro i j hij
  simp only [rollIdx, Fin.mk.injEq] at hij
  apply Fin.ext
  have h1 := i.isLt
  have h2 := j.isLt
  have : (i : ℕ) ≡ j [MOD n] := Nat.ModEq.add_right_cancel' h hij
  unfold Nat.ModEq at this
  rwa [Nat.mod_eq_of_lt h1, Nat.mod_eq_of_lt h2] at this

theorem rollIdx_bijective (n h : ℕ) : Function.Bijective (rollIdx n h) :=
  Finite.injective_iff_bijective.mp (rollIdx_injective n h)

/-- Reindexing a sum by a roll. -/
theorem sum_rollIdx {M : Type} [AddCommMonoid M] (n h : ℕ) (f : Fin n → M) : ∑ i, f (rollIdx n h i) = ∑ i, f i :=
  (rollIdx_bijective n h).sum_comp f

theorem rollIdx_val (n h : ℕ) (i : Fin n) : ∃ k : ℤ, ((rollIdx n h i : ℕ) : ℤ) = (i : ℕ) + h - n * k := by
  refine ⟨(((i : ℕ) + h) / n : ℕ), ?_⟩
  simp only [rollIdx]
  have := Nat.div_add_mod ((i : ℕ) + h) n
  have h2 : (((((i : ℕ) + h) % n : ℕ)) : ℤ) = (((i : ℕ) + h : ℕ) : ℤ) - ((n * (((i : ℕ) + h) / n) : ℕ) : ℤ) := by
    omega
  rw [h2]; push_cast; ring

end Coralign
