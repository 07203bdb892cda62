import Verif.Model.Fft
import Mathlib.Tactic.FieldSimp
import Mathlib.Tactic.Ring
import Mathlib.Tactic.LinearCombination

/-!
# `do_fft` and `do_ifft` as centred matrix products
-/

namespace Coralign

theorem phase_roll (n : ℕ) (p i : Fin n) :
    cis (-(((rollIdx n (n - n / 2) p : ℕ) : ℝ) * ((i : ℕ) : ℝ) / n)) = cis (-(ctr n p * ctr n (rollIdx n (n / 2) i) / n)) := by
  have hn : 0 < n := Nat.lt_of_le_of_lt (Nat.zero_le _) p.isLt
  have hn' : (n : ℝ) ≠ 0 := by positivity
  obtain ⟨k1, h1⟩ := rollIdx_val n (n - n / 2) p
  obtain ⟨k2, h2⟩ := rollIdx_val n (n / 2) i
  have hle : n / 2 ≤ n := Nat.div_le_self n 2
  have h1' : ((rollIdx n (n - n / 2) p : ℕ) : ℝ) = (p : ℕ) + (n - (n / 2 : ℕ)) - n * k1 := by
    have := congrArg (fun z : ℤ => (z : ℝ)) h1
    push_cast [Nat.cast_sub hle] at this
    exact_mod_cast this
  have h2' : ((rollIdx n (n / 2) i : ℕ) : ℝ) = (i : ℕ) + (n / 2 : ℕ) - n * k2 := by
    have := congrArg (fun z : ℤ => (z : ℝ)) h2
    push_cast at this ⊢
    exact this
  rw [← cis_add_int (-(ctr n p * ctr n (rollIdx n (n / 2) i) / n))
    (((i : ℕ) : ℤ) * (k1 - 1) - (((p : ℕ) : ℤ) - ((n / 2 : ℕ) : ℤ)) * k2)]
  congr 1
  unfold ctr
  rw [h1', h2']
  simp only [Int.cast_sub, Int.cast_mul, Int.cast_natCast, Int.cast_one]
  field_simp
  ring

theorem phase_roll_pos (n : ℕ) (p i : Fin n) :
    cis (((rollIdx n (n - n / 2) p : ℕ) : ℝ) * ((i : ℕ) : ℝ) / n) = cis (ctr n p * ctr n (rollIdx n (n / 2) i) / n) := by
  have := phase_roll n p i
  rw [cis_neg, cis_neg] at this
  exact inv_injective this

theorem mul3_apply {a b c d : ℕ} (A : Matrix (Fin a) (Fin b) ℂ) (E : Matrix (Fin b) (Fin c) ℂ)
    (B : Matrix (Fin c) (Fin d) ℂ) (p : Fin a) (q : Fin d) :
    (A * E * B) p q = ∑ i, ∑ j, A p i * E i j * B j q := by
  rw [Matrix.mul_apply]
  simp only [Matrix.mul_apply, Finset.sum_mul]
  exact Finset.sum_comm

/-- `do_fft` in closed form: a centred Fourier matrix on each side. -/
theorem doFft_eq (e : Arr2 ℂ) :
    doFft e = ⟨e.nr, e.nc, fmat e.nr * Matrix.of e.val * fmat e.nc⟩ := by
  unfold doFft fftshift npFft2 ifftshift
  simp only
  congr 1
  funext p q
  rw [mul3_apply]
  refine Eq.trans ?_ (sum_rollIdx e.nr (e.nr / 2) _)
  refine Finset.sum_congr rfl fun i _ => ?_
  refine Eq.trans ?_ (sum_rollIdx e.nc (e.nc / 2) _)
  refine Finset.sum_congr rfl fun j _ => ?_
  rw [Matrix.of_apply]
  rw [neg_add, cis_add, phase_roll, phase_roll]
  simp only [fmat]
  rw [mul_comm (ctr e.nc q)]
  ring

/-- `do_ifft` in closed form. -/
theorem doIfft_eq (e : Arr2 ℂ) :
    doIfft e = ⟨e.nr, e.nc, (1 / ((e.nr : ℂ) * e.nc)) • ((fmat e.nr).conjTranspose * Matrix.of e.val * (fmat e.nc).conjTranspose)⟩ := by
  unfold doIfft fftshift npIfft2 ifftshift
  simp only
  congr 1
  funext p q
  rw [Matrix.smul_apply, smul_eq_mul]
  congr 1
  rw [mul3_apply]
  refine Eq.trans ?_ (sum_rollIdx e.nr (e.nr / 2) _)
  refine Finset.sum_congr rfl fun i _ => ?_
  refine Eq.trans ?_ (sum_rollIdx e.nc (e.nc / 2) _)
  refine Finset.sum_congr rfl fun j _ => ?_
  rw [Matrix.of_apply]
  rw [cis_add, phase_roll_pos, phase_roll_pos]
  simp only [fmat, Matrix.conjTranspose_apply, RCLike.star_def, conj_cis, neg_neg]
  rw [mul_comm (ctr e.nr p)]
  ring

@[simp] theorem doFft_nr (e : Arr2 ℂ) : (doFft e).nr = e.nr := rfl
@[simp] theorem doFft_nc (e : Arr2 ℂ) : (doFft e).nc = e.nc := rfl
@[simp] theorem doIfft_nr (e : Arr2 ℂ) : (doIfft e).nr = e.nr := rfl
@[simp] theorem doIfft_nc (e : Arr2 ℂ) : (doIfft e).nc = e.nc := rfl

theorem ifft_fft_mat (n m : ℕ) (hn : 0 < n) (hm : 0 < m) (E : Matrix (Fin n) (Fin m) ℂ) :
    (1 / ((n : ℂ) * m)) • ((fmat n).conjTranspose * (fmat n * E * fmat m) * (fmat m).conjTranspose) = E := by
  have h : (fmat n).conjTranspose * (fmat n * E * fmat m) * (fmat m).conjTranspose
      = ((fmat n).conjTranspose * fmat n) * E * (fmat m * (fmat m).conjTranspose) := by
    simp only [Matrix.mul_assoc]
  rw [h, fmat_conj_mul, fmat_mul_conj]
  have hn' : (n : ℂ) ≠ 0 := Nat.cast_ne_zero.mpr hn.ne'
  have hm' : (m : ℂ) ≠ 0 := Nat.cast_ne_zero.mpr hm.ne'
  simp only [Matrix.smul_mul, Matrix.one_mul, Matrix.mul_smul, Matrix.mul_one, smul_smul]
  rw [show 1 / ((n : ℂ) * m) * ((m : ℂ) * n) = 1 by field_simp, one_smul]

theorem fft_ifft_mat (n m : ℕ) (hn : 0 < n) (hm : 0 < m) (E : Matrix (Fin n) (Fin m) ℂ) :
    fmat n * ((1 / ((n : ℂ) * m)) • ((fmat n).conjTranspose * E * (fmat m).conjTranspose)) * fmat m = E := by
  have h : fmat n * ((fmat n).conjTranspose * E * (fmat m).conjTranspose) * fmat m
      = (fmat n * (fmat n).conjTranspose) * E * ((fmat m).conjTranspose * fmat m) := by
    simp only [Matrix.mul_assoc]
  rw [Matrix.mul_smul, Matrix.smul_mul, h, fmat_conj_mul, fmat_mul_conj]
  have hn' : (n : ℂ) ≠ 0 := Nat.cast_ne_zero.mpr hn.ne'
  have hm' : (m : ℂ) ≠ 0 := Nat.cast_ne_zero.mpr hm.ne'
  simp only [Matrix.smul_mul, Matrix.one_mul, Matrix.mul_smul, Matrix.mul_one, smul_smul]
  rw [show 1 / ((n : ℂ) * m) * ((m : ℂ) * n) = 1 by field_simp, one_smul]

/-- Total energy of a field. -/
noncomputable def fieldEnergy (e : Arr2 ℂ) : ℝ := ∑ i, ∑ j, ‖e.val i j‖ ^ 2

/-- Multiplying columns by a matrix `A` with `Aᴴ A = c` multiplies energies by `c`. -/
theorem energy_mulVec {n : ℕ} (A : Matrix (Fin n) (Fin n) ℂ) (c : ℝ)
    (h : A.conjTranspose * A = (c : ℂ) • (1 : Matrix (Fin n) (Fin n) ℂ)) (v : Fin n → ℂ) :
    ∑ i, ‖A.mulVec v i‖ ^ 2 = c * ∑ i, ‖v i‖ ^ 2 := by
  have e : ∀ w : Fin n → ℂ, ((∑ i, ‖w i‖ ^ 2 : ℝ) : ℂ) = star w ⬝ᵥ w := by
    intro w
    simp only [dotProduct, Pi.star_apply, RCLike.star_def]
    push_cast
    refine Finset.sum_congr rfl fun i _ => ?_
    rw [Complex.conj_mul']
  have h2 : ((∑ i, ‖A.mulVec v i‖ ^ 2 : ℝ) : ℂ) = ((c * ∑ i, ‖v i‖ ^ 2 : ℝ) : ℂ) := by
    rw [e, Matrix.star_mulVec, ← Matrix.dotProduct_mulVec, Matrix.mulVec_mulVec, h]
    rw [Matrix.smul_mulVec, Matrix.one_mulVec, dotProduct_smul, smul_eq_mul]
    rw [Complex.ofReal_mul, e]
  exact_mod_cast h2

theorem energy_sandwich {n m : ℕ} (A : Matrix (Fin n) (Fin n) ℂ) (B : Matrix (Fin m) (Fin m) ℂ) (c d : ℝ)
    (hA : A.conjTranspose * A = (c : ℂ) • (1 : Matrix (Fin n) (Fin n) ℂ))
    (hB : B.transpose.conjTranspose * B.transpose = (d : ℂ) • (1 : Matrix (Fin m) (Fin m) ℂ))
    (E : Matrix (Fin n) (Fin m) ℂ) :
    ∑ i, ∑ j, ‖(A * E * B) i j‖ ^ 2 = c * d * ∑ i, ∑ j, ‖E i j‖ ^ 2 := by
  have h1 : ∀ i, ∑ j, ‖(A * E * B) i j‖ ^ 2 = d * ∑ j, ‖(A * E) i j‖ ^ 2 := by
    intro i
    rw [← energy_mulVec B.transpose d hB]
    refine Finset.sum_congr rfl fun j _ => ?_
    congr 2
    rw [Matrix.mul_apply]
    simp only [Matrix.mulVec, dotProduct, Matrix.transpose_apply]
    exact Finset.sum_congr rfl fun k _ => mul_comm _ _
  simp only [h1]
  rw [← Finset.mul_sum, Finset.sum_comm]
  have h2 : ∀ j, ∑ i, ‖(A * E) i j‖ ^ 2 = c * ∑ i, ‖E i j‖ ^ 2 := by
    intro j
    rw [← energy_mulVec A c hA]
    rfl
  simp only [h2]
  rw [← Finset.mul_sum, Finset.sum_comm]
  ring

end Coralign
