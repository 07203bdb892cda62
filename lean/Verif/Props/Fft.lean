import Verif.Lemmas.Fft

/-!
# Properties C17 and C19: centred FFT pair
-/

namespace Coralign.Props

open Coralign

/-- **C17.** `do_fft` is the discrete Fourier transform with the origin at the centre pixel `n//2` of both planes, for
even, odd and mixed shapes. -/
theorem C17_centred_transform (e : Arr2 ℂ) (p q : ℕ) (hp : p < e.nr) (hq : q < e.nc) :
    (doFft e).px p q = some (∑ i : Fin e.nr, ∑ j : Fin e.nc, e.val i j *
      Complex.exp (-2 * Real.pi * Complex.I *
        (((p : ℝ) - (e.nr / 2 : ℕ)) * (((i : ℕ) : ℝ) - (e.nr / 2 : ℕ)) / e.nr +
         ((q : ℝ) - (e.nc / 2 : ℕ)) * (((j : ℕ) : ℝ) - (e.nc / 2 : ℕ)) / e.nc))) := by
  rw [doFft_eq, Arr2.px_of_inB _ (by simp only; omega)]
  congr 1
  simp only [Int.toNat_natCast]
  rw [mul3_apply]
  refine Finset.sum_congr rfl fun i _ => Finset.sum_congr rfl fun j _ => ?_
  simp only [fmat, Matrix.of_apply]
  rw [mul_comm (cis _) (e.val i j), mul_assoc, ← cis_add]
  congr 1
  unfold cis ctr
  congr 1
  push_cast
  ring

/-- **C17.** `do_ifft(do_fft(E)) = E`. -/
theorem C17_ifft_fft (e : Arr2 ℂ) (hr : 0 < e.nr) (hc : 0 < e.nc) : doIfft (doFft e) = e := by
  rw [doFft_eq, doIfft_eq]
  simp only
  have := ifft_fft_mat e.nr e.nc hr hc (Matrix.of e.val)
  obtain ⟨nr, nc, v⟩ := e
  congr 1

/-- **C17.** `do_fft(do_ifft(E)) = E`. -/
theorem C17_fft_ifft (e : Arr2 ℂ) (hr : 0 < e.nr) (hc : 0 < e.nc) : doFft (doIfft e) = e := by
  rw [doIfft_eq, doFft_eq]
  simp only
  have := fft_ifft_mat e.nr e.nc hr hc (Matrix.of e.val)
  obtain ⟨nr, nc, v⟩ := e
  congr 1

/-- **C19.** Parseval: total squared modulus is multiplied by the number of pixels. -/
theorem C19_parseval (e : Arr2 ℂ) :
    ∑ p, ∑ q, ‖(doFft e).val p q‖ ^ 2 = (e.nr * e.nc : ℝ) * ∑ i, ∑ j, ‖e.val i j‖ ^ 2 := by
  rw [doFft_eq]
  simp only
  refine energy_sandwich (fmat e.nr) (fmat e.nc) e.nr e.nc ?_ ?_ (Matrix.of e.val)
  · exact_mod_cast fmat_conj_mul e.nr
  · rw [fmat_symm]; exact_mod_cast fmat_conj_mul e.nc

/-- **C19.** The inverse transform divides it by the number of pixels. -/
theorem C19_parseval_inverse (e : Arr2 ℂ) (hr : 0 < e.nr) (hc : 0 < e.nc) :
    (e.nr * e.nc : ℝ) * ∑ p, ∑ q, ‖(doIfft e).val p q‖ ^ 2 = ∑ i, ∑ j, ‖e.val i j‖ ^ 2 := by
  have h := C19_parseval (doIfft e)
  rw [C17_fft_ifft e hr hc] at h
  simp only [doIfft_nr, doIfft_nc] at h
  exact h.symm

/-- A concrete, non-symmetric 2×3 field. -/
noncomputable def sampleField : Arr2 ℂ := Arr2.ofFn 2 3 fun i j => (i : ℂ) + 2 * j * Complex.I

example : doIfft (doFft sampleField) = sampleField ∧ ∑ i, ∑ j, ‖sampleField.val i j‖ ^ 2 ≠ 0 := by
  refine ⟨C17_ifft_fft sampleField (by decide) (by decide), ?_⟩
  show ∑ i : Fin 2, ∑ j : Fin 3, ‖((i : ℕ) : ℂ) + 2 * ((j : ℕ) : ℂ) * Complex.I‖ ^ 2 ≠ 0
  have h : 0 < ∑ i : Fin 2, ∑ j : Fin 3, ‖((i : ℕ) : ℂ) + 2 * ((j : ℕ) : ℂ) * Complex.I‖ ^ 2 := by
    apply Finset.sum_pos' (fun i _ => Finset.sum_nonneg fun j _ => by positivity)
    refine ⟨1, Finset.mem_univ _, ?_⟩
    apply Finset.sum_pos' (fun j _ => by positivity)
    exact ⟨0, Finset.mem_univ _, by simp⟩
  exact h.ne'

end Coralign.Props
