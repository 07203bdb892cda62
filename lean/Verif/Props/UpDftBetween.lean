import Verif.Props.UpDft
import Verif.Spec.Lateral
import Verif.Props.Lateral

/-!
# C55: the upsampled DFT between whole frequencies
-/

namespace Coralign.Props

open Coralign Coralign.Spec

/-- The data continued periodically in both directions. -/
noncomputable def periodic (a : Arr2 ℂ) (p q : ℤ) : ℂ := (a.px (p % a.nr) (q % a.nc)).getD 0

theorem fftfreq_window (n : ℕ) (f : ℤ → ℂ) : ∑ i : Fin n, f (fftfreqNum n i) = ∑ p ∈ window n, f p := by
  refine Finset.sum_bij (fun (i : Fin n) _ => fftfreqNum n i) ?_ ?_ ?_ ?_
  · intro i _
    rw [mem_window]
    have := i.isLt
    unfold fftfreqNum
    split <;> omega
  · intro i _ j _ h
    have := i.isLt
    have := j.isLt
    unfold fftfreqNum at h
    apply Fin.ext
    split at h <;> split at h <;> omega
  · intro p hp
    rw [mem_window] at hp
    rcases le_or_gt 0 p with h | h
    · refine ⟨⟨p.toNat, by omega⟩, Finset.mem_univ _, ?_⟩
      unfold fftfreqNum
      simp only
      split <;> omega
    · refine ⟨⟨(p + n).toNat, by omega⟩, Finset.mem_univ _, ?_⟩
      unfold fftfreqNum
      simp only
      split <;> omega
  · intro i _
    rfl

theorem fftfreq_mod (n : ℕ) (i : Fin n) : fftfreqNum n i % n = ((i : ℕ) : ℤ) := by
  have := i.isLt
  unfold fftfreqNum
  split
  · exact Int.emod_eq_of_lt (by omega) (by omega)
  · rw [Int.sub_emod_right]
    exact Int.emod_eq_of_lt (by omega) (by omega)

/-- **C55.** Every sample, between whole frequencies too: the data, continued periodically, are summed over index offsets from `-(n // 2)` to
`(n - 1) // 2` along each axis; in particular for even lengths the middle entry counts as the most negative offset. -/
theorem C55_between (a : Arr2 ℂ) (s0 s1 : ℤ) (kappa o0 o1 : ℝ) (out : Arr2 ℂ)
    (h : computeUpsampledDft a [s0, s1] kappa [o0, o1] = .ok out) (v u : ℤ) (hv : 0 ≤ v) (hv' : v < s0) (hu : 0 ≤ u) (hu' : u < s1) :
    out.px v u = some (∑ p ∈ window a.nr, ∑ q ∈ window a.nc, periodic a p q *
      Complex.exp (-2 * Real.pi * Complex.I * (((v - o0) / kappa) * p / a.nr + ((u - o1) / kappa) * q / a.nc))) := by
  obtain ⟨hk, -, -, hval⟩ := upsampled_val a s0 s1 kappa o0 o1 out h
  rw [hval v u hv hv' hu hu']
  congr 1
  rw [← fftfreq_window a.nr (fun p => ∑ q ∈ window a.nc, periodic a p q *
      Complex.exp (-2 * Real.pi * Complex.I * (((v - o0) / kappa) * p / a.nr + ((u - o1) / kappa) * q / a.nc)))]
  refine Finset.sum_congr rfl fun i _ => ?_
  rw [← fftfreq_window a.nc (fun q => periodic a (fftfreqNum a.nr i) q *
      Complex.exp (-2 * Real.pi * Complex.I * (((v - o0) / kappa) * (fftfreqNum a.nr i : ℤ) / a.nr + ((u - o1) / kappa) * q / a.nc)))]
  refine Finset.sum_congr rfl fun j _ => ?_
  have e : periodic a (fftfreqNum a.nr i) (fftfreqNum a.nc j) = a.val i j := by
    unfold periodic
    rw [fftfreq_mod, fftfreq_mod, Arr2.px_val]
    rfl
  rw [e]
  congr 1
  unfold cis
  congr 1
  push_cast
  ring

/-- For four samples the offsets are -2, -1, 0, 1. -/
example : window 4 = {-2, -1, 0, 1} := by decide

/-- The hypotheses are met by half-frequency samples of a 4 x 5 array. -/
example (f : Fin 4 → Fin 5 → ℂ) : ∃ out, computeUpsampledDft ⟨4, 5, f⟩ [3, 3] 2 [1, 1] = .ok out := by
  refine (C55_accepts_iff ⟨4, 5, f⟩ _ _ _ (by norm_num) (by norm_num)).mpr ⟨rfl, rfl, two_ne_zero⟩

end Coralign.Props
