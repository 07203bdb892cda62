import Verif.Props.PupilZernikeCases
import Verif.Props.ZernikeFit

/-!
# C82: exact recovery on every mask with enough rows and columns
-/

namespace Coralign.Props

open Coralign Coralign.Spec

/-- **C82.** Exact recovery without an assumption on the modes: if the mask contains all crossings of `d' + 1` rows and `d' + 1` columns, where
`d'` is the radial order of the last mode, and on the mask the wavefront is a combination of the modes fitted, the coefficients are those of the
combination, the full residual vanishes on the mask, and the piston, tip and tilt residual is the rest of the combination. -/
theorem C82_determined (S : Solver) (Sp : ClampSpline) (R : Rotate) (E : EllipseFinder) (te : EllipseTuning) (t : PupilTuning)
    {n : ℕ} (hn : 0 < n) (h6 : n ≠ 1000000) (w : Fin n → Fin n → ℝ) (amp : Arr2 ℝ) (bMask selem : Option (Arr2 Bool)) (zMax : ℤ) (hz : 0 < zMax)
    (N d' : ℕ) (hN : (N : ℤ) = max 3 zMax) (hd' : N ≤ (d' + 1) * (d' + 2) / 2) (x y c d : ℝ)
    (hf : fitUnmaskedPupil S Sp R E te t amp = .ok (x, y, c, d)) (u : Fin n → Fin n → Bool) (hm : zernikeMask amp bMask selem = .ok ⟨n, n, u⟩)
    (rows cols : Finset (Fin n)) (hr : d' < rows.card) (hc : d' < cols.card) (hu : ∀ i ∈ rows, ∀ k ∈ cols, u i k = true) (z : Fin N → ℝ)
    (hw : ∀ i k, u i k = true → w i k = ∑ s : Fin N, z s * fitBasis n n d x y s i k) :
    ∃ f, fitPupilZernikes S Sp R E te t ⟨n, n, w⟩ amp bMask zMax selem = .ok f ∧ f.zvec = List.ofFn z ∧
      ∀ i k : Fin n, u i k = true → f.res.px (i : ℕ) (k : ℕ) = some 0 ∧
        f.resPtt.px (i : ℕ) (k : ℕ) = some (∑ s ∈ Finset.univ.filter (fun s : Fin N => 3 ≤ (s : ℕ)), z s * fitBasis n n d x y s i k) := by
  have hd := pupil_diam_pos S Sp R E te t amp x y c d hf
  refine C82_exact S Sp R E te t hn h6 w amp bMask selem zMax hz N hN x y c d hf u hm z hw fun v hv => ?_
  refine basis_independent n n N d' hd' d x y hd u rows cols hr hc hu v fun i k hik => ?_
  rw [← hv i k hik]
  exact Finset.sum_congr rfl fun s _ => mul_comm _ _

/-- The mask of the scene of `scene_zernikes` contains two rows and two columns, which is enough for piston, tip and tilt. -/
example : ∃ u, zernikeMask (roundAt 0 0) none (some plusElement) = .ok ⟨13, 13, u⟩ ∧ 3 ≤ (1 + 1) * (1 + 2) / 2 ∧ 1 < ({6, 7} : Finset (Fin 13)).card ∧
    ∀ i ∈ ({6, 7} : Finset (Fin 13)), ∀ k ∈ ({6, 7} : Finset (Fin 13)), u i k = true := by
  obtain ⟨u, hu, hon⟩ := scene_zmask 0 0 (by unfold Small; norm_num)
  refine ⟨u, hu, by norm_num, by decide, ?_⟩
  intro i hi k hk
  simp only [Finset.mem_insert, Finset.mem_singleton] at hi hk
  refine hon i k ?_
  rcases hi with rfl | rfl <;> rcases hk with rfl | rfl <;> norm_num

end Coralign.Props
