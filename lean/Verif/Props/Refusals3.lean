import Verif.Props.Refusals2
import Verif.Props.Unwrap
import Verif.Model.Fresnel
import Verif.Model.PsfFit
import Verif.Model.Lateral
import Verif.Model.MaskFit
import Verif.Model.PlateSolv
import Verif.Model.ThinFilm

/-!
# C97 continued: propagation, influence functions, unwrapping, dark-hole files, image registration
-/

namespace Coralign.Props

open Coralign

/-- **C97 (resampled influence function).**  Non-positive sampling raises `TypeError`; a change of sampling needs at least four
samples along both axes (FITPACK's own exception otherwise); everything else is accepted. -/
theorem C97_resample (S : Spline) (w : Arr2 ℝ) (pin pout : ℝ) :
    ((∃ o, resampleInfFunc S w pin pout = .ok o) ↔ (0 < pin ∧ 0 < pout) ∧ (pin = pout ∨ 4 ≤ w.nr ∧ 4 ≤ w.nc)) ∧
    (resampleInfFunc S w pin pout = .error .typeError ↔ ¬ (0 < pin ∧ 0 < pout)) ∧
    (resampleInfFunc S w pin pout = .error (.user 0) ↔ (0 < pin ∧ 0 < pout) ∧ ¬ (pin = pout ∨ 4 ≤ w.nr ∧ 4 ≤ w.nc)) := by
  unfold resampleInfFunc
  refine two_refusals (by decide) (fun h => ?_) (fun h h' => ?_) (fun h h' => ?_)
  · by_cases h1 : pin ≤ 0
    · rw [if_pos h1]
    · rw [if_neg h1, if_pos]
      by_contra hc
      exact h ⟨not_le.mp h1, not_le.mp hc⟩
  · rw [if_neg (not_le.mpr h.1), if_neg (not_le.mpr h.2), if_pos (fun hh => h' (Or.inl hh)), if_pos]
    by_contra hc
    exact h' (Or.inr (by omega))
  · rw [if_neg (not_le.mpr h.1), if_neg (not_le.mpr h.2)]
    by_cases he : pin = pout
    · rw [if_neg (not_not.mpr he)]; exact ⟨_, rfl⟩
    · rw [if_pos he, if_neg (by have := h'.resolve_left he; omega)]
      exact ⟨_, rfl⟩

/-- **C97 (actuator coupling matrix).** -/
theorem C97_build_prefilter (S : Spline) (nrow ncol : ℤ) (w : Arr2 ℝ) (pin : ℝ) :
    ((∃ o, buildPrefilter S nrow ncol w pin = .ok o) ↔ (1 ≤ nrow ∧ 1 ≤ ncol ∧ 0 < pin) ∧ (pin = 1 ∨ 4 ≤ w.nr ∧ 4 ≤ w.nc)) ∧
    (buildPrefilter S nrow ncol w pin = .error .typeError ↔ ¬ (1 ≤ nrow ∧ 1 ≤ ncol ∧ 0 < pin)) ∧
    (buildPrefilter S nrow ncol w pin = .error (.user 0) ↔
      (1 ≤ nrow ∧ 1 ≤ ncol ∧ 0 < pin) ∧ ¬ (pin = 1 ∨ 4 ≤ w.nr ∧ 4 ≤ w.nc)) := by
  obtain ⟨a1, a2, a3⟩ := C97_resample S w pin 1
  unfold buildPrefilter
  refine two_refusals (by decide) (fun h => ?_) (fun h h' => ?_) (fun h h' => ?_)
  · by_cases h1 : nrow ≤ 0 ∨ ncol ≤ 0
    · rw [if_pos h1]
    · rw [if_neg h1, a2.mpr (fun hh => h ⟨by omega, by omega, hh.1⟩)]
      rfl
  · rw [if_neg (by omega), a3.mpr ⟨⟨h.2.2, one_pos⟩, h'⟩]
    rfl
  · obtain ⟨o, ho⟩ := a1.mpr ⟨⟨h.2.2, one_pos⟩, h'⟩
    rw [if_neg (by omega), ho]
    exact ⟨_, rfl⟩

/-- **C97 (surface fit).** -/
theorem C97_fit_surf (L : SpSolve) (surf : Arr2 ℝ) {N : ℕ} (A : Matrix (Fin N) (Fin N) ℝ) :
    ((∃ o, fitSurfToDm L surf A = .ok o) ↔ N = surf.nr * surf.nc) ∧
    (fitSurfToDm L surf A = .error .typeError ↔ ¬ N = surf.nr * surf.nc) := by
  unfold fitSurfToDm
  refine one_refusal (fun h => if_pos h) (fun h => ?_)
  rw [if_neg (not_not.mpr h)]
  exact ⟨_, rfl⟩

/-- A mirror calibration that `conv_surf_to_dm_cmd` accepts. -/
structure GoodCalibration (dm : DmCal) : Prop where
  pitch : 0 < dm.pitch
  cx : 0 < dm.ppactCx
  cy : 0 < dm.ppactCy
  nact : 1 ≤ dm.nact
  ppact : 0 < dm.ppactD
  square : dm.inf.nr = dm.inf.nc

/-- **C97 (surface to commands).**  A calibration value that is not positive or an influence function that is not square raises
`ValueError`.  Otherwise the only possible exception is FITPACK's, for a surface with fewer than four rows or columns or an
influence function of fewer than four samples that has to be resampled. -/
theorem C97_conv_surf (S : Spline) (R : Rotate) (L : SpSolve) (surf : Arr2 ℝ) (dm : DmCal) :
    ((∃ o, convSurfToDmCmd S R L surf dm = .ok o) ↔
      GoodCalibration dm ∧ 4 ≤ surf.nr ∧ 4 ≤ surf.nc ∧ (dm.ppactD = 1 ∨ 4 ≤ dm.inf.nr)) ∧
    (convSurfToDmCmd S R L surf dm = .error .valueError ↔ ¬ GoodCalibration dm) ∧
    (convSurfToDmCmd S R L surf dm = .error (.user 0) ↔
      GoodCalibration dm ∧ ¬ (4 ≤ surf.nr ∧ 4 ≤ surf.nc ∧ (dm.ppactD = 1 ∨ 4 ≤ dm.inf.nr))) := by
  have hs : ∀ th, (R.run th (if dm.flipx = true then surf.fliplr else surf)).nr = surf.nr ∧
      (R.run th (if dm.flipx = true then surf.fliplr else surf)).nc = surf.nc := by
    intro th; rw [R.nr, R.nc]; split <;> exact ⟨rfl, rfl⟩
  unfold convSurfToDmCmd
  refine two_refusals (by decide) (fun h => ?_) (fun h h' => ?_) (fun h h' => ?_)
  · by_cases h1 : dm.pitch ≤ 0 ∨ dm.ppactCx ≤ 0 ∨ dm.ppactCy ≤ 0 ∨ dm.nact ≤ 0 ∨ dm.ppactD ≤ 0
    · rw [if_pos h1]
    · rw [if_neg h1, if_pos]
      push Not at h1
      exact fun hq => h ⟨h1.1, h1.2.1, h1.2.2.1, by have := h1.2.2.2.1; omega, h1.2.2.2.2, hq⟩
  · have h1 : ¬ (dm.pitch ≤ 0 ∨ dm.ppactCx ≤ 0 ∨ dm.ppactCy ≤ 0 ∨ dm.nact ≤ 0 ∨ dm.ppactD ≤ 0) := by
      push Not; exact ⟨h.1, h.2, h.3, by have := h.4; omega, h.5⟩
    rw [if_neg h1, if_neg (not_not.mpr h.square)]
    dsimp only
    obtain ⟨e1, e2⟩ := hs dm.thact
    rw [e1, e2]
    by_cases h2 : surf.nr < 4 ∨ surf.nc < 4
    · rw [if_pos h2]
    · rw [if_neg h2]
      have hp : dm.pitch / (dm.pitch / dm.ppactD) = dm.ppactD := by
        have := h.pitch; have := h.ppact; field_simp
      rw [hp, (C97_build_prefilter S _ _ dm.inf dm.ppactD).2.2.mpr ⟨⟨by have := h.nact; omega, by have := h.nact; omega, h.ppact⟩, by
        rintro (h3 | h3)
        · exact h' ⟨by omega, by omega, Or.inl h3⟩
        · exact h' ⟨by omega, by omega, Or.inr h3.1⟩⟩]
      rfl
  · have h1 : ¬ (dm.pitch ≤ 0 ∨ dm.ppactCx ≤ 0 ∨ dm.ppactCy ≤ 0 ∨ dm.nact ≤ 0 ∨ dm.ppactD ≤ 0) := by
      push Not; exact ⟨h.1, h.2, h.3, by have := h.4; omega, h.5⟩
    rw [if_neg h1, if_neg (not_not.mpr h.square)]
    dsimp only
    obtain ⟨e1, e2⟩ := hs dm.thact
    rw [if_neg (by rw [e1, e2]; omega)]
    have hp : dm.pitch / (dm.pitch / dm.ppactD) = dm.ppactD := by
      have := h.pitch; have := h.ppact; field_simp
    rw [hp]
    obtain ⟨A, hA⟩ := (C97_build_prefilter S (dm.nact.toNat : ℤ) (dm.nact.toNat : ℤ) dm.inf dm.ppactD).1.mpr
      ⟨⟨by have := h.nact; omega, by have := h.nact; omega, h.ppact⟩, by
        rcases h'.2.2 with h3 | h3
        · exact Or.inl h3
        · exact Or.inr ⟨h3, by rw [← h.square]; exact h3⟩⟩
    rw [hA]
    exact (C97_fit_surf L _ A).1.mpr (by show _ = dm.nact.toNat * dm.nact.toNat; rw [Int.toNat_natCast])

/-- **C97 (Fresnel factor).** -/
theorem C97_get_fp (lam z : ℝ) (nx : ℤ) (ppm : ℝ) :
    ((∃ o, getFp lam z nx ppm = .ok o) ↔ (0 < lam ∧ 1 ≤ nx ∧ 0 < ppm) ∧ lam * |z| * ppm ^ 2 ≤ nx) ∧
    (getFp lam z nx ppm = .error .typeError ↔ ¬ (0 < lam ∧ 1 ≤ nx ∧ 0 < ppm)) ∧
    (getFp lam z nx ppm = .error .valueError ↔ (0 < lam ∧ 1 ≤ nx ∧ 0 < ppm) ∧ ¬ lam * |z| * ppm ^ 2 ≤ nx) := by
  have hn : nx < nSamplesMin lam z ppm ↔ ¬ lam * |z| * ppm ^ 2 ≤ nx := by
    unfold nSamplesMin; rw [Int.lt_ceil, not_le]
  unfold getFp fresnelChecks
  refine two_refusals (by decide) (fun h => ?_) (fun h h' => ?_) (fun h h' => ?_)
  · by_cases h1 : lam ≤ 0
    · rw [if_pos h1]; rfl
    rw [if_neg h1]
    by_cases h2 : nx ≤ 0
    · rw [if_pos h2]; rfl
    rw [if_neg h2]
    by_cases h3 : ppm ≤ 0
    · rw [if_pos h3]; rfl
    exact absurd ⟨not_le.mp h1, by omega, not_le.mp h3⟩ h
  · rw [if_neg (not_le.mpr h.1), if_neg (by omega), if_neg (not_le.mpr h.2.2), res_ok_bind, if_pos (hn.mpr h')]
  · rw [if_neg (not_le.mpr h.1), if_neg (by omega), if_neg (not_le.mpr h.2.2), res_ok_bind, if_neg (fun hh => hn.mp hh h')]
    exact ⟨_, rfl⟩

/-- **C97 (propagation).**  Propagation over a non-zero distance needs as many samples, along the shorter axis of the field, as
the wavelength times the distance times the square of the sampling; propagation over no distance always returns. -/
theorem C97_fresnelprop (e : Arr2 ℂ) (lam z : ℝ) (nx : ℤ) (ppm : ℝ) :
    ((∃ o, fresnelprop e lam z nx ppm = .ok o) ↔
      (0 < lam ∧ 1 ≤ nx ∧ 0 < ppm) ∧ (lam * |z| * ppm ^ 2 ≤ e.nr ∧ lam * |z| * ppm ^ 2 ≤ e.nc)) ∧
    (fresnelprop e lam z nx ppm = .error .typeError ↔ ¬ (0 < lam ∧ 1 ≤ nx ∧ 0 < ppm)) ∧
    (fresnelprop e lam z nx ppm = .error .valueError ↔
      (0 < lam ∧ 1 ≤ nx ∧ 0 < ppm) ∧ ¬ (lam * |z| * ppm ^ 2 ≤ e.nr ∧ lam * |z| * ppm ^ 2 ≤ e.nc)) := by
  have hn : ((min e.nr e.nc : ℕ) : ℤ) < nSamplesMin lam z ppm ↔ ¬ (lam * |z| * ppm ^ 2 ≤ e.nr ∧ lam * |z| * ppm ^ 2 ≤ e.nc) := by
    unfold nSamplesMin
    rw [Int.lt_ceil, ← not_le, ← le_min_iff]
    push_cast
    rfl
  have hn' : (min (e.nr : ℤ) (e.nc : ℤ)) = ((min e.nr e.nc : ℕ) : ℤ) := by push_cast; rfl
  unfold fresnelprop fresnelChecks
  rw [hn']
  refine two_refusals (by decide) (fun h => ?_) (fun h h' => ?_) (fun h h' => ?_)
  · by_cases h1 : lam ≤ 0
    · rw [if_pos h1]; rfl
    rw [if_neg h1]
    by_cases h2 : nx ≤ 0
    · rw [if_pos h2]; rfl
    rw [if_neg h2]
    by_cases h3 : ppm ≤ 0
    · rw [if_pos h3]; rfl
    exact absurd ⟨not_le.mp h1, by omega, not_le.mp h3⟩ h
  · have hz : z ≠ 0 := by
      rintro rfl
      apply h'
      simp
    rw [if_neg (not_le.mpr h.1), if_neg (by omega), if_neg (not_le.mpr h.2.2), res_ok_bind, if_neg hz, if_pos (hn.mpr h')]
  · rw [if_neg (not_le.mpr h.1), if_neg (by omega), if_neg (not_le.mpr h.2.2), res_ok_bind]
    by_cases hz : z = 0
    · rw [if_pos hz]; exact ⟨_, rfl⟩
    · rw [if_neg hz, if_neg (fun hh => hn.mp hh h')]
      have hpos : 0 < lam * |z| * ppm ^ 2 := by
        have := abs_pos.mpr hz; have := h.1; have := h.2.2; positivity
      have hr : 0 < e.nr := by
        have := lt_of_lt_of_le hpos h'.1; exact_mod_cast this
      have hc : 0 < e.nc := by
        have := lt_of_lt_of_le hpos h'.2; exact_mod_cast this
      unfold angularSpectrum
      obtain ⟨ef, hef, hr', hc', -⟩ := C01_pad_crop_registered e nx nx 0 (by omega) (by omega)
      rw [hef, res_ok_bind]
      have him : ∃ o, imul (doFft ef) (fresnelPhase lam z nx.toNat ppm) = .ok o := by
        unfold imul
        rw [dif_pos]
        · exact ⟨_, rfl⟩
        · refine ⟨Or.inl ?_, Or.inl ?_⟩
          · show nx.toNat = ef.nr
            omega
          · show nx.toNat = ef.nc
            omega
      obtain ⟨o, ho⟩ := him
      rw [ho, res_ok_bind]
      obtain ⟨q, hq, -⟩ := C01_pad_crop_registered (doIfft o) e.nr e.nc 0 (by omega) (by omega)
      exact ⟨q, hq⟩

end Coralign.Props
