import Verif.Props.SegmentsTogether

/-!
# Property C132, continued: two measurements of the same phase
-/

namespace Coralign.Props

open Coralign

/-- **C132.** Two measurements of the same phase that differ by a piston `δ` and are wrapped differently, unwrapped with any two routines and
fill values, come out with the same shape: over the whole (eroded) mask, however many segments it has, they differ by `δ` and one whole
number of turns. -/
theorem C132_piston (U U' : Unwrapper) (hU : FollowsGentle U) (hU' : FollowsGentle U') (R R' : SmallRemover)
    (interp interp' : Arr2 ℝ → Arr2 Bool → Res (ℕ → ℕ → ℝ)) (hI : TakesNearest interp) (hI' : TakesNearest interp')
    (phase phase' amplitude amplitude' : Arr2 ℝ) (nbin nbin' : ℤ) (fill fill' : ℝ) (minSize minSize' : ℤ) (useMask useMask' : Bool)
    (bMask bMask' selem selem' : Option (Arr2 Bool)) (u u' : Arr2 ℝ) (me : Arr2 Bool)
    (h : unwrapSegments U R interp phase amplitude nbin fill minSize useMask bMask selem = .ok (u, me))
    (h' : unwrapSegments U' R' interp' phase' amplitude' nbin' fill' minSize' useMask' bMask' selem' = .ok (u', me))
    (θ : ℤ × ℤ → ℝ) (δ D : ℝ) (hw : WrapsOf phase me θ) (hw' : WrapsOf phase' me fun x => θ x + δ)
    (hsame : phase'.nr = phase.nr ∧ phase'.nc = phase.nc)
    (hgap : ∀ i j : ℕ, i < phase.nr → j < phase.nc → ∃ t, Used me t ∧ pixDist (i, j) t ≤ D)
    (hsm : ∀ s t, Used me s → Used me t → pixDist s t ≤ 2 * D + 1 → |θ s - θ t| < Real.pi) :
    ∃ k : ℤ, ∀ x, Used me x → ∃ v, u.px x.1 x.2 = some v ∧ u'.px x.1 x.2 = some (v + δ + 2 * Real.pi * k) := by
  obtain ⟨k, hk⟩ := C132_segments U hU R interp hI phase amplitude nbin fill minSize useMask bMask selem u me h θ D hw hgap hsm
  obtain ⟨k', hk'⟩ := C132_segments U' hU' R' interp' hI' phase' amplitude' nbin' fill' minSize' useMask' bMask' selem' u' me h'
    (fun x => θ x + δ) D hw' (by rw [hsame.1, hsame.2]; exact hgap)
    (fun s t hs ht hd => by rw [add_sub_add_right_eq_sub]; exact hsm s t hs ht hd)
  refine ⟨k' - k, fun x hx => ⟨_, hk x hx, ?_⟩⟩
  rw [hk' x hx]
  push_cast
  congr 1
  ring

/-- The three pixels of `strutMeasured`, measured with a piston of one turn: the same numbers, although the phase is another. -/
example : ∃ u k, unwrapSegments refUnwrapper keepAll refNearest strutMeasured (Arr2.full 1 3 1) 21 0 64 true
      (some strutMask) none = .ok (u, strutMask) ∧
    ∀ x, Used strutMask x → ∃ v, u.px x.1 x.2 = some v ∧ u.px x.1 x.2 = some (v + 2 * Real.pi + 2 * Real.pi * (k : ℤ)) := by
  obtain ⟨f, hf⟩ := refNearest_returns strutMeasured strutMask rfl rfl ⟨(0, 0), (strut_used _).mpr (Or.inl rfl)⟩
  have hret : ∃ u, unwrapSegments refUnwrapper keepAll refNearest strutMeasured (Arr2.full 1 3 1) 21 0 64 true
      (some strutMask) none = .ok (u, strutMask) := by
    unfold unwrapSegments
    rw [strut_checks]
    simp only [chooseMask, erodeOpt, hf]
    obtain ⟨u, m, hu⟩ := C15_unwrap_returns refUnwrapper keepAll
      (⟨strutMeasured.nr, strutMeasured.nc, fun i j => if strutMask.px (i : ℕ) (j : ℕ) = some true
        then strutMeasured.val i j else f i j⟩ : Arr2 ℝ) (Arr2.full 1 3 1) 21 0 64 false none ⟨rfl, rfl⟩
      (fun _ _ => by simp [Arr2.full]) (by norm_num) (by norm_num) (by intro b hb; cases hb) (Or.inr rfl)
    rw [hu]
    exact ⟨_, rfl⟩
  obtain ⟨u, hu⟩ := hret
  obtain ⟨k, hk⟩ := C132_piston refUnwrapper refUnwrapper refUnwrapper_follows refUnwrapper_follows keepAll keepAll refNearest refNearest
    refNearest_takes refNearest_takes _ _ _ _ _ _ _ _ _ _ _ _ _ _ _ _ _ _ _ hu hu strutPhase (2 * Real.pi) 1 strut_wraps
    (fun x v hx hv => by
      obtain ⟨n, hn⟩ := strut_wraps x v hx hv
      exact ⟨n - 1, by rw [hn]; push_cast; ring⟩) ⟨rfl, rfl⟩ strut_gap fun s t hs ht _ => strut_near s t hs ht
  exact ⟨u, k, hu, hk⟩

end Coralign.Props
