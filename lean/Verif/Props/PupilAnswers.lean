import Verif.Props.PupilFitCases
import Verif.Props.PupilOldCases
import Verif.Props.PupilZernike

/-!
# What the answers of the pupil fits mean, and when there is none
-/

namespace Coralign.Props

open Coralign Coralign.Spec

/-- **C81.** When there is an answer, and what it is.  The parameters are in range.  The diameter is that of the ellipse fitted to the bright pixels;
the offsets are those that `compute_lateral_offsets` (C64), starting from the centre of the ellipse, finds between the bright pixels and the
reference pupil of that diameter; the clocking is that which `compute_clocking` (C76) finds at those offsets for the padded mask. -/
theorem C81_answer (S : Solver) (Sp : ClampSpline) (R : Rotate) (E : EllipseFinder) (te : EllipseTuning) (t : PupilTuning) (pupil : Arr2 ℝ)
    (x y c d : ℝ) :
    fitUnmaskedPupil S Sp R E te t pupil = .ok (x, y, c, d) ↔ PupilArgs t ∧ ∃ m xe ye ref M, ampthresh pupil 21 = .ok m ∧
      fitEllipse E te m.bits = .ok (d, xe, ye) ∧ PupilReference Sp R t d ref ∧
      computeLateralOffsets S m.bits ref d t.nPhaseSteps t.dPixel t.nPadFFT t.nFocusCrop t.nIterOffsets xe ye = .ok (y, x) ∧
      PaddedMask t M ∧
      computeClocking S Sp R m.bits.toC d M t.diamHighRes x y t.clockDegMax t.nClock t.percentile t.deltaAmpMax false = .ok c :=
  pupil_iff S Sp R E te t pupil x y c d

/-- An answer exists for a pupil off the centre. -/
example (S : Solver) (Sp : ClampSpline) := (C81_answer S Sp Rotate.still fiveFinder ⟨1, 1⟩ pupilScene (roundAt (-1) 1) ((1 : ℤ) : ℝ) ((-1 : ℤ) : ℝ) 0 5).mp
  (scene_fit S Sp (-1) 1 (by unfold Small; norm_num))

/-- **C83.** When there is an answer, and what it is.  The diameter `d` is that of `C83_diameter`.  A coarse search of the bright pixels for a disc of
that diameter gives the pixel `(x1, y1)`; the offsets are those that `compute_lateral_offsets`, starting from it, finds in one iteration between the
bright pixels and the reference mask of that diameter; the clocking is that which `compute_clocking` finds at those offsets for the magnitude of the
amplitude and the padded mask. -/
theorem C83_answer (fuel : ℕ) (S : Solver) (Sp : ClampSpline) (R : Rotate) (t : PupilTuningOld) (amp : Arr2 ℝ) (x y c d : ℝ) :
    fitUnmaskedPupilOld fuel S Sp R t amp = some (.ok (x, y, c, d)) ↔
      (0 ≤ t.deltaAmpMax ∧ 0 < t.percentile ∧ 0 ≤ t.zeroPadding) ∧
      ∃ (m : Arr2 Bool) (a b : ℝ) (r ref M : Arr2 ℝ) (x1 y1 : ℤ) (widths : List ℤ), ampthresh amp t.nBin = .ok m ∧
        BrightLight (amp.map fun v : ℝ => |v|) t.percentile a ∧ BrightLight (t.maskNomRes.map fun v : ℝ => |v|) t.percentile b ∧
        d = t.nBeamNom * Real.sqrt (a / b) ∧
        rotateShiftDownsample Sp R t.mask 0 (d / t.diamHighRes) 0 0 (6 / 5) false = .ok r ∧ padCrop r [t.nPadFFT, t.nPadFFT] 0 = .ok ref ∧
        coarselyLocate fuel m.bits d 3 = some (.ok ((x1, y1), widths)) ∧
        computeLateralOffsets S m.bits ref d t.nPhaseSteps t.dPixel t.nPadFFT t.nFocusCrop 1 x1 y1 = .ok (y, x) ∧
        PaddedTo t.mask t.zeroPadding M ∧
        computeClocking S Sp R (amp.map fun v : ℝ => |v|).toC d M t.diamHighRes x y t.clockDegMax t.nClock t.percentile t.deltaAmpMax false = .ok c := by
  unfold fitUnmaskedPupilOld
  constructor
  · intro h
    split_ifs at h with hb
    · cases h
    push Not at hb
    refine ⟨hb, ?_⟩
    split at h
    · cases h
    rename_i m d' ref hst
    obtain ⟨m', hm, hst⟩ := res_bind_ok hst
    obtain ⟨a, ha, hst⟩ := res_bind_ok hst
    obtain ⟨b, hb', hst⟩ := res_bind_ok hst
    obtain ⟨r, hr, hst⟩ := res_bind_ok hst
    obtain ⟨ref', href, hst⟩ := res_bind_ok hst
    simp only [Except.ok.injEq, Prod.mk.injEq] at hst
    obtain ⟨rfl, rfl, rfl⟩ := hst
    split at h
    · cases h
    · cases h
    rename_i o hlat
    have h := Option.some.inj h
    obtain ⟨M, hM, h⟩ := res_bind_ok h
    obtain ⟨c', hc, h⟩ := res_bind_ok h
    simp only [Except.ok.injEq, Prod.mk.injEq] at h
    obtain ⟨rfl, rfl, rfl, rfl⟩ := h
    unfold computeLateralOffsetsCoarse at hlat
    split_ifs at hlat with hargs
    · cases hlat
    split at hlat
    · cases hlat
    · cases hlat
    rename_i x1 y1 widths hco
    exact ⟨m', a, b, r, ref', M, x1, y1, widths, hm, (normedLight_iff _ (abs_nonneg_map _) _ _).mp ha, (normedLight_iff _ (abs_nonneg_map _) _ _).mp hb',
      rfl, hr, href, hco, Option.some.inj hlat, (paddedTo_iff _ _ _).mp hM, hc⟩
  · rintro ⟨ht, m, a, b, r, ref, M, x1, y1, widths, hm, ha, hb, rfl, hr, hp, hco, hlat, hM, hclock⟩
    rw [if_neg (by push Not; exact ht), hm, res_ok_bind, (normedLight_iff _ (abs_nonneg_map _) _ _).mpr ha, res_ok_bind,
      (normedLight_iff _ (abs_nonneg_map _) _ _).mpr hb, res_ok_bind]
    simp only
    rw [hr, res_ok_bind, hp, res_ok_bind]
    simp only
    have hlat' : computeLateralOffsetsCoarse fuel S m.bits ref (t.nBeamNom * Real.sqrt (a / b)) t.nPhaseSteps t.dPixel t.nPadFFT t.nFocusCrop 1 =
        some (.ok (y, x)) := by
      unfold computeLateralOffsetsCoarse
      rw [if_neg, hco]
      · simp only
        rw [hlat]
      · intro hn
        unfold computeLateralOffsets at hlat
        rw [if_pos hn] at hlat
        cases hlat
    rw [hlat']
    simp only
    rw [(paddedTo_iff _ _ _).mpr hM, res_ok_bind, hclock, res_ok_bind]

/-- An answer exists. -/
example (S : Solver) (Sp : ClampSpline) := (C83_answer 2 S Sp Rotate.still oldScene (roundAt 0 0) 0 0 0 5).mp (old_fit 2 le_rfl S Sp)

/-- **C82.** When there is no fit, and the exception.  A failure to fit the pupil or to make the mask is passed on; a mask of another shape than the
wavefront, and a wavefront with different numbers of rows and columns (both above one), are a `ValueError`; any other wavefront is fitted. -/
theorem C82_refusals (S : Solver) (Sp : ClampSpline) (R : Rotate) (E : EllipseFinder) (te : EllipseTuning) (t : PupilTuning)
    (wfe amp : Arr2 ℝ) (bMask selem : Option (Arr2 Bool)) (zMax : ℤ) (hz : 0 < zMax) :
    (∀ e, fitUnmaskedPupil S Sp R E te t amp = .error e → fitPupilZernikes S Sp R E te t wfe amp bMask zMax selem = .error e) ∧
    ∀ p, fitUnmaskedPupil S Sp R E te t amp = .ok p →
      (∀ e, zernikeMask amp bMask selem = .error e → fitPupilZernikes S Sp R E te t wfe amp bMask zMax selem = .error e) ∧
      ∀ m, zernikeMask amp bMask selem = .ok m →
        (m.nr ≠ wfe.nr ∨ m.nc ≠ wfe.nc → fitPupilZernikes S Sp R E te t wfe amp bMask zMax selem = .error .valueError) ∧
        (1 < wfe.nr → 1 < wfe.nc → wfe.nr ≠ wfe.nc → wfe.nr ≠ 1000000 →
          fitPupilZernikes S Sp R E te t wfe amp bMask zMax selem = .error .valueError) ∧
        (m.nr = wfe.nr → m.nc = wfe.nc → 1 ≤ wfe.nr → wfe.nr = wfe.nc → wfe.nr ≠ 1000000 →
          ∃ f, fitPupilZernikes S Sp R E te t wfe amp bMask zMax selem = .ok f) := by
  refine ⟨fun e he => ?_, fun p hp => ⟨fun e he => ?_, fun m hm => ⟨fun hne => ?_, fun hr hc hne h6 => ?_, fun h1 h2 hr hsq h6 => ?_⟩⟩⟩
  · unfold fitPupilZernikes
    rw [if_neg (by omega)]
    simp only
    rw [he]
    rfl
  · unfold fitPupilZernikes
    rw [if_neg (by omega)]
    simp only
    rw [hp, res_ok_bind, he]
    rfl
  · unfold fitPupilZernikes
    rw [if_neg (by omega)]
    simp only
    rw [hp, res_ok_bind, hm, res_ok_bind]
    unfold fitZernikes
    rw [dif_neg (by rintro ⟨g1, g2⟩; rcases hne with h | h; exacts [h g1.symm, h g2.symm])]
    rfl
  · by_cases hsh : m.nr = wfe.nr ∧ m.nc = wfe.nc
    · obtain ⟨nr, nc, w⟩ := wfe
      obtain ⟨mr, mc, u⟩ := m
      obtain ⟨h1, h2⟩ := hsh
      simp only at h1 h2 hr hc hne h6
      subst h1 h2
      obtain ⟨x, y, c, d⟩ := p
      have hd := pupil_diam_pos S Sp R E te t amp x y c d hp
      obtain ⟨N, hN⟩ := Int.eq_ofNat_of_zero_le (show 0 ≤ max 3 zMax by omega)
      have hN : (N : ℤ) = max 3 zMax := hN.symm
      obtain ⟨z, hfit, -⟩ := C24_least_squares S mr mc w u N (by omega) d x y hd
      have hK : (if zMax < 3 then (3 : ℤ) else zMax) = (N : ℤ) := by rw [hN]; split_ifs <;> omega
      have htake : (List.ofFn z).take 3 = List.ofFn fun s : Fin 3 => z (Fin.castLE (by omega) s) := by
        have : 3 ≤ N := by omega
        apply List.ext_getElem
        · simp; omega
        · intro i h1 h2
          rw [List.getElem_take, List.getElem_ofFn, List.getElem_ofFn]
          rfl
      have h3 : ([1, 2, 3] : List ℤ) = (List.range 3).map fun k : ℕ => (k : ℤ) + 1 := by
        simp [List.range, List.range.loop]
      have g3 := gen_first 3 (by norm_num) (fun s : Fin 3 => z (Fin.castLE (by omega) s)) x y d hd mr (by omega) h6
      rw [← h3, ← htake] at g3
      unfold fitPupilZernikes
      rw [if_neg (by omega)]
      simp only
      rw [hK, hp, res_ok_bind]
      simp only
      rw [hm, res_ok_bind, hfit, res_ok_bind, g3, res_ok_bind]
      unfold residualMap
      simp only
      rw [if_neg (by omega), if_neg (by omega), if_neg (by omega)]
      rfl
    · unfold fitPupilZernikes
      rw [if_neg (by omega)]
      simp only
      rw [hp, res_ok_bind, hm, res_ok_bind]
      unfold fitZernikes
      rw [dif_neg (by rintro ⟨g1, g2⟩; exact hsh ⟨g1.symm, g2.symm⟩)]
      rfl
  · obtain ⟨nr, nc, w⟩ := wfe
    obtain ⟨mr, mc, u⟩ := m
    simp only at h1 h2 hr hsq h6
    subst hsq h1 h2
    obtain ⟨x, y, c, d⟩ := p
    have hd := pupil_diam_pos S Sp R E te t amp x y c d hp
    obtain ⟨N, hN⟩ := Int.eq_ofNat_of_zero_le (show 0 ≤ max 3 zMax by omega)
    obtain ⟨z, hfit, -⟩ := C24_least_squares S _ _ w u N (by omega) d x y hd
    exact ⟨_, zern_eq S Sp R E te t hr h6 w amp bMask selem zMax hz N hN.symm x y c d hp u hm z hfit⟩

/-- With the pupil of the scene: a wavefront of 13 x 13 pixels is fitted, one of 13 x 12 pixels is refused. -/
example (S : Solver) (Sp : ClampSpline) :
    (∃ f, fitPupilZernikes S Sp Rotate.still fiveFinder ⟨1, 1⟩ pupilScene (Arr2.full 13 13 2) (roundAt (-1) 1) (some (Arr2.full 13 13 true)) 4 none = .ok f) ∧
    fitPupilZernikes S Sp Rotate.still fiveFinder ⟨1, 1⟩ pupilScene (Arr2.full 13 12 2) (roundAt (-1) 1) (some (Arr2.full 13 12 true)) 4 none =
      .error .valueError := by
  have hp := scene_fit S Sp (-1) 1 (by unfold Small; norm_num)
  constructor
  · exact (((C82_refusals S Sp Rotate.still fiveFinder ⟨1, 1⟩ pupilScene (Arr2.full 13 13 2) (roundAt (-1) 1) (some (Arr2.full 13 13 true)) none 4
      (by norm_num)).2 _ hp).2 _ rfl).2.2 rfl rfl (by show 1 ≤ 13; norm_num) rfl (by show 13 ≠ 1000000; norm_num)
  · exact (((C82_refusals S Sp Rotate.still fiveFinder ⟨1, 1⟩ pupilScene (Arr2.full 13 12 2) (roundAt (-1) 1) (some (Arr2.full 13 12 true)) none 4
      (by norm_num)).2 _ hp).2 _ rfl).2.1 (by show 1 < 13; norm_num) (by show 1 < 12; norm_num) (by show 13 ≠ 12; norm_num) (by show 13 ≠ 1000000; norm_num)

end Coralign.Props
