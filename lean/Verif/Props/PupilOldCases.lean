import Verif.Props.PupilOld
import Verif.Props.PupilFitCases

/-!
# C83: a scene in which the hypotheses of the theorems hold
-/

namespace Coralign.Props

open Coralign Coralign.Spec

noncomputable def oldScene : PupilTuningOld where
  nBeamNom := 5
  nBin := 21
  nPadFFT := 6
  nFocusCrop := 3
  nPhaseSteps := 3
  dPixel := 1
  clockDegMax := 1
  nClock := 3
  maskNomRes := roundAt 1 0
  mask := stopMask
  diamHighRes := 15
  deltaAmpMax := 3 / 4
  percentile := 100
  zeroPadding := 0

theorem roundAt_abs (sy sx : ℤ) : (roundAt sy sx).map (fun v : ℝ => |v|) = roundAt sy sx := by
  unfold roundAt Arr2.map
  simp

theorem roundAt_centre : roundAt 0 0 = lyotM := by
  unfold roundAt lyotM
  simp

theorem roundAt_total (sy sx : ℤ) (hs : Small sy sx) : ∑ i : Fin 13, ∑ j : Fin 13, (roundAt sy sx).val i j = 21 := by
  have hdec : ∀ sy ∈ Finset.Icc (-1 : ℤ) 1, ∀ sx ∈ Finset.Icc (-1 : ℤ) 1, ∑ i : Fin 13, ∑ j : Fin 13, round5 (((i : ℕ) : ℤ) - 6 - sy) (((j : ℕ) : ℤ) - 6 - sx) = 21 := by
    unfold round5
    decide +kernel
  have := hdec sy (Finset.mem_Icc.mpr hs.1) sx (Finset.mem_Icc.mpr hs.2)
  unfold roundAt
  simp only
  exact_mod_cast this

theorem roundAt_light (sy sx : ℤ) (hs : Small sy sx) : BrightLight ((roundAt sy sx).map fun v : ℝ => |v|) 100 21 := by
  rw [roundAt_abs]
  obtain ⟨hn, m, t, hm, t0, t1, hpx⟩ := spread13_norm _ (roundAt_spread sy sx hs)
  refine ⟨1, m, hn, hm, ?_⟩
  rw [div_one, ← sumWhere_eq, sumWhere_all]
  · exact (roundAt_total sy sx hs).symm
  · intro i j hne
    have hv : (roundAt sy sx).val i j = 0 ∨ (roundAt sy sx).val i j = 1 := by
      show ((round5 (((i : ℕ) : ℤ) - 6 - sy) (((j : ℕ) : ℤ) - 6 - sx) : ℕ) : ℝ) = 0 ∨ ((round5 (((i : ℕ) : ℤ) - 6 - sy) (((j : ℕ) : ℤ) - 6 - sx) : ℕ) : ℝ) = 1
      rcases round5_cases (((i : ℕ) : ℤ) - 6 - sy) (((j : ℕ) : ℤ) - 6 - sx) with e | e <;> rw [e] <;> simp
    refine hv.resolve_right fun h1 => hne ?_
    rw [hpx, Arr2.px_val, h1, Option.map_some]
    exact congrArg some (decide_eq_true t1)

/-- `C83_recovers`: the centred pupil, measured against a nominal mask that is not. -/
theorem old_fit (fuel : ℕ) (hf : 2 ≤ fuel) (S : Solver) (Sp : ClampSpline) : fitUnmaskedPupilOld fuel S Sp Rotate.still oldScene (roundAt 0 0) = some (.ok (0, 0, 0, 5)) := by
  have s0 : Small 0 0 := by unfold Small; norm_num
  have s1 : Small 1 0 := by unfold Small; norm_num
  obtain ⟨m, hm, hb, -⟩ := roundAt_mask 0 0 s0
  obtain ⟨r, hr, hrv⟩ := stop_any Sp stopMask stopMask_at (6 / 5) 0 (by norm_num) (by show (20 : ℝ) ≤ 6 / 5 * ((max 23 23 : ℕ) : ℝ); norm_num) 0 0
  have hrv' : ∀ p ∈ window 6, ∀ q ∈ window 6, at0 (embed r 6 6 0) p q = (round5 p q : ℕ) := by
    intro p hp q hq
    rw [mem_window] at hp hq
    push_cast at hp hq
    rw [embed_at0' r 6 p q (by unfold Reaches; push_cast; omega), hrv p q (by omega) (by omega) (by omega) (by omega), sub_zero, sub_zero]
  have hco := stop_coarse fuel hf
  have h := C83_recovers fuel S Sp Rotate.still oldScene (by norm_num [oldScene]) (by norm_num [oldScene]) (by norm_num [oldScene]) (by norm_num [oldScene])
    (by norm_num [oldScene]) (roundAt 0 0) m hm 21 21 5 (roundAt_light 0 0 s0) (roundAt_light 1 0 s1) (by norm_num [oldScene]) r (embed r 6 6 0)
    (by simpa [oldScene] using hr) (padCrop_eq r 6 6 0 (by norm_num) (by norm_num)) (by constructor <;> norm_num [oldScene]) 0 0 [1]
    (by rw [hb, roundAt_centre]; norm_num at hco; exact_mod_cast hco) 0 0 (by
      rw [hb]
      exact round_paraboloid _ _ (fun p hp q hq => (scene_rest 0 0 s0 p q hp hq).trans (hrv' p hp q hq).symm) hrv')
    (embed stopMask 24 24 0) scene_padded.1 (fun _ => 169) (fun th _ => by
      rw [roundAt_abs]
      obtain ⟨rf, h1, h2⟩ := scene_matches Sp 0 0 s0 th
      refine ⟨rf, ?_, h2⟩
      show IsReference Sp Rotate.still (embed stopMask 24 24 0) th (5 / 15) (((0 : ℤ) : ℝ) + 0) (((0 : ℤ) : ℝ) + 0) 1 13 13 rf
      simpa using h1) 0 (Or.inr ⟨rfl, fun _ _ => rfl⟩)
  simpa using h

/-- The bright pixels of the scene have one value. -/
theorem roundAt_uniform (sy sx : ℤ) (hs : Small sy sx) : ∃ m, ampthresh ((roundAt sy sx).map fun v : ℝ => |v|) 21 = .ok m ∧ Uniform ((roundAt sy sx).map fun v : ℝ => |v|) m 1 := by
  rw [roundAt_abs]
  obtain ⟨-, m, t, hm, t0, -, hpx⟩ := spread13_norm _ (roundAt_spread sy sx hs)
  refine ⟨m, hm, fun i j h => ?_⟩
  rw [hpx] at h
  cases hv : (roundAt sy sx).px i j with
  | none => rw [hv] at h; cases h
  | some v =>
    rw [hv, Option.map_some] at h
    have hlt := of_decide_eq_true (Option.some.inj h)
    obtain ⟨a, b, hab⟩ := (mem_pixels_val _ v).mp ((mem_pixels _ v).mpr ⟨i, j, hv⟩)
    have : (roundAt sy sx).val a b = 0 ∨ (roundAt sy sx).val a b = 1 := by
      show ((round5 (((a : ℕ) : ℤ) - 6 - sy) (((b : ℕ) : ℤ) - 6 - sx) : ℕ) : ℝ) = 0 ∨ ((round5 (((a : ℕ) : ℤ) - 6 - sy) (((b : ℕ) : ℤ) - 6 - sx) : ℕ) : ℝ) = 1
      rcases round5_cases (((a : ℕ) : ℤ) - 6 - sy) (((b : ℕ) : ℤ) - 6 - sx) with e | e <;> rw [e] <;> simp
    rw [hab] at this
    rcases this with h0 | h1
    · linarith
    · rw [h1]

/-- `C83_area` and `C83_diameter`: a success to which they apply. -/
example (S : Solver) (Sp : ClampSpline) : ∃ m n, ampthresh ((roundAt 0 0).map fun v : ℝ => |v|) 21 = .ok m ∧ Uniform ((roundAt 0 0).map fun v : ℝ => |v|) m 1 ∧
    ampthresh (oldScene.maskNomRes.map fun v : ℝ => |v|) 21 = .ok n ∧ Uniform (oldScene.maskNomRes.map fun v : ℝ => |v|) n 1 ∧
    fitUnmaskedPupilOld 2 S Sp Rotate.still oldScene (roundAt 0 0) = some (.ok (0, 0, 0, 5)) := by
  obtain ⟨m, h1, h2⟩ := roundAt_uniform 0 0 (by unfold Small; norm_num)
  obtain ⟨n, h3, h4⟩ := roundAt_uniform 1 0 (by unfold Small; norm_num)
  exact ⟨m, n, h1, h2, h3, h4, old_fit 2 le_rfl S Sp⟩

end Coralign.Props
