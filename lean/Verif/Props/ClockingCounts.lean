import Verif.Props.PupilFit
import Verif.Props.LyotFit
import Verif.Props.PupilFitCases

/-!
# The clocking is a function of the matching counts (C76), and does not move with the pupil (C81)
-/

namespace Coralign.Props

open Coralign Coralign.Spec

/-- **C76.** What the answer is: with `F th` pixels matching at each trial angle `th`, it is the vertex of the least-squares parabola through the squared
deficits from the largest count, or zero if that parabola is flat. -/
theorem C76_answer (S : Solver) (Sp : ClampSpline) (R : Rotate) {n m : ℕ} (z : Fin n → Fin m → ℂ) (diam : ℝ) (mask : Arr2 ℝ)
    (diamHigh xo yo clockMax : ℝ) (nClock : ℤ) (p tol : ℝ) (binary : Bool) (ha : MaskClockArgs diam diamHigh nClock p tol) (F : ℝ → ℕ)
    (hF : ∀ th ∈ spread clockMax nClock.toNat, ∃ ref, IsReference Sp R mask th (diam / diamHigh) xo yo 1 n m ref ∧
      Matches ⟨n, m, fun i j => ‖z i j‖⟩ ref p tol binary (F th)) :
    ∃ c, computeClocking S Sp R ⟨n, m, z⟩ diam mask diamHigh xo yo clockMax nClock p tol binary = .ok c ∧
      IsDeficitVertex (spread clockMax nClock.toNat) F 0 c := by
  refine ⟨_, clocking_ok S Sp R z diam mask diamHigh xo yo clockMax nClock p tol binary ha F hF, deficitVertex_isVertex S F _ 0 ?_⟩
  intro h
  have := congrArg List.length h
  rw [spread_length, List.length_nil] at this
  have := ha.clocks
  omega

theorem deficitVertex_add (S : Solver) (F F' : ℝ → ℝ) (l : List ℝ) (fb K : ℝ) (hl : l ≠ []) (h : ∀ s ∈ l, F' s = F s + K) :
    deficitVertex S l (l.map F') fb = deficitVertex S l (l.map F) fb := by
  obtain ⟨s, hs, -, hmax⟩ := argmax_peak F l hl
  rw [deficitVertex_eq S F l fb (F s) ⟨s, hs, rfl⟩ hmax,
    deficitVertex_eq S F' l fb (F s + K) ⟨s, hs, h s hs⟩ (fun r hr => by rw [h r hr]; linarith [hmax r hr])]
  have : (fun i : Fin l.length => (F' (l.get i) - (F s + K)) ^ 2) = fun i : Fin l.length => (F (l.get i) - F s) ^ 2 := by
    funext i
    rw [h _ (List.get_mem l i)]
    ring
  rw [this]

/-- **C76.** Only differences between the matching counts matter: if in a second image, of any other shape, offset and diameter, every trial angle
matches the same number of pixels more, as it does when background is added, the answer is the same. -/
theorem C76_background (S : Solver) (Sp : ClampSpline) (R : Rotate) {n m n' m' : ℕ} (z : Fin n → Fin m → ℂ) (z' : Fin n' → Fin m' → ℂ) (diam diam' : ℝ)
    (mask : Arr2 ℝ) (diamHigh xo yo xo' yo' clockMax : ℝ) (nClock : ℤ) (p tol : ℝ) (binary : Bool) (ha : MaskClockArgs diam diamHigh nClock p tol)
    (ha' : MaskClockArgs diam' diamHigh nClock p tol) (F F' : ℝ → ℕ)
    (hF : ∀ th ∈ spread clockMax nClock.toNat, ∃ ref, IsReference Sp R mask th (diam / diamHigh) xo yo 1 n m ref ∧
      Matches ⟨n, m, fun i j => ‖z i j‖⟩ ref p tol binary (F th))
    (hF' : ∀ th ∈ spread clockMax nClock.toNat, ∃ ref, IsReference Sp R mask th (diam' / diamHigh) xo' yo' 1 n' m' ref ∧
      Matches ⟨n', m', fun i j => ‖z' i j‖⟩ ref p tol binary (F' th))
    (K : ℤ) (hK : ∀ th ∈ spread clockMax nClock.toNat, (F' th : ℤ) = F th + K) :
    computeClocking S Sp R ⟨n', m', z'⟩ diam' mask diamHigh xo' yo' clockMax nClock p tol binary =
      computeClocking S Sp R ⟨n, m, z⟩ diam mask diamHigh xo yo clockMax nClock p tol binary := by
  rw [clocking_ok S Sp R z diam mask diamHigh xo yo clockMax nClock p tol binary ha F hF,
    clocking_ok S Sp R z' diam' mask diamHigh xo' yo' clockMax nClock p tol binary ha' F' hF']
  congr 1
  refine deficitVertex_add S (fun th => (F th : ℝ)) (fun th => (F' th : ℝ)) _ 0 K ?_ fun th hth => ?_
  · intro h
    have := congrArg List.length h
    rw [spread_length, List.length_nil] at this
    have := ha.clocks
    omega
  · have := hK th hth
    show (F' th : ℝ) = F th + K
    exact_mod_cast this

/-- **C81.** The clocking does not move with the pupil: if, at the places the two fits find, every trial angle matches as many pixels in one image as in
the other, up to a fixed number of background pixels, the two clockings agree. -/
theorem C81_shift_clock (S : Solver) (Sp : ClampSpline) (R : Rotate) (E : EllipseFinder) (te : EllipseTuning) (t : PupilTuning) (a b : Arr2 ℝ)
    (m m' : Arr2 Bool) (hm : ampthresh a 21 = .ok m) (hm' : ampthresh b 21 = .ok m') (x y c d x' y' c' d' : ℝ)
    (h : fitUnmaskedPupil S Sp R E te t a = .ok (x, y, c, d)) (h' : fitUnmaskedPupil S Sp R E te t b = .ok (x', y', c', d'))
    (M : Arr2 ℝ) (hM : PaddedMask t M) (F F' : ℝ → ℕ)
    (hF : ∀ th ∈ spread t.clockDegMax t.nClock.toNat, ∃ ref, IsReference Sp R M th (d / t.diamHighRes) x y 1 a.nr a.nc ref ∧
      Matches m.bits ref t.percentile t.deltaAmpMax false (F th))
    (hF' : ∀ th ∈ spread t.clockDegMax t.nClock.toNat, ∃ ref, IsReference Sp R M th (d' / t.diamHighRes) x' y' 1 b.nr b.nc ref ∧
      Matches m'.bits ref t.percentile t.deltaAmpMax false (F' th))
    (K : ℤ) (hK : ∀ th ∈ spread t.clockDegMax t.nClock.toNat, (F' th : ℤ) = F th + K) : c' = c := by
  obtain ⟨ht, m₁, xe, ye, ref, M₁, hm₁, -, -, -, hM₁, hc⟩ := (pupil_iff S Sp R E te t a x y c d).mp h
  obtain ⟨-, m₂, xe', ye', ref', M₂, hm₂, -, -, -, hM₂, hc'⟩ := (pupil_iff S Sp R E te t b x' y' c' d').mp h'
  obtain rfl := Except.ok.inj (hm.symm.trans hm₁)
  obtain rfl := Except.ok.inj (hm'.symm.trans hm₂)
  obtain rfl : M = M₁ := Except.ok.inj (((paddedMask_iff t M).mpr hM).symm.trans ((paddedMask_iff t M₁).mpr hM₁))
  obtain rfl : M = M₂ := Except.ok.inj (((paddedMask_iff t M).mpr hM).symm.trans ((paddedMask_iff t M₂).mpr hM₂))
  obtain ⟨s1, s2, -⟩ := C12_threshold_mask a 21 m hm
  obtain ⟨s3, s4, -⟩ := C12_threshold_mask b 21 m' hm'
  have hn : ∀ m : Arr2 Bool, (⟨m.bits.nr, m.bits.nc, fun i j => ‖((m.bits.val i j : ℝ) : ℂ)‖⟩ : Arr2 ℝ) = m.bits := by
    intro m
    have : ∀ i j, ‖((m.bits.val i j : ℝ) : ℂ)‖ = m.bits.val i j := by
      intro i j
      rw [Complex.norm_real, Real.norm_eq_abs, abs_of_nonneg]
      show 0 ≤ if m.val i j = true then (1 : ℝ) else 0
      split_ifs <;> norm_num
    simp only [this]
  have args : ∀ (q : Arr2 ℂ) (d x y c : ℝ), computeClocking S Sp R q d M t.diamHighRes x y t.clockDegMax t.nClock t.percentile t.deltaAmpMax false = .ok c →
      MaskClockArgs d t.diamHighRes t.nClock t.percentile t.deltaAmpMax := by
    intro q d x y c hc
    by_contra hno
    rw [C76_rejects S Sp R _ _ _ _ _ _ _ _ _ _ _ hno] at hc
    cases hc
  have key := C76_background S Sp R (n := m.bits.nr) (m := m.bits.nc) (n' := m'.bits.nr) (m' := m'.bits.nc) (fun i j => ((m.bits.val i j : ℝ) : ℂ))
    (fun i j => ((m'.bits.val i j : ℝ) : ℂ)) d d' M t.diamHighRes x y x' y' t.clockDegMax t.nClock t.percentile t.deltaAmpMax false (args _ _ _ _ _ hc)
    (args _ _ _ _ _ hc') F F'
    (fun th hth => by
      obtain ⟨r, h1, h2⟩ := hF th hth
      exact ⟨r, by rw [(bits_shape m).1, (bits_shape m).2, s1, s2]; exact h1, by rw [hn]; exact h2⟩)
    (fun th hth => by
      obtain ⟨r, h1, h2⟩ := hF' th hth
      exact ⟨r, by rw [(bits_shape m').1, (bits_shape m').2, s3, s4]; exact h1, by rw [hn]; exact h2⟩) K hK
  have e1 : computeClocking S Sp R ⟨m.bits.nr, m.bits.nc, fun i j => ((m.bits.val i j : ℝ) : ℂ)⟩ d M t.diamHighRes x y t.clockDegMax t.nClock t.percentile
    t.deltaAmpMax false = .ok c := hc
  have e2 : computeClocking S Sp R ⟨m'.bits.nr, m'.bits.nc, fun i j => ((m'.bits.val i j : ℝ) : ℂ)⟩ d' M t.diamHighRes x' y' t.clockDegMax t.nClock
    t.percentile t.deltaAmpMax false = .ok c' := hc'
  rw [e1, e2] at key
  exact Except.ok.inj key

/-- `C76_answer`, `C76_background` and `C81_shift_clock`: a pupil in the middle and the same pupil one pixel up and to the right; all 169 pixels match at
every trial angle. -/
example (S : Solver) (Sp : ClampSpline) : ∃ m m', ampthresh (roundAt 0 0) 21 = .ok m ∧ ampthresh (roundAt (-1) 1) 21 = .ok m' ∧
    PaddedMask pupilScene (embed stopMask 24 24 0) ∧
    fitUnmaskedPupil S Sp Rotate.still fiveFinder ⟨1, 1⟩ pupilScene (roundAt 0 0) = .ok (((0 : ℤ) : ℝ), ((0 : ℤ) : ℝ), 0, 5) ∧
    fitUnmaskedPupil S Sp Rotate.still fiveFinder ⟨1, 1⟩ pupilScene (roundAt (-1) 1) = .ok (((1 : ℤ) : ℝ), ((-1 : ℤ) : ℝ), 0, 5) ∧
    (∀ th : ℝ, ∃ ref, IsReference Sp Rotate.still (embed stopMask 24 24 0) th (5 / 15) ((0 : ℤ) : ℝ) ((0 : ℤ) : ℝ) 1 13 13 ref ∧
      Matches m.bits ref 100 (3 / 4) false 169) ∧
    ∀ th : ℝ, ∃ ref, IsReference Sp Rotate.still (embed stopMask 24 24 0) th (5 / 15) ((1 : ℤ) : ℝ) ((-1 : ℤ) : ℝ) 1 13 13 ref ∧
      Matches m'.bits ref 100 (3 / 4) false 169 := by
  have s0 : Small 0 0 := by unfold Small; norm_num
  have s1 : Small (-1) 1 := by unfold Small; norm_num
  obtain ⟨m, hm, hb, -⟩ := roundAt_mask 0 0 s0
  obtain ⟨m', hm', hb', -⟩ := roundAt_mask (-1) 1 s1
  refine ⟨m, m', hm, hm', scene_padded.1, scene_fit S Sp 0 0 s0, scene_fit S Sp (-1) 1 s1, fun th => ?_, fun th => ?_⟩
  · rw [hb]; exact scene_matches Sp 0 0 s0 th
  · rw [hb']; exact scene_matches Sp (-1) 1 s1 th

end Coralign.Props
