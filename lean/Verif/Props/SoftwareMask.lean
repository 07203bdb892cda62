import Verif.Model.SoftwareMask
import Verif.Props.AmpThresh
import Verif.Props.DrUtil

/-!
# Property C56: the DM registration software mask
-/

namespace Coralign.Props

open Coralign

/-- Specification: the pixelwise phase change between the two states. -/
def IsPhaseDifference (ph0 ph1 d : Arr2 ℝ) : Prop :=
  d.nr = ph0.nr ∧ d.nc = ph0.nc ∧
    ∀ (i j : ℤ) v w, ph0.px i j = some v → ph1.px i j = some w → d.px i j = some (w - v)

/-- Specification: a pixel is good if it passed the amplitude threshold and its phase change, with piston, tip and
tilt removed over the thresholded pixels (`r`), is within the limit. -/
def GoodPixel (t : Arr2 Bool) (r : Arr2 ℝ) (thresh : ℝ) (i j : ℤ) : Prop :=
  t.px i j = some true ∧ ∃ v, r.px i j = some v ∧ |v| ≤ thresh

theorem subPx_isPhaseDifference (ph0 ph1 : Arr2 ℝ) (hr : ph0.nr = ph1.nr) (hc : ph0.nc = ph1.nc) :
    IsPhaseDifference ph0 ph1 (ph1.subPx ph0) := by
  refine ⟨hr.symm, hc.symm, ?_⟩
  intro i j v w h0 h1
  have hb := (Arr2.px_isSome ph1 i j).mp (by rw [h1]; rfl)
  rw [Arr2.px_of_inB _ (show (0 ≤ i ∧ i < (ph1.subPx ph0).nr) ∧ (0 ≤ j ∧ j < (ph1.subPx ph0).nc) from hb)]
  rw [Arr2.px_of_inB _ hb] at h1
  simp only [Arr2.subPx]
  rw [Int.toNat_of_nonneg hb.1.1, Int.toNat_of_nonneg hb.2.1, h0, Option.some.inj h1]
  rfl

theorem px_dropLarge (t : Arr2 Bool) (r : Arr2 ℝ) (thresh : ℝ) (hr : r.nr = t.nr) (hc : r.nc = t.nc) (i j : ℤ) :
    (dropLarge t r thresh).px i j = some true ↔ GoodPixel t r thresh i j := by
  unfold GoodPixel
  by_cases hb : (0 ≤ i ∧ i < t.nr) ∧ (0 ≤ j ∧ j < t.nc)
  · rw [Arr2.px_of_inB _ (show (0 ≤ i ∧ i < (dropLarge t r thresh).nr) ∧ (0 ≤ j ∧ j < (dropLarge t r thresh).nc) from hb)]
    rw [Arr2.px_of_inB t hb, Arr2.px_of_inB r (by omega)]
    simp only [dropLarge]
    rw [Int.toNat_of_nonneg hb.1.1, Int.toNat_of_nonneg hb.2.1, Arr2.px_of_inB r (by omega)]
    simp only [Option.getD_some, Option.some.injEq]
    generalize r.val _ _ = v
    by_cases h : thresh < |v|
    · rw [if_pos h]
      simp only [Bool.false_eq_true, false_iff, not_and]
      rintro _ ⟨w, rfl, hw⟩
      exact absurd hw (not_le.mpr h)
    · rw [if_neg h]
      exact ⟨fun ht => ⟨ht, v, rfl, not_lt.mp h⟩, fun ht => ht.1⟩
  · rw [Arr2.px_of_not_inB _ (show ¬ ((0 ≤ i ∧ i < (dropLarge t r thresh).nr) ∧ (0 ≤ j ∧ j < (dropLarge t r thresh).nc)) from hb),
      Arr2.px_of_not_inB t hb]
    simp

theorem softwareMask_unfold (S : Solver) (amp0 ph0 amp1 ph1 : Arr2 ℝ) (dm nErode : ℤ) (thresh : ℝ) (m : Arr2 Bool)
    (h : calcSoftwareMask S amp0 ph0 amp1 ph1 dm nErode thresh = .ok m) :
    (ph0.nr = ph1.nr ∧ ph0.nc = ph1.nc) ∧ 0 ≤ nErode ∧ ∃ t r, ampthresh amp0 21 = .ok t ∧
      removePistonTipTilt S (ph1.subPx ph0) t = .ok r ∧
      m = erode (dropLarge t r thresh) (squareElem nErode.toNat) := by
  unfold calcSoftwareMask at h
  split at h; · cases h
  split at h; · cases h
  split at h; · cases h
  split at h; · cases h
  split at h; · cases h
  split at h; · cases h
  split at h
  · cases h
  · next t ht =>
    split at h
    · cases h
    · next r hr => injection h with h; exact ⟨by omega, by omega, t, r, ht, hr, h.symm⟩

theorem ptt_shape (S : Solver) (a r : Arr2 ℝ) (t : Arr2 Bool) (h : removePistonTipTilt S a t = .ok r) :
    r.nr = t.nr ∧ r.nc = t.nc := by
  unfold removePistonTipTilt at h
  split at h
  · next hs => injection h with h; subst h; exact hs
  · cases h

/-- **C56.** A pixel is in the mask exactly when every pixel within `nErode` rows and columns of it lies in the image,
passed the amplitude threshold, and has a piston/tip/tilt-free phase change within the limit. -/
theorem C56_only_safe_pixels (S : Solver) (amp0 ph0 amp1 ph1 : Arr2 ℝ) (dm nErode : ℤ) (thresh : ℝ) (m : Arr2 Bool)
    (h : calcSoftwareMask S amp0 ph0 amp1 ph1 dm nErode thresh = .ok m) :
    m.nr = amp0.nr ∧ m.nc = amp0.nc ∧ ∃ t d r, ampthresh amp0 21 = .ok t ∧ IsPhaseDifference ph0 ph1 d ∧
      removePistonTipTilt S d t = .ok r ∧
      ∀ i j : ℤ, m.px i j = some true ↔
        ∀ i' j' : ℤ, |i' - i| ≤ nErode → |j' - j| ≤ nErode → GoodPixel t r thresh i' j' := by
  obtain ⟨hs, hn, t, r, ht, hr, rfl⟩ := softwareMask_unfold S _ _ _ _ _ _ _ _ h
  obtain ⟨t1, t2, _⟩ := C12_threshold_mask amp0 21 t ht
  obtain ⟨r1, r2⟩ := ptt_shape S _ _ _ hr
  refine ⟨t1, t2, t, _, r, ht, subPx_isPhaseDifference ph0 ph1 hs.1 hs.2, hr, ?_⟩
  intro i j
  rw [px_erode_square]
  simp only [px_dropLarge t r thresh r1 r2]
  rw [Int.toNat_of_nonneg hn]

/-- **C56.** More erosion never adds pixels. -/
theorem C56_erosion_monotone (S : Solver) (amp0 ph0 amp1 ph1 : Arr2 ℝ) (dm n n' : ℤ) (thresh : ℝ) (m m' : Arr2 Bool)
    (h : calcSoftwareMask S amp0 ph0 amp1 ph1 dm n thresh = .ok m)
    (h' : calcSoftwareMask S amp0 ph0 amp1 ph1 dm n' thresh = .ok m') (hn : n ≤ n') (i j : ℤ)
    (hp : m'.px i j = some true) : m.px i j = some true := by
  obtain ⟨hs, h0, t, r, ht, hr, rfl⟩ := softwareMask_unfold S _ _ _ _ _ _ _ _ h
  obtain ⟨_, h0', t', r', ht', hr', rfl⟩ := softwareMask_unfold S _ _ _ _ _ _ _ _ h'
  rw [ht] at ht'; injection ht' with ht'; subst ht'
  rw [hr] at hr'; injection hr' with hr'; subst hr'
  rw [px_erode_square] at hp ⊢
  intro i' j' hi hj
  exact hp i' j' (by omega) (by omega)

/-- **C56.** Loosening the phase limit never removes pixels. -/
theorem C56_threshold_monotone (S : Solver) (amp0 ph0 amp1 ph1 : Arr2 ℝ) (dm n : ℤ) (c c' : ℝ) (m m' : Arr2 Bool)
    (h : calcSoftwareMask S amp0 ph0 amp1 ph1 dm n c = .ok m)
    (h' : calcSoftwareMask S amp0 ph0 amp1 ph1 dm n c' = .ok m') (hn : c ≤ c') (i j : ℤ)
    (hp : m.px i j = some true) : m'.px i j = some true := by
  obtain ⟨hs, h0, t, r, ht, hr, rfl⟩ := softwareMask_unfold S _ _ _ _ _ _ _ _ h
  obtain ⟨_, h0', t', r', ht', hr', rfl⟩ := softwareMask_unfold S _ _ _ _ _ _ _ _ h'
  rw [ht] at ht'; injection ht' with ht'; subst ht'
  rw [hr] at hr'; injection hr' with hr'; subst hr'
  obtain ⟨r1, r2⟩ := ptt_shape S _ _ _ hr
  rw [px_erode_square] at hp ⊢
  intro i' j' hi hj
  have := hp i' j' hi hj
  rw [px_dropLarge _ _ _ r1 r2] at this ⊢
  obtain ⟨h1, v, hv, hle⟩ := this
  exact ⟨h1, v, hv, hle.trans hn⟩

/-- **C56.** Adding any plane to either phase map does not change the mask. -/
theorem C56_plane_invariant (S : Solver) (amp0 ph0 amp1 ph1 : Arr2 ℝ) (dm n : ℤ) (c p q s : ℝ) :
    calcSoftwareMask S amp0 ph0 amp1 (addPlane ph1 p q s) dm n c = calcSoftwareMask S amp0 ph0 amp1 ph1 dm n c ∧
    calcSoftwareMask S amp0 (addPlane ph0 p q s) amp1 ph1 dm n c = calcSoftwareMask S amp0 ph0 amp1 ph1 dm n c := by
  constructor
  · have e : (addPlane ph1 p q s).subPx ph0 = addPlane (ph1.subPx ph0) p q s := by
      unfold addPlane Arr2.subPx
      congr 1
      funext i j
      ring
    unfold calcSoftwareMask
    rw [e]
    simp only [C25_plane_invariant]
    rfl
  · by_cases hs : ph0.nr = ph1.nr ∧ ph0.nc = ph1.nc
    · have e : ph1.subPx (addPlane ph0 p q s) = addPlane (ph1.subPx ph0) (-p) (-q) (-s) := by
        obtain ⟨n0, m0, f0⟩ := ph0
        obtain ⟨n1, m1, f1⟩ := ph1
        obtain ⟨rfl, rfl⟩ := hs
        unfold addPlane Arr2.subPx
        congr 1
        funext i j
        have e1 := Arr2.px_val ⟨n0, m0, fun i j => f0 i j + (p + q * (i : ℕ) + s * (j : ℕ))⟩ i j
        have e2 := Arr2.px_val ⟨n0, m0, f0⟩ i j
        show f1 i j - (Arr2.px _ _ _).getD 0 = f1 i j - (Arr2.px _ _ _).getD 0 + _
        rw [e1, e2]
        simp only [Option.getD_some]
        ring
      unfold calcSoftwareMask
      rw [e]
      simp only [C25_plane_invariant]
      rfl
    · unfold calcSoftwareMask
      have h1 : ph0.nr ≠ ph1.nr ∨ ph0.nc ≠ ph1.nc := by tauto
      have h2 : (addPlane ph0 p q s).nr ≠ ph1.nr ∨ (addPlane ph0 p q s).nc ≠ ph1.nc := h1
      rw [if_pos h1, if_pos h2]
      rfl

/-- **C56.** Each rejected class of arguments raises `ValueError`. -/
theorem C56_rejects (S : Solver) (amp0 ph0 amp1 ph1 : Arr2 ℝ) (dm n : ℤ) (c : ℝ)
    (h : ¬ ((amp0.nr = ph0.nr ∧ amp0.nc = ph0.nc) ∧ (amp0.nr = amp1.nr ∧ amp0.nc = amp1.nc) ∧
      (amp0.nr = ph1.nr ∧ amp0.nc = ph1.nc) ∧ (dm = 1 ∨ dm = 2) ∧ 0 ≤ n ∧ 0 < c)) :
    calcSoftwareMask S amp0 ph0 amp1 ph1 dm n c = .error .valueError := by
  unfold calcSoftwareMask
  split; · rfl
  split; · rfl
  split; · rfl
  split; · rfl
  split; · rfl
  split; · rfl
  next h1 h2 h3 h4 h5 h6 =>
  exact absurd ⟨by omega, by omega, by omega, by omega, by omega, not_le.mp h6⟩ h

/-- A non-trivial run meeting the hypothesis of the theorems above: the bimodal amplitude, phase zero, no erosion. -/
example : ∃ S m, calcSoftwareMask S (bimodal.map fun v : ℚ => (v : ℝ)) (Arr2.full 2 3 0) (bimodal.map fun v : ℚ => (v : ℝ))
    (Arr2.full 2 3 0) 1 0 1 = .ok m := by
  obtain ⟨S⟩ := Solver.nonempty
  have h1 : ∃ t, ampthresh bimodal 21 = .ok t := by
    have h : (ampthresh bimodal 21).toBool = true := by decide +kernel
    cases h2 : ampthresh bimodal 21 with
    | ok t => exact ⟨t, rfl⟩
    | error e => rw [h2] at h; cases h
  obtain ⟨t, ht⟩ := h1
  have ht' := ampthresh_cast bimodal 21 t ht
  obtain ⟨s1, s2, _⟩ := C12_threshold_mask _ _ _ ht'
  obtain ⟨o, ho, _⟩ := C25_residual S ((Arr2.full 2 3 0).subPx (Arr2.full 2 3 0)) t s1.symm s2.symm
  refine ⟨S, erode (dropLarge t o 1) (squareElem 0), ?_⟩
  unfold calcSoftwareMask
  rw [if_neg (by simp [bimodal]), if_neg (by simp), if_neg (by simp), if_neg (by norm_num), if_neg (by norm_num),
    if_neg (by norm_num), ht']
  simp only
  rw [ho]
  rfl

/-- Erosion really removes border pixels: a full 5×5 mask keeps its central 3×3 block. -/
example : (erode (Arr2.full 5 5 true) (squareElem 1)).pixels =
    [false, false, false, false, false, false, true, true, true, false, false, true, true, true, false,
     false, true, true, true, false, false, false, false, false, false] := by decide +kernel

end Coralign.Props
