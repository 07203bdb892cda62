import Verif.Props.PupilFit

/-!
# C83: the older fit of an unmasked pupil
-/

namespace Coralign.Props

open Coralign Coralign.Spec

/-- The bright pixels of a non-negative image are positive, and so is any of their percentiles. -/
theorem norm_pos (img : Arr2 ℝ) (h0 : ∀ i j, 0 ≤ img.val i j) (p f : ℝ) (h : NormBy img img p f) : 0 < f ∧
    ∀ m, ampthresh img 21 = .ok m → (∃ i j, m.val i j = true) ∧ ∀ i j v, m.px i j = some true → img.px i j = some v → 0 < v := by
  obtain ⟨m, hm, hf⟩ := h
  obtain ⟨s1, s2, t, lo, hi, he, hlo, -, hpx, -⟩ := C12_threshold_mask img 21 m hm
  have ht : 0 < t := by
    obtain ⟨i, j, hij⟩ := (mem_pixels_val img lo).mp he.1
    have := h0 i j
    rw [hij] at this
    linarith
  have hpos : ∀ i j v, m.px i j = some true → img.px i j = some v → 0 < v := by
    intro i j v h1 h2
    rw [hpx, h2, Option.map_some] at h1
    have := of_decide_eq_true (Option.some.inj h1)
    linarith
  have hargs := ((C53_rejects img (m.map fun b : Bool => if b = true then (1 : ℝ) else 0) p).1.mp ⟨f, hf⟩)
  obtain ⟨-, hargs⟩ := hargs
  obtain ⟨n, k, g⟩ := img
  obtain ⟨n', k', b⟩ := m
  obtain rfl : n' = n := s1
  obtain rfl : k' = k := s2
  have hval : ∀ i j, (if b i j = true then (1 : ℝ) else 0) = 1 → b i j = true := by
    intro i j hij
    by_contra hn
    rw [if_neg hn] at hij
    exact zero_ne_one hij
  constructor
  · obtain ⟨r, hr, ⟨i, j, hij, hle⟩, -⟩ := C53_range g (fun i j => if b i j = true then (1 : ℝ) else 0) p hargs
    obtain rfl : f = r := Except.ok.inj (hf.symm.trans hr)
    have := hpos ((i : ℕ) : ℤ) ((j : ℕ) : ℤ) (g i j) (by
      rw [Arr2.px_val (⟨n', k', b⟩ : Arr2 Bool) i j]
      exact congrArg some (hval i j hij)) (Arr2.px_val (⟨n', k', g⟩ : Arr2 ℝ) i j)
    linarith
  · intro m' hm'
    rw [hm] at hm'
    obtain rfl := Except.ok.inj hm'
    obtain ⟨i, j, hij⟩ := hargs.2.1
    exact ⟨⟨i, j, hval i j hij⟩, hpos⟩

/-- Light in the bright pixels, after scaling. -/
theorem lightIn_scale (img : Arr2 ℝ) (m : Arr2 Bool) (c : ℝ) : lightIn (img.map fun v : ℝ => c * v) m = c * lightIn img m := by
  rw [← sumWhere_eq, ← sumWhere_eq]
  unfold sumWhere
  rw [Finset.mul_sum]
  refine Finset.sum_congr rfl fun i _ => ?_
  rw [Finset.mul_sum]
  refine Finset.sum_congr rfl fun j _ => ?_
  rw [mul_ite, mul_zero]
  rfl

theorem map_div (img : Arr2 ℝ) (f : ℝ) : (img.map fun v : ℝ => v / f) = img.map fun v : ℝ => f⁻¹ * v := by
  unfold Arr2.map
  simp only [div_eq_inv_mul]

/-- What `normedLight` computes for a non-negative image. -/
theorem normedLight_iff (img : Arr2 ℝ) (h0 : ∀ i j, 0 ≤ img.val i j) (p L : ℝ) : normedLight img p = .ok L ↔ BrightLight img p L := by
  unfold normedLight BrightLight
  constructor
  · intro h
    obtain ⟨f, hf, h⟩ := res_bind_ok h
    have hn := (normFactorOf_iff _ _ _ _).mp hf
    obtain ⟨hfp, -⟩ := norm_pos img h0 p f hn
    obtain ⟨m, hm, h⟩ := res_bind_ok h
    simp only [map_div] at hm h
    rw [ampthresh_scale _ _ _ (inv_pos.mpr hfp)] at hm
    refine ⟨f, m, hn, hm, ?_⟩
    rw [← Except.ok.inj h, sumWhere_eq, lightIn_scale, div_eq_inv_mul]
  · rintro ⟨f, m, hn, hm, rfl⟩
    obtain ⟨hfp, -⟩ := norm_pos img h0 p f hn
    rw [(normFactorOf_iff _ _ _ _).mpr hn, res_ok_bind]
    simp only [map_div]
    rw [ampthresh_scale _ _ _ (inv_pos.mpr hfp), hm, res_ok_bind, sumWhere_eq, lightIn_scale, div_eq_inv_mul]

/-- The light in the bright pixels of a non-negative image is positive. -/
theorem brightLight_pos (img : Arr2 ℝ) (h0 : ∀ i j, 0 ≤ img.val i j) (p L : ℝ) (h : BrightLight img p L) : 0 < L := by
  obtain ⟨f, m, hn, hm, rfl⟩ := h
  obtain ⟨hfp, hb⟩ := norm_pos img h0 p f hn
  obtain ⟨⟨i, j, hij⟩, hpos⟩ := hb m hm
  obtain ⟨s1, s2, -⟩ := C12_threshold_mask img 21 m hm
  refine div_pos ?_ hfp
  rw [← sumWhere_eq]
  obtain ⟨n, k, g⟩ := img
  obtain ⟨n', k', b⟩ := m
  obtain rfl : n' = n := s1
  obtain rfl : k' = k := s2
  have hpx : ∀ (i : Fin n') (j : Fin k'), (⟨n', k', b⟩ : Arr2 Bool).px ((i : ℕ) : ℤ) ((j : ℕ) : ℤ) = some (b i j) := fun i j => Arr2.px_val (⟨n', k', b⟩ : Arr2 Bool) i j
  unfold sumWhere
  have hnn : ∀ (i : Fin n') (j : Fin k'), 0 ≤ if (⟨n', k', b⟩ : Arr2 Bool).px ((i : ℕ) : ℤ) ((j : ℕ) : ℤ) = some true then g i j else 0 := by
    intro i j
    split_ifs
    · exact h0 i j
    · exact le_rfl
  refine Finset.sum_pos' (fun i _ => Finset.sum_nonneg fun j _ => hnn i j) ⟨i, Finset.mem_univ _, Finset.sum_pos' (fun j _ => hnn i j) ⟨j, Finset.mem_univ _, ?_⟩⟩
  rw [hpx, if_pos (congrArg some hij)]
  exact hpos _ _ _ (by rw [hpx]; exact congrArg some hij) (Arr2.px_val (⟨n', k', g⟩ : Arr2 ℝ) i j)

/-- Bright pixels of one value: the light is their number. -/
theorem brightLight_uniform (img : Arr2 ℝ) (h0 : ∀ i j, 0 ≤ img.val i j) (p L v : ℝ) (m : Arr2 Bool) (hm : ampthresh img 21 = .ok m) (hu : Uniform img m v)
    (h : BrightLight img p L) : L = trueCount m := by
  obtain ⟨f, m', hn, hm', rfl⟩ := h
  rw [hm] at hm'
  obtain rfl := Except.ok.inj hm'
  obtain ⟨hfp, hb⟩ := norm_pos img h0 p f hn
  obtain ⟨s1, s2, -⟩ := C12_threshold_mask img 21 m hm
  obtain ⟨m', hm', hf⟩ := hn
  rw [hm] at hm'
  obtain rfl := Except.ok.inj hm'
  have hargs := ((C53_rejects img (m.map fun b : Bool => if b = true then (1 : ℝ) else 0) p).1.mp ⟨f, hf⟩).2
  obtain ⟨n, k, g⟩ := img
  obtain ⟨n', k', b⟩ := m
  obtain rfl : n' = n := s1
  obtain rfl : k' = k := s2
  have hpx : ∀ (i : Fin n') (j : Fin k'), (⟨n', k', b⟩ : Arr2 Bool).px ((i : ℕ) : ℤ) ((j : ℕ) : ℤ) = some (b i j) := fun i j => Arr2.px_val (⟨n', k', b⟩ : Arr2 Bool) i j
  have hgx : ∀ (i : Fin n') (j : Fin k'), (⟨n', k', g⟩ : Arr2 ℝ).px ((i : ℕ) : ℤ) ((j : ℕ) : ℤ) = some (g i j) := fun i j => Arr2.px_val (⟨n', k', g⟩ : Arr2 ℝ) i j
  have hval : ∀ i j, b i j = true → g i j = v := by
    intro i j hij
    have := hu _ _ ((hpx i j).trans (congrArg some hij))
    rw [hgx] at this
    exact Option.some.inj this
  have hfv : f = v := by
    obtain ⟨r, hr, ⟨i, j, hij, hle⟩, i', j', hij', hle'⟩ := C53_range g (fun i j => if b i j = true then (1 : ℝ) else 0) p hargs
    obtain rfl : f = r := Except.ok.inj (hf.symm.trans hr)
    have t1 : b i j = true := by by_contra hn; simp [hn] at hij
    have t2 : b i' j' = true := by by_contra hn; simp [hn] at hij'
    rw [hval _ _ t1] at hle
    rw [hval _ _ t2] at hle'
    linarith
  rw [div_eq_iff hfp.ne', ← sumWhere_eq, hfv]
  unfold sumWhere trueCount
  rw [Finset.card_filter]
  push_cast
  rw [Fintype.sum_prod_type, Finset.sum_mul]
  refine Finset.sum_congr rfl fun i _ => ?_
  rw [Finset.sum_mul]
  refine Finset.sum_congr rfl fun j _ => ?_
  rw [hpx]
  by_cases hb : b i j = true
  · rw [if_pos (congrArg some hb), if_pos hb, one_mul]
    exact hval i j hb
  · rw [if_neg (fun h => hb (Option.some.inj h)), if_neg hb, zero_mul]

/-- The magnitudes of an amplitude. -/
theorem abs_nonneg_map (a : Arr2 ℝ) : ∀ i j, 0 ≤ (a.map fun v : ℝ => |v|).val i j := fun i j => abs_nonneg (a.val i j)

/-- The steps of a successful fit. -/
theorem old_steps (fuel : ℕ) (S : Solver) (Sp : ClampSpline) (R : Rotate) (t : PupilTuningOld) (amp : Arr2 ℝ) (x y c d : ℝ)
    (h : fitUnmaskedPupilOld fuel S Sp R t amp = some (.ok (x, y, c, d))) :
    (0 ≤ t.deltaAmpMax ∧ 0 < t.percentile ∧ 0 ≤ t.zeroPadding) ∧ ∃ m a b r ref, ampthresh amp t.nBin = .ok m ∧
      BrightLight (amp.map fun v : ℝ => |v|) t.percentile a ∧ BrightLight (t.maskNomRes.map fun v : ℝ => |v|) t.percentile b ∧
      d = t.nBeamNom * Real.sqrt (a / b) ∧ rotateShiftDownsample Sp R t.mask 0 (d / t.diamHighRes) 0 0 (6 / 5) false = .ok r ∧
      padCrop r [t.nPadFFT, t.nPadFFT] 0 = .ok ref ∧
      computeLateralOffsetsCoarse fuel S m.bits ref d t.nPhaseSteps t.dPixel t.nPadFFT t.nFocusCrop 1 = some (.ok (y, x)) := by
  unfold fitUnmaskedPupilOld at h
  split_ifs at h with hc
  · cases h
  push Not at hc
  refine ⟨hc, ?_⟩
  split at h
  · cases h
  · rename_i m diam ref hh
    obtain ⟨m', hm, hh⟩ := res_bind_ok hh
    obtain ⟨a, ha, hh⟩ := res_bind_ok hh
    obtain ⟨b, hb, hh⟩ := res_bind_ok hh
    obtain ⟨r, hr, hh⟩ := res_bind_ok hh
    obtain ⟨ref', hp, hh⟩ := res_bind_ok hh
    have := Except.ok.inj hh
    simp only [Prod.mk.injEq] at this
    obtain ⟨rfl, rfl, rfl⟩ := this
    split at h
    · cases h
    · cases h
    · rename_i o ho
      have h := Option.some.inj h
      obtain ⟨M, hM, h⟩ := res_bind_ok h
      obtain ⟨c', hc', h⟩ := res_bind_ok h
      have := Except.ok.inj h
      simp only [Prod.mk.injEq] at this
      obtain ⟨rfl, rfl, rfl, rfl⟩ := this
      exact ⟨m', a, b, r, ref', hm, (normedLight_iff _ (abs_nonneg_map _) _ _).mp ha, (normedLight_iff _ (abs_nonneg_map _) _ _).mp hb, rfl, hr, hp, ho⟩

/-- **C83.** The diameter is the nominal one times the square root of the ratio of the light in the bright pixels of the amplitude to that
of the nominal mask, both positive, each in units of its own percentile. -/
theorem C83_diameter (fuel : ℕ) (S : Solver) (Sp : ClampSpline) (R : Rotate) (t : PupilTuningOld) (amp : Arr2 ℝ) (x y c d : ℝ)
    (h : fitUnmaskedPupilOld fuel S Sp R t amp = some (.ok (x, y, c, d))) :
    ∃ a b, BrightLight (amp.map fun v : ℝ => |v|) t.percentile a ∧ BrightLight (t.maskNomRes.map fun v : ℝ => |v|) t.percentile b ∧
      0 < a ∧ 0 < b ∧ d = t.nBeamNom * Real.sqrt (a / b) := by
  obtain ⟨-, m, a, b, r, ref, -, ha, hb, hd, -⟩ := old_steps fuel S Sp R t amp x y c d h
  exact ⟨a, b, ha, hb, brightLight_pos _ (abs_nonneg_map _) _ _ ha, brightLight_pos _ (abs_nonneg_map _) _ _ hb, hd⟩

/-- **C83.** If the bright pixels of the amplitude all have one value, and those of the nominal mask too, the diameters are as the square
roots of the numbers of bright pixels. -/
theorem C83_area (fuel : ℕ) (S : Solver) (Sp : ClampSpline) (R : Rotate) (t : PupilTuningOld) (amp : Arr2 ℝ) (x y c d : ℝ)
    (h : fitUnmaskedPupilOld fuel S Sp R t amp = some (.ok (x, y, c, d))) (m n : Arr2 Bool) (v w : ℝ)
    (hm : ampthresh (amp.map fun v : ℝ => |v|) 21 = .ok m) (hv : Uniform (amp.map fun v : ℝ => |v|) m v)
    (hn : ampthresh (t.maskNomRes.map fun v : ℝ => |v|) 21 = .ok n) (hw : Uniform (t.maskNomRes.map fun v : ℝ => |v|) n w) :
    d = t.nBeamNom * Real.sqrt (trueCount m / trueCount n) := by
  obtain ⟨a, b, ha, hb, -, -, hd⟩ := C83_diameter fuel S Sp R t amp x y c d h
  rw [hd, brightLight_uniform _ (abs_nonneg_map _) _ _ v m hm hv ha, brightLight_uniform _ (abs_nonneg_map _) _ _ w n hn hw hb]

theorem normedLight_scale (img : Arr2 ℝ) (h0 : ∀ i j, 0 ≤ img.val i j) (p c : ℝ) (hc : 0 < c) : normedLight (img.map fun v : ℝ => c * v) p = normedLight img p := by
  unfold normedLight
  rw [normFactorOf_scale _ _ p c c hc hc]
  cases hf : normFactorOf img img p with
  | error e => rfl
  | ok f =>
    obtain ⟨hfp, -⟩ := norm_pos img h0 p f ((normFactorOf_iff _ _ _ _).mp hf)
    have : (img.map fun v : ℝ => c * v).map (fun v : ℝ => v / (c * f)) = img.map fun v : ℝ => v / f := by
      unfold Arr2.map
      simp only
      congr 1
      funext i j
      rw [mul_div_mul_left _ _ hc.ne']
    show (do
      let m ← ampthresh ((img.map fun v : ℝ => c * v).map fun v : ℝ => v / (c * f)) 21
      .ok (sumWhere ((img.map fun v : ℝ => c * v).map fun v : ℝ => v / (c * f)) m) : Res ℝ) = _
    rw [this]
    rfl

/-- **C83.** The exposure does not matter, neither of the amplitude nor of the nominal mask. -/
theorem C83_exposure (fuel : ℕ) (S : Solver) (Sp : ClampSpline) (R : Rotate) (t : PupilTuningOld) {n m : ℕ} (f : Fin n → Fin m → ℝ) (c k : ℝ) (hc : 0 < c)
    (hk : 0 < k) : fitUnmaskedPupilOld fuel S Sp R { t with maskNomRes := t.maskNomRes.map fun v : ℝ => k * v } ⟨n, m, fun i j => c * f i j⟩ =
      fitUnmaskedPupilOld fuel S Sp R t ⟨n, m, f⟩ := by
  have habs : ∀ (a : Arr2 ℝ) (c : ℝ), 0 < c → (a.map fun v : ℝ => c * v).map (fun v : ℝ => |v|) = (a.map fun v : ℝ => |v|).map fun v : ℝ => c * v := by
    intro a c hc
    unfold Arr2.map
    simp only [abs_mul, abs_of_pos hc]
  have e0 : (⟨n, m, fun i j => c * f i j⟩ : Arr2 ℝ) = (⟨n, m, f⟩ : Arr2 ℝ).map fun v : ℝ => c * v := rfl
  have e1 : ∀ (d : ℝ) (M : Arr2 ℝ) (x y : ℝ), computeClocking S Sp R (((⟨n, m, f⟩ : Arr2 ℝ).map fun v : ℝ => |v|).map fun v : ℝ => c * v).toC d M t.diamHighRes x y t.clockDegMax t.nClock t.percentile t.deltaAmpMax false =
      computeClocking S Sp R ((⟨n, m, f⟩ : Arr2 ℝ).map fun v : ℝ => |v|).toC d M t.diamHighRes x y t.clockDegMax t.nClock t.percentile t.deltaAmpMax false := by
    intro d M x y
    refine C76_exposure S Sp R (fun i j => ((|f i j| : ℝ) : ℂ)) (fun i j => ((c * |f i j| : ℝ) : ℂ)) c hc (fun i j => ?_) _ _ _ _ _ _ _ _ _ _
    rw [Complex.norm_real, Complex.norm_real, norm_mul, Real.norm_of_nonneg hc.le]
  unfold fitUnmaskedPupilOld
  simp only [e0]
  rw [habs _ c hc, habs _ k hk, ampthresh_scale _ _ c hc, normedLight_scale _ (abs_nonneg_map _) _ c hc, normedLight_scale _ (abs_nonneg_map _) _ k hk]
  simp only [e1]

/-- **C83.** Tuning parameters out of range never lead to an answer. -/
theorem C83_rejects (fuel : ℕ) (S : Solver) (Sp : ClampSpline) (R : Rotate) (t : PupilTuningOld) (amp : Arr2 ℝ)
    (hbad : t.deltaAmpMax < 0 ∨ t.percentile ≤ 0 ∨ 100 < t.percentile ∨ t.zeroPadding < 0 ∨ t.nBeamNom ≤ 0 ∨ t.diamHighRes ≤ 0 ∨ t.nPhaseSteps ≤ 0 ∨ t.dPixel ≤ 0 ∨
      t.nPadFFT ≤ 0 ∨ t.nFocusCrop ≤ 0) (r : ℝ × ℝ × ℝ × ℝ) : fitUnmaskedPupilOld fuel S Sp R t amp ≠ some (.ok r) := by
  obtain ⟨x, y, c, d⟩ := r
  intro h
  obtain ⟨⟨h1, h2, h3⟩, m, a, b, r, ref, -, ha, hb, hd, hr, hp, hl⟩ := old_steps fuel S Sp R t amp x y c d h
  have hmag := ((C60_accepts Sp R t.mask 0 (d / t.diamHighRes) 0 0 (6 / 5) false).mp ⟨r, hr⟩).magPos
  unfold computeLateralOffsetsCoarse at hl
  split_ifs at hl with hc
  · cases hl
  push Not at hc
  obtain ⟨d0, c1, c2, c3, c4, -⟩ := hc
  have d1 : 0 < t.diamHighRes := by
    rcases div_pos_iff.mp hmag with h | h
    · exact h.2
    · linarith [h.1]
  have d2 : 0 < t.nBeamNom := by
    by_contra hn
    have := mul_nonpos_of_nonpos_of_nonneg (not_lt.mp hn) (Real.sqrt_nonneg (a / b))
    rw [← hd] at this
    linarith
  have d3 : t.percentile ≤ 100 := by
    obtain ⟨f, -, ⟨m', -, hf⟩, -⟩ := ha
    exact ((C53_rejects _ _ _).1.mp ⟨f, hf⟩).2.2.2.2
  rcases hbad with h | h | h | h | h | h | h | h | h | h
  · linarith
  · linarith
  · linarith
  · linarith
  · linarith
  · linarith
  · omega
  · linarith
  · omega
  · omega

/-- **C83.** The fit finds the pupil.  If the coarse search ends on a pixel, the mismatch with the reference about it is a paraboloid centred
on `(x0, y0)` on the grid tried, and the number of pixels that match the rotated mask falls off linearly about the trial angle `th0` (or is
the same for opposite angles, and `th0 = 0`), then the answer is that pixel displaced by `(x0, y0)`, `th0` and the diameter above. -/
theorem C83_recovers (fuel : ℕ) (S : Solver) (Sp : ClampSpline) (R : Rotate) (t : PupilTuningOld) (ht : 0 ≤ t.deltaAmpMax ∧ 0 < t.percentile ∧ 0 ≤ t.zeroPadding)
    (h3 : 3 ≤ t.nPhaseSteps) (hclk : 3 ≤ t.nClock) (hmax : t.clockDegMax ≠ 0) (hhigh : 0 < t.diamHighRes)
    (amp : Arr2 ℝ) (m : Arr2 Bool) (hm : ampthresh amp t.nBin = .ok m) (a b d : ℝ) (ha : BrightLight (amp.map fun v : ℝ => |v|) t.percentile a)
    (hb : BrightLight (t.maskNomRes.map fun v : ℝ => |v|) t.percentile b) (hd : d = t.nBeamNom * Real.sqrt (a / b))
    (r ref : Arr2 ℝ) (hr : rotateShiftDownsample Sp R t.mask 0 (d / t.diamHighRes) 0 0 (6 / 5) false = .ok r) (hp : padCrop r [t.nPadFFT, t.nPadFFT] 0 = .ok ref)
    (hl : LateralArgs d t.nPhaseSteps t.dPixel t.nPadFFT t.nFocusCrop 1) (xC yC : ℤ) (steps : List ℤ)
    (hco : coarselyLocate fuel m.bits d 3 = some (.ok ((xC, yC), steps))) (x0 y0 : ℝ)
    (hpar : Paraboloid (mismatch t.nPadFFT.toNat t.nFocusCrop.toNat (halfSample t.nPadFFT.toNat) (fun p q => at0 m.bits (p + yC) (q + xC)) (at0 ref))
        (trials t.nPhaseSteps.toNat t.dPixel 0) (trials t.nPhaseSteps.toNat t.dPixel 0) x0 y0)
    (M : Arr2 ℝ) (hM : PaddedTo t.mask t.zeroPadding M) (F : ℝ → ℕ)
    (hF : ∀ th ∈ spread t.clockDegMax t.nClock.toNat, ∃ ref, IsReference Sp R M th (d / t.diamHighRes) (xC + x0) (yC + y0) 1 amp.nr amp.nc ref ∧
      Matches (amp.map fun v : ℝ => |v|) ref t.percentile t.deltaAmpMax false (F th))
    (th0 : ℝ) (hth : (∃ N k : ℝ, th0 ∈ spread t.clockDegMax t.nClock.toNat ∧ 0 < k ∧ ∀ th ∈ spread t.clockDegMax t.nClock.toNat, F th = N - k * |th - th0|) ∨
      (th0 = 0 ∧ ∀ th ∈ spread t.clockDegMax t.nClock.toNat, F (-th) = F th)) :
    fitUnmaskedPupilOld fuel S Sp R t amp = some (.ok (xC + x0, yC + y0, th0, d)) := by
  have hlat : computeLateralOffsetsCoarse fuel S m.bits ref d t.nPhaseSteps t.dPixel t.nPadFFT t.nFocusCrop 1 = some (.ok (yC + y0, xC + x0)) := by
    unfold computeLateralOffsetsCoarse
    rw [if_neg (by push Not; exact ⟨hl.diam, hl.steps, hl.pixel, hl.pad, hl.focus, one_pos⟩), hco]
    simp only
    rw [C64_quadratic S m.bits ref d t.nPhaseSteps t.dPixel t.nPadFFT t.nFocusCrop 1 xC yC hl h3 x0 y0 (fun cx cy step htr => by
      rcases htr with ⟨rfl, rfl, rfl⟩ | ⟨h1, -⟩ | ⟨k, hk, hk', -⟩
      · exact hpar
      · omega
      · omega)]
  have hclock : computeClocking S Sp R (amp.map fun v : ℝ => |v|).toC d M t.diamHighRes (xC + x0) (yC + y0) t.clockDegMax t.nClock t.percentile
      t.deltaAmpMax false = .ok th0 := by
    have hargs : MaskClockArgs d t.diamHighRes t.nClock t.percentile t.deltaAmpMax := ⟨hl.diam, hhigh, by omega, ht.2.1.le, ht.1⟩
    have hn : (⟨amp.nr, amp.nc, fun i j => ‖((|amp.val i j| : ℝ) : ℂ)‖⟩ : Arr2 ℝ) = amp.map fun v : ℝ => |v| := by
      unfold Arr2.map
      congr 1
      funext i j
      rw [Complex.norm_real, Real.norm_eq_abs, abs_abs]
    have hF' : ∀ th ∈ spread t.clockDegMax t.nClock.toNat, ∃ ref, IsReference Sp R M th (d / t.diamHighRes) (xC + x0) (yC + y0) 1 amp.nr amp.nc ref ∧
        Matches ⟨amp.nr, amp.nc, fun i j => ‖((|amp.val i j| : ℝ) : ℂ)‖⟩ ref t.percentile t.deltaAmpMax false (F th) := by
      rw [hn]; exact hF
    rcases hth with ⟨N, k, h0, hk, htent⟩ | ⟨rfl, heven⟩
    · exact C76_recovers S Sp R (fun i j => ((|amp.val i j| : ℝ) : ℂ)) d M t.diamHighRes _ _ t.clockDegMax t.nClock
        t.percentile t.deltaAmpMax false hargs hclk hmax F hF' th0 N k h0 hk htent
    · exact C76_symmetric S Sp R (fun i j => ((|amp.val i j| : ℝ) : ℂ)) d M t.diamHighRes _ _ t.clockDegMax t.nClock
        t.percentile t.deltaAmpMax false hargs (by omega) hmax F hF' heven
  unfold fitUnmaskedPupilOld
  rw [if_neg (by push Not; exact ht), hm, res_ok_bind, (normedLight_iff _ (abs_nonneg_map _) _ _).mpr ha, res_ok_bind,
    (normedLight_iff _ (abs_nonneg_map _) _ _).mpr hb, res_ok_bind]
  simp only
  rw [← hd, hr, res_ok_bind, hp, res_ok_bind]
  simp only
  rw [hlat]
  simp only
  rw [(paddedTo_iff _ _ _).mpr hM, res_ok_bind, hclock, res_ok_bind]

end Coralign.Props
