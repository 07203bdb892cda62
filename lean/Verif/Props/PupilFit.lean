import Verif.Spec.PupilFit
import Verif.Props.FitShapes
import Verif.Props.LyotFitCases

/-!
# C81: the fit of an unmasked pupil
-/

namespace Coralign.Props

open Coralign Coralign.Spec

theorem pupilChecks_iff (t : PupilTuning) : (pupilChecks t = .ok () ↔ PupilArgs t) ∧ (¬ PupilArgs t → pupilChecks t = .error .typeError) := by
  unfold pupilChecks
  split_ifs with h
  · refine ⟨⟨fun h => (nomatch h), fun ha => ?_⟩, fun _ => rfl⟩
    obtain ⟨a1, a2, a3, a4, a5, a6, a7, a8, a9, b1, b2, b3⟩ := ha
    rcases h with h | h | h | h | h | h | h | h | h | h | h | h <;> first | omega | linarith
  · push Not at h
    obtain ⟨a1, a2, a3, a4, a5, a6, a7, a8, a9, b1, b2, b3⟩ := h
    exact ⟨⟨fun _ => ⟨a1, a2, a3, a4, a5, a6, a7, a8, a9, b1, b2, b3⟩, fun _ => rfl⟩, fun hn => absurd ⟨a1, a2, a3, a4, a5, a6, a7, a8, a9, b1, b2, b3⟩ hn⟩

theorem paddedTo_iff (mask : Arr2 ℝ) (pad : ℝ) (M : Arr2 ℝ) :
    padCrop mask [ceilEven (((max mask.nr mask.nc : ℕ) : ℝ) + pad), ceilEven (((max mask.nr mask.nc : ℕ) : ℝ) + pad)] 0 = .ok M ↔
      PaddedTo mask pad M := by
  obtain ⟨⟨h1, h2⟩, h3⟩ := C08_ceil_even (((max mask.nr mask.nc : ℕ) : ℝ) + pad)
  unfold PaddedTo
  generalize ((max mask.nr mask.nc : ℕ) : ℝ) + pad = x at *
  have lt : ((ceilEven x : ℤ) : ℝ) < x + 2 := by
    by_contra hc
    push Not at hc
    have := h3 (show ceilEven x - 2 ∈ {n : ℤ | n % 2 = 0 ∧ x ≤ n} from ⟨by omega, by push_cast; linarith⟩)
    omega
  constructor
  · exact fun h => ⟨_, h1, h2, lt, h⟩
  · rintro ⟨n, e, l, u, h⟩
    have a := h3 ⟨e, l⟩
    have b : n < ceilEven x + 2 := by
      have : (n : ℝ) < ((ceilEven x + 2 : ℤ) : ℝ) := by push_cast; linarith
      exact_mod_cast this
    obtain rfl : n = ceilEven x := by omega
    exact h

theorem paddedMask_iff (t : PupilTuning) (M : Arr2 ℝ) :
    padCrop t.mask [ceilEven (((max t.mask.nr t.mask.nc : ℕ) : ℝ) + t.zeroPadding), ceilEven (((max t.mask.nr t.mask.nc : ℕ) : ℝ) + t.zeroPadding)] 0 = .ok M ↔
      PaddedMask t M := paddedTo_iff t.mask t.zeroPadding M

/-- The steps of a successful fit. -/
theorem pupil_iff (S : Solver) (Sp : ClampSpline) (R : Rotate) (E : EllipseFinder) (te : EllipseTuning) (t : PupilTuning) (pupil : Arr2 ℝ)
    (x y c d : ℝ) :
    fitUnmaskedPupil S Sp R E te t pupil = .ok (x, y, c, d) ↔ PupilArgs t ∧ ∃ m xe ye ref M, ampthresh pupil 21 = .ok m ∧
      fitEllipse E te m.bits = .ok (d, xe, ye) ∧ PupilReference Sp R t d ref ∧
      computeLateralOffsets S m.bits ref d t.nPhaseSteps t.dPixel t.nPadFFT t.nFocusCrop t.nIterOffsets xe ye = .ok (y, x) ∧
      PaddedMask t M ∧
      computeClocking S Sp R m.bits.toC d M t.diamHighRes x y t.clockDegMax t.nClock t.percentile t.deltaAmpMax false = .ok c := by
  unfold fitUnmaskedPupil
  constructor
  · intro h
    by_cases ha : PupilArgs t
    swap
    · rw [(pupilChecks_iff t).2 ha] at h; cases h
    refine ⟨ha, ?_⟩
    rw [(pupilChecks_iff t).1.mpr ha, res_ok_bind] at h
    cases hm : ampthresh pupil 21 with
    | error e => rw [hm] at h; cases h
    | ok m =>
    rw [hm, res_ok_bind] at h
    simp only at h
    cases he : fitEllipse E te m.bits with
    | error e => rw [he] at h; cases h
    | ok e =>
    rw [he, res_ok_bind] at h
    obtain ⟨d', xe, ye⟩ := e
    simp only at h
    cases hr : rotateShiftDownsample Sp R t.mask t.rotRef (d' / t.diamHighRes) 0 0 t.padFacRef t.flipxRef with
    | error e => rw [hr] at h; cases h
    | ok r =>
    rw [hr, res_ok_bind] at h
    cases hp : padCrop r [t.nPadFFT, t.nPadFFT] 0 with
    | error e => rw [hp] at h; cases h
    | ok ref =>
    rw [hp, res_ok_bind] at h
    cases hl : computeLateralOffsets S m.bits ref d' t.nPhaseSteps t.dPixel t.nPadFFT t.nFocusCrop t.nIterOffsets xe ye with
    | error e => rw [hl] at h; cases h
    | ok o =>
    rw [hl, res_ok_bind] at h
    obtain ⟨y', x'⟩ := o
    cases hM : padCrop t.mask [ceilEven (((max t.mask.nr t.mask.nc : ℕ) : ℝ) + t.zeroPadding), ceilEven (((max t.mask.nr t.mask.nc : ℕ) : ℝ) + t.zeroPadding)] 0 with
    | error e => rw [hM] at h; cases h
    | ok M =>
    rw [hM, res_ok_bind] at h
    cases hc : computeClocking S Sp R m.bits.toC d' M t.diamHighRes x' y' t.clockDegMax t.nClock t.percentile t.deltaAmpMax false with
    | error e => rw [hc] at h; cases h
    | ok c' =>
    rw [hc, res_ok_bind] at h
    have := Except.ok.inj h
    simp only [Prod.mk.injEq] at this
    obtain ⟨rfl, rfl, rfl, rfl⟩ := this
    exact ⟨m, xe, ye, ref, M, rfl, he, ⟨r, hr, hp⟩, hl, (paddedMask_iff t M).mp hM, hc⟩
  · rintro ⟨ha, m, xe, ye, ref, M, hm, he, ⟨r, hr, hp⟩, hl, hM, hc⟩
    rw [(pupilChecks_iff t).1.mpr ha, res_ok_bind, hm, res_ok_bind]
    simp only
    rw [he, res_ok_bind]
    simp only
    rw [hr, res_ok_bind, hp, res_ok_bind, hl, res_ok_bind, (paddedMask_iff t M).mpr hM, res_ok_bind]
    simp only
    rw [hc, res_ok_bind]

/-- **C81.** Tuning parameters out of range raise `TypeError`, whatever the image. -/
theorem C81_rejects (S : Solver) (Sp : ClampSpline) (R : Rotate) (E : EllipseFinder) (te : EllipseTuning) (t : PupilTuning) (pupil : Arr2 ℝ)
    (h : ¬ PupilArgs t) : fitUnmaskedPupil S Sp R E te t pupil = .error .typeError := by
  unfold fitUnmaskedPupil
  rw [(pupilChecks_iff t).2 h]
  rfl

/-- **C81.** Neither the exposure nor a uniform background of the image matters: the answer, or the exception, is the same. -/
theorem C81_exposure (S : Solver) (Sp : ClampSpline) (R : Rotate) (E : EllipseFinder) (te : EllipseTuning) (t : PupilTuning)
    {n m : ℕ} (f : Fin n → Fin m → ℝ) (a b : ℝ) (ha : 0 < a) :
    fitUnmaskedPupil S Sp R E te t ⟨n, m, fun i j => a * f i j + b⟩ = fitUnmaskedPupil S Sp R E te t ⟨n, m, f⟩ := by
  have := C12_affine_invariant (⟨n, m, f⟩ : Arr2 ℝ) 21 a b ha
  unfold fitUnmaskedPupil
  rw [show (⟨n, m, fun i j => a * f i j + b⟩ : Arr2 ℝ) = (⟨n, m, f⟩ : Arr2 ℝ).map fun v : ℝ => a * v + b from rfl, this]

/-- **C81.** Only the set of bright pixels matters: two images with the same thresholded mask give the same answer. -/
theorem C81_bright_pixels (S : Solver) (Sp : ClampSpline) (R : Rotate) (E : EllipseFinder) (te : EllipseTuning) (t : PupilTuning)
    (a b : Arr2 ℝ) (h : ampthresh a 21 = ampthresh b 21) :
    fitUnmaskedPupil S Sp R E te t a = fitUnmaskedPupil S Sp R E te t b := by
  unfold fitUnmaskedPupil
  rw [h]

/-- **C81.** The clocking is measured against the reference mask as it was read: with the same offsets and diameter, the rotation, flip and
padding with which the tuning file says the reference is to be compared leave it unchanged. -/
theorem C81_clock_reference (S : Solver) (Sp : ClampSpline) (R : Rotate) (E : EllipseFinder) (te : EllipseTuning) (t : PupilTuning)
    (rot pad : ℝ) (flip : Bool) (pupil : Arr2 ℝ) (x y c c' d : ℝ)
    (h : fitUnmaskedPupil S Sp R E te t pupil = .ok (x, y, c, d))
    (h' : fitUnmaskedPupil S Sp R E te { t with rotRef := rot, flipxRef := flip, padFacRef := pad } pupil = .ok (x, y, c', d)) : c' = c := by
  obtain ⟨-, m, xe, ye, ref, M, hm, -, -, -, hM, hc⟩ := (pupil_iff S Sp R E te t pupil x y c d).mp h
  obtain ⟨-, m', xe', ye', ref', M', hm', -, -, -, hM', hc'⟩ := (pupil_iff S Sp R E te _ pupil x y c' d).mp h'
  obtain rfl := Except.ok.inj (hm.symm.trans hm')
  have e : M' = M := by
    have a := (paddedMask_iff t M).mpr hM
    have b := (paddedMask_iff _ M').mpr hM'
    exact Except.ok.inj (b.symm.trans a)
  subst e
  exact Except.ok.inj (hc'.symm.trans hc)

theorem npRound_add_int (v : ℝ) (k : ℤ) (h : k % 2 = 0 ∨ ∀ j : ℤ, v ≠ j + 1 / 2) : npRound (v + k) = npRound v + k := by
  by_cases hv : ∀ j : ℤ, v ≠ j + 1 / 2
  · apply npRound_eq_of_abs_lt
    have h1 := abs_sub_npRound_le v
    rw [show v + k - ((npRound v + k : ℤ) : ℝ) = v - npRound v by push_cast; ring]
    refine lt_of_le_of_ne h1 fun he => ?_
    rcases (abs_eq (by norm_num : (0 : ℝ) ≤ 1 / 2)).mp he with e | e
    · exact hv (npRound v) (by linarith)
    · exact hv (npRound v - 1) (by push_cast; linarith)
  · have hk : k % 2 = 0 := h.resolve_right hv
    have hf : ⌊v + (k : ℝ)⌋ = ⌊v⌋ + k := Int.floor_add_intCast v k
    unfold npRound
    rw [hf]
    push_cast
    rw [show v + (k : ℝ) - ((⌊v⌋ : ℝ) + k) = v - ⌊v⌋ by ring]
    have hm : (⌊v⌋ + k) % 2 = 0 ↔ ⌊v⌋ % 2 = 0 := by omega
    split_ifs <;> omega

theorem bits_centered (m : Arr2 Bool) (k l : ℤ) : m.bits.centered k l = (m.centered k l).map fun b : Bool => if b = true then (1 : ℝ) else 0 := by
  unfold Arr2.bits Arr2.centered
  rw [Arr2.px_map]
  rfl

theorem at0_bits (m : Arr2 Bool) [∀ p, Decidable (p ∈ places m)] (k l : ℤ) : at0 m.bits k l = if (k, l) ∈ places m then 1 else 0 := by
  unfold at0
  rw [bits_centered]
  have : ((k, l) ∈ places m) ↔ m.centered k l = some true := Iff.rfl
  cases hc : m.centered k l with
  | none => rw [if_neg (by rw [this, hc]; simp)]; rfl
  | some b => cases b <;> simp [this, hc]

/-- The mask of an image is a clean pupil, with a dark pixel in the padded image. -/
theorem bits_clean (a : Arr2 ℝ) (m : Arr2 Bool) (h : ampthresh a 21 = .ok m) (pf : ℝ) (hpf : 1 ≤ pf) :
    CleanPupil m.bits 1 (places m) ∧ ∃ k l, Reaches ⌈pf * ((max m.bits.nr m.bits.nc : ℕ) : ℝ)⌉ ⌈pf * ((max m.bits.nr m.bits.nc : ℕ) : ℝ)⌉ k l ∧ (k, l) ∉ places m := by
  obtain ⟨hr, hc, t, lo, hi, ⟨hlo, hhi, -⟩, h1, h2, hpx, -⟩ := C12_threshold_mask a 21 m h
  have hcen : ∀ k l : ℤ, m.centered k l = (a.centered k l).map fun v : ℝ => decide (t < v) := by
    intro k l
    unfold Arr2.centered
    rw [hpx, hr, hc]
  obtain ⟨k1, l1, hv1⟩ := (mem_pixels_centered a lo).mp hlo
  obtain ⟨k2, l2, hv2⟩ := (mem_pixels_centered a hi).mp hhi
  refine ⟨⟨one_pos, ⟨(k2, l2), ?_⟩, ?_, ?_⟩, k1, l1, ?_, ?_⟩
  · show m.centered k2 l2 = some true
    rw [hcen, hv2]
    simp [h2]
  · intro p hp
    rw [bits_centered, show m.centered p.1 p.2 = some true from hp]
    simp
  · intro p w hp hw
    rw [bits_centered] at hw
    cases hm : m.centered p.1 p.2 with
    | none => rw [hm] at hw; cases hw
    | some b =>
      rw [hm] at hw
      cases b with
      | true => exact absurd hm hp
      | false => simpa using hw.symm
  · have hin : Reaches a.nr a.nc k1 l1 := by
      have := (Arr2.px_isSome a _ _).mp (show (a.px _ _).isSome = true by unfold Arr2.centered at hv1; rw [hv1]; rfl)
      unfold Reaches
      omega
    obtain ⟨b1, b2⟩ := bits_shape m
    rw [b1, b2, hr, hc]
    have hN : ((max a.nr a.nc : ℕ) : ℤ) ≤ ⌈pf * ((max a.nr a.nc : ℕ) : ℝ)⌉ := by
      have : (((max a.nr a.nc : ℕ) : ℤ) : ℝ) ≤ (⌈pf * ((max a.nr a.nc : ℕ) : ℝ)⌉ : ℤ) := by
        refine le_trans ?_ (Int.le_ceil _)
        rw [Int.cast_natCast]
        have : (0 : ℝ) ≤ ((max a.nr a.nc : ℕ) : ℝ) := Nat.cast_nonneg _
        nlinarith
      exact_mod_cast this
    unfold Reaches at hin ⊢
    omega
  · intro hp
    have : m.centered k1 l1 = some true := hp
    rw [hcen, hv1] at this
    simp only [Option.map_some, Option.some.injEq, decide_eq_true_eq] at this
    linarith

/-- **C81.** A pupil that moves by whole pixels moves the offsets by exactly those pixels and leaves the diameter alone: for two images of any
shapes whose bright pixels are the same set moved by `(dy, dx)`, with room for the strut filling, a finder that sees only the shape, and
an ellipse centre whose rounding is not torn by the shift (`np.round` takes halves to even). -/
theorem C81_shift (S : Solver) (Sp : ClampSpline) (R : Rotate) (E : EllipseFinder) (hE : SeesShape E) (te : EllipseTuning) (hpf : 1 ≤ te.padFactor)
    (t : PupilTuning) (a b : Arr2 ℝ) (m m' : Arr2 Bool) (hm : ampthresh a 21 = .ok m) (hm' : ampthresh b 21 = .ok m') (dy dx : ℤ)
    (hs : ∀ p : ℤ × ℤ, p ∈ places m ↔ (p.1 + dy, p.2 + dx) ∈ places m')
    (hroom : Room ⌈te.padFactor * ((max a.nr a.nc : ℕ) : ℝ)⌉ te.nIter (places m))
    (hroom' : Room ⌈te.padFactor * ((max b.nr b.nc : ℕ) : ℝ)⌉ te.nIter (places m'))
    (hhalf : ∀ d xe ye : ℝ, fitEllipse E te m.bits = .ok (d, xe, ye) →
      (dx % 2 = 0 ∨ ∀ j : ℤ, xe ≠ j + 1 / 2) ∧ (dy % 2 = 0 ∨ ∀ j : ℤ, ye ≠ j + 1 / 2))
    (x y c d x' y' c' d' : ℝ) (h : fitUnmaskedPupil S Sp R E te t a = .ok (x, y, c, d)) (h' : fitUnmaskedPupil S Sp R E te t b = .ok (x', y', c', d')) :
    x' = x + dx ∧ y' = y + dy ∧ d' = d := by
  classical
  obtain ⟨ha, m₁, xe, ye, ref, M, hm₁, he, hr, hl, -, -⟩ := (pupil_iff S Sp R E te t a x y c d).mp h
  obtain ⟨-, m₂, xe', ye', ref', M', hm₂, he', hr', hl', -, -⟩ := (pupil_iff S Sp R E te t b x' y' c' d').mp h'
  obtain rfl := Except.ok.inj (hm.symm.trans hm₁)
  obtain rfl := Except.ok.inj (hm'.symm.trans hm₂)
  obtain ⟨s1, s2, -⟩ := C12_threshold_mask a 21 m hm
  obtain ⟨s3, s4, -⟩ := C12_threshold_mask b 21 m' hm'
  obtain ⟨c1, k1⟩ := bits_clean a m hm te.padFactor hpf
  obtain ⟨c2, k2⟩ := bits_clean b m' hm' te.padFactor hpf
  have e := C79_shift E hE te.nIter te.padFactor te.padFactor m.bits m'.bits 1 1 _ _ c1 c2 dy dx hs
    (by rw [(bits_shape m).1, (bits_shape m).2, s1, s2]; exact hroom) (by rw [(bits_shape m').1, (bits_shape m').2, s3, s4]; exact hroom') k1 k2
  have e' : fitEllipse E te m'.bits = (fitEllipse E te m.bits).map fun a : ℝ × ℝ × ℝ => (a.1, a.2.1 + (dx : ℝ), a.2.2 + (dy : ℝ)) := e
  rw [he, he'] at e'
  simp only [Except.map, Except.ok.injEq, Prod.mk.injEq] at e'
  obtain ⟨rfl, rfl, rfl⟩ := e'
  obtain rfl : ref' = ref := by
    obtain ⟨r, h1, h2⟩ := hr
    obtain ⟨r', h1', h2'⟩ := hr'
    obtain rfl := Except.ok.inj (h1'.symm.trans h1)
    exact Except.ok.inj (h2'.symm.trans h2)
  obtain ⟨hx, hy⟩ := hhalf _ _ _ he
  by_cases hargs : LateralArgs d' t.nPhaseSteps t.dPixel t.nPadFFT t.nFocusCrop t.nIterOffsets
  swap
  · rw [C64_rejects S _ _ _ _ _ _ _ _ _ _ hargs] at hl; cases hl
  rw [lateral_eq S _ _ _ _ _ _ _ _ _ _ hargs] at hl hl'
  have hmove : (fun p q => at0 m'.bits (p + npRound (ye + (dy : ℝ))) (q + npRound (xe + (dx : ℝ)))) =
      fun p q => at0 m.bits (p + npRound ye) (q + npRound xe) := by
    funext p q
    rw [npRound_add_int ye dy hy, npRound_add_int xe dx hx, at0_bits, at0_bits]
    have := hs (p + npRound ye, q + npRound xe)
    simp only at this
    rw [if_congr (by rw [← add_assoc, ← add_assoc, ← this]) rfl rfl]
  rw [hmove] at hl'
  cases hs : lateralLoop S (mismatch t.nPadFFT.toNat t.nFocusCrop.toNat (halfSample t.nPadFFT.toNat)
        (fun p q => at0 m.bits (p + npRound ye) (q + npRound xe)) (at0 ref')) t.nPhaseSteps.toNat t.nIterOffsets.toNat t.nIterOffsets.toNat 0 t.dPixel (0, 0) with
  | error e => rw [hs] at hl; cases hl
  | ok sol =>
    rw [hs, res_ok_bind] at hl hl'
    have a1 := Except.ok.inj hl
    have a2 := Except.ok.inj hl'
    simp only [Prod.mk.injEq] at a1 a2
    obtain ⟨rfl, rfl⟩ := a1
    obtain ⟨rfl, rfl⟩ := a2
    rw [npRound_add_int ye dy hy, npRound_add_int xe dx hx]
    push_cast
    refine ⟨by ring, by ring, rfl⟩

/-- **C81.** The fit finds the pupil.  If the ellipse is centred on a pixel, the bright pixels about it are the reference (times a factor),
the reference tells the trial displacements from none and the mismatch is a paraboloid on the grids, and the number of pixels that match
the rotated mask falls off linearly about the trial angle `th0` (or is the same for opposite angles, and `th0 = 0`), then the answer is
that pixel, `th0` and the ellipse diameter. -/
theorem C81_recovers (S : Solver) (Sp : ClampSpline) (R : Rotate) (E : EllipseFinder) (te : EllipseTuning) (t : PupilTuning) (ht : PupilArgs t)
    (h1 : 1 < t.nIterOffsets) (h3 : 3 ≤ t.nPhaseSteps) (hodd : t.nPhaseSteps % 2 = 1) (hclk : 3 ≤ t.nClock)
    (a : Arr2 ℝ) (m : Arr2 Bool) (hm : ampthresh a 21 = .ok m) (d : ℝ) (hd : 0 < d) (xC yC : ℤ)
    (he : fitEllipse E te m.bits = .ok (d, (xC : ℝ), (yC : ℝ))) (ref : Arr2 ℝ) (hr : PupilReference Sp R t d ref) (s : ℝ) (hs : 0 < s)
    (hsame : ∀ p ∈ window t.nPadFFT.toNat, ∀ q ∈ window t.nPadFFT.toNat, at0 m.bits (p + yC) (q + xC) = s * at0 ref p q)
    (hres : ∀ x ∈ trials t.nPhaseSteps.toNat t.dPixel 0, ∀ y ∈ trials t.nPhaseSteps.toNat t.dPixel 0, (x, y) ≠ (0, 0) →
      Resolves t.nPadFFT.toNat t.nFocusCrop.toNat (halfSample t.nPadFFT.toNat) (at0 ref) x y)
    (hpar : ∀ k : ℕ, (k : ℤ) + 1 < t.nIterOffsets →
      Paraboloid (mismatch t.nPadFFT.toNat t.nFocusCrop.toNat (halfSample t.nPadFFT.toNat) (fun p q => at0 m.bits (p + yC) (q + xC)) (at0 ref))
        (trials t.nPhaseSteps.toNat (t.dPixel / 2 ^ k) 0) (trials t.nPhaseSteps.toNat (t.dPixel / 2 ^ k) 0) 0 0)
    (M : Arr2 ℝ) (hM : PaddedMask t M) (F : ℝ → ℕ)
    (hF : ∀ th ∈ spread t.clockDegMax t.nClock.toNat, ∃ ref, IsReference Sp R M th (d / t.diamHighRes) xC yC 1 a.nr a.nc ref ∧
      Matches m.bits ref t.percentile t.deltaAmpMax false (F th))
    (th0 : ℝ) (hth : (∃ N k : ℝ, th0 ∈ spread t.clockDegMax t.nClock.toNat ∧ 0 < k ∧ ∀ th ∈ spread t.clockDegMax t.nClock.toNat, F th = N - k * |th - th0|) ∨
      (th0 = 0 ∧ ∀ th ∈ spread t.clockDegMax t.nClock.toNat, F (-th) = F th)) :
    fitUnmaskedPupil S Sp R E te t a = .ok ((xC : ℝ), (yC : ℝ), th0, d) := by
  rw [pupil_iff]
  obtain ⟨s1, s2, -⟩ := C12_threshold_mask a 21 m hm
  refine ⟨ht, m, xC, yC, ref, M, hm, he, hr, ?_, hM, ?_⟩
  · exact C64_rest S _ _ _ _ _ _ _ _ _ _ ⟨hd, ht.steps, ht.pixel, ht.pad, ht.focus, ht.iter⟩ h3 h1 hodd s hs hsame hres hpar
  · have hn : (⟨m.bits.nr, m.bits.nc, fun i j => ‖((m.bits.val i j : ℝ) : ℂ)‖⟩ : Arr2 ℝ) = m.bits := by
      have : ∀ i j, ‖((m.bits.val i j : ℝ) : ℂ)‖ = m.bits.val i j := by
        intro i j
        rw [Complex.norm_real, Real.norm_eq_abs, abs_of_nonneg]
        show 0 ≤ if m.val i j = true then (1 : ℝ) else 0
        split_ifs <;> norm_num
      simp only [this]
    have hF' : ∀ th ∈ spread t.clockDegMax t.nClock.toNat, ∃ ref, IsReference Sp R M th (d / t.diamHighRes) xC yC 1 m.bits.nr m.bits.nc ref ∧
        Matches ⟨m.bits.nr, m.bits.nc, fun i j => ‖((m.bits.val i j : ℝ) : ℂ)‖⟩ ref t.percentile t.deltaAmpMax false (F th) := by
      intro th hth
      obtain ⟨rf, hrf, hmt⟩ := hF th hth
      refine ⟨rf, ?_, ?_⟩
      · rw [(bits_shape m).1, (bits_shape m).2, s1, s2]; exact hrf
      · rw [hn]; exact hmt
    have ha : MaskClockArgs d t.diamHighRes t.nClock t.percentile t.deltaAmpMax := ⟨hd, ht.diam, ht.clocks, ht.percentile.le, ht.tol⟩
    rcases hth with ⟨N, k, h0, hk, htent⟩ | ⟨rfl, heven⟩
    · exact C76_recovers S Sp R (n := m.bits.nr) (m := m.bits.nc) (fun i j => ((m.bits.val i j : ℝ) : ℂ)) d M t.diamHighRes xC yC t.clockDegMax t.nClock
        t.percentile t.deltaAmpMax false ha hclk ht.clock.ne' F hF' th0 N k h0 hk htent
    · exact C76_symmetric S Sp R (n := m.bits.nr) (m := m.bits.nc) (fun i j => ((m.bits.val i j : ℝ) : ℂ)) d M t.diamHighRes xC yC t.clockDegMax t.nClock
        t.percentile t.deltaAmpMax false ha (by omega) ht.clock.ne' F hF' heven

end Coralign.Props
