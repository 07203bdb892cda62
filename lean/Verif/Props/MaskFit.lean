import Verif.Props.Clocking
import Verif.Props.LateralSelf
import Verif.Props.MaskGen
import Verif.Props.SpmShear

/-!
# C77: the lateral offset of a pupil mask
-/

namespace Coralign.Props

open Coralign Coralign.Spec

/-! ### Arrays -/

theorem at0_map (a : Arr2 ℝ) (f : ℝ → ℝ) (h0 : f 0 = 0) (p q : ℤ) : at0 (a.map f) p q = f (at0 a p q) := by
  unfold at0 Arr2.centered
  rw [Arr2.px_map]
  show ((a.px _ _).map f).getD 0 = _
  cases h : a.px ((a.nr : ℤ) / 2 + p) ((a.nc : ℤ) / 2 + q) with
  | none =>
    have : a.px (((a.map f).nr : ℤ) / 2 + p) (((a.map f).nc : ℤ) / 2 + q) = none := h
    rw [this]
    simp [h0]
  | some v =>
    have : a.px (((a.map f).nr : ℤ) / 2 + p) (((a.map f).nc : ℤ) / 2 + q) = some v := h
    rw [this]
    rfl

theorem at0_zext (a : Arr2 ℝ) (p q : ℤ) : at0 a p q = a.zext ((a.nr : ℤ) / 2 + p) ((a.nc : ℤ) / 2 + q) := rfl

theorem mulZ_zext (a b : Arr2 ℝ) (i j : ℤ) : (a.mulZ b).zext i j = a.zext i j * b.zext i j := by
  by_cases h : (0 ≤ i ∧ i < a.nr) ∧ (0 ≤ j ∧ j < a.nc)
  · unfold Arr2.zext
    have h' : (0 ≤ i ∧ i < (a.mulZ b).nr) ∧ (0 ≤ j ∧ j < (a.mulZ b).nc) := h
    rw [Arr2.px_of_inB _ h', Arr2.px_of_inB a h]
    simp only [Option.getD_some]
    show _ * b.zext ((i.toNat : ℕ) : ℤ) ((j.toNat : ℕ) : ℤ) = _
    rw [Int.toNat_of_nonneg h.1.1, Int.toNat_of_nonneg h.2.1]
    rfl
  · unfold Arr2.zext
    have h' : ¬ ((0 ≤ i ∧ i < (a.mulZ b).nr) ∧ (0 ≤ j ∧ j < (a.mulZ b).nc)) := h
    rw [Arr2.px_of_not_inB _ h', Arr2.px_of_not_inB a h]
    simp

theorem at0_mulZ (a b : Arr2 ℝ) (hr : b.nr = a.nr) (hc : b.nc = a.nc) (p q : ℤ) : at0 (a.mulZ b) p q = at0 a p q * at0 b p q := by
  rw [at0_zext, at0_zext, at0_zext, mulZ_zext, hr, hc]
  rfl

theorem at0_imageToAmp (img : Arr2 ℝ) (f : ℝ) (p q : ℤ) : at0 (imageToAmp img f) p q = Real.sqrt (max (at0 img p q / f) 0) := by
  unfold imageToAmp
  rw [at0_map _ _ (by simp)]
  congr 1
  split_ifs with h
  · rw [max_eq_right h.le]
  · rw [max_eq_left (not_lt.mp h)]

theorem imageToAmp_scale (img : Arr2 ℝ) (f c : ℝ) (hc : c ≠ 0) : imageToAmp (img.map fun v : ℝ => c * v) (c * f) = imageToAmp img f := by
  unfold imageToAmp Arr2.map
  simp only [mul_div_mul_left _ _ hc]

/-- The pixels of a square array from those of its centred window. -/
theorem ext_at0 (n : ℕ) (a b : Arr2 ℝ) (ha : a.nr = n ∧ a.nc = n) (hb : b.nr = n ∧ b.nc = n)
    (h : ∀ p ∈ window n, ∀ q ∈ window n, at0 a p q = at0 b p q) : a = b := by
  refine ext_centered (ha.1.trans hb.1.symm) (ha.2.trans hb.2.symm) fun k l hR => ?_
  unfold Reaches at hR
  have hk : k ∈ window n := by rw [mem_window]; omega
  have hl : l ∈ window n := by rw [mem_window]; omega
  have := h k hk l hl
  unfold at0 Arr2.centered at this
  unfold Arr2.centered
  rw [Arr2.px_of_inB a (by omega), Arr2.px_of_inB b (by omega)] at this ⊢
  simpa using this

/-! ### Exposure and bad input -/

/-- **C77.** The answer does not depend on the exposure of either image. -/
theorem C77_exposure (S : Solver) (Sp : ClampSpline) (R : Rotate) (t : MaskTuning) {n m n' m' : ℕ} (U : Fin n → Fin m → ℝ)
    (M : Fin n' → Fin m' → ℝ) (c c' : ℝ) (hc : 0 < c) (hc' : 0 < c') (gain xP yP diam mag clock : ℝ) :
    fitPupilMaskOffsets S Sp R t ⟨n, m, fun i j => c * U i j⟩ ⟨n', m', fun i j => c' * M i j⟩ gain xP yP diam mag clock =
      fitPupilMaskOffsets S Sp R t ⟨n, m, U⟩ ⟨n', m', M⟩ gain xP yP diam mag clock := by
  unfold fitPupilMaskOffsets
  have e1 := normFactorOf_scale ⟨n, m, U⟩ ⟨n, m, U⟩ t.percentile c c hc hc
  have e2 := normFactorOf_scale ⟨n', m', M⟩ ⟨n', m', M⟩ t.percentile c' c' hc' hc'
  have a1 := fun f => imageToAmp_scale ⟨n, m, U⟩ f c hc.ne'
  have a2 := fun f => imageToAmp_scale ⟨n', m', M⟩ f c' hc'.ne'
  unfold Arr2.map at e1 e2 a1 a2
  simp only at e1 e2 a1 a2 ⊢
  split_ifs
  · rfl
  · rfl
  · rw [e1, e2]
    cases normFactorOf ⟨n, m, U⟩ ⟨n, m, U⟩ t.percentile with
    | error e => rfl
    | ok fu =>
      cases normFactorOf ⟨n', m', M⟩ ⟨n', m', M⟩ t.percentile with
      | error e => rfl
      | ok fm =>
        show maskOffsetLoop S Sp R t (imageToAmp ⟨n, m, fun i j => c * U i j⟩ (c * fu)) (imageToAmp ⟨n', m', fun i j => c' * M i j⟩ (c' * fm)) _ _ _ _ _ _ _ _ = _
        rw [a1, a2]
        rfl

/-- **C77.** Images of different shapes raise `ValueError`; a gain, diameter or magnification which is not positive raises `TypeError`. -/
theorem C77_rejects (S : Solver) (Sp : ClampSpline) (R : Rotate) (Sh : Shift) (t : MaskTuning) (U M : Arr2 ℝ) (gain xP yP diam mag clock xS yS : ℝ) :
    ((U.nr ≠ M.nr ∨ U.nc ≠ M.nc) → fitPupilMaskOffsets S Sp R t U M gain xP yP diam mag clock = .error .valueError ∧
      fitShapedPupilMaskOffsets S Sp R Sh t U M gain xP yP diam mag clock xS yS = .error .valueError) ∧
    (U.nr = M.nr → U.nc = M.nc → (gain ≤ 0 ∨ diam ≤ 0 ∨ mag ≤ 0) →
      fitPupilMaskOffsets S Sp R t U M gain xP yP diam mag clock = .error .typeError ∧
      fitShapedPupilMaskOffsets S Sp R Sh t U M gain xP yP diam mag clock xS yS = .error .typeError) := by
  unfold fitPupilMaskOffsets fitShapedPupilMaskOffsets
  constructor
  · intro h
    rw [if_pos h, if_pos h]
    exact ⟨rfl, rfl⟩
  · intro h1 h2 h3
    have hs : ¬ (U.nr ≠ M.nr ∨ U.nc ≠ M.nc) := by rintro (h | h); exacts [h h1, h h2]
    constructor
    · rw [if_neg hs, if_pos h3]
    · rw [if_neg hs, if_pos h3]

/-! ### The iteration -/

/-- One round of the loop. -/
theorem maskOffsetLoop_step (S : Solver) (Sp : ClampSpline) (R : Rotate) (t : MaskTuning) (U M : Arr2 ℝ) (gain xP yP diam mag clock : ℝ)
    (hr : M.nr = U.nr) (hc : M.nc = U.nc) (hn : 0 < t.nPadFFT) (fu' fm' : ℝ) (left : ℕ) (x y : ℝ) (ref a b : Arr2 ℝ)
    (h3 : IsReference Sp R t.mask clock (diam * mag / t.diamHighRes) (x + xP) (y + yP) (6 / 5) U.nr U.nc ref)
    (ha1 : a.nr = t.nPadFFT.toNat) (ha2 : a.nc = t.nPadFFT.toNat) (ha : ∀ p ∈ window t.nPadFFT.toNat, ∀ q ∈ window t.nPadFFT.toNat,
      at0 a p q = Real.sqrt (max (at0 M (p + npRound yP) (q + npRound xP) / fm') 0))
    (hb1 : b.nr = t.nPadFFT.toNat) (hb2 : b.nc = t.nPadFFT.toNat) (hb : ∀ p ∈ window t.nPadFFT.toNat, ∀ q ∈ window t.nPadFFT.toNat,
      at0 b p q = Real.sqrt (max (at0 U (p + npRound yP) (q + npRound xP) / fu') 0) * at0 ref (p + npRound yP) (q + npRound xP)) :
    maskOffsetLoop S Sp R t (imageToAmp U fu') (imageToAmp M fm') gain xP yP diam mag clock (left + 1) (x, y) = (do
      let d ← computeLateralOffsets S a b diam t.nPhaseSteps t.dPixel t.nPadFFT t.nFocusCrop t.nIterInnerLoop 0 0
      maskOffsetLoop S Sp R t (imageToAmp U fu') (imageToAmp M fm') gain xP yP diam mag clock left (x + gain * d.2, y + gain * d.1) : Res (ℝ × ℝ)) := by
  obtain ⟨n, hn'⟩ := Int.eq_ofNat_of_zero_le hn.le
  have hnp : 0 < n := by omega
  rw [hn', Int.toNat_natCast] at ha ha1 ha2 hb hb1 hb2
  obtain ⟨d, -, hpc⟩ := id h3
  obtain ⟨rr, rc⟩ := padCrop_shape_of_ok hpc
  conv_lhs => unfold maskOffsetLoop
  have e0 : referenceOn Sp R t.mask clock (diam * mag / t.diamHighRes) (x + xP) (y + yP) (6 / 5) (imageToAmp U fu').nr (imageToAmp U fu').nc = .ok ref :=
    (referenceOn_iff _ _ _ _ _ _ _ _ _ _ _).mpr h3
  simp only
  rw [e0, res_ok_bind]
  have eM := recentre_at0 (imageToAmp M fm') n hnp (npRound yP) (npRound xP)
  have eU := recentre_at0 ((imageToAmp U fu').mulZ ref) n hnp (npRound yP) (npRound xP)
  have s1 : (imageToAmp M fm').nr = (imageToAmp U fu').nr := hr
  have s2 : (imageToAmp M fm').nc = (imageToAmp U fu').nc := hc
  have s3 : ((imageToAmp U fu').mulZ ref).nr = (imageToAmp U fu').nr := rfl
  have s4 : ((imageToAmp U fu').mulZ ref).nc = (imageToAmp U fu').nc := rfl
  rw [s1, s2] at eM
  rw [s3, s4] at eU
  have key : ∀ (f : ℤ → ℤ → ℝ) (p q : ℤ), p ∈ window n → q ∈ window n →
      at0 (⟨n, n, fun i j => f ((i : ℕ) - (n : ℤ) / 2) ((j : ℕ) - (n : ℤ) / 2)⟩ : Arr2 ℝ) p q = f p q := by
    intro f p q hp hq
    rw [mem_window] at hp hq
    unfold at0 Arr2.centered
    have := Arr2.px_of_inB (⟨n, n, fun i j => f ((i : ℕ) - (n : ℤ) / 2) ((j : ℕ) - (n : ℤ) / 2)⟩ : Arr2 ℝ) (i := (n : ℤ) / 2 + p) (j := (n : ℤ) / 2 + q) ⟨hp, hq⟩
    refine (congrArg (fun o => o.getD 0) this).trans ?_
    simp only [Option.getD_some]
    rw [Int.toNat_of_nonneg hp.1, Int.toNat_of_nonneg hq.1]
    congr 1 <;> ring
  have ea : (⟨n, n, fun i j => at0 (imageToAmp M fm') (((i : ℕ) - (n : ℤ) / 2) + npRound yP) (((j : ℕ) - (n : ℤ) / 2) + npRound xP)⟩ : Arr2 ℝ) = a := by
    refine ext_at0 n _ _ ⟨rfl, rfl⟩ ⟨ha1, ha2⟩ fun p hp q hq => ?_
    rw [key (fun u v => at0 (imageToAmp M fm') (u + npRound yP) (v + npRound xP)) p q hp hq, at0_imageToAmp, ha p hp q hq]
  have eb : (⟨n, n, fun i j => at0 ((imageToAmp U fu').mulZ ref) (((i : ℕ) - (n : ℤ) / 2) + npRound yP) (((j : ℕ) - (n : ℤ) / 2) + npRound xP)⟩ : Arr2 ℝ) = b := by
    refine ext_at0 n _ _ ⟨rfl, rfl⟩ ⟨hb1, hb2⟩ fun p hp q hq => ?_
    rw [key (fun u v => at0 ((imageToAmp U fu').mulZ ref) (u + npRound yP) (v + npRound xP)) p q hp hq,
      at0_mulZ (imageToAmp U fu') ref rr rc, at0_imageToAmp, hb p hp q hq]
  rw [ea] at eM
  rw [eb] at eU
  rw [hn', eM, res_ok_bind, eU, res_ok_bind]

theorem maskOffsetLoop_round (S : Solver) (Sp : ClampSpline) (R : Rotate) (t : MaskTuning) (U M : Arr2 ℝ) (gain xP yP diam mag clock : ℝ)
    (hr : M.nr = U.nr) (hc : M.nc = U.nc) (hn : 0 < t.nPadFFT) (fu fm : ℝ) (hfu : NormBy U U t.percentile fu) (hfm : NormBy M M t.percentile fm)
    (left : ℕ) (x y dx dy : ℝ) (h : Displaced S Sp R t U M xP yP diam mag clock x y dx dy) :
    maskOffsetLoop S Sp R t (imageToAmp U fu) (imageToAmp M fm) gain xP yP diam mag clock (left + 1) (x, y) =
      maskOffsetLoop S Sp R t (imageToAmp U fu) (imageToAmp M fm) gain xP yP diam mag clock left (x + gain * dx, y + gain * dy) := by
  obtain ⟨fu', fm', ref, a, b, h1, h2, h3, ⟨ha1, ha2, ha⟩, ⟨hb1, hb2, hb⟩, hl⟩ := h
  obtain rfl : fu' = fu := Except.ok.inj (((normFactorOf_iff _ _ _ _).mpr h1).symm.trans ((normFactorOf_iff _ _ _ _).mpr hfu))
  obtain rfl : fm' = fm := Except.ok.inj (((normFactorOf_iff _ _ _ _).mpr h2).symm.trans ((normFactorOf_iff _ _ _ _).mpr hfm))
  rw [maskOffsetLoop_step S Sp R t U M gain xP yP diam mag clock hr hc hn fu' fm' left x y ref a b h3 ha1 ha2 ha hb1 hb2 hb, hl, res_ok_bind]

/-- **C77.** The answer is the sum of the displacements found, each multiplied by the gain: it is the last of any sequence of estimates that
starts at zero and moves in each round by the gain times the displacement found there. -/
theorem C77_rounds (S : Solver) (Sp : ClampSpline) (R : Rotate) (t : MaskTuning) (U M : Arr2 ℝ) (gain xP yP diam mag clock : ℝ)
    (hr : U.nr = M.nr) (hc : U.nc = M.nc) (hg : 0 < gain) (hd : 0 < diam) (hm : 0 < mag) (hn : 0 < t.nPadFFT) (N : ℕ) (hN : t.nIterOuterLoop = N)
    (hU : ∃ fu, NormBy U U t.percentile fu) (hM : ∃ fm, NormBy M M t.percentile fm) (x y dx dy : ℕ → ℝ) (hx0 : x 0 = 0) (hy0 : y 0 = 0)
    (hD : ∀ k < N, Displaced S Sp R t U M xP yP diam mag clock (x k) (y k) (dx k) (dy k))
    (hx : ∀ k < N, x (k + 1) = x k + gain * dx k) (hy : ∀ k < N, y (k + 1) = y k + gain * dy k) :
    fitPupilMaskOffsets S Sp R t U M gain xP yP diam mag clock = .ok (x N, y N) := by
  obtain ⟨fu, hfu⟩ := hU
  obtain ⟨fm, hfm⟩ := hM
  unfold fitPupilMaskOffsets
  rw [if_neg (by rintro (h | h); exacts [h hr, h hc]), if_neg (by rintro (h | h | h) <;> linarith),
    (normFactorOf_iff _ _ _ _).mpr hfu, res_ok_bind, (normFactorOf_iff _ _ _ _).mpr hfm, res_ok_bind, hN, Int.toNat_natCast]
  have key : ∀ left k : ℕ, k + left = N → maskOffsetLoop S Sp R t (imageToAmp U fu) (imageToAmp M fm) gain xP yP diam mag clock left (x k, y k) =
      .ok (x N, y N) := by
    intro left
    induction left with
    | zero => intro k hk; rw [← hk]; rfl
    | succ left ih =>
      intro k hk
      rw [maskOffsetLoop_round S Sp R t U M gain xP yP diam mag clock hr.symm hc.symm hn fu fm hfu hfm left _ _ _ _ (hD k (by omega)),
        ← hx k (by omega), ← hy k (by omega)]
      exact ih (k + 1) (by omega)
  have := key N 0 (by omega)
  rwa [hx0, hy0] at this

/-- **C77.** If each round finds a fixed fraction `kap` of what is still missing from the true offset `(tx, ty)`, what is missing after `N`
rounds is the fraction `(1 - gain * kap) ^ N` of the true offset. -/
theorem C77_gain (S : Solver) (Sp : ClampSpline) (R : Rotate) (t : MaskTuning) (U M : Arr2 ℝ) (gain xP yP diam mag clock : ℝ)
    (hr : U.nr = M.nr) (hc : U.nc = M.nc) (hg : 0 < gain) (hd : 0 < diam) (hm : 0 < mag) (hn : 0 < t.nPadFFT) (N : ℕ) (hN : t.nIterOuterLoop = N)
    (hU : ∃ fu, NormBy U U t.percentile fu) (hM : ∃ fm, NormBy M M t.percentile fm) (kap tx ty : ℝ)
    (hD : ∀ k < N, Displaced S Sp R t U M xP yP diam mag clock (tx - (1 - gain * kap) ^ k * tx) (ty - (1 - gain * kap) ^ k * ty)
      (kap * ((1 - gain * kap) ^ k * tx)) (kap * ((1 - gain * kap) ^ k * ty))) :
    fitPupilMaskOffsets S Sp R t U M gain xP yP diam mag clock =
      .ok (tx - (1 - gain * kap) ^ N * tx, ty - (1 - gain * kap) ^ N * ty) :=
  C77_rounds S Sp R t U M gain xP yP diam mag clock hr hc hg hd hm hn N hN hU hM (fun k => tx - (1 - gain * kap) ^ k * tx)
    (fun k => ty - (1 - gain * kap) ^ k * ty) _ _ (by simp) (by simp) hD (fun k _ => by simp only [pow_succ]; ring) (fun k _ => by simp only [pow_succ]; ring)

/-- **C77.** With the gain matched to the fraction found, one round is enough and further rounds change nothing: the answer is the true
offset if the first comparison, at zero, finds that fraction of it and those at the true offset find nothing. -/
theorem C77_matched_gain (S : Solver) (Sp : ClampSpline) (R : Rotate) (t : MaskTuning) (U M : Arr2 ℝ) (gain xP yP diam mag clock : ℝ)
    (hr : U.nr = M.nr) (hc : U.nc = M.nc) (hg : 0 < gain) (hd : 0 < diam) (hm : 0 < mag) (hn : 0 < t.nPadFFT) (hN : 1 ≤ t.nIterOuterLoop)
    (tx ty : ℝ) (h0 : Displaced S Sp R t U M xP yP diam mag clock 0 0 (tx / gain) (ty / gain))
    (h1 : 2 ≤ t.nIterOuterLoop → Displaced S Sp R t U M xP yP diam mag clock tx ty 0 0) :
    fitPupilMaskOffsets S Sp R t U M gain xP yP diam mag clock = .ok (tx, ty) := by
  obtain ⟨N, hN'⟩ := Int.eq_ofNat_of_zero_le (show 0 ≤ t.nIterOuterLoop by omega)
  have hU : ∃ fu, NormBy U U t.percentile fu := by obtain ⟨fu, -, -, -, -, h, -⟩ := id h0; exact ⟨fu, h⟩
  have hM : ∃ fm, NormBy M M t.percentile fm := by obtain ⟨-, fm, -, -, -, -, h, -⟩ := id h0; exact ⟨fm, h⟩
  have := C77_rounds S Sp R t U M gain xP yP diam mag clock hr hc hg hd hm hn N hN' hU hM (fun k => if k = 0 then 0 else tx)
    (fun k => if k = 0 then 0 else ty) (fun k => if k = 0 then tx / gain else 0) (fun k => if k = 0 then ty / gain else 0) (by simp) (by simp)
    (fun k hk => by
      by_cases hk0 : k = 0
      · simp only [hk0, if_true]; exact h0
      · simp only [hk0, if_false]; exact h1 (by omega))
    (fun k _ => by by_cases hk0 : k = 0 <;> simp [hk0]; field_simp)
    (fun k _ => by by_cases hk0 : k = 0 <;> simp [hk0]; field_simp)
  rw [this]
  simp only [show N ≠ 0 by omega, if_false]

/-! ### A mask which is where it should be -/

/-- The pixels used for the normalisation are brighter than the darkest pixel. -/
theorem normBy_pos (img : Arr2 ℝ) (h0 : ∀ i j, 0 ≤ img.val i j) (p f : ℝ) (h : NormBy img img p f) : 0 < f := by
  obtain ⟨m, hm, hf⟩ := h
  obtain ⟨hr, hc, th, lo, hi, he, hlo, -, hpx, -⟩ := C12_threshold_mask img 21 m hm
  have hth : 0 < th := by
    obtain ⟨i, j, hv⟩ := (mem_pixels_val img lo).mp he.1
    have := h0 i j
    linarith
  have hargs := ((C53_rejects _ _ _).1.mp ⟨f, hf⟩).2
  obtain ⟨n, k, g⟩ := img
  obtain ⟨n', k', b⟩ := m
  simp only at hr hc
  subst hr
  subst hc
  obtain ⟨r, hr, ⟨i, j, hb, hle⟩, -⟩ := C53_range g (fun i j => if b i j = true then (1 : ℝ) else 0) p hargs
  obtain rfl : r = f := Except.ok.inj (hr.symm.trans hf)
  have hbt : b i j = true := by
    by_contra hb'
    simp [hb'] at hb
  have := hpx (i : ℕ) (j : ℕ)
  rw [Arr2.px_val (a := ⟨n', k', b⟩) i j, Arr2.px_val (a := ⟨n', k', g⟩) i j] at this
  simp only [Option.map_some, Option.some.injEq] at this
  rw [hbt] at this
  have := of_decide_eq_true this.symm
  linarith

/-- The centred window of a function of the centred coordinates. -/
theorem at0_window (n : ℕ) (f : ℤ → ℤ → ℝ) (p q : ℤ) (hp : p ∈ window n) (hq : q ∈ window n) :
    at0 (⟨n, n, fun i j => f ((i : ℕ) - (n : ℤ) / 2) ((j : ℕ) - (n : ℤ) / 2)⟩ : Arr2 ℝ) p q = f p q := by
  rw [mem_window] at hp hq
  unfold at0 Arr2.centered
  have := Arr2.px_of_inB (⟨n, n, fun i j => f ((i : ℕ) - (n : ℤ) / 2) ((j : ℕ) - (n : ℤ) / 2)⟩ : Arr2 ℝ) (i := (n : ℤ) / 2 + p) (j := (n : ℤ) / 2 + q) ⟨hp, hq⟩
  refine (congrArg (fun o => o.getD 0) this).trans ?_
  simp only [Option.getD_some]
  rw [Int.toNat_of_nonneg hp.1, Int.toNat_of_nonneg hq.1]
  congr 1 <;> ring

theorem at0_of_val {a : Arr2 ℝ} {P : ℝ → Prop} (h0 : P 0) (h : ∀ i j, P (a.val i j)) (p q : ℤ) : P (at0 a p q) := by
  unfold at0 Arr2.centered
  by_cases hin : (0 ≤ (a.nr : ℤ) / 2 + p ∧ (a.nr : ℤ) / 2 + p < a.nr) ∧ (0 ≤ (a.nc : ℤ) / 2 + q ∧ (a.nc : ℤ) / 2 + q < a.nc)
  · rw [Arr2.px_of_inB a hin]
    exact h _ _
  · rw [Arr2.px_of_not_inB a hin]
    exact h0

theorem val_of_at0 {a : Arr2 ℝ} {P : ℝ → Prop} (h : ∀ p q, P (at0 a p q)) (i : Fin a.nr) (j : Fin a.nc) : P (a.val i j) := by
  have := h ((i : ℕ) - (a.nr : ℤ) / 2) ((j : ℕ) - (a.nc : ℤ) / 2)
  unfold at0 Arr2.centered at this
  rw [show (a.nr : ℤ) / 2 + ((i : ℕ) - (a.nr : ℤ) / 2) = (i : ℕ) by ring, show (a.nc : ℤ) / 2 + ((j : ℕ) - (a.nc : ℤ) / 2) = (j : ℕ) by ring,
    Arr2.px_val] at this
  exact this

/-- **C77 (fixed point).**  If the masked image is, up to exposure, the unmasked image seen through the reference mask at the assumed place
(intensities multiply by the square of the mask), the answer is zero for every gain and every number of rounds, or the paraboloid fit gives up.
A search of several inner iterations starts from the best grid point and needs the hypotheses of `C64_fixed_point`. -/
theorem C77_fixed_point (S : Solver) (Sp : ClampSpline) (R : Rotate) (t : MaskTuning) (U M : Arr2 ℝ) (gain xP yP diam mag clock : ℝ)
    (hr : U.nr = M.nr) (hc : U.nc = M.nc) (hg : 0 < gain) (hmag : 0 < mag)
    (hl : LateralArgs diam t.nPhaseSteps t.dPixel t.nPadFFT t.nFocusCrop t.nIterInnerLoop) (h3 : 3 ≤ t.nPhaseSteps) (fu fm k : ℝ)
    (hfu : NormBy U U t.percentile fu) (hfm : NormBy M M t.percentile fm) (hfu0 : 0 < fu) (hk : 0 < k) (ref : Arr2 ℝ)
    (href : IsReference Sp R t.mask clock (diam * mag / t.diamHighRes) xP yP (6 / 5) U.nr U.nc ref) (hpos : ∀ i j, 0 ≤ ref.val i j)
    (hM : ∀ p q, at0 M p q = k * max (at0 U p q) 0 * at0 ref p q ^ 2)
    (h1 : 1 < t.nIterInnerLoop → t.nPhaseSteps % 2 = 1 ∧ ∀ x ∈ trials t.nPhaseSteps.toNat t.dPixel 0, ∀ y ∈ trials t.nPhaseSteps.toNat t.dPixel 0,
      (x, y) ≠ (0, 0) → Resolves t.nPadFFT.toNat t.nFocusCrop.toNat (halfSample t.nPadFFT.toNat)
        (fun p q => Real.sqrt (max (at0 U (p + npRound yP) (q + npRound xP) / fu) 0) * at0 ref (p + npRound yP) (q + npRound xP)) x y) :
    fitPupilMaskOffsets S Sp R t U M gain xP yP diam mag clock = .ok (0, 0) ∨
      fitPupilMaskOffsets S Sp R t U M gain xP yP diam mag clock = .error .quadraticException := by
  have hn := hl.pad
  obtain ⟨n, hn'⟩ := Int.eq_ofNat_of_zero_le hn.le
  have hM0 : ∀ i j, 0 ≤ M.val i j := val_of_at0 (P := fun v => 0 ≤ v) fun p q => by
    rw [hM]
    have := le_max_right (at0 U p q) 0
    positivity
  have hfm0 := normBy_pos M hM0 _ _ hfm
  have href0 : ∀ p q, 0 ≤ at0 ref p q := at0_of_val le_rfl hpos
  -- the two windows
  let b : Arr2 ℝ := ⟨n, n, fun i j => Real.sqrt (max (at0 U (((i : ℕ) - (n : ℤ) / 2) + npRound yP) (((j : ℕ) - (n : ℤ) / 2) + npRound xP) / fu) 0) *
    at0 ref (((i : ℕ) - (n : ℤ) / 2) + npRound yP) (((j : ℕ) - (n : ℤ) / 2) + npRound xP)⟩
  let a : Arr2 ℝ := ⟨n, n, fun i j => Real.sqrt (max (at0 M (((i : ℕ) - (n : ℤ) / 2) + npRound yP) (((j : ℕ) - (n : ℤ) / 2) + npRound xP) / fm) 0)⟩
  have hb : ∀ p ∈ window n, ∀ q ∈ window n, at0 b p q =
      Real.sqrt (max (at0 U (p + npRound yP) (q + npRound xP) / fu) 0) * at0 ref (p + npRound yP) (q + npRound xP) := fun p hp q hq =>
    at0_window n (fun p q => Real.sqrt (max (at0 U (p + npRound yP) (q + npRound xP) / fu) 0) * at0 ref (p + npRound yP) (q + npRound xP)) p q hp hq
  have ha : ∀ p ∈ window n, ∀ q ∈ window n, at0 a p q = Real.sqrt (max (at0 M (p + npRound yP) (q + npRound xP) / fm) 0) := fun p hp q hq =>
    at0_window n (fun p q => Real.sqrt (max (at0 M (p + npRound yP) (q + npRound xP) / fm) 0)) p q hp hq
  have hab : ∀ p ∈ window n, ∀ q ∈ window n, at0 a (p + 0) (q + 0) = Real.sqrt (k * fu / fm) * at0 b p q := by
    intro p hp q hq
    rw [add_zero, add_zero, ha p hp q hq, hb p hp q hq, hM]
    have hr0 := href0 (p + npRound yP) (q + npRound xP)
    generalize at0 ref (p + npRound yP) (q + npRound xP) = r at hr0 ⊢
    generalize at0 U (p + npRound yP) (q + npRound xP) = u
    have hu : max (u / fu) 0 = max u 0 / fu := by
      rw [← max_div_div_right hfu0.le, zero_div]
    have hu0 := le_max_right u 0
    rw [hu, max_eq_left (by positivity), ← mul_assoc, ← Real.sqrt_mul (by positivity)]
    conv_rhs => rw [← Real.sqrt_sq hr0]
    rw [← Real.sqrt_mul (by positivity)]
    congr 1
    field_simp
  have hlat := C64_fixed_point S a b diam t.nPhaseSteps t.dPixel t.nPadFFT t.nFocusCrop t.nIterInnerLoop 0 0 hl h3 (Real.sqrt (k * fu / fm))
    (Real.sqrt_pos.mpr (by positivity)) (by rw [hn']; exact hab) (fun hI => by
      obtain ⟨ho, hR⟩ := h1 hI
      refine ⟨ho, fun x hx y hy hxy => ?_⟩
      obtain ⟨u, hu, v, hv, hf, he⟩ := hR x hx y hy hxy
      refine ⟨u, hu, v, hv, ?_, he⟩
      rw [fieldAt_congr _ (at0 b) _ (by rw [hn']; exact hb)]
      exact hf)
  rw [Int.cast_zero] at hlat
  have key : ∀ left : ℕ, maskOffsetLoop S Sp R t (imageToAmp U fu) (imageToAmp M fm) gain xP yP diam mag clock left (0, 0) = .ok (0, 0) ∨
      maskOffsetLoop S Sp R t (imageToAmp U fu) (imageToAmp M fm) gain xP yP diam mag clock left (0, 0) = .error .quadraticException := by
    intro left
    induction left with
    | zero => left; rfl
    | succ left ih =>
      rw [maskOffsetLoop_step S Sp R t U M gain xP yP diam mag clock hr.symm hc.symm hn fu fm left 0 0 ref a b (by rwa [zero_add, zero_add])
        (by rw [hn']; rfl) (by rw [hn']; rfl) (by rw [hn']; exact ha) (by rw [hn']; rfl) (by rw [hn']; rfl) (by rw [hn']; exact hb)]
      rcases hlat with e | e
      · rw [e, res_ok_bind]
        simpa using ih
      · right
        rw [e]
        rfl
  unfold fitPupilMaskOffsets
  rw [if_neg (by rintro (h | h); exacts [h hr, h hc]), if_neg (by have := hl.diam; rintro (h | h | h) <;> linarith),
    (normFactorOf_iff _ _ _ _).mpr hfu, res_ok_bind, (normFactorOf_iff _ _ _ _).mpr hfm, res_ok_bind]
  exact key _

/-! ### The shear of a shaped pupil -/

/-- **C77.** With a shear of whole pixels the shaped-pupil fit is the plain fit with the unmasked image moved `sx` pixels to larger columns
and `sy` to larger rows, and the pupil taken to have moved with it. -/
theorem C77_whole_shear (S : Solver) (Sp : ClampSpline) (R : Rotate) (Sh : Shift) (t : MaskTuning) (U U' M : Arr2 ℝ) (sx sy : ℤ)
    (gain xP yP diam mag clock : ℝ) (hr : U'.nr = U.nr) (hc : U'.nc = U.nc)
    (hU : ∀ i j : ℤ, 0 ≤ i → i < U.nr → 0 ≤ j → j < U.nc → U'.px i j = some ((U.px (i - sy) (j - sx)).getD 0)) :
    fitShapedPupilMaskOffsets S Sp R Sh t U M gain xP yP diam mag clock sx sy =
      fitPupilMaskOffsets S Sp R t U' M gain (xP + sx) (yP + sy) diam mag clock := by
  have e : Sh.run sy sx U = U' := by
    refine Arr2.ext_px ((Sh.nr _ _ _).trans hr.symm) ((Sh.nc _ _ _).trans hc.symm) fun i j h1 h2 h3 h4 => ?_
    have e1 : ((Sh.run sy sx U).nr : ℤ) = U.nr := by rw [Sh.nr]
    have e2 : ((Sh.run sy sx U).nc : ℤ) = U.nc := by rw [Sh.nc]
    rw [Sh.whole sy sx U i j (by omega), hU i j h1 (by omega) h3 (by omega)]
  unfold fitShapedPupilMaskOffsets
  rw [e]
  by_cases hs : U.nr ≠ M.nr ∨ U.nc ≠ M.nc
  · rw [if_pos hs]
    unfold fitPupilMaskOffsets
    rw [if_pos (by rwa [hr, hc])]
  · rw [if_neg hs]
    by_cases hg : gain ≤ 0 ∨ diam ≤ 0 ∨ mag ≤ 0
    · rw [if_pos hg]
      unfold fitPupilMaskOffsets
      rw [if_neg (by rwa [hr, hc]), if_pos hg]
    · rw [if_neg hg]

/-- **C77.** Without shear the shaped-pupil fit is the plain fit. -/
theorem C77_no_shear (S : Solver) (Sp : ClampSpline) (R : Rotate) (Sh : Shift) (t : MaskTuning) (U M : Arr2 ℝ) (gain xP yP diam mag clock : ℝ) :
    fitShapedPupilMaskOffsets S Sp R Sh t U M gain xP yP diam mag clock 0 0 = fitPupilMaskOffsets S Sp R t U M gain xP yP diam mag clock := by
  have := C77_whole_shear S Sp R Sh t U U M 0 0 gain xP yP diam mag clock rfl rfl fun i j h1 h2 h3 h4 => by
    rw [sub_zero, sub_zero, Arr2.px_of_inB U ⟨⟨h1, h2⟩, ⟨h3, h4⟩⟩]
    rfl
  simpa using this

end Coralign.Props
